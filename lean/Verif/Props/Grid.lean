import Verif.Props.Layouter
import Verif.Lemmas.GridPlan
/-!
# Where `generate_layout` puts the nodes (C85)
-/
set_option linter.unusedSimpArgs false
set_option linter.unusedVariables false

namespace Bpmn.Props
open Bpmn Spec Layouter Classify

/-- The rules of `OnGrid` leave no choice: any two drawings that follow them, with the same order, are equal. -/
theorem C85_rules_determine_places (d : Diagram) (h : Consistent d) {order : List String} (ho : FlowOrder d order) {row col row' col' : String → Int}
    (g : OnGrid d order row col) (g' : OnGrid d order row' col') : ∀ n ∈ d.getNodes, row n.1 = row' n.1 ∧ col n.1 = col' n.1 := by
  have hnd : order.Nodup := ho.all.nodup_iff.2 h.ids
  have lower : ∀ n ∈ d.getNodes, ∀ m ∈ d.getNodes, Feeds n m → order.idxOf n.1 < order.idxOf m.1 := by
    intro n hn m hm hf
    obtain ⟨pre, post, e, hpre⟩ := ho.sorted n hn m hm hf
    rw [e] at hnd ⊢
    have h1 : m.1 ∉ pre := fun h => (List.nodup_append.1 hnd).2.2 m.1 h m.1 (by simp) rfl
    rw [List.idxOf_append_of_mem hpre, List.idxOf_append_of_notMem h1]
    have := List.idxOf_lt_length_of_mem hpre
    omega
  have all : ∀ k, ∀ n ∈ d.getNodes, order.idxOf n.1 < k → row n.1 = row' n.1 ∧ col n.1 = col' n.1 := by
    intro k
    induction k with
    | zero => intro n _ h; omega
    | succ k ih =>
      intro m hm hk
      have prev : ∀ n ∈ d.getNodes, Feeds n m → row n.1 = row' n.1 ∧ col n.1 = col' n.1 := fun n hn hf =>
        ih n hn (by have := lower n hn m hm hf; omega)
      by_cases h0 : ins m = []
      · obtain ⟨a, b⟩ := g.start m hm h0
        obtain ⟨a', b'⟩ := g'.start m hm h0
        exact ⟨by rw [b, b'], by rw [a, a']⟩
      · by_cases hj : Joins m
        · obtain ⟨a, b⟩ := g.join m hm hj
          obtain ⟨a', b'⟩ := g'.join m hm hj
          rw [a, a', b, b']
          rw [List.map_congr_left (f := fun n : Node => col n.1) (g := fun n : Node => col' n.1) (fun n hn => (prev n (mem_before.1 hn).1 (mem_before.1 hn).2).2),
            List.map_congr_left (f := fun n : Node => row n.1) (g := fun n : Node => row' n.1) (fun n hn => (prev n (mem_before.1 hn).1 (mem_before.1 hn).2).1)]
          exact ⟨rfl, rfl⟩
        · obtain ⟨n, hn, hf⟩ := exists_feeds h hm h0
          obtain ⟨p1, p2⟩ := prev n hn hf
          by_cases hs : Splits n
          · obtain ⟨a, b, c⟩ := g.branch n hn m hm hf hs
            obtain ⟨a', b', c'⟩ := g'.branch n hn m hm hf hs
            refine ⟨?_, by rw [a, a', p2]⟩
            by_cases hsp : ∃ q ∈ d.getNodes, Feeds q n ∧ Splits q
            · obtain ⟨q, hq, hfq, hsq⟩ := hsp
              rw [c q hq hfq hsq, c' q hq hfq hsq,
                (ih q hq (by have := lower q hq n hn hfq; have := lower n hn m hm hf; omega)).1]
            · have hno : ∀ q ∈ d.getNodes, Feeds q n → ¬Splits q := fun q hq hfq hsq => hsp ⟨q, hq, hfq, hsq⟩
              rw [b hno, b' hno, p1]
          · obtain ⟨a, b⟩ := g.line n hn m hm hf hs hj
            obtain ⟨a', b'⟩ := g'.line n hn m hm hf hs hj
            rw [a, a', b, b', p1, p2]
            exact ⟨rfl, rfl⟩
  intro n hn
  exact all _ n hn (Nat.lt_succ_self _)

/-- What comes of a plan. -/
theorem plan_drawn {d : Diagram} {all fl sorted back} {bound : Nat} {row col : String → Int} (P : Plan d sorted row col)
    (hall : generateElementsClassification d = .ok (all, fl)) (hsort : ∀ fuel ≥ bound, topologicalSort fuel d all = .ok (sorted, back)) :
    (OneEach d row col → ∀ fuel ≥ max bound (sorted.length + 1), ∃ d', generateLayout fuel d = .ok d' ∧
        ∀ n ∈ d.getNodes, ∃ n', d'.getNodeById n.1 = some n' ∧ At n' (150 * col n.1 + 50) (100 * row n.1 + 50)) ∧
      (¬OneEach d row col → ∀ fuel ≥ max bound (sorted.length + 1), generateLayout fuel d = .error .typeError) := by
  have h := P.con
  have hall' := hall
  simp only [generateElementsClassification, elements_eq h.complete, bind, Except.bind, pure, Except.pure, Except.ok.injEq,
    Prod.mk.injEq] at hall'
  obtain ⟨rfl, -⟩ := hall'
  constructor
  · intro hone fuel hfuel
    rcases gridLayout_plan P (fuel := fuel) (by omega) with ⟨g, hgl, hcells, hnd, hkn, hevery⟩ | ⟨-, hno⟩
    · obtain ⟨d', ns, h1, h2, h3⟩ := layout_ok h (hsort fuel (by omega)) hgl hevery
      refine ⟨d', h1, fun n hn => ?_⟩
      obtain ⟨c, hc, hin⟩ := find_atCell h2 n.1 n (h.getNodeById hn)
      have hcm := List.mem_of_find?_eq_some hc
      have hid : c.nodeId = n.1 := by simpa using List.find?_some hc
      obtain ⟨e1, e2⟩ := hcells c hcm
      rw [hid] at e1 e2
      refine ⟨atCell n c, ?_, ?_⟩
      · rw [Diagram.getNodeById, ← hin]
        show d'.getNodes.find? _ = _
        rw [h3]
      · rw [← e1, ← e2]
        simp only [At, atCell]
        rw [Int.mul_comm, Int.mul_comm 100]
        exact ⟨rfl, rfl⟩
    · exact absurd hone hno
  · intro hone fuel hfuel
    rcases gridLayout_plan P (fuel := fuel) (by omega) with ⟨g, hgl, hcells, hnd, hkn, hevery⟩ | ⟨hgl, -⟩
    · exfalso
      apply hone
      intro n hn m hm hr hc
      obtain ⟨c, hcg, e⟩ := hevery n hn
      obtain ⟨c', hcg', e'⟩ := hevery m hm
      have := hcells c hcg
      have := hcells c' hcg'
      have hdis := gridLayout_distinct hgl
      have : c = c' := List.inj_on_of_nodup_map hdis hcg hcg' (by
        have a := hcells c hcg
        have b := hcells c' hcg'
        rw [e] at a; rw [e'] at b
        rw [a.1, a.2, b.1, b.2, hr, hc])
      rw [← e, ← e', this]
    · simp only [generateLayout, hall, bind, Except.bind, hsort fuel (by omega), hgl]

/-- **C85.** In a diagram without cycles, whose nodes are all of supported types and in which no split leads directly to a join, the nodes have places
in rows and columns according to the rules of `OnGrid`; and `generate_layout` either draws all nodes at these places (150 units per column, 100 per
row), or, exactly if two of these places coincide, raises a `TypeError`. -/
theorem C85_drawn_on_grid (d : Diagram) (h : Consistent d) (hs : ∀ n ∈ d.getNodes, Supported n) (ha : Acyclic d) (hap : SplitsApart d) :
    ∃ order row col bound, FlowOrder d order ∧ OnGrid d order row col ∧
      (OneEach d row col → ∀ fuel ≥ bound, ∃ d', generateLayout fuel d = .ok d' ∧
        ∀ n ∈ d.getNodes, ∃ n', d'.getNodeById n.1 = some n' ∧ At n' (150 * col n.1 + 50) (100 * row n.1 + 50)) ∧
      (¬OneEach d row col → ∀ fuel ≥ bound, generateLayout fuel d = .error .typeError) := by
  have hfs : FlowsSupported d := fun n hn _ => hs n hn
  obtain ⟨all, fl, hall, sorted, bound, hsort⟩ := C25_acyclic d h hfs ha
  have hall' := hall
  simp only [generateElementsClassification, elements_eq h.complete, bind, Except.bind, pure, Except.pure, Except.ok.injEq,
    Prod.mk.injEq] at hall'
  obtain ⟨rfl, -⟩ := hall'
  obtain ⟨hperm, hord⟩ := C24_topological_order d h hall (hsort _ (Nat.le_refl _))
  have topo : ∀ n ∈ d.getNodes, ∀ m ∈ d.getNodes, Feeds n m → Before (sorted.map (·.id)) n.1 m.1 := by
    rintro n hn m hm ⟨i, h1, h2⟩
    refine hord i n.1 m.1 (feeds_flow h hn hm h1 h2) (by simp) ?_
    exact List.mem_map.2 ⟨ncOf m, List.mem_map_of_mem (mem_byType.2 ⟨hm, hs m hm⟩), rfl⟩
  have ho : FlowOrder d (sorted.map (·.id)) := by
    refine ⟨?_, topo⟩
    refine (hperm.map (·.id)).trans ?_
    have hbt : (byType d).Perm d.getNodes := by
      refine (byType_perm d).trans ?_
      rw [List.filter_eq_self.2]
      intro n hn
      simpa using hs n hn
    have := hbt.map (·.1)
    simpa [List.map_map, Function.comp_def, ncOf] using this
  obtain ⟨row, col, hg⟩ := exists_loopGrid h hap (ho.all.nodup_iff.2 h.ids) fun n hn m hm hf _ => topo n hn m hm hf
  obtain ⟨p1, p2⟩ := plan_drawn (row := row) (col := col) ⟨h, hs, hap, hperm, fun n hn m hm hf _ => topo n hn m hm hf,
    fun r n m _ _ hn hm hf _ _ => topo n hn m hm hf, hg⟩ hall hsort
  exact ⟨sorted.map (·.id), row, col, max bound (sorted.length + 1), ho, (loopGrid_iff topo).1 hg, p1, p2⟩

/-- **C86.** In such a diagram, a split two of whose branches begin with a split again is never laid out: the first branches of the two would be
drawn at the same place, and `generate_layout` raises a `TypeError`. -/
theorem C86_two_nested_splits (d : Diagram) (h : Consistent d) (hs : ∀ n ∈ d.getNodes, Supported n) (ha : Acyclic d) (hap : SplitsApart d)
    {s a b : Node} (ms : s ∈ d.getNodes) (ma : a ∈ d.getNodes) (mb : b ∈ d.getNodes) (hab : a.1 ≠ b.1) (ss : Splits s) (fa : Feeds s a) (fb : Feeds s b)
    (sa : Splits a) (sb : Splits b) : ∃ bound, ∀ fuel ≥ bound, generateLayout fuel d = .error .typeError := by
  obtain ⟨order, row, col, bound, ho, hg, -, hno⟩ := C85_drawn_on_grid d h hs ha hap
  refine ⟨bound, hno ?_⟩
  intro hone
  obtain ⟨x, mx, fx, px⟩ := exists_branch h ho.all ma (fun m hm hf => hap a ma m hm hf sa) (k := 0) (by unfold Splits at sa; omega)
  obtain ⟨y, my, fy, py⟩ := exists_branch h ho.all mb (fun m hm hf => hap b mb m hm hf sb) (k := 0) (by unfold Splits at sb; omega)
  obtain ⟨c1, -, r1⟩ := hg.branch a ma x mx fx sa
  obtain ⟨c2, -, r2⟩ := hg.branch b mb y my fy sb
  obtain ⟨c3, -⟩ := hg.branch s ms a ma fa ss
  obtain ⟨c4, -⟩ := hg.branch s ms b mb fb ss
  have e := hone x mx y my
    (by rw [r1 s ms fa ss, r2 s ms fb ss, px, py, branchRow_first sa, branchRow_first sb]) (by rw [c1, c2, c3, c4])
  have e' := h.node_eq mx my e
  subst e'
  exact hab (congrArg (·.1) (feeds_unique h ma mb mx fx fy (hap a ma x mx fx sa)))

/-- **C86.** Nor is a split with exactly two branches (which is not itself a branch of a split) if one of the branches begins with a split and the
other begins with two nodes in a row. -/
theorem C86_nested_split_beside_steps (d : Diagram) (h : Consistent d) (hs : ∀ n ∈ d.getNodes, Supported n) (ha : Acyclic d) (hap : SplitsApart d)
    {s a b m : Node} (ms : s ∈ d.getNodes) (ma : a ∈ d.getNodes) (mb : b ∈ d.getNodes) (mm : m ∈ d.getNodes) (hab : a.1 ≠ b.1)
    (ss : (outs s).length = 2) (hp : ∀ p ∈ d.getNodes, Feeds p s → ¬Splits p) (fa : Feeds s a) (fb : Feeds s b) (sa : Splits a)
    (fm : Feeds b m) (sb : ¬Splits b) (jm : ¬Joins m) : ∃ bound, ∀ fuel ≥ bound, generateLayout fuel d = .error .typeError := by
  obtain ⟨order, row, col, bound, ho, hg, -, hno⟩ := C85_drawn_on_grid d h hs ha hap
  refine ⟨bound, hno ?_⟩
  intro hone
  have ss' : Splits s := by unfold Splits; omega
  obtain ⟨c3, -⟩ := hg.branch s ms a ma fa ss'
  obtain ⟨c4, r4, -⟩ := hg.branch s ms b mb fb ss'
  obtain ⟨c5, r5⟩ := hg.line b mb m mm fm sb jm
  have hlt := placeAmong_lt h ho ms mb (fun m hm hf => hap s ms m hm hf ss') fb
  -- the row of `b` is that of one of the branches of `a`
  have hrow : ∃ k < (outs a).length, branchRow (outs a).length k = branchRow (outs s).length (placeAmong order (behind d s) b.1) := by
    rw [ss] at hlt ⊢
    generalize placeAmong order (behind d s) b.1 = k at hlt
    match k, hlt with
    | 0, _ => exact ⟨0, by unfold Splits at sa; omega, branchRow_first sa⟩
    | 1, _ => exact branchRow_above sa
  obtain ⟨k, hk, e⟩ := hrow
  obtain ⟨x, mx, fx, px⟩ := exists_branch h ho.all ma (fun m hm hf => hap a ma m hm hf sa) hk
  obtain ⟨c1, -, r1⟩ := hg.branch a ma x mx fx sa
  have e2 := hone x mx m mm (by rw [r1 s ms fa ss', r5, r4 hp, px, e]) (by rw [c1, c3, c5, c4])
  have e' := h.node_eq mx mm e2
  subst e'
  exact hab (congrArg (·.1) (feeds_unique h ma mb mx fx fm jm))

/-! ## Concrete cases -/

/-- A diagram has no cycle if flows lead to nodes of higher rank. -/
theorem acyclic_of_feeds {d : Diagram} (h : Consistent d) (rank : Node → Nat) (hr : ∀ a ∈ d.getNodes, ∀ b ∈ d.getNodes, Feeds a b → rank a < rank b) :
    Acyclic d := by
  apply acyclic_of_rank rank
  rintro a ha b ⟨i, hi, f, hf, ht, hb⟩
  have hbm := (Spec.Consistent.mem_of_getNodeById hb).1
  refine hr a ha b hbm (feeds_of_flow h ha hbm hi ?_)
  obtain ⟨x, y, e⟩ := f
  simp only at ht
  simp [flowTarget, flowAttrs, hf, ht, need, bind, Except.bind, pure, Except.pure]

instance (n : Node) : Decidable (Splits n) := by unfold Splits; infer_instance

instance (n : Node) : Decidable (Joins n) := by unfold Joins; infer_instance

set_option maxRecDepth 8000 in
/-- The split and join of `splitOps` meet the hypotheses of C85. -/
example : Consistent (Op.run {} splitOps) ∧ (∀ n ∈ (Op.run {} splitOps).getNodes, Supported n) ∧ Acyclic (Op.run {} splitOps) ∧
    SplitsApart (Op.run {} splitOps) := by
  have h := consistent_of_allowed _ split_allowed
  refine ⟨h, by decide, acyclic_of_feeds h (fun n => ["s", "g", "t1", "t2", "j", "e"].idxOf n.1) (by decide), ?_⟩
  unfold SplitsApart
  decide

/-- A gateway both of whose branches begin with a gateway. -/
def nestedOps : List Op :=
  [.createNew "d" "D", .addProcess "p" false true "None" "PL" "P",
   .addStartEvent "P" "s" none false true (some "s") "u1" "u2",
   .addExclusiveGateway "P" "g" "Diverging" none none "g",
   .addExclusiveGateway "P" "g1" "Diverging" none none "g1", .addExclusiveGateway "P" "g2" "Diverging" none none "g2",
   .addTask "P" "t1" (some "t1") "u4", .addTask "P" "t2" (some "t2") "u5", .addTask "P" "t3" (some "t3") "u6", .addTask "P" "t4" (some "t4") "u7",
   .addSequenceFlow "P" "s" "g" "" "f1", .addSequenceFlow "P" "g" "g1" "" "f2", .addSequenceFlow "P" "g" "g2" "" "f3",
   .addSequenceFlow "P" "g1" "t1" "" "f4", .addSequenceFlow "P" "g1" "t2" "" "f5",
   .addSequenceFlow "P" "g2" "t3" "" "f6", .addSequenceFlow "P" "g2" "t4" "" "f7"]

theorem nested_allowed : AllowedHistory {} nestedOps := by
  simp [nestedOps, AllowedHistory, Allowed, step, declaredNode, declaredFlow, directionArg, directions, chosen]

set_option maxRecDepth 8000 in
/-- `nestedOps` cannot be laid out. -/
example : ∃ bound, ∀ fuel ≥ bound, generateLayout fuel (Op.run {} nestedOps) = .error .typeError := by
  have h := consistent_of_allowed _ nested_allowed
  let ns := (Op.run {} nestedOps).getNodes
  refine C86_two_nested_splits _ h (by decide) (acyclic_of_feeds h (fun n => ["s", "g", "g1", "g2", "t1", "t2", "t3", "t4"].idxOf n.1) (by decide)) ?_
    (s := ns[1]'(by decide)) (a := ns[2]'(by decide)) (b := ns[3]'(by decide)) (by decide) (by decide) (by decide) (by decide) (by decide) (by decide)
    (by decide) (by decide) (by decide)
  unfold SplitsApart
  decide

/-- A gateway with two branches: one begins with a gateway, the other with two tasks. -/
def besideOps : List Op :=
  [.createNew "d" "D", .addProcess "p" false true "None" "PL" "P",
   .addStartEvent "P" "s" none false true (some "s") "u1" "u2",
   .addExclusiveGateway "P" "g" "Diverging" none none "g",
   .addExclusiveGateway "P" "g1" "Diverging" none none "g1", .addTask "P" "b" (some "b") "u3",
   .addTask "P" "t1" (some "t1") "u4", .addTask "P" "t2" (some "t2") "u5", .addTask "P" "m" (some "m") "u6",
   .addSequenceFlow "P" "s" "g" "" "f1", .addSequenceFlow "P" "g" "g1" "" "f2", .addSequenceFlow "P" "g" "b" "" "f3",
   .addSequenceFlow "P" "g1" "t1" "" "f4", .addSequenceFlow "P" "g1" "t2" "" "f5", .addSequenceFlow "P" "b" "m" "" "f6"]

theorem beside_allowed : AllowedHistory {} besideOps := by
  simp [besideOps, AllowedHistory, Allowed, step, declaredNode, declaredFlow, directionArg, directions, chosen]

set_option maxRecDepth 8000 in
example : ∃ bound, ∀ fuel ≥ bound, generateLayout fuel (Op.run {} besideOps) = .error .typeError := by
  have h := consistent_of_allowed _ beside_allowed
  let ns := (Op.run {} besideOps).getNodes
  refine C86_nested_split_beside_steps _ h (by decide) (acyclic_of_feeds h (fun n => ["s", "g", "g1", "b", "t1", "t2", "m"].idxOf n.1) (by decide)) ?_
    (s := ns[1]'(by decide)) (a := ns[2]'(by decide)) (b := ns[3]'(by decide)) (m := ns[6]'(by decide)) (by decide) (by decide) (by decide) (by decide)
    (by decide) (by decide) (by decide) (by decide) (by decide) (by decide) (by decide) (by decide) (by decide)
  unfold SplitsApart
  decide

end Bpmn.Props

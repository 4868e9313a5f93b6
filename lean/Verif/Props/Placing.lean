import Verif.Lemmas.Placing
import Verif.Props.Width
import Verif.Props.Structured
/-! # C134: how wide a drawing is, and which joins are drawn right of what leads to them -/
set_option linter.unusedSimpArgs false
set_option linter.unusedVariables false

namespace Bpmn.Props
open Bpmn Spec Layouter Classify LayoutMetrics

theorem layout_columns {d d' : Diagram} (h : Consistent d) {fuel : Nat} (hl : generateLayout fuel d = .ok d') :
    ∃ (sorted : List NC) (back : List String) (col row : String → Int), topologicalSort fuel d ((byType d).map ncOf) = .ok (sorted, back) ∧
      (∀ n ∈ d.getNodes, Supported n ∧ DrawnAt d' n (150 * col n.1 + 50) (100 * row n.1 + 50) ∧ 1 ≤ col n.1 ∧
        (col n.1 = 1 ∨ ∃ m ∈ d.getNodes, Feeds m n ∧ col n.1 = col m.1 + 1) ∧
        (Joins n → (∀ m ∈ d.getNodes, Feeds m n → ¬Splits m) → ∀ m ∈ d.getNodes, ∀ i ∈ outs m, i ∈ ins n → i ∉ back → col m.1 + 1 ≤ col n.1)) := by
  obtain ⟨all, sorted, back, grid, ns, ws, h1, h2, h3, h4, h5, rfl⟩ := layout_steps hl
  rw [elements_eq h.complete] at h1
  cases h1
  have g := good_of_consistent h
  have v := sortLoop_inv g fuel (inv_start g) h2
  have nd : (sorted.map (·.id)).Nodup := by
    have := v.perm.nodup_iff.2 g.ids
    simpa using this
  obtain ⟨cols, perm⟩ := grid_columns nd h3
  have gnd : (grid.map (·.nodeId)).Nodup := perm.nodup_iff.2 nd
  have find : ∀ c ∈ grid, grid.find? (fun x => x.nodeId == c.nodeId) = some c := by
    intro c hc
    cases hf : grid.find? (fun x => x.nodeId == c.nodeId) with
    | none => exact absurd (List.find?_eq_none.1 hf c hc) (by simp)
    | some c' =>
      have e : c'.nodeId = c.nodeId := by simpa using List.find?_some hf
      rw [List.inj_on_of_nodup_map gnd (List.mem_of_find?_eq_some hf) hc e]
  have pos : ∀ k, ∀ pre c post, pre.length = k → grid = pre ++ c :: post → 1 ≤ c.col := by
    intro k
    induction k using Nat.strong_induction_on with
    | _ k ih =>
      intro pre c post e eg
      obtain ⟨x, -, -, -, h6, -⟩ := cols pre c post eg
      rcases h6 with h6 | ⟨pc, hpc, -, -, -, h6⟩
      · omega
      · obtain ⟨a, b, e2⟩ := List.append_of_mem hpc
        have := ih a.length (by rw [← e, e2]; simp) a pc (b ++ c :: post) rfl (by rw [eg, e2]; simp)
        omega
  refine ⟨sorted, back, fun i => ((grid.find? fun c => c.nodeId == i).map (·.col)).getD 0, fun i => ((grid.find? fun c => c.nodeId == i).map (·.row)).getD 0, h2, ?_⟩
  intro n hn
  obtain ⟨c, hc, hin⟩ := find_atCell h4 n.1 n (h.getNodeById hn)
  obtain ⟨pre, post, e⟩ := List.append_of_mem (List.mem_of_find?_eq_some hc)
  obtain ⟨x, hx, e1, hT, k1, k2⟩ := cols pre c post e
  obtain ⟨n1, hn1, rfl⟩ := List.mem_map.1 (v.sub x hx)
  have hid : c.nodeId = n.1 := by simpa using List.find?_some hc
  have : n1 = n := h.node_eq (mem_byType.1 hn1).1 hn (e1.trans hid)
  subst this
  have source : ∀ (i s : String), i ∈ ins n1 → flowSource d i = .ok s → ∃ m ∈ d.getNodes, m.1 = s ∧ i ∈ outs m := by
    intro i s hi hs
    obtain ⟨m, hm, hf, ho⟩ := h.inFlow _ hn i hi
    rw [flowFromTo_source hf] at hs
    cases hs
    exact ⟨m, hm, rfl, ho⟩
  refine ⟨(mem_byType.1 hn1).2, ⟨atCell n1 c, hin, ?_⟩, ?_, ?_, ?_⟩
  · simp only [hc, Option.map_some, Option.getD_some, At, atCell]
    rw [Int.mul_comm, Int.mul_comm 100]
    exact ⟨rfl, rfl⟩
  · simp only [hc, Option.map_some, Option.getD_some]
    exact pos _ pre c post rfl e
  · simp only [hc, Option.map_some, Option.getD_some]
    rcases k1 with k1 | ⟨pc, hpc, i, hi, hs, k1⟩
    · exact .inl k1
    · right
      obtain ⟨m, hm, em, ho⟩ := source i _ hi hs
      refine ⟨m, hm, ⟨i, ho, hi⟩, ?_⟩
      rw [em, find pc (by rw [e]; simp [hpc])]
      exact k1
  · intro hj hns m hm i ho hi hb
    simp only [hc, Option.map_some, Option.getD_some]
    have hpl : m.1 ∈ pre.map (·.nodeId) := by
      rcases hT with ⟨y, hy, hsp, j, hj1, hj2⟩ | hT
      · exfalso
        obtain ⟨m', hm', rfl⟩ := List.mem_map.1 (v.sub y hy)
        have hm'd := (mem_byType.1 hm').1
        obtain ⟨t, ht, hf, hin'⟩ := h.outFlow m' hm'd j hj1
        rw [flowFromTo_target hf] at hj2
        have : t = n1 := h.node_eq ht hn (Except.ok.inj hj2)
        subst this
        refine hns m' hm'd ⟨j, hj1, hin'⟩ ?_
        rw [ncOf, split_mem_labels] at hsp
        exact hsp
      · obtain ⟨a, b, es⟩ := List.append_of_mem hx
        obtain ⟨s, hs1, hs2⟩ := v.order a _ b es i hi hb
        have hf := feeds_flow h hm hn ho hi
        rw [flowFromTo_source hf] at hs1
        cases hs1
        exact hT m.1 ⟨a.map (·.id), b.map (·.id), by rw [es]; simp, hs2⟩
    obtain ⟨pc, hpc, ep⟩ := List.mem_map.1 hpl
    have hf := feeds_flow h hm hn ho hi
    have := k2 (by rw [ncOf, join_mem_labels]; exact hj) pc hpc i hi (by rw [flowFromTo_source hf, ep])
    rw [← ep, find pc (by rw [e]; simp [hpc])]
    exact this

/-- **C134.** Whatever is drawn: a node in column `k` is the last of `k` different nodes, each followed by the next one, which are drawn in the columns 1, 2, ..., `k`. -/
theorem C134_chain (d d' : Diagram) (h : Consistent d) {fuel : Nat} (hl : generateLayout fuel d = .ok d') (n : Node) (hn : n ∈ d.getNodes) :
    ∃ p, SimplePath d p ∧ p.getLast? = some n ∧ ∀ i (hi : i < p.length), ∃ y, DrawnAt d' p[i] (150 * (i + 1) + 50) y := by
  obtain ⟨sorted, back, col, row, -, H⟩ := layout_columns h hl
  have path : ∀ k : Nat, ∀ n ∈ d.getNodes, col n.1 = k + 1 → ∃ p, SimplePath d p ∧ p.getLast? = some n ∧ p.length = k + 1 ∧ ∀ i (hi : i < p.length), col p[i].1 = i + 1 := by
    intro k
    induction k with
    | zero =>
      intro n hn e
      refine ⟨[n], ⟨by simp, by simpa using hn, trivial, by simp⟩, rfl, rfl, ?_⟩
      intro i hi
      obtain rfl : i = 0 := by simp at hi; omega
      simpa using e
    | succ k ih =>
      intro n hn e
      obtain ⟨-, -, -, h1, -⟩ := H n hn
      rcases h1 with h1 | ⟨m, hm, hf, em⟩
      · omega
      · obtain ⟨p, hp, hlast, hlen, hc⟩ := ih m hm (by omega)
        refine ⟨p ++ [n], ⟨by simp, ?_, follows_snoc hp.follows hlast (feeds_next h hm hn hf), ?_⟩, by simp, by simp [hlen], ?_⟩
        · intro x hx
          rcases List.mem_append.1 hx with hx | hx
          · exact hp.nodes x hx
          · rw [List.mem_singleton.1 hx]; exact hn
        · refine List.nodup_append.2 ⟨hp.nodup, by simp, ?_⟩
          intro a ha b hb e'
          obtain rfl := List.mem_singleton.1 hb
          obtain ⟨i, hi, rfl⟩ := List.getElem_of_mem ha
          have := hc i hi
          rw [e'] at this
          omega
        · intro i hi
          by_cases hi' : i < p.length
          · rw [List.getElem_append_left hi']
            exact hc i hi'
          · obtain rfl : i = k + 1 := by simp at hi; omega
            rw [List.getElem_append_right (by omega)]
            simp only [List.getElem_singleton]
            omega
  obtain ⟨-, -, h1, -⟩ := H n hn
  obtain ⟨p, hp, hlast, -, hc⟩ := path (col n.1 - 1).toNat n hn (by omega)
  refine ⟨p, hp, hlast, fun i hi => ?_⟩
  obtain ⟨-, h2, -⟩ := H _ (hp.nodes _ (List.getElem_mem hi))
  rw [hc i hi] at h2
  exact ⟨_, h2⟩

/-- **C134 (width).** No drawing has more columns than nodes, and none begins left of the first column. -/
theorem C134_width (d d' : Diagram) (h : Consistent d) {fuel : Nat} (hl : generateLayout fuel d = .ok d') (n : Node) (hn : n ∈ d.getNodes) :
    ∃ x y, DrawnAt d' n x y ∧ 200 ≤ x ∧ x ≤ 150 * d.getNodes.length + 50 := by
  obtain ⟨p, hp, hlast, hd⟩ := C134_chain d d' h hl n hn
  have hne : 0 < p.length := List.length_pos_of_ne_nil hp.nonempty
  obtain ⟨y, hy⟩ := hd (p.length - 1) (by omega)
  have e : p[p.length - 1] = n := by
    rw [List.getLast?_eq_getElem?, List.getElem?_eq_getElem (by omega)] at hlast
    exact Option.some.inj hlast
  rw [e] at hy
  have : p.length ≤ d.getNodes.length := (List.subperm_of_subset hp.nodup hp.nodes).length_le
  exact ⟨_, y, hy, by omega, by omega⟩

/-- **C134 (joins).** In a diagram without cycles, a join that does not directly follow a split is drawn right of every node that leads to it. -/
theorem C134_joins (d d' : Diagram) (h : Consistent d) (ha : Acyclic d) {fuel : Nat} (hl : generateLayout fuel d = .ok d') (m : Node) (hm : m ∈ d.getNodes) (hj : Joins m)
    (hs : ∀ n ∈ d.getNodes, Feeds n m → ¬Splits n) (n : Node) (hn : n ∈ d.getNodes) (hf : Feeds n m) :
    ∃ x y x' y', DrawnAt d' n x y ∧ DrawnAt d' m x' y' ∧ x + 150 ≤ x' := by
  obtain ⟨sorted, back, col, row, hsort, H⟩ := layout_columns h hl
  have hb : back = [] := by
    obtain ⟨all, fl, hall, sorted', bound, hs'⟩ := C25_acyclic d h (fun n hn _ => (H n hn).1) ha
    simp only [generateElementsClassification, elements_eq h.complete, bind, Except.bind, pure, Except.pure, Except.ok.injEq, Prod.mk.injEq] at hall
    obtain ⟨rfl, -⟩ := hall
    have a := hs' (max fuel bound) (Nat.le_max_right _ _)
    have b : topologicalSort (max fuel bound) d ((byType d).map ncOf) = .ok (sorted, back) := sortLoop_mono (Nat.le_max_left _ _) hsort
    rw [a] at b
    cases b
    rfl
  obtain ⟨-, h1, -, -, -⟩ := H n hn
  obtain ⟨-, h2, -, -, h3⟩ := H m hm
  obtain ⟨i, i1, i2⟩ := hf
  have := h3 hj hs n hn i i1 i2 (by rw [hb]; simp)
  exact ⟨_, _, _, _, h1, h2, by omega⟩

/-! ## Concrete cases: optional steps -/

/-- Two steps, `a` and `b`, which can be skipped. -/
def optionalOps : List Op :=
  [.createNew "d" "D", .addProcess "p" false true "None" "PL" "P",
   .addStartEvent "P" "s" none false true (some "s") "u1" "u2",
   .addExclusiveGateway "P" "g" "Diverging" none none "g",
   .addTask "P" "a" (some "a") "u4", .addTask "P" "b" (some "b") "u5",
   .addExclusiveGateway "P" "j" "Converging" none none "j", .addEndEvent "P" "e" none (some "e") "u7" "u8",
   .addSequenceFlow "P" "s" "g" "" "f1", .addSequenceFlow "P" "g" "a" "" "f2", .addSequenceFlow "P" "g" "j" "" "f3",
   .addSequenceFlow "P" "a" "b" "" "f4", .addSequenceFlow "P" "b" "j" "" "f5",
   .addSequenceFlow "P" "j" "e" "" "f7"]

/-- Two optional steps, `a` and `b`, one after the other. -/
def optionalsOps : List Op :=
  [.createNew "d" "D", .addProcess "p" false true "None" "PL" "P",
   .addStartEvent "P" "s" none false true (some "s") "u1" "u2",
   .addExclusiveGateway "P" "g" "Diverging" none none "g",
   .addTask "P" "a" (some "a") "u4",
   .addExclusiveGateway "P" "j" "Converging" none none "j",
   .addExclusiveGateway "P" "h" "Diverging" none none "h",
   .addTask "P" "b" (some "b") "u5",
   .addExclusiveGateway "P" "k" "Converging" none none "k", .addEndEvent "P" "e" none (some "e") "u7" "u8",
   .addSequenceFlow "P" "s" "g" "" "f1", .addSequenceFlow "P" "g" "a" "" "f2", .addSequenceFlow "P" "g" "j" "" "f3",
   .addSequenceFlow "P" "a" "j" "" "f4", .addSequenceFlow "P" "j" "h" "" "f5", .addSequenceFlow "P" "h" "b" "" "f6", .addSequenceFlow "P" "h" "k" "" "f8",
   .addSequenceFlow "P" "b" "k" "" "f9",
   .addSequenceFlow "P" "k" "e" "" "f7"]

theorem optional_allowed : AllowedHistory {} optionalOps := by
  simp [optionalOps, AllowedHistory, Allowed, step, declaredNode, declaredFlow, directionArg, directions, chosen]

theorem optionals_allowed : AllowedHistory {} optionalsOps := by
  simp [optionalsOps, AllowedHistory, Allowed, step, declaredNode, declaredFlow, directionArg, directions, chosen]

/-- The cells of the nodes with the given ids, if there are cells of all nodes. -/
def cellsOf (d : Diagram) (grid : List Cell) (is : List String) : List (Option (Int × Int)) :=
  if ∀ n ∈ d.getNodes, ∃ c ∈ grid, c.nodeId = n.1 then is.map fun i => (grid.find? fun c => c.nodeId == i).map fun c => (c.col, c.row) else []

theorem drawn_of_cells {d : Diagram} (h : Consistent d) {fuel : Nat} {is : List String} {cs : List (Int × Int)} (hne : is ≠ []) (hlen : is.length = cs.length)
    (hg : (match (topologicalSort fuel d ((byType d).map ncOf)).bind fun r => gridLayout fuel d r.1 with
      | .ok grid => cellsOf d grid is == cs.map some | .error _ => false) = true) :
    ∃ d', generateLayout fuel d = .ok d' ∧ ∀ (k : Nat) (i : String) (c : Int × Int), is[k]? = some i → cs[k]? = some c → ∀ n ∈ d.getNodes, n.1 = i →
      DrawnAt d' n (c.1 * 150 + 50) (c.2 * 100 + 50) := by
  cases hr : (topologicalSort fuel d ((byType d).map ncOf)).bind fun r => gridLayout fuel d r.1 with
  | error e => rw [hr] at hg; simp at hg
  | ok grid =>
    rw [hr] at hg
    simp only [beq_iff_eq] at hg
    have all : ∀ n ∈ d.getNodes, ∃ c ∈ grid, c.nodeId = n.1 := by
      by_contra hc
      rw [cellsOf, if_neg hc] at hg
      have := congrArg List.length hg
      simp only [List.length_nil, List.length_map] at this
      exact hne (List.length_eq_zero_iff.1 (by omega))
    rw [cellsOf, if_pos all] at hg
    obtain ⟨d', h1, h2⟩ := layout_at h hr all
    refine ⟨d', h1, fun k i c hi hc n hn e => ?_⟩
    have e1 := congrArg (fun l => l[k]?) hg
    simp only [List.getElem?_map, hi, hc, Option.map_some, Option.some.injEq] at e1
    obtain ⟨x, hx, ex⟩ := Option.map_eq_some_iff.1 e1
    subst e
    have := h2 n hn x hx
    rw [← ex]
    exact this

set_option maxRecDepth 8000 in
/-- **C134 (limit).** A join that directly follows a split may be drawn left of a node which leads to it: in a process without cycles, a flow is drawn backwards. -/
theorem C134_backwards : ∃ d d' n m x y x' y', Consistent d ∧ Acyclic d ∧ generateLayout 30 d = .ok d' ∧ n ∈ d.getNodes ∧ m ∈ d.getNodes ∧ Feeds n m ∧
    DrawnAt d' n x y ∧ DrawnAt d' m x' y' ∧ x' < x := by
  have h := consistent_of_allowed _ optional_allowed
  obtain ⟨d', h1, h2⟩ := drawn_of_cells h (fuel := 30) (is := ["b", "j"]) (cs := [(4, 4), (3, 1)]) (by simp) rfl (by decide +kernel)
  refine ⟨_, d', Props.nodeOf (Op.run {} optionalOps) "b", Props.nodeOf (Op.run {} optionalOps) "j", _, _, _, _, h,
    acyclic_of_feeds h (fun n => ["s", "g", "a", "b", "j", "e"].idxOf n.1) (by decide +kernel), h1, by decide +kernel, by decide +kernel, by decide +kernel,
    h2 0 "b" (4, 4) rfl rfl _ (by decide +kernel) (by decide +kernel), h2 1 "j" (3, 1) rfl rfl _ (by decide +kernel) (by decide +kernel), by norm_num⟩

set_option maxRecDepth 8000 in
/-- **C134 (limit).** The joins of two optional steps, one after the other, are drawn in different ways: the first one in the middle between the rows of the two nodes that lead
to it, the second one above both of them. -/
theorem C134_rows : ∃ d d' g a j h b k, Consistent d ∧ Acyclic d ∧ generateLayout 30 d = .ok d' ∧ before d j = [g, a] ∧ before d k = [h, b] ∧
    (outs g).length = 2 ∧ Feeds g a ∧ (outs h).length = 2 ∧ Feeds h b ∧
    DrawnAt d' g 350 250 ∧ DrawnAt d' a 500 450 ∧ DrawnAt d' j 650 350 ∧ DrawnAt d' h 800 350 ∧ DrawnAt d' b 950 550 ∧ DrawnAt d' k 1100 150 := by
  have h := consistent_of_allowed _ optionals_allowed
  obtain ⟨d', h1, h2⟩ := drawn_of_cells h (fuel := 30) (is := ["g", "a", "j", "h", "b", "k"]) (cs := [(2, 2), (3, 4), (4, 3), (5, 3), (6, 5), (7, 1)]) (by simp) rfl (by decide +kernel)
  let n := Props.nodeOf (Op.run {} optionalsOps)
  refine ⟨_, d', n "g", n "a", n "j", n "h", n "b", n "k", h,
    acyclic_of_feeds h (fun n => ["s", "g", "a", "j", "h", "b", "k", "e"].idxOf n.1) (by decide +kernel), h1, by decide +kernel, by decide +kernel, by decide +kernel, by decide +kernel,
    by decide +kernel, by decide +kernel,
    h2 0 "g" _ rfl rfl _ (by decide +kernel) (by decide +kernel), h2 1 "a" _ rfl rfl _ (by decide +kernel) (by decide +kernel),
    h2 2 "j" _ rfl rfl _ (by decide +kernel) (by decide +kernel), h2 3 "h" _ rfl rfl _ (by decide +kernel) (by decide +kernel),
    h2 4 "b" _ rfl rfl _ (by decide +kernel) (by decide +kernel), h2 5 "k" _ rfl rfl _ (by decide +kernel) (by decide +kernel)⟩

set_option maxRecDepth 8000 in
/-- `unevenOps` of C118 is drawn, and its join `j` does not directly follow a split. -/
example : Consistent (Op.run {} unevenOps) ∧ Acyclic (Op.run {} unevenOps) ∧ (∃ d', generateLayout 30 (Op.run {} unevenOps) = .ok d') ∧
    ∃ m ∈ (Op.run {} unevenOps).getNodes, Joins m ∧ (∀ n ∈ (Op.run {} unevenOps).getNodes, Feeds n m → ¬Splits n) ∧ ∃ n ∈ (Op.run {} unevenOps).getNodes, Feeds n m := by
  have h := consistent_of_allowed _ uneven_allowed
  obtain ⟨d', h1, -⟩ := drawn_of_cells h (fuel := 30) (is := ["j"]) (cs := [(5, 2)]) (by simp) rfl (by decide +kernel)
  refine ⟨h, acyclic_of_feeds h (fun n => ["s", "g", "a", "b", "c", "j", "e"].idxOf n.1) (by decide), ⟨d', h1⟩, Props.nodeOf (Op.run {} unevenOps) "j", by decide +kernel, ?_, ?_, ?_⟩
  · unfold Joins; decide +kernel
  · unfold Splits; decide +kernel
  · exact ⟨Props.nodeOf (Op.run {} unevenOps) "b", by decide +kernel, by decide +kernel⟩

end Bpmn.Props

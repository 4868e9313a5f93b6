import Verif.Props.LoopJoins
/-!
# Where `generate_layout` puts the nodes of a diagram with loops (C116)
-/
set_option linter.unusedSimpArgs false
set_option linter.unusedVariables false

namespace Bpmn.Props
open Bpmn Spec Layouter Classify

theorem before_of_all {l : List String} {a b : String} (hb : b ∈ l) (h : ∀ pre post, l = pre ++ b :: post → a ∈ pre) : Before l a b := by
  obtain ⟨pre, post, e⟩ := List.append_of_mem hb
  exact ⟨pre, post, e, h pre post e⟩

theorem map_split {l : List NC} {pre post : List String} {i : String} (h : l.map (·.id) = pre ++ i :: post) :
    ∃ p c q, l = p ++ c :: q ∧ p.map (·.id) = pre ∧ c.id = i := by
  obtain ⟨p, r, e, e1, e2⟩ := List.map_eq_append_iff.1 h
  obtain ⟨c, q, e3, e4, e5⟩ := List.map_eq_cons_iff.1 e2
  exact ⟨p, c, q, by rw [e, e3], e1, e4⟩

/-- The rules of `LoopGrid` leave no choice. -/
theorem C116_rules_determine_places (d : Diagram) (h : Consistent d) (hap : SplitsApart d) {order : List String} (ho : LoopOrder d order)
    {row col row' col' : String → Int} (g : LoopGrid d order row col) (g' : LoopGrid d order row' col') :
    ∀ n ∈ d.getNodes, row n.1 = row' n.1 ∧ col n.1 = col' n.1 := by
  have hnd : order.Nodup := ho.all.nodup_iff.2 h.ids
  have lower : ∀ n ∈ d.getNodes, ∀ m ∈ d.getNodes, Feeds n m → ¬Joins m → order.idxOf n.1 < order.idxOf m.1 :=
    fun n hn m hm hf hj => before_lower hnd (ho.sorted n hn m hm hf fun hh => hj hh.2)
  have all : ∀ k, ∀ n ∈ d.getNodes, order.idxOf n.1 < k → row n.1 = row' n.1 ∧ col n.1 = col' n.1 := by
    intro k
    induction k with
    | zero => intro n _ h; omega
    | succ k ih =>
      intro m hm hk
      by_cases h0 : ins m = []
      · obtain ⟨a, b⟩ := g.start m hm h0
        obtain ⟨a', b'⟩ := g'.start m hm h0
        exact ⟨by rw [b, b'], by rw [a, a']⟩
      · by_cases hj : Joins m
        · obtain ⟨a, b⟩ := g.join m hm hj
          obtain ⟨a', b'⟩ := g'.join m hm hj
          have prev : ∀ n ∈ earlierBefore d order m, row n.1 = row' n.1 ∧ col n.1 = col' n.1 := fun n hn =>
            ih n (mem_earlierBefore.1 hn).1 (by have := before_lower hnd (mem_earlierBefore.1 hn).2.2; omega)
          rw [a, a', b, b']
          rw [List.map_congr_left (f := fun n : Node => col n.1) (g := fun n : Node => col' n.1) (fun n hn => (prev n hn).2),
            List.map_congr_left (f := fun n : Node => row n.1) (g := fun n : Node => row' n.1) (fun n hn => (prev n hn).1)]
          exact ⟨rfl, rfl⟩
        · obtain ⟨n, hn, hf⟩ := exists_feeds h hm h0
          obtain ⟨p1, p2⟩ := ih n hn (by have := lower n hn m hm hf hj; omega)
          by_cases hs : Splits n
          · obtain ⟨a, b, c⟩ := g.branch n hn m hm hf hs
            obtain ⟨a', b', c'⟩ := g'.branch n hn m hm hf hs
            refine ⟨?_, by rw [a, a', p2]⟩
            by_cases hsp : ∃ q ∈ d.getNodes, Feeds q n ∧ Splits q
            · obtain ⟨q, hq, hfq, hsq⟩ := hsp
              rw [c q hq hfq hsq, c' q hq hfq hsq,
                (ih q hq (by have := lower q hq n hn hfq (hap q hq n hn hfq hsq); have := lower n hn m hm hf hj; omega)).1]
            · have hno : ∀ q ∈ d.getNodes, Feeds q n → ¬Splits q := fun q hq hfq hsq => hsp ⟨q, hq, hfq, hsq⟩
              rw [b hno, b' hno, p1]
          · obtain ⟨a, b⟩ := g.line n hn m hm hf hs hj
            obtain ⟨a', b'⟩ := g'.line n hn m hm hf hs hj
            rw [a, a', b, b', p1, p2]
            exact ⟨rfl, rfl⟩
  intro n hn
  exact all _ n hn (Nat.lt_succ_self _)

/-- **C116.** In a diagram with or without loops, whose nodes are all of supported types and can be reached from nodes without incoming flows, in which no split
leads directly to a join and no join on or behind a loop is a split, the nodes have places in rows and columns according to the rules of `LoopGrid`; and
`generate_layout` either draws all nodes at these places, or, exactly if two of these places coincide, raises a `TypeError`. -/
theorem C116_drawn (d : Diagram) (h : Consistent d) (hs : ∀ n ∈ d.getNodes, Supported n) (hr : ReachableFromStart d) (hap : SplitsApart d)
    (once : ∀ n ∈ d.getNodes, AfterLoop d n → Joins n → ¬Splits n) :
    ∃ order row col bound, LoopOrder d order ∧ LoopGrid d order row col ∧
      (OneEach d row col → ∀ fuel ≥ bound, ∃ d', generateLayout fuel d = .ok d' ∧
        ∀ n ∈ d.getNodes, ∃ n', d'.getNodeById n.1 = some n' ∧ At n' (150 * col n.1 + 50) (100 * row n.1 + 50)) ∧
      (¬OneEach d row col → ∀ fuel ≥ bound, generateLayout fuel d = .error .typeError) := by
  have hfs : FlowsSupported d := fun n hn _ => hs n hn
  obtain ⟨all, fl, hall, sorted, back, bound, hsort⟩ := C26_terminates d h hfs hr
  have hall' := hall
  simp only [generateElementsClassification, elements_eq h.complete, bind, Except.bind, pure, Except.pure, Except.ok.injEq,
    Prod.mk.injEq] at hall'
  obtain ⟨rfl, -⟩ := hall'
  have hso := hsort _ (Nat.le_refl _)
  obtain ⟨hperm, hord⟩ := C24_topological_order d h hall hso
  have g := good_of_consistent h
  have hmem : ∀ n ∈ d.getNodes, n ∈ byType d := fun n hn => mem_byType.2 ⟨hn, hs n hn⟩
  have hnc : ∀ n ∈ d.getNodes, ncOf n ∈ (byType d).map ncOf := fun n hn => List.mem_map_of_mem (hmem n hn)
  have hA := lateSet_ncOf h
  obtain ⟨held, closed, founded⟩ := lateSet_facts h hmem
  have j1 := sortLoop_joinsFirst g held bound (inv_start g) (by simp) hso
  have j2 := sortLoop_othersFirst g closed held founded bound (inv_start g) (by simp) hso
  have j3 := sortLoop_othersOrdered g closed held founded bound (inv_start g) (by simp) hso
  have v := sortLoop_inv g bound (inv_start g) hso
  simp only at j1 j2 j3 v
  have hin : ∀ n ∈ d.getNodes, n.1 ∈ sorted.map (·.id) := fun n hn => List.mem_map_of_mem (f := NC.id) (hperm.mem_iff.2 (hnc n hn))
  -- what stands at the place of an id
  have at' : ∀ n ∈ d.getNodes, ∀ pre post, sorted.map (·.id) = pre ++ n.1 :: post → ∃ p q, sorted = p ++ ncOf n :: q ∧ p.map (·.id) = pre := by
    intro n hn pre post e
    obtain ⟨p, c, q, e1, e2, e3⟩ := map_split e
    have : c = ncOf n := g.id_inj (hperm.mem_iff.1 (by rw [e1]; simp)) (hnc n hn) e3
    subst this
    exact ⟨p, q, e1, e2⟩
  have plain : ∀ n ∈ d.getNodes, ∀ m ∈ d.getNodes, Feeds n m → ¬Joins m → Before (sorted.map (·.id)) n.1 m.1 := by
    rintro n hn m hm ⟨i, h1, h2⟩ hj
    refine hord i n.1 m.1 (feeds_flow h hn hm h1 h2) ?_ (List.mem_map_of_mem (f := NC.id) (hnc m hm))
    intro hb
    obtain ⟨c, hc, hcj, hi⟩ := v.backJoin i hb
    rw [g.in_unique hc (hnc m hm) hi h2] at hcj
    exact hj ((join_mem_labels m).1 hcj)
  have ho : LoopOrder d (sorted.map (·.id)) := by
    refine ⟨?_, ?_, ?_, ?_⟩
    · refine (hperm.map (·.id)).trans ?_
      have hbt : (byType d).Perm d.getNodes := by
        refine (byType_perm d).trans ?_
        rw [List.filter_eq_self.2]
        intro n hn
        simpa using hs n hn
      have := hbt.map (·.1)
      simpa [List.map_map, Function.comp_def, ncOf] using this
    · intro n hn m hm hf hno
      by_cases hj : Joins m
      · obtain ⟨i, h1, h2⟩ := hf
        refine before_of_all (hin m hm) fun pre post e => ?_
        obtain ⟨p, q, e1, rfl⟩ := at' m hm pre post e
        obtain ⟨s, hs1, hs2⟩ := j3 (ncOf m) (hnc m hm) (fun hh => hno ⟨(hA m hm).1 hh, hj⟩) i h2 p q e1
        rw [flowFromTo_source (feeds_flow h hn hm h1 h2)] at hs1
        rw [Except.ok.inj hs1]
        exact hs2
      · exact plain n hn m hm hf hj
    · intro n hn m hm hl hl'
      refine before_of_all (hin m hm) fun pre post e => ?_
      obtain ⟨p, q, e1, rfl⟩ := at' m hm pre post e
      exact List.mem_map_of_mem (f := NC.id) (j2 (ncOf n) (hnc n hn) (fun hh => hl ((hA n hn).1 hh)) (ncOf m) (hnc m hm) ((hA m hm).2 hl') p q e1)
    · intro n hn m hm hl hl' hj hj'
      refine before_of_all (hin m hm) fun pre post e => ?_
      obtain ⟨p, q, e1, rfl⟩ := at' m hm pre post e
      exact List.mem_map_of_mem (f := NC.id) (j1 (ncOf n) (hnc n hn) ((hA n hn).2 hl) ((join_mem_labels n).2 hj) (ncOf m) (hnc m hm) ((hA m hm).2 hl')
        (fun hh => hj' ((join_mem_labels m).1 hh)) p q e1)
  have hnd : (sorted.map (·.id)).Nodup := ho.all.nodup_iff.2 h.ids
  obtain ⟨row, col, hg⟩ := exists_loopGrid h hap hnd plain
  have slow : ∀ r n m, Relation.ReflTransGen (SplitStep d) r n → r ∈ d.getNodes → n ∈ d.getNodes → m ∈ d.getNodes → Feeds n m → Joins m →
      Before (sorted.map (·.id)) r.1 m.1 → Before (sorted.map (·.id)) n.1 m.1 := by
    intro r n m hrn hr hn hm hf hj hb
    by_cases hl : AfterLoop d n
    · have hlm : AfterLoop d m := hl.step ⟨hn, hm, hf⟩
      -- the splits that lead to the node are behind the loop as well
      have back : ∀ n, Relation.ReflTransGen (SplitStep d) r n → AfterLoop d n → r = n ∨ AfterLoop d r ∧ Splits r := by
        intro n hrn
        induction hrn with
        | refl => intro _; exact .inl rfl
        | @tail b c hb' hs' ih =>
          intro hlc
          obtain ⟨hb1, hc1, hf1, hs1⟩ := hs'
          obtain ⟨p, ⟨hp, -, hfp⟩, hlp⟩ := hlc.pred
          have := feeds_unique h hp hb1 hc1 hfp hf1 (hap b hb1 c hc1 hf1 hs1)
          subst this
          rcases ih hlp with rfl | hh
          · exact .inr ⟨hlp, hs1⟩
          · exact .inr hh
      rcases back n hrn hl with rfl | ⟨hlr, hsr⟩
      · exact hb
      · exfalso
        have := ho.late m hm r hr hlm hlr hj (fun hjr => once r hr hlr hjr hsr)
        have a := before_lower hnd hb
        have b := before_lower hnd this
        omega
    · by_cases hlm : AfterLoop d m
      · exact ho.early n hn m hm hl hlm
      · exact ho.sorted n hn m hm hf fun hh => hlm hh.1
  obtain ⟨p1, p2⟩ := plan_drawn (row := row) (col := col) ⟨h, hs, hap, hperm, plain, slow, hg⟩ hall hsort
  exact ⟨sorted.map (·.id), row, col, max bound (sorted.length + 1), ho, hg, p1, p2⟩

/-! ### One loop -/

theorem next_feeds {d : Diagram} (h : Consistent d) {n m : Node} (hn : n ∈ d.getNodes) (hx : Next d n m) : m ∈ d.getNodes ∧ Feeds n m := by
  obtain ⟨i, hi, f, hf, ht, hm⟩ := hx
  have hm' : m ∈ d.getNodes := List.mem_of_find?_eq_some hm
  refine ⟨hm', feeds_of_flow h hn hm' hi ?_⟩
  obtain ⟨m', hm2, ⟨a, b, e, h1, h2, h3, h4⟩, hi'⟩ := h.outFlow n hn i hi
  rw [h1] at hf
  cases hf
  simp only at ht
  rw [h4] at ht
  rw [← Option.some.inj ht]
  exact flowFromTo_target ⟨a, b, e, h1, h2, h3, h4⟩

theorem feeds_next {d : Diagram} (h : Consistent d) {n m : Node} (hn : n ∈ d.getNodes) (hm : m ∈ d.getNodes) (hf : Feeds n m) : Next d n m := by
  obtain ⟨i, h1, h2⟩ := hf
  obtain ⟨a, b, e, k1, k2, k3, k4⟩ := feeds_flow h hn hm h1 h2
  exact ⟨i, h1, _, k1, k4, h.getNodeById hm⟩

/-- The only node behind one that is no split. -/
theorem feeds_only {d : Diagram} (h : Consistent d) {n m m' : Node} (hn : n ∈ d.getNodes) (hm : m ∈ d.getNodes) (hm' : m' ∈ d.getNodes) (h1 : Feeds n m)
    (h2 : Feeds n m') (hs : ¬Splits n) : m = m' := by
  obtain ⟨i, a1, a2⟩ := h1
  obtain ⟨j, b1, b2⟩ := h2
  have hij : i = j := by
    unfold Splits at hs
    match hl : outs n, hs with
    | [], _ => rw [hl] at a1; simp at a1
    | [k], _ => rw [hl] at a1 b1; simp at a1 b1; rw [a1, b1]
    | _ :: _ :: _, hs => exfalso; simp at hs
  subst hij
  apply h.node_eq hm hm'
  have a := flowFromTo_target (feeds_flow h hn hm a1 a2)
  rw [flowFromTo_target (feeds_flow h hn hm' b1 b2)] at a
  exact (Except.ok.inj a).symm

theorem follows_append {d : Diagram} : ∀ {l r : List Node}, Follows d (l ++ r) → Follows d l ∧ Follows d r
  | [], _, h => ⟨trivial, h⟩
  | [a], [], h => ⟨trivial, trivial⟩
  | [a], b :: r, h => ⟨trivial, h.2⟩
  | a :: b :: l, r, h => by
    obtain ⟨h1, h2⟩ := h
    obtain ⟨h3, h4⟩ := follows_append (l := b :: l) (r := r) h2
    exact ⟨⟨h1, h3⟩, h4⟩

theorem follows_mid {d : Diagram} : ∀ {l r : List Node} {a b : Node}, Follows d (l ++ a :: b :: r) → Next d a b
  | [], _, _, _, h => h.1
  | [_], _, _, _, h => h.2.1
  | _ :: x :: l, _, _, _, h => follows_mid (l := x :: l) h.2

theorem follows_reach {d : Diagram} {a : Node} : ∀ {l : List Node}, Follows d (a :: l) → ∀ n ∈ l, Relation.TransGen (Next d) a n
  | [], _, n, hn => by cases hn
  | b :: l, h, n, hn => by
    rcases List.mem_cons.1 hn with rfl | hn
    · exact .single h.1
    · exact (Relation.TransGen.single h.1).trans (follows_reach h.2 n hn)

/-- A line is drawn as a line. -/
theorem line_cells {d : Diagram} {order} {row col : String → Int} (h : Consistent d) (g : LoopGrid d order row col) :
    ∀ (l : List Node) (a : Node), Follows d (a :: l) → (∀ n ∈ a :: l, n ∈ d.getNodes) → (∀ n ∈ l, ¬Joins n) → (∀ n ∈ (a :: l).dropLast, ¬Splits n) →
      ∀ i (hi : i < (a :: l).length), col ((a :: l)[i]).1 = col a.1 + i ∧ row ((a :: l)[i]).1 = row a.1
  | [], a, _, _, _, _, i, hi => by
    have : i = 0 := by simp at hi; omega
    subst this
    simp
  | b :: l, a, hf, hm, hj, hs, i, hi => by
    cases i with
    | zero => simp
    | succ i =>
      obtain ⟨hb, hfd⟩ := next_feeds h (hm a (by simp)) hf.1
      obtain ⟨c1, r1⟩ := g.line a (hm a (by simp)) b hb hfd (hs a (by simp)) (hj b (by simp))
      obtain ⟨c2, r2⟩ := line_cells h g l b hf.2 (fun n hn => hm n (List.mem_cons_of_mem _ hn)) (fun n hn => hj n (List.mem_cons_of_mem _ hn))
        (fun n hn => hs n (by rw [List.dropLast_cons_of_ne_nil (by simp)]; exact List.mem_cons_of_mem _ hn)) i (by simpa using hi)
      simp only [List.getElem_cons_succ]
      rw [c2, r2, c1, r1]
      exact ⟨by push_cast; omega, rfl⟩

theorem two_places {l : List String} (h : l.Nodup) (hl : l.length = 2) {a b : String} (ha : a ∈ l) (hb : b ∈ l) (hab : a ≠ b) :
    l.idxOf a = 0 ∧ l.idxOf b = 1 ∨ l.idxOf a = 1 ∧ l.idxOf b = 0 := by
  match l, hl with
  | [x, y], _ =>
    simp only [List.mem_cons, List.not_mem_nil, or_false] at ha hb
    rcases ha with rfl | rfl <;> rcases hb with rfl | rfl
    · exact absurd rfl hab
    · left; simp [List.idxOf_cons, hab]
    · right; simp [List.idxOf_cons, Ne.symm hab, hab]
    · exact absurd rfl hab

theorem follows_get {d : Diagram} : ∀ {l : List Node}, Follows d l → ∀ i (hi : i + 1 < l.length), Next d l[i] l[i + 1]
  | [], _, i, hi => by simp at hi
  | [a], _, i, hi => by simp at hi
  | a :: b :: l, h, 0, _ => h.1
  | a :: b :: l, h, i + 1, hi => follows_get (l := b :: l) h.2 i (by simpa using hi)

theorem steps_of_next {d : Diagram} (h : Consistent d) {n m : Node} (hn : n ∈ d.getNodes) (ht : Relation.TransGen (Next d) n m) : Relation.TransGen (StepTo d) n m := by
  have : m ∈ d.getNodes ∧ Relation.TransGen (StepTo d) n m := by
    induction ht with
    | single hs =>
      obtain ⟨a, b⟩ := next_feeds h hn hs
      exact ⟨a, .single ⟨hn, a, b⟩⟩
    | tail _ hs ih =>
      obtain ⟨a, b⟩ := next_feeds h ih.1 hs
      exact ⟨a, .tail ih.2 ⟨ih.1, a, b⟩⟩
  exact this.2

theorem list_of_one {α : Type} {l : List α} (h : l.Nodup) {a : α} (hm : ∀ x, x ∈ l ↔ x = a) : l = [a] := by
  have : l.Perm [a] := (List.perm_ext_iff_of_nodup h (by simp)).2 (by simpa using hm)
  exact List.perm_singleton.1 this

/-- **C116.** A process with one loop is always laid out: the nodes before the loop in a line with the vertical coordinate 250, the loop's join, body and split at 150,
the way back and the way on at -50 and 350, so that a part of the drawing lies outside the page. -/
theorem C116_one_loop (d : Diagram) (h : Consistent d) {first body back rest : List Node} {j g : Node} (L : OneLoop d first j body g back rest) :
    ∃ (bound : Nat) (y z : Int), (y = 350 ∧ z = -50 ∨ y = -50 ∧ z = 350) ∧ ∀ fuel ≥ bound, ∃ d', generateLayout fuel d = .ok d' ∧
      InLine d' 1 250 first ∧ InLine d' (first.length + 1) 150 (j :: (body ++ [g])) ∧
      InLine d' (first.length + body.length + 3) y back ∧ InLine d' (first.length + body.length + 3) z rest := by
  obtain ⟨n1, n2, n3⟩ := L.some
  obtain ⟨f0, first', rfl⟩ := List.exists_cons_of_ne_nil n1
  obtain ⟨b0, back', rfl⟩ := List.exists_cons_of_ne_nil n2
  obtain ⟨e0, rest', rfl⟩ := List.exists_cons_of_ne_nil n3
  have nd := L.nodes.nodup_iff.2 h.ids.of_map
  have mem : ∀ n, n ∈ d.getNodes ↔ n ∈ f0 :: first' ∨ n = j ∨ n ∈ body ∨ n = g ∨ n ∈ b0 :: back' ∨ n ∈ e0 :: rest' := by
    intro n
    rw [← L.nodes.mem_iff]
    simp only [List.mem_append, List.mem_cons]
  have mF : ∀ n ∈ f0 :: first', n ∈ d.getNodes := fun n hn => (mem n).2 (.inl hn)
  have mj : j ∈ d.getNodes := (mem j).2 (.inr (.inl rfl))
  have mBody : ∀ n ∈ body, n ∈ d.getNodes := fun n hn => (mem n).2 (.inr (.inr (.inl hn)))
  have mg : g ∈ d.getNodes := (mem g).2 (.inr (.inr (.inr (.inl rfl))))
  have mB : ∀ n ∈ b0 :: back', n ∈ d.getNodes := fun n hn => (mem n).2 (.inr (.inr (.inr (.inr (.inl hn)))))
  have mR : ∀ n ∈ e0 :: rest', n ∈ d.getNodes := fun n hn => (mem n).2 (.inr (.inr (.inr (.inr (.inr hn)))))
  obtain ⟨ndF, nd2, ndFx⟩ := List.nodup_append.1 nd
  obtain ⟨jOut, nd3⟩ := List.nodup_cons.1 nd2
  obtain ⟨ndBody, nd4, ndBx⟩ := List.nodup_append.1 nd3
  obtain ⟨gOut, nd5⟩ := List.nodup_cons.1 nd4
  obtain ⟨ndB, ndR, ndBR⟩ := List.nodup_append.1 nd5
  have jF : j ∉ f0 :: first' := fun hh => ndFx j hh j (by simp) rfl
  have gF : g ∉ f0 :: first' := fun hh => ndFx g hh g (by simp) rfl
  have jg : j ≠ g := by rintro rfl; exact jOut (by simp)
  have jBody : j ∉ body := fun hh => jOut (List.mem_append_left _ hh)
  have gBody : g ∉ body := fun hh => ndBx g hh g (by simp) rfl
  have jB : j ∉ b0 :: back' := fun hh => jOut (List.mem_append_right _ (List.mem_cons_of_mem _ (List.mem_append_left _ hh)))
  have jR : j ∉ e0 :: rest' := fun hh => jOut (List.mem_append_right _ (List.mem_cons_of_mem _ (List.mem_append_right _ hh)))
  have gB : g ∉ b0 :: back' := fun hh => gOut (List.mem_append_left _ hh)
  have gR : g ∉ e0 :: rest' := fun hh => gOut (List.mem_append_right _ hh)
  have be : b0 ≠ e0 := fun hh => ndBR b0 (by simp) e0 (by simp) hh
  have isJ : ∀ n ∈ d.getNodes, Joins n → n = j := by
    intro n hn hj
    by_contra hne
    have := (L.one n hn).1 hne
    unfold Joins at hj
    omega
  have isS : ∀ n ∈ d.getNodes, Splits n → n = g := by
    intro n hn hs
    by_contra hne
    have := (L.one n hn).2 hne
    unfold Splits at hs
    omega
  have Jj : Joins j := by unfold Joins; rw [L.two.1]
  have Sg : Splits g := by unfold Splits; rw [L.two.2]
  -- the parts of the two ways
  obtain ⟨w1, w2⟩ := follows_append L.forward
  have w3 : Follows d (j :: (body ++ [g])) := by
    have : Follows d ((j :: (body ++ [g])) ++ (e0 :: rest')) := by simpa using w2
    exact (follows_append this).1
  have w4 : Follows d (g :: e0 :: rest') := by
    have : Follows d ((j :: body) ++ (g :: e0 :: rest')) := by simpa using w2
    exact (follows_append this).2
  have w5 : Follows d (b0 :: back') := by
    have : Follows d ([g] ++ ((b0 :: back') ++ [j])) := by simpa using L.backward
    exact (follows_append (follows_append this).2).1
  have fe := (next_feeds h mg w4.1).2
  have fb : Feeds g b0 := (next_feeds h mg L.backward.1).2
  have gOnly : ∀ m ∈ d.getNodes, Feeds g m → m = b0 ∨ m = e0 := by
    intro m hm hf
    obtain ⟨i, i1, i2⟩ := hf
    obtain ⟨k, k1, k2⟩ := fb
    obtain ⟨l, l1, l2⟩ := fe
    have hkl : k ≠ l := by
      rintro rfl
      have a := flowFromTo_target (feeds_flow h mg (mB b0 (by simp)) k1 k2)
      rw [flowFromTo_target (feeds_flow h mg (mR e0 (by simp)) l1 l2)] at a
      exact be (h.node_eq (mB b0 (by simp)) (mR e0 (by simp)) (Except.ok.inj a).symm)
    have : i = k ∨ i = l := by
      have := L.two.2
      match ho : outs g, this with
      | [x, y], _ =>
        rw [ho] at i1 k1 l1
        simp only [List.mem_cons, List.not_mem_nil, or_false] at i1 k1 l1
        grind
    rcases this with rfl | rfl
    · left
      apply h.node_eq hm (mB b0 (by simp))
      have a := flowFromTo_target (feeds_flow h mg hm i1 i2)
      rw [flowFromTo_target (feeds_flow h mg (mB b0 (by simp)) k1 k2)] at a
      exact (Except.ok.inj a).symm
    · right
      apply h.node_eq hm (mR e0 (by simp))
      have a := flowFromTo_target (feeds_flow h mg hm i1 i2)
      rw [flowFromTo_target (feeds_flow h mg (mR e0 (by simp)) l1 l2)] at a
      exact (Except.ok.inj a).symm
  have hap : SplitsApart d := by
    intro n hn m hm hf hs hj
    have := isS n hn hs
    subst this
    have := isJ m hm hj
    subst this
    rcases gOnly m hm hf with rfl | rfl
    · exact jB (by simp)
    · exact jR (by simp)
  have once : ∀ n ∈ d.getNodes, AfterLoop d n → Joins n → ¬Splits n := fun n hn _ hj hs => jg ((isJ n hn hj).symm.trans (isS n hn hs))
  -- who reaches whom
  have jToG : Relation.TransGen (Next d) j g := follows_reach w3 g (by simp)
  have gToJ : Relation.TransGen (Next d) g j := follows_reach L.backward j (by simp)
  have jLoop := steps_of_next h mj (jToG.trans gToJ)
  have lateJ : AfterLoop d j := ⟨j, jLoop, .refl⟩
  have reached : ∀ n ∈ d.getNodes, n ∉ f0 :: first' → n ≠ j → Relation.TransGen (Next d) j n := by
    intro n hn hF hj
    rcases (mem n).1 hn with h1 | h1 | h1 | h1 | h1 | h1
    · exact absurd h1 hF
    · exact absurd h1 hj
    · exact follows_reach w3 n (by simp [h1])
    · exact h1 ▸ jToG
    · exact jToG.trans (follows_reach L.backward n (by simp only [List.mem_append]; exact .inl h1))
    · exact jToG.trans (follows_reach w4 n h1)
  have late : ∀ n ∈ d.getNodes, n ∉ f0 :: first' → AfterLoop d n := by
    intro n hn hF
    by_cases e : n = j
    · exact e ▸ lateJ
    · exact ⟨j, jLoop, (steps_of_next h mj (reached n hn hF e)).to_reflTransGen⟩
  have early : ∀ i (hi : i < (f0 :: first').length), ¬AfterLoop d ((f0 :: first')[i]) := by
    intro i
    induction i with
    | zero =>
      intro hi hl
      obtain ⟨p, ⟨hp, -, k, k1, k2⟩, -⟩ := hl.pred
      have := L.begins f0 (by simp)
      simp only [List.getElem_cons_zero] at k2
      rw [this] at k2
      cases k2
    | succ i ih =>
      intro hi hl
      obtain ⟨p, ⟨hp, -, hfp⟩, hlp⟩ := hl.pred
      have hm1 := mF _ (List.getElem_mem (l := f0 :: first') (n := i) (by omega))
      have hm2 := mF _ (List.getElem_mem hi)
      have hfd := (next_feeds h hm1 (follows_get w1 i hi)).2
      have := feeds_unique h hp hm1 hm2 hfp hfd (fun hj => jF (isJ _ hm2 hj ▸ List.getElem_mem hi))
      subst this
      exact ih (by omega) hlp
  have hr : ReachableFromStart d := by
    intro n hn
    refine ⟨f0, mF f0 (by simp), L.begins f0 (by simp), ?_⟩
    have toJ : Relation.TransGen (Next d) f0 j := follows_reach (l := first' ++ j :: (body ++ g :: (e0 :: rest'))) L.forward j (by simp)
    by_cases hF : n ∈ f0 :: first'
    · rcases List.mem_cons.1 hF with rfl | hF
      · exact .refl
      · exact (follows_reach w1 n hF).to_reflTransGen
    · by_cases e : n = j
      · exact e ▸ toJ.to_reflTransGen
      · exact (toJ.trans (reached n hn hF e)).to_reflTransGen
  obtain ⟨order, row, col, bound, ho, hg, p1, -⟩ := C116_drawn d h L.supported hr hap once
  have hnd : order.Nodup := ho.all.nodup_iff.2 h.ids
  -- the line before the loop
  have starts : (d.getNodes.filter fun n => decide (ins n = [])) = [f0] := by
    apply list_of_one (h.ids.of_map.filter _)
    intro n
    simp only [List.mem_filter, decide_eq_true_eq]
    constructor
    · rintro ⟨hn, h0⟩
      by_contra hne
      obtain ⟨m, hm⟩ : ∃ m, StepTo d m n := by
        by_cases hF : n ∈ f0 :: first'
        · obtain ⟨i, hi, e⟩ := List.mem_iff_getElem.1 hF
          cases i with
          | zero => exact absurd e.symm hne
          | succ i =>
            have hm1 := mF _ (List.getElem_mem (l := f0 :: first') (n := i) (by omega))
            exact ⟨_, hm1, hn, e ▸ (next_feeds h hm1 (follows_get w1 i hi)).2⟩
        · obtain ⟨p, hp, -⟩ := (late n hn hF).pred
          exact ⟨p, hp⟩
      obtain ⟨-, -, k, -, k2⟩ := hm
      rw [h0] at k2
      cases k2
    · rintro rfl
      exact ⟨mF n (by simp), L.begins n (by simp)⟩
  obtain ⟨c0, r0⟩ := hg.start f0 (mF f0 (by simp)) (L.begins f0 (by simp))
  rw [starts] at r0
  have : placeAmong order [f0] f0.1 = 0 := by
    unfold placeAmong
    rw [list_of_one (l := order.filter _) (a := f0.1) (hnd.filter _) (by
      intro x
      simp only [List.mem_filter, List.map_cons, List.map_nil, List.mem_singleton, decide_eq_true_eq]
      exact ⟨fun hh => hh.2, fun hh => ⟨by rw [hh]; exact ho.all.mem_iff.2 (List.mem_map_of_mem (mF f0 (by simp))), hh⟩⟩)]
    simp
  rw [this] at r0
  simp only [Nat.cast_zero, Int.mul_zero, Int.add_zero] at r0
  have sF : ∀ n ∈ f0 :: first', ¬Splits n := fun n hn hs => gF (isS n (mF n hn) hs ▸ hn)
  have PF := line_cells h hg first' f0 w1 mF (fun n hn hj => jF (isJ n (mF n (List.mem_cons_of_mem _ hn)) hj ▸ List.mem_cons_of_mem _ hn))
    (fun n hn => sF n (List.dropLast_subset _ hn))
  rw [c0, r0] at PF
  -- the join
  obtain ⟨p, hp, fp, lastP⟩ : ∃ p, p ∈ f0 :: first' ∧ Feeds p j ∧ col p.1 = (first'.length + 1 : Nat) := by
    have hlen : first'.length < (f0 :: first').length := by simp
    have hF : Follows d ((f0 :: first') ++ j :: (body ++ g :: (e0 :: rest'))) := L.forward
    have := follows_get hF first'.length (by simp)
    rw [List.getElem_append_left hlen, List.getElem_append_right (by simp)] at this
    simp only [List.length_cons, Nat.sub_self, List.getElem_cons_zero] at this
    have hm := List.getElem_mem hlen
    refine ⟨_, hm, (next_feeds h (mF _ hm) this).2, ?_⟩
    rw [(PF _ hlen).1]
    push_cast
    omega
  have hpre : earlierBefore d order j = [p] := by
    refine list_of_one (l := earlierBefore d order j) ((h.ids.of_map.filter _).filter _) ?_
    intro n
    rw [mem_earlierBefore]
    have earlyF : ∀ n ∈ f0 :: first', ¬AfterLoop d n := by
      intro n hn
      obtain ⟨i, hi, rfl⟩ := List.mem_iff_getElem.1 hn
      exact early i hi
    constructor
    · rintro ⟨hn, hf, hb⟩
      by_cases hF : n ∈ f0 :: first'
      · -- both lead to the join
        have e1 : ∀ n ∈ f0 :: first', Feeds n j → n = (f0 :: first')[first'.length] := by
          intro n hF hf
          obtain ⟨i, hi, rfl⟩ := List.mem_iff_getElem.1 hF
          by_cases hi2 : i + 1 < (f0 :: first').length
          · exfalso
            have hm1 := mF _ (List.getElem_mem hi)
            have hm2 := List.getElem_mem hi2
            have := feeds_only h hm1 mj (mF _ hm2) hf (next_feeds h hm1 (follows_get w1 i hi2)).2 (sF _ (List.getElem_mem hi))
            exact jF (this ▸ hm2)
          · have : i = first'.length := by simp at hi hi2; omega
            subst this
            rfl
        rw [e1 n hF hf, e1 p hp fp]
      · exfalso
        by_cases e : n = j
        · subst e; exact not_before_self hnd hb
        · have := ho.late j mj n hn lateJ (late n hn hF) Jj fun hj => e (isJ n hn hj)
          have a := before_lower hnd hb
          have b := before_lower hnd this
          omega
    · rintro rfl
      exact ⟨mF n hp, fp, ho.early n (mF n hp) j mj (earlyF n hp) lateJ⟩
  obtain ⟨cj, rj⟩ := hg.join j mj Jj
  rw [hpre] at cj rj
  have rp : row p.1 = 2 := by
    obtain ⟨i, hi, e⟩ := List.mem_iff_getElem.1 hp
    rw [← e, (PF i hi).2]
  simp only [List.map_cons, List.map_nil, List.foldr_cons, List.foldr_nil, List.sum_cons, List.sum_nil, Int.add_zero, rp, L.two.1, lastP] at cj rj
  have rj : row j.1 = 1 := by rw [rj]; decide
  have cj : col j.1 = (first'.length : Int) + 2 := by rw [cj]; push_cast; omega
  -- the loop
  have PJ := line_cells h hg (body ++ [g]) j w3 (by
      intro n hn
      simp only [List.mem_cons, List.mem_append, List.not_mem_nil, or_false] at hn
      rcases hn with rfl | hn | rfl
      · exact mj
      · exact mBody n hn
      · exact mg) (by
      intro n hn hj
      simp only [List.mem_append, List.mem_singleton] at hn
      rcases hn with hn | rfl
      · exact jBody (isJ n (mBody n hn) hj ▸ hn)
      · exact jg (isJ n mg hj).symm) (by
      intro n hn hs
      have : (j :: (body ++ [g])).dropLast = j :: body := by
        rw [show j :: (body ++ [g]) = (j :: body) ++ [g] by simp, List.dropLast_concat]
      rw [this] at hn
      rcases List.mem_cons.1 hn with rfl | hn
      · exact jg (isS n mj hs)
      · exact gBody (isS n (mBody n hn) hs ▸ hn))
  rw [cj, rj] at PJ
  obtain ⟨cg, rg⟩ : col g.1 = (first'.length : Int) + body.length + 3 ∧ row g.1 = 1 := by
    have := PJ (body.length + 1) (by simp)
    simp only [List.getElem_cons_succ, List.getElem_concat_length] at this
    refine ⟨?_, this.2⟩
    rw [this.1]
    push_cast
    omega
  -- the branches
  have noS : ∀ q ∈ d.getNodes, Feeds q g → ¬Splits q := by
    intro q hq hf hs
    have := isS q hq hs
    subst this
    rcases gOnly q hq hf with e | e
    · exact gB (by simp [← e])
    · exact gR (by simp [← e])
  obtain ⟨cb, rb, -⟩ := hg.branch g mg b0 (mB b0 (by simp)) fb Sg
  obtain ⟨ce, re, -⟩ := hg.branch g mg e0 (mR e0 (by simp)) fe Sg
  have rb := rb noS
  have re := re noS
  have hne : b0.1 ≠ e0.1 := fun hh => be (h.node_eq (mB b0 (by simp)) (mR e0 (by simp)) hh)
  have ndl : (order.filter fun i => decide (i ∈ (behind d g).map (·.1))).Nodup := hnd.filter _
  have mb : ∀ i, i ∈ (order.filter fun i => decide (i ∈ (behind d g).map (·.1))) ↔ i = b0.1 ∨ i = e0.1 := by
    intro i
    simp only [List.mem_filter, decide_eq_true_eq, List.mem_map, mem_behind]
    constructor
    · rintro ⟨-, m, ⟨hm, hf⟩, rfl⟩
      rcases gOnly m hm hf with rfl | rfl
      · exact .inl rfl
      · exact .inr rfl
    · rintro (rfl | rfl)
      · exact ⟨ho.all.mem_iff.2 (List.mem_map_of_mem (mB b0 (by simp))), b0, ⟨mB b0 (by simp), fb⟩, rfl⟩
      · exact ⟨ho.all.mem_iff.2 (List.mem_map_of_mem (mR e0 (by simp))), e0, ⟨mR e0 (by simp), fe⟩, rfl⟩
  have hlen : (order.filter fun i => decide (i ∈ (behind d g).map (·.1))).length = 2 := by
    have : (order.filter fun i => decide (i ∈ (behind d g).map (·.1))).Perm [b0.1, e0.1] :=
      (List.perm_ext_iff_of_nodup ndl (by simpa using hne)).2 (by simpa using mb)
    simpa using this.length_eq
  have places := two_places ndl hlen ((mb _).2 (.inl rfl)) ((mb _).2 (.inr rfl)) hne
  obtain ⟨y, z, hyz, rb, re⟩ : ∃ y z : Int, (y = 3 ∧ z = -1 ∨ y = -1 ∧ z = 3) ∧ row b0.1 = y ∧ row e0.1 = z := by
    rw [rg, L.two.2] at rb re
    unfold placeAmong at rb re
    rcases places with ⟨a, b⟩ | ⟨a, b⟩
    · rw [a] at rb
      rw [b] at re
      exact ⟨3, -1, .inl ⟨rfl, rfl⟩, by rw [rb]; decide, by rw [re]; decide⟩
    · rw [a] at rb
      rw [b] at re
      exact ⟨-1, 3, .inr ⟨rfl, rfl⟩, by rw [rb]; decide, by rw [re]; decide⟩
  rw [cg] at cb ce
  have PB := line_cells h hg back' b0 w5 mB (fun n hn hj => jB (isJ n (mB n (List.mem_cons_of_mem _ hn)) hj ▸ List.mem_cons_of_mem _ hn))
    (fun n hn hs => gB (isS n (mB n (List.dropLast_subset _ hn)) hs ▸ List.dropLast_subset _ hn))
  have PR := line_cells h hg rest' e0 w4.2 mR (fun n hn hj => jR (isJ n (mR n (List.mem_cons_of_mem _ hn)) hj ▸ List.mem_cons_of_mem _ hn))
    (fun n hn hs => gR (isS n (mR n (List.dropLast_subset _ hn)) hs ▸ List.dropLast_subset _ hn))
  rw [cb, rb] at PB
  rw [ce, re] at PR
  -- no two in one cell
  have where' : ∀ n ∈ d.getNodes, (∃ i, ∃ hi : i < (f0 :: first').length, (f0 :: first')[i] = n) ∨ (∃ i, ∃ hi : i < (j :: (body ++ [g])).length, (j :: (body ++ [g]))[i] = n) ∨
      (∃ i, ∃ hi : i < (b0 :: back').length, (b0 :: back')[i] = n) ∨ (∃ i, ∃ hi : i < (e0 :: rest').length, (e0 :: rest')[i] = n) := by
    intro n hn
    simp only [← List.mem_iff_getElem]
    rcases (mem n).1 hn with h1 | h1 | h1 | h1 | h1 | h1
    · exact .inl h1
    · right; left; simp [h1]
    · right; left; simp [h1]
    · right; left; simp [h1]
    · exact .inr (.inr (.inl h1))
    · exact .inr (.inr (.inr h1))
  have hone : OneEach d row col := by
    intro n hn m hm hr hc
    rcases where' n hn with ⟨i, hi, rfl⟩ | ⟨i, hi, rfl⟩ | ⟨i, hi, rfl⟩ | ⟨i, hi, rfl⟩ <;>
      rcases where' m hm with ⟨k, hk, rfl⟩ | ⟨k, hk, rfl⟩ | ⟨k, hk, rfl⟩ | ⟨k, hk, rfl⟩ <;>
      first
      | (have a := PF i hi) | (have a := PJ i hi) | (have a := PB i hi) | (have a := PR i hi)
    all_goals
      first
      | (have b := PF k hk) | (have b := PJ k hk) | (have b := PB k hk) | (have b := PR k hk)
    all_goals
      rw [a.2, b.2] at hr
      rw [a.1, b.1] at hc
      first
      | (have : i = k := by omega
         subst this
         rfl)
      | (exfalso; omega)
  refine ⟨bound, 100 * y + 50, 100 * z + 50, by omega, ?_⟩
  intro fuel hfuel
  obtain ⟨d', hd', hat⟩ := p1 hone fuel hfuel
  refine ⟨d', hd', ?_, ?_, ?_, ?_⟩
  · intro i hi
    obtain ⟨n', k1, k2⟩ := hat _ (mF _ (List.getElem_mem hi))
    obtain ⟨a, b⟩ := PF i hi
    rw [a, b] at k2
    exact ⟨n', k1, k2⟩
  · intro i hi
    have hm : (j :: (body ++ [g]))[i] ∈ d.getNodes := by
      have := List.getElem_mem hi
      simp only [List.mem_cons, List.mem_append, List.not_mem_nil, or_false] at this
      rcases this with e | e | e
      · rw [e]; exact mj
      · exact mBody _ e
      · rw [e]; exact mg
    obtain ⟨n', k1, k2⟩ := hat _ hm
    obtain ⟨a, b⟩ := PJ i hi
    rw [a, b] at k2
    refine ⟨n', k1, ?_⟩
    have e : (((f0 :: first').length : Int) + 1 + i) = first'.length + 2 + i := by simp only [List.length_cons]; push_cast; omega
    rw [e]
    exact k2
  · intro i hi
    obtain ⟨n', k1, k2⟩ := hat _ (mB _ (List.getElem_mem hi))
    obtain ⟨a, b⟩ := PB i hi
    rw [a, b] at k2
    refine ⟨n', k1, ?_⟩
    have e : (((f0 :: first').length : Int) + body.length + 3 + i) = first'.length + body.length + 3 + 1 + i := by simp only [List.length_cons]; push_cast; omega
    rw [e]
    exact k2
  · intro i hi
    obtain ⟨n', k1, k2⟩ := hat _ (mR _ (List.getElem_mem hi))
    obtain ⟨a, b⟩ := PR i hi
    rw [a, b] at k2
    refine ⟨n', k1, ?_⟩
    have e : (((f0 :: first').length : Int) + body.length + 3 + i) = first'.length + body.length + 3 + 1 + i := by simp only [List.length_cons]; push_cast; omega
    rw [e]
    exact k2

set_option maxRecDepth 8000 in
/-- `againOps` is such a process. -/
theorem again_loop : ∃ s j t g b e, OneLoop (Op.run {} againOps) [s] j [t] g [b] [e] ∧ [s, j, t, g, b, e].map (·.1) = ["s", "j", "t", "g", "b", "e"] := by
  have h := consistent_of_allowed _ again_allowed
  let ns := (Op.run {} againOps).getNodes
  have nx : ∀ i k (hi : i < 6) (hk : k < 6), Feeds (ns[i]'hi) (ns[k]'hk) → Next (Op.run {} againOps) (ns[i]'hi) (ns[k]'hk) :=
    fun i k hi hk hf => feeds_next h (List.getElem_mem hi) (List.getElem_mem hk) hf
  refine ⟨ns[0]'(by decide), ns[1]'(by decide), ns[2]'(by decide), ns[3]'(by decide), ns[4]'(by decide), ns[5]'(by decide),
    ⟨?_, by decide, ?_, ?_, ?_, ?_, by decide, by simp⟩, by decide⟩
  · exact List.Perm.of_eq rfl
  · exact ⟨nx 0 1 (by decide) (by decide) (by decide), nx 1 2 (by decide) (by decide) (by decide), nx 2 3 (by decide) (by decide) (by decide),
      nx 3 5 (by decide) (by decide) (by decide), trivial⟩
  · exact ⟨nx 3 4 (by decide) (by decide) (by decide), nx 4 1 (by decide) (by decide) (by decide), trivial⟩
  · intro n hn
    simp only [List.head?_cons, Option.mem_def, Option.some.injEq] at hn
    subst hn
    decide
  · have hl : ∀ i (hi : i < 6), (i ≠ 1 → (ins (ns[i]'hi)).length ≤ 1) ∧ (i ≠ 3 → (outs (ns[i]'hi)).length ≤ 1) := by decide
    intro n hn
    obtain ⟨i, hi, rfl⟩ := List.mem_iff_getElem.1 hn
    obtain ⟨a, b⟩ := hl i hi
    exact ⟨fun hne => a fun e => hne (by subst e; rfl), fun hne => b fun e => hne (by subst e; rfl)⟩

/-- So its start event is drawn at (200, 250), its join at (350, 150), and one of the task `b` on the way back and the end event at (800, -50). -/
example : ∃ bound, ∀ fuel ≥ bound, ∃ d' s j b e, generateLayout fuel (Op.run {} againOps) = .ok d' ∧ d'.getNodeById "s" = some s ∧ At s 200 250 ∧
    d'.getNodeById "j" = some j ∧ At j 350 150 ∧ d'.getNodeById "b" = some b ∧ d'.getNodeById "e" = some e ∧ (At b 800 (-50) ∨ At e 800 (-50)) := by
  obtain ⟨s, j, t, g, b, e, L, hids⟩ := again_loop
  simp only [List.map_cons, List.map_nil, List.cons.injEq, and_true] at hids
  obtain ⟨es, ej, et, eg, eb, ee⟩ := hids
  obtain ⟨bound, y, z, hyz, H⟩ := C116_one_loop _ (consistent_of_allowed _ again_allowed) L
  refine ⟨bound, fun fuel hf => ?_⟩
  obtain ⟨d', hd, k1, k2, k3, k4⟩ := H fuel hf
  obtain ⟨s', s1, s2⟩ := k1 0 (by simp)
  obtain ⟨j', j1, j2⟩ := k2 0 (by simp)
  obtain ⟨b', b1, b2⟩ := k3 0 (by simp)
  obtain ⟨e', e1, e2⟩ := k4 0 (by simp)
  simp [es, ej, eb, ee] at s1 s2 j1 j2 b1 b2 e1 e2
  refine ⟨d', s', j', b', e', hd, s1, s2, j1, j2, b1, e1, ?_⟩
  rcases hyz with ⟨rfl, rfl⟩ | ⟨rfl, rfl⟩
  · exact .inr e2
  · exact .inl b2

set_option maxRecDepth 8000 in
/-- `againOps` meets the hypotheses of `C116_drawn`, and has a join on a loop. -/
example : ReachableFromStart (Op.run {} againOps) ∧ (∀ n ∈ (Op.run {} againOps).getNodes, Supported n) ∧ SplitsApart (Op.run {} againOps) ∧
    (∀ n ∈ (Op.run {} againOps).getNodes, AfterLoop (Op.run {} againOps) n → Joins n → ¬Splits n) ∧
    ∃ j ∈ (Op.run {} againOps).getNodes, AfterLoop (Op.run {} againOps) j ∧ Joins j := by
  have h := consistent_of_allowed _ again_allowed
  let ns := (Op.run {} againOps).getNodes
  have nx : ∀ i k (hi : i < 6) (hk : k < 6), Feeds (ns[i]'hi) (ns[k]'hk) → Next (Op.run {} againOps) (ns[i]'hi) (ns[k]'hk) :=
    fun i k hi hk hf => feeds_next h (List.getElem_mem hi) (List.getElem_mem hk) hf
  have s0 : Relation.ReflTransGen (Next (Op.run {} againOps)) (ns[0]'(by decide)) (ns[0]'(by decide)) := .refl
  have s1 := s0.tail (nx 0 1 (by decide) (by decide) (by decide))
  have s2 := s1.tail (nx 1 2 (by decide) (by decide) (by decide))
  have s3 := s2.tail (nx 2 3 (by decide) (by decide) (by decide))
  have s4 := s3.tail (nx 3 4 (by decide) (by decide) (by decide))
  have s5 := s3.tail (nx 3 5 (by decide) (by decide) (by decide))
  refine ⟨?_, by decide, by unfold SplitsApart Splits Joins; decide, again_late.1, ?_⟩
  · intro n hn
    refine ⟨ns[0]'(by decide), List.getElem_mem _, by decide, ?_⟩
    have : n = ns[0]'(by decide) ∨ n = ns[1]'(by decide) ∨ n = ns[2]'(by decide) ∨ n = ns[3]'(by decide) ∨ n = ns[4]'(by decide) ∨ n = ns[5]'(by decide) := by
      have e : (Op.run {} againOps).getNodes = [ns[0]'(by decide), ns[1]'(by decide), ns[2]'(by decide), ns[3]'(by decide), ns[4]'(by decide), ns[5]'(by decide)] := rfl
      rw [e] at hn
      simpa using hn
    rcases this with rfl | rfl | rfl | rfl | rfl | rfl
    · exact s0
    · exact s1
    · exact s2
    · exact s3
    · exact s4
    · exact s5
  · obtain ⟨j, s, hj, -⟩ := again_late.2
    exact ⟨j, hj.mem, hj.late, hj.joins⟩

end Bpmn.Props

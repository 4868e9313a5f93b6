import Verif.Props.GridLimits
import Verif.Lemmas.LoopJoins
import Verif.Spec.Loops
/-!
# Where `generate_layout` puts the joins on loops and behind them (C115)
-/
set_option linter.unusedSimpArgs false
set_option linter.unusedVariables false

namespace Bpmn.Props
open Bpmn Spec Layouter Classify

theorem _root_.Bpmn.Spec.AfterLoop.step {d : Diagram} {n m : Node} (h : AfterLoop d n) (hs : StepTo d n m) : AfterLoop d m := by
  obtain ⟨a, h1, h2⟩ := h
  exact ⟨a, h1, h2.tail hs⟩

theorem _root_.Bpmn.Spec.AfterLoop.pred {d : Diagram} {m : Node} (h : AfterLoop d m) : ∃ n, StepTo d n m ∧ AfterLoop d n := by
  obtain ⟨a, h1, h2⟩ := h
  cases h2 with
  | refl =>
    obtain ⟨b, hb, hs⟩ := Relation.TransGen.tail'_iff.1 h1
    exact ⟨b, hs, m, h1, hb⟩
  | tail hb hs => exact ⟨_, hs, a, h1, hb⟩

theorem not_before_both {l : List String} (h : l.Nodup) {a b : String} (hab : Before l a b) (hba : ∀ pre post, l = pre ++ a :: post → b ∈ pre) : False := by
  obtain ⟨pre, post, e, hp⟩ := hab
  obtain ⟨p1, p2, e1⟩ := List.append_of_mem hp
  have := hba p1 (p2 ++ b :: post) (by rw [e, e1]; simp)
  rw [e] at h
  exact (List.nodup_append.1 h).2.2 b (by rw [e1]; exact List.mem_append_left _ this) b (by simp) rfl

/-- The nodes on and behind loops, as the layouter sees them. -/
def LateSet (d : Diagram) (c : NC) : Prop := ∃ n ∈ d.getNodes, c = ncOf n ∧ AfterLoop d n

theorem lateSet_ncOf {d : Diagram} (h : Consistent d) : ∀ n ∈ d.getNodes, LateSet d (ncOf n) ↔ AfterLoop d n := by
  intro n hn
  constructor
  · rintro ⟨m, hm, e, hl⟩
    rw [h.node_eq hn hm (congrArg NC.id e)]
    exact hl
  · intro hl; exact ⟨n, hn, rfl, hl⟩

/-- The layouter finds no place to begin among them, and does among the others. -/
theorem lateSet_facts {d : Diagram} (h : Consistent d) (hmem : ∀ n ∈ d.getNodes, n ∈ byType d) :
    Held d ((byType d).map ncOf) (LateSet d) ∧ Closed d ((byType d).map ncOf) ∧ Founded d ((byType d).map ncOf) (LateSet d) := by
  have g := good_of_consistent h
  have hA := lateSet_ncOf h
  have hnc : ∀ n ∈ d.getNodes, ncOf n ∈ (byType d).map ncOf := fun n hn => List.mem_map_of_mem (hmem n hn)
  have hcn : ∀ c ∈ (byType d).map ncOf, ∃ n ∈ d.getNodes, c = ncOf n := by
    intro c hc
    obtain ⟨n, hn, rfl⟩ := List.mem_map.1 hc
    exact ⟨n, (mem_byType.1 hn).1, rfl⟩
  have held : Held d ((byType d).map ncOf) (LateSet d) := by
    rintro c hc ⟨n, hn, rfl, hl⟩
    obtain ⟨p, ⟨hp, -, i, hi, hi'⟩, hlp⟩ := hl.pred
    exact ⟨i, hi', ncOf p, hnc p hp, (hA p hp).2 hlp, flowFromTo_source (feeds_flow h hp hn hi hi')⟩
  have closed : Closed d ((byType d).map ncOf) := by
    constructor
    · intro c hc i hi
      obtain ⟨n, hn, rfl⟩ := hcn c hc
      obtain ⟨m, hm, hf, -⟩ := h.outFlow n hn i hi
      exact ⟨ncOf m, hnc m hm, flowFromTo_target hf⟩
    · intro c hc i hi
      obtain ⟨n, hn, rfl⟩ := hcn c hc
      obtain ⟨m, hm, hf, -⟩ := h.inFlow n hn i hi
      exact ⟨ncOf m, hnc m hm, flowFromTo_source hf⟩
  have founded : Founded d ((byType d).map ncOf) (LateSet d) := by
    rintro B ⟨c, hc, hnA, hB⟩
    by_contra hno
    classical
    obtain ⟨n, hn, rfl⟩ := hcn c hc
    let l := d.getNodes.filter fun n => decide (¬AfterLoop d n ∧ B (ncOf n))
    have hl : l ≠ [] := List.ne_nil_of_mem (a := n) (List.mem_filter.2 ⟨hn, by simpa using ⟨fun hh => hnA ((hA n hn).2 hh), hB⟩⟩)
    obtain ⟨a, ha1, ha2⟩ := exists_cycle (StepTo d) l hl (by
      intro m hm
      obtain ⟨hm1, hm2⟩ := List.mem_filter.1 hm
      obtain ⟨hm2, hm3⟩ := of_decide_eq_true hm2
      by_contra hp
      apply hno
      refine ⟨ncOf m, hnc m hm1, fun hh => hm2 ((hA m hm1).1 hh), hm3, ?_⟩
      intro i hi c' hc' hsrc
      obtain ⟨p, hp', rfl⟩ := hcn c' hc'
      have hst : StepTo d p m := ⟨hp', hm1, i, g.inOut _ (hnc m hm1) i hi _ hc' hsrc, hi⟩
      have hnp : ¬AfterLoop d p := fun hh => hm2 (hh.step hst)
      refine ⟨fun hh => hnp ((hA p hp').1 hh), fun hh => hp ⟨p, List.mem_filter.2 ⟨hp', by simpa using ⟨hnp, hh⟩⟩, hst⟩⟩)
    obtain ⟨ha3, ha4⟩ := List.mem_filter.1 ha1
    exact (of_decide_eq_true ha4).1 ⟨a, ha2, .refl⟩
  exact ⟨held, closed, founded⟩

/-- **C115.** If `generate_layout` returns, and no join on or behind a loop is a split as well, then the joins on loops and behind them are drawn as if there were no flows from
nodes on loops or behind them, except that these are counted when the mean row is taken. -/
theorem C115_late_joins (d d' : Diagram) (h : Consistent d) (once : ∀ n ∈ d.getNodes, AfterLoop d n → Joins n → ¬Splits n) {fuel : Nat}
    (hl : generateLayout fuel d = .ok d') :
    ∃ row col : String → Int, (∀ n ∈ d'.getNodes, At n (150 * col n.1 + 50) (100 * row n.1 + 50)) ∧ OneEach d row col ∧
      ∀ j, LateJoin d j → col j.1 = ((earlyBefore d j).map fun n => col n.1).foldr max 0 + 1 ∧
        row j.1 = Int.fdiv ((earlyBefore d j).map fun n => row n.1).sum (ins j).length := by
  obtain ⟨all, sorted, back, grid, ns, ws, h1, h2, h3, h4, -, e'⟩ := layout_steps hl
  have hall : all = (byType d).map ncOf := by
    rw [elements_eq h.complete] at h1
    exact (Except.ok.inj h1).symm
  subst hall
  obtain ⟨hperm, -⟩ := C24_topological_order d h (by
    simp only [generateElementsClassification, h1, bind, Except.bind, pure, Except.pure]
    rfl) h2
  have g := good_of_consistent h
  have hids := g.ids
  have hidS : (sorted.map (·.id)).Nodup := (hperm.map (·.id)).nodup_iff.2 hids
  have hdist := gridLayout_distinct h3
  unfold gridLayout at h3
  obtain ⟨L, roots, g1, g2, g3, g4⟩ := gridLoop_log hids fuel fuel (p := ⟨[], gridColumnWidth, 1, sorted⟩) (fun y hy => hperm.mem_iff.1 hy) hidS h3
  simp only [List.map_nil, List.nil_append] at g1 g2
  have hnd : L.Nodup := g2.nodup_iff.1 hidS
  have hin : ∀ n ∈ d.getNodes, n.1 ∈ L := by
    intro n hn
    obtain ⟨c, hc, -⟩ := setCoordinates_all h4 n hn
    rw [← g1]
    exact List.mem_map.2 ⟨c, List.mem_of_find?_eq_some hc, by simpa using List.find?_some hc⟩
  have hmem : ∀ n ∈ d.getNodes, n ∈ byType d := by
    intro n hn
    have := g2.mem_iff.2 (hin n hn)
    obtain ⟨y, hy, e⟩ := List.mem_map.1 this
    obtain ⟨n', hn', rfl⟩ := List.mem_map.1 (hperm.mem_iff.1 hy)
    rw [← h.node_eq (mem_byType.1 hn').1 hn e]
    exact hn'
  have hnc : ∀ n ∈ d.getNodes, ncOf n ∈ (byType d).map ncOf := fun n hn => List.mem_map_of_mem (hmem n hn)
  have hcn : ∀ c ∈ (byType d).map ncOf, ∃ n ∈ d.getNodes, c = ncOf n := by
    intro c hc
    obtain ⟨n, hn, rfl⟩ := List.mem_map.1 hc
    exact ⟨n, (mem_byType.1 hn).1, rfl⟩
  have htgt : ∀ n ∈ d.getNodes, ∀ m ∈ d.getNodes, m.1 ∈ targetsOf d (ncOf n) ↔ Splits n ∧ Feeds n m := by
    intro n hn m hm
    obtain ⟨r, e1, -, e3⟩ := endsOf_mem (get := flowTarget d) (outs n) (by
      intro i hi
      obtain ⟨m, hm, hf, -⟩ := h.outFlow n hn i hi
      exact ⟨_, flowFromTo_target hf⟩)
    unfold targetsOf
    by_cases hs : Splits n
    · rw [if_pos (show "Split" ∈ (ncOf n).labels from (split_mem_labels n).2 hs), show (ncOf n).outs = outs n from rfl, e1]
      simp only [e3]
      constructor
      · rintro ⟨i, hi, ht⟩
        exact ⟨hs, feeds_of_flow h hn hm hi ht⟩
      · rintro ⟨-, i, hi, hi'⟩
        exact ⟨i, hi, flowFromTo_target (feeds_flow h hn hm hi hi')⟩
    · rw [if_neg (show ¬"Split" ∈ (ncOf n).labels from fun hh => hs ((split_mem_labels n).1 hh))]
      simp [hs]
  have hA := lateSet_ncOf h
  obtain ⟨held, closed, founded⟩ := lateSet_facts h hmem
  have closely : Closely d ((byType d).map ncOf) (LateSet d) := by
    constructor
    · rintro y hy c hc ht ⟨m, hm, rfl, hl⟩ hj
      obtain ⟨n, hn, rfl⟩ := hcn y hy
      obtain ⟨-, hf⟩ := (htgt n hn m hm).1 ht
      obtain ⟨p, ⟨hp, -, hf'⟩, hlp⟩ := hl.pred
      rw [hA n hn, feeds_unique h hn hp hm hf hf' fun hh => hj ((join_mem_labels m).2 hh)]
      exact hlp
    · rintro c hc ⟨m, hm, rfl, hl⟩ hj hs
      exact once m hm hl ((join_mem_labels m).1 hj) ((split_mem_labels m).1 hs)
  have j1 := sortLoop_joinsFirst g held fuel (inv_start g) (by simp) h2
  have j2 := sortLoop_othersFirst g closed held founded fuel (inv_start g) (by simp) h2
  have hstart : ((([] : List Cell).map (·.nodeId)) ++ sorted.map (·.id)).Perm (((byType d).map ncOf).map (·.id)) := by
    simpa using hperm.map (·.id)
  have c1 := gridLoop_joinCells hids closely hperm j1 fuel fuel (p := ⟨[], gridColumnWidth, 1, sorted⟩) (List.Sublist.refl _) hstart
    (by intro c _ _ _ q _ _ _ pre post e; simp at e) h3
  rw [g1] at c1
  -- where a node is
  let cell : String → Cell := fun i => (grid.find? fun c => c.nodeId == i).getD ⟨0, 0, ""⟩
  have hndg : (grid.map (·.nodeId)).Nodup := by rw [g1]; exact hnd
  have hcell : ∀ c ∈ grid, cell c.nodeId = c := by
    intro c hc
    show (grid.find? fun c' => c'.nodeId == c.nodeId).getD _ = c
    cases hf : grid.find? fun c' => c'.nodeId == c.nodeId with
    | none => 
      have := List.find?_eq_none.1 hf c hc
      simp at this
    | some c' =>
      exact List.inj_on_of_nodup_map hndg (List.mem_of_find?_eq_some hf) hc (by simpa using List.find?_some hf)
  have hcellN : ∀ n ∈ d.getNodes, cell n.1 ∈ grid ∧ (cell n.1).nodeId = n.1 := by
    intro n hn
    have := hin n hn
    rw [← g1] at this
    obtain ⟨c, hc, e⟩ := List.mem_map.1 this
    rw [← e, hcell c hc]
    exact ⟨hc, rfl⟩
  refine ⟨fun i => (cell i).row, fun i => (cell i).col, ?_, ?_, ?_⟩
  · intro m hm
    rw [e'] at hm
    obtain ⟨n, hn, c, hf, rfl⟩ := setCoordinates_ok h4 m hm
    have hc := List.mem_of_find?_eq_some hf
    have hcn : c.nodeId = n.1 := by simpa using List.find?_some hf
    have := hcell c hc
    rw [hcn] at this
    simp only [atCell, this, At]
    rw [Int.mul_comm 150, Int.mul_comm 100]
    exact ⟨rfl, rfl⟩
  · intro n hn m hm hr hc
    obtain ⟨a1, a2⟩ := hcellN n hn
    obtain ⟨b1, b2⟩ := hcellN m hm
    have : cell n.1 = cell m.1 := List.inj_on_of_nodup_map hdist a1 b1 (by simp only [Prod.mk.injEq]; exact ⟨hr, hc⟩)
    rw [← a2, ← b2, this]
  · intro j hj
    have hJ : "Join" ∈ (ncOf j).labels := (join_mem_labels j).2 hj.joins
    have h0 : (ncOf j).ins ≠ [] := by
      show ins j ≠ []
      intro hh
      have := hj.joins
      unfold Joins at this
      rw [hh] at this
      simp at this
    have jBefore : ∀ n ∈ d.getNodes, AfterLoop d n → ¬Joins n → ∀ pre post, L = pre ++ n.1 :: post → j.1 ∈ pre := fun n hn hl hnj =>
      c1 (ncOf j) (hnc j hj.mem) ((hA j hj.mem).2 hj.late) hJ (ncOf n) (hnc n hn) ((hA n hn).2 hl) (fun hh => hnj ((join_mem_labels n).1 hh))
    have hno : ∀ y ∈ (byType d).map ncOf, (ncOf j).id ∉ targetsOf d y := by
      intro y hy ht
      obtain ⟨n, hn, rfl⟩ := hcn y hy
      obtain ⟨hs, hf⟩ := (htgt n hn j hj.mem).1 ht
      rcases hj.ways n hn hf with ⟨hl, hnj⟩ | ⟨-, hns⟩
      · exact not_before_both hnd (g4 (ncOf n) (hnc n hn) (hin n hn) j.1 ht) (jBefore n hn hl hnj)
      · exact hns hs
    have eBefore : ∀ n ∈ d.getNodes, ¬AfterLoop d n → ∀ pre post, L = pre ++ j.1 :: post → n.1 ∈ pre := by
      intro n hn hl
      rw [← g1]
      exact gridLoop_othersCells hids hperm (hnc j hj.mem) hno (hnc n hn) (j2 (ncOf n) (hnc n hn) (fun hh => hl ((hA n hn).1 hh)) (ncOf j) (hnc j hj.mem)
        ((hA j hj.mem).2 hj.late)) fuel fuel (p := ⟨[], gridColumnWidth, 1, sorted⟩) (List.Sublist.refl _) hstart (by intro pre post e; simp at e) h3
    have hat := gridLoop_why (JoinAt d (ncOf j)) (joinAt_step hids (hnc j hj.mem) hJ h0 hno) fuel fuel (p := ⟨[], gridColumnWidth, 1, sorted⟩)
      (fun y hy => hperm.mem_iff.1 hy) (by intro pre c post e; simp at e) h3
    obtain ⟨k1, k2⟩ := hcellN j hj.mem
    obtain ⟨pre, post, e⟩ := List.append_of_mem k1
    obtain ⟨ids, i1, i2, i3⟩ := hat pre (cell j.1) post e k2
    obtain ⟨r, r1, r2, r3⟩ := endsOf_mem (get := flowSource d) (ins j) (by
      intro i hi
      obtain ⟨m, hm, hf, -⟩ := h.inFlow j hj.mem i hi
      exact ⟨_, flowFromTo_source hf⟩)
    have : ids = r := by
      have : endsOf (flowSource d) (ins j) = .ok ids := i1
      rw [r1] at this
      exact (Except.ok.inj this).symm
    subst this
    have eL : L = pre.map (·.nodeId) ++ j.1 :: post.map (·.nodeId) := by rw [← g1, e, List.map_append, List.map_cons, k2]
    have feeds : ∀ n ∈ d.getNodes, n.1 ∈ ids ↔ Feeds n j := by
      intro n hn
      rw [r3]
      constructor
      · rintro ⟨i, hi, hsrc⟩
        exact ⟨i, g.inOut _ (hnc j hj.mem) i hi _ (hnc n hn) hsrc, hi⟩
      · rintro ⟨i, hi, hi'⟩
        exact ⟨i, hi', flowFromTo_source (feeds_flow h hn hj.mem hi hi')⟩
    have hpre : ∀ c ∈ pre, c ∈ grid := fun c hc => by rw [e]; exact List.mem_append_left _ hc
    have hperm2 : ((pre.filter fun c => decide (c.nodeId ∈ ids)).map (·.nodeId)).Perm ((earlyBefore d j).map (·.1)) := by
      refine (List.perm_ext_iff_of_nodup ?_ ?_).2 ?_
      · refine (List.filter_sublist.map _).nodup ?_
        rw [eL] at hnd
        exact (List.nodup_append.1 hnd).1
      · unfold earlyBefore before
        exact ((List.filter_sublist.trans List.filter_sublist).map _).nodup h.ids
      · intro a
        constructor
        · intro ha
          obtain ⟨c, hc, rfl⟩ := List.mem_map.1 ha
          obtain ⟨hc1, hc2⟩ := List.mem_filter.1 hc
          have hc2 : c.nodeId ∈ ids := by simpa using hc2
          obtain ⟨i, hi, hsrc⟩ := (r3 _).1 hc2
          obtain ⟨n, hn, hf, -⟩ := h.inFlow j hj.mem i hi
          have en : n.1 = c.nodeId := by
            rw [flowFromTo_source hf] at hsrc
            exact Except.ok.inj hsrc
          refine List.mem_map.2 ⟨n, ?_, en⟩
          have hfd := (feeds n hn).1 (en ▸ hc2)
          refine List.mem_filter.2 ⟨mem_before.2 ⟨hn, hfd⟩, ?_⟩
          simp only [decide_eq_true_eq]
          intro hl
          rcases hj.ways n hn hfd with ⟨-, hnj⟩ | ⟨hh, -⟩
          · exact not_before_both hnd ⟨_, _, eL, en ▸ List.mem_map_of_mem hc1⟩ (jBefore n hn hl hnj)
          · exact hh hl
        · intro ha
          obtain ⟨n, hn, rfl⟩ := List.mem_map.1 ha
          obtain ⟨hn1, hn2⟩ := List.mem_filter.1 hn
          obtain ⟨hn3, hfd⟩ := mem_before.1 hn1
          have := eBefore n hn3 (by simpa using hn2) _ _ eL
          obtain ⟨c, hc, ec⟩ := List.mem_map.1 this
          exact List.mem_map.2 ⟨c, List.mem_filter.2 ⟨hc, by simpa using ec ▸ (feeds n hn3).2 hfd⟩, ec⟩
    have hmap : ∀ f : Cell → Int, ((pre.filter fun c => decide (c.nodeId ∈ ids)).map f).Perm ((earlyBefore d j).map fun n => f (cell n.1)) := by
      intro f
      have := hperm2.map fun i => f (cell i)
      rw [List.map_map, List.map_map] at this
      refine List.Perm.trans ?_ this
      rw [List.map_congr_left (g := (fun i => f (cell i)) ∘ (·.nodeId))]
      intro c hc
      simp only [Function.comp]
      rw [hcell c (hpre c (List.mem_of_mem_filter hc))]
    refine ⟨?_, ?_⟩
    · simp only
      rw [i3]
      have := foldr_max_perm (hmap (·.col))
      rw [← this]
      congr 1
      have := foldr_max_nonneg ((pre.filter fun c => decide (c.nodeId ∈ ids)).map (·.col))
      rcases foldl_max_eq ((pre.filter fun c => decide (c.nodeId ∈ ids)).map (·.col)) 0 with hh | hh <;> rw [hh] <;> omega
    · simp only
      rw [i2, sum_perm (hmap (·.row)), r2]

/-- **C115.** In particular, a join all of whose predecessors are on or behind a loop is drawn left of everything else, at (200, 50). -/
theorem C115_stray (d d' : Diagram) (h : Consistent d) (once : ∀ n ∈ d.getNodes, AfterLoop d n → Joins n → ¬Splits n) {fuel : Nat}
    (hl : generateLayout fuel d = .ok d') {j : Node} (hj : LateJoin d j) (far : ∀ n ∈ d.getNodes, Feeds n j → AfterLoop d n) :
    ∀ n ∈ d'.getNodes, n.1 = j.1 → At n 200 50 := by
  obtain ⟨row, col, h1, -, h3⟩ := C115_late_joins d d' h once hl
  intro n hn e
  have hnil : earlyBefore d j = [] := by
    rw [List.eq_nil_iff_forall_not_mem]
    intro m hm
    obtain ⟨hm1, hm2⟩ := List.mem_filter.1 hm
    obtain ⟨hm3, hm4⟩ := mem_before.1 hm1
    exact (by simpa using hm2 : ¬AfterLoop d m) (far m hm3 hm4)
  obtain ⟨a, b⟩ := h3 j hj
  rw [hnil] at a b
  have := h1 n hn
  rw [e, a, b] at this
  simpa using this

/-- **C115.** And if there are two such joins, `generate_layout` never returns. -/
theorem C115_two_strays (d : Diagram) (h : Consistent d) (once : ∀ n ∈ d.getNodes, AfterLoop d n → Joins n → ¬Splits n) {j k : Node} (hj : LateJoin d j)
    (hk : LateJoin d k) (hne : j.1 ≠ k.1) (farJ : ∀ n ∈ d.getNodes, Feeds n j → AfterLoop d n) (farK : ∀ n ∈ d.getNodes, Feeds n k → AfterLoop d n) :
    ∀ fuel d', generateLayout fuel d ≠ .ok d' := by
  intro fuel d' hl
  obtain ⟨row, col, -, h2, h3⟩ := C115_late_joins d d' h once hl
  have hnil : ∀ j, (∀ n ∈ d.getNodes, Feeds n j → AfterLoop d n) → earlyBefore d j = [] := by
    intro j far
    rw [List.eq_nil_iff_forall_not_mem]
    intro m hm
    obtain ⟨hm1, hm2⟩ := List.mem_filter.1 hm
    obtain ⟨hm3, hm4⟩ := mem_before.1 hm1
    exact (by simpa using hm2 : ¬AfterLoop d m) (far m hm3 hm4)
  obtain ⟨a, b⟩ := h3 j hj
  obtain ⟨a', b'⟩ := h3 k hk
  rw [hnil j farJ] at a b
  rw [hnil k farK] at a' b'
  exact hne (h2 j hj.mem k hk.mem (by rw [b, b']; simp) (by rw [a, a']))

set_option maxRecDepth 8000 in
/-- The loop of `againOps`: its join is the only one, and meets the hypotheses. -/
theorem again_late : (∀ n ∈ (Op.run {} againOps).getNodes, AfterLoop (Op.run {} againOps) n → Joins n → ¬Splits n) ∧
    ∃ j s, LateJoin (Op.run {} againOps) j ∧ j.1 = "j" ∧ (ins j).length = 2 ∧ s.1 = "s" ∧ earlyBefore (Op.run {} againOps) j = [s] := by
  let ns := (Op.run {} againOps).getNodes
  have st : ∀ i k (hi : i < 6) (hk : k < 6), Feeds (ns[i]'hi) (ns[k]'hk) → StepTo (Op.run {} againOps) (ns[i]'hi) (ns[k]'hk) :=
    fun i k hi hk h => ⟨List.getElem_mem hi, List.getElem_mem hk, h⟩
  have jt := st 1 2 (by decide) (by decide) (by decide)
  have tg := st 2 3 (by decide) (by decide) (by decide)
  have gb := st 3 4 (by decide) (by decide) (by decide)
  have bj := st 4 1 (by decide) (by decide) (by decide)
  have path : Relation.ReflTransGen (StepTo (Op.run {} againOps)) (ns[1]'(by decide)) (ns[4]'(by decide)) := .tail (.tail (.tail .refl jt) tg) gb
  have loop : Relation.TransGen (StepTo (Op.run {} againOps)) (ns[1]'(by decide)) (ns[1]'(by decide)) := .tail' path bj
  have late : AfterLoop (Op.run {} againOps) (ns[4]'(by decide)) := ⟨_, loop, path⟩
  have early : ¬AfterLoop (Op.run {} againOps) (ns[0]'(by decide)) := by
    intro h
    obtain ⟨n, ⟨hn, -, hf⟩, -⟩ := h.pred
    exact absurd hf ((by decide : ∀ n ∈ (Op.run {} againOps).getNodes, ¬Feeds n (ns[0]'(by decide))) n hn)
  have befores : before (Op.run {} againOps) (ns[1]'(by decide)) = [ns[0]'(by decide), ns[4]'(by decide)] := by rfl
  have from' : ∀ n ∈ (Op.run {} againOps).getNodes, Feeds n (ns[1]'(by decide)) → n = ns[0]'(by decide) ∨ n = ns[4]'(by decide) := by
    intro n hn hf
    have : n ∈ before (Op.run {} againOps) (ns[1]'(by decide)) := mem_before.2 ⟨hn, hf⟩
    rw [befores] at this
    simpa using this
  refine ⟨fun n hn _ => (by decide : ∀ n ∈ (Op.run {} againOps).getNodes, Joins n → ¬Splits n) n hn, ns[1]'(by decide), ns[0]'(by decide), ⟨List.getElem_mem _, by decide, ⟨_, loop, .refl⟩, ?_⟩,
    by decide, by decide, by decide, ?_⟩
  · intro n hn hf
    rcases from' n hn hf with rfl | rfl
    · exact .inr ⟨early, by decide⟩
    · exact .inl ⟨late, by decide⟩
  · unfold earlyBefore
    rw [befores, List.filter_cons, if_pos (by simpa using early), List.filter_cons, if_neg (by simpa using late), List.filter_nil]

set_option maxRecDepth 8000 in
/-- The join of `againOps` is put in the column behind the start event and half as far down, since the way back counts but has no place yet. -/
example : ∃ d', generateLayout 20 (Op.run {} againOps) = .ok d' ∧ ∃ row col : String → Int, (∀ n ∈ d'.getNodes, At n (150 * col n.1 + 50) (100 * row n.1 + 50)) ∧
    col "j" = max (col "s") 0 + 1 ∧ row "j" = Int.fdiv (row "s") 2 := by
  have h := consistent_of_allowed _ again_allowed
  have hg : ((topologicalSort 20 (Op.run {} againOps) ((byType (Op.run {} againOps)).map ncOf)).bind fun r => gridLayout 20 (Op.run {} againOps) r.1) =
    .ok [⟨2, 1, "s"⟩, ⟨1, 2, "j"⟩, ⟨1, 3, "t"⟩, ⟨1, 4, "g"⟩, ⟨3, 5, "e"⟩, ⟨-1, 5, "b"⟩] := by decide
  cases hs : topologicalSort 20 (Op.run {} againOps) ((byType (Op.run {} againOps)).map ncOf) with
  | error e => rw [hs] at hg; cases hg
  | ok r =>
    obtain ⟨sorted, back⟩ := r
    rw [hs] at hg
    obtain ⟨d', ns, h1, -, -⟩ := layout_ok h hs hg (by decide)
    obtain ⟨once, j, s, hj, ej, el, es, ee⟩ := again_late
    obtain ⟨row, col, k1, -, k3⟩ := C115_late_joins _ d' h once h1
    obtain ⟨a, b⟩ := k3 j hj
    rw [ee, ej] at a b
    refine ⟨d', h1, row, col, k1, ?_, ?_⟩
    · simpa [es] using a
    · simpa [es, el] using b

end Bpmn.Props

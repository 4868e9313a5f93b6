import Verif.Model.Layouter
import Verif.Lemmas.Classify
import Mathlib.Data.List.Perm.Basic
import Mathlib.Data.Fintype.Card
import Mathlib.Data.Fintype.EquivFin
import Mathlib.Data.Fintype.Sets
import Mathlib.Logic.Relation
/-!
Invariant of `topological_sort`.
-/
set_option linter.unusedSimpArgs false
set_option linter.unusedVariables false

namespace Bpmn.Layouter
open Bpmn Spec Classify

variable {d : Diagram}

/-- The classified nodes describe the diagram: what the sorting relies on. -/
structure Good (d : Diagram) (all : List NC) : Prop where
  ids : (all.map (·.id)).Nodup
  nodup : ∀ c ∈ all, c.ins.Nodup ∧ c.outs.Nodup
  out : ∀ c ∈ all, ∀ i ∈ c.outs, flowSource d i = .ok c.id ∧ ∃ t, flowTarget d i = .ok t
  inn : ∀ c ∈ all, ∀ i ∈ c.ins, flowTarget d i = .ok c.id ∧ ∃ s, flowSource d i = .ok s
  outIn : ∀ c ∈ all, ∀ i ∈ c.outs, ∀ m ∈ all, flowTarget d i = .ok m.id → i ∈ m.ins
  inOut : ∀ c ∈ all, ∀ i ∈ c.ins, ∀ m ∈ all, flowSource d i = .ok m.id → i ∈ m.outs
  join : ∀ c ∈ all, "Join" ∈ c.labels ↔ 2 ≤ c.ins.length

theorem Good.id_inj {all : List NC} (g : Good d all) {a b : NC} (ha : a ∈ all) (hb : b ∈ all) (e : a.id = b.id) : a = b :=
  List.inj_on_of_nodup_map g.ids ha hb e

/-- Both ends of every flow of a classified node are classified. -/
def Closed (d : Diagram) (all : List NC) : Prop :=
  (∀ c ∈ all, ∀ i ∈ c.outs, ∃ m ∈ all, flowTarget d i = .ok m.id) ∧ (∀ c ∈ all, ∀ i ∈ c.ins, ∃ m ∈ all, flowSource d i = .ok m.id)

theorem flowFromTo_source {i s t : String} (h : FlowFromTo d i s t) : flowSource d i = .ok s := by
  obtain ⟨a, b, e, h1, -, h2, -⟩ := h
  simp [flowSource, flowAttrs, h1, h2, need, bind, Except.bind, pure, Except.pure]

theorem flowFromTo_target {i s t : String} (h : FlowFromTo d i s t) : flowTarget d i = .ok t := by
  obtain ⟨a, b, e, h1, -, -, h2⟩ := h
  simp [flowTarget, flowAttrs, h1, h2, need, bind, Except.bind, pure, Except.pure]

theorem good_of_consistent (h : Consistent d) : Good d ((byType d).map ncOf) := by
  have memn : ∀ n ∈ byType d, n ∈ d.getNodes := fun n hn => (mem_byType.1 hn).1
  refine ⟨?_, ?_, ?_, ?_, ?_, ?_, ?_⟩
  · have := byType_ids h.ids
    simpa [List.map_map, Function.comp_def, ncOf] using this
  · intro c hc
    obtain ⟨n, hn, rfl⟩ := List.mem_map.1 hc
    exact (h.lists n (memn n hn)).2.2
  · intro c hc i hi
    obtain ⟨n, hn, rfl⟩ := List.mem_map.1 hc
    obtain ⟨m, hm, hf, -⟩ := h.outFlow n (memn n hn) i hi
    exact ⟨flowFromTo_source hf, m.1, flowFromTo_target hf⟩
  · intro c hc i hi
    obtain ⟨n, hn, rfl⟩ := List.mem_map.1 hc
    obtain ⟨m, hm, hf, -⟩ := h.inFlow n (memn n hn) i hi
    exact ⟨flowFromTo_target hf, m.1, flowFromTo_source hf⟩
  · intro c hc i hi m hm ht
    obtain ⟨n, hn, rfl⟩ := List.mem_map.1 hc
    obtain ⟨m, hm', rfl⟩ := List.mem_map.1 hm
    obtain ⟨m', hm1, hf, hi'⟩ := h.outFlow n (memn n hn) i hi
    have : m'.1 = m.1 := by
      have := (flowFromTo_target hf).symm.trans ht
      simpa [ncOf] using this
    rw [← h.node_eq hm1 (memn m hm') this]
    exact hi'
  · intro c hc i hi m hm ht
    obtain ⟨n, hn, rfl⟩ := List.mem_map.1 hc
    obtain ⟨m, hm', rfl⟩ := List.mem_map.1 hm
    obtain ⟨m', hm1, hf, hi'⟩ := h.inFlow n (memn n hn) i hi
    have : m'.1 = m.1 := by
      have := (flowFromTo_source hf).symm.trans ht
      simpa [ncOf] using this
    rw [← h.node_eq hm1 (memn m hm') this]
    exact hi'
  · intro c hc
    obtain ⟨n, hn, rfl⟩ := List.mem_map.1 hc
    exact join_mem_labels n

theorem closed_of_supported (h : Consistent d) (hs : FlowsSupported d) : Closed d ((byType d).map ncOf) := by
  have memn : ∀ n ∈ byType d, n ∈ d.getNodes := fun n hn => (mem_byType.1 hn).1
  constructor
  · intro c hc i hi
    obtain ⟨n, hn, rfl⟩ := List.mem_map.1 hc
    obtain ⟨m, hm, hf, hi'⟩ := h.outFlow n (memn n hn) i hi
    exact ⟨ncOf m, List.mem_map.2 ⟨m, mem_byType.2 ⟨hm, hs m hm (.inl (List.ne_nil_of_mem hi'))⟩, rfl⟩, flowFromTo_target hf⟩
  · intro c hc i hi
    obtain ⟨n, hn, rfl⟩ := List.mem_map.1 hc
    obtain ⟨m, hm, hf, hi'⟩ := h.inFlow n (memn n hn) i hi
    exact ⟨ncOf m, List.mem_map.2 ⟨m, mem_byType.2 ⟨hm, hs m hm (.inr (List.ne_nil_of_mem hi'))⟩, rfl⟩, flowFromTo_source hf⟩

/-- State of the loop: `tmp` remaining, `sorted` done, `back` ids of the backward flows. -/
structure Inv (d : Diagram) (all tmp sorted : List NC) (back : List String) : Prop where
  perm : ((sorted ++ tmp).map (·.id)).Perm (all.map (·.id))
  sub : ∀ s ∈ sorted, s ∈ all
  cur : ∀ x ∈ tmp, ∃ c ∈ all, x.id = c.id ∧ x.labels = c.labels ∧ x.ins.Nodup ∧ x.outs.Nodup ∧
    (∀ i, i ∈ x.ins ↔ i ∈ c.ins ∧ i ∉ back ∧ ¬∃ s ∈ sorted, i ∈ s.outs) ∧ (∀ i, i ∈ x.outs ↔ i ∈ c.outs ∧ i ∉ back)
  order : ∀ pre m post, sorted = pre ++ m :: post → ∀ i ∈ m.ins, i ∉ back → ∃ s, flowSource d i = .ok s ∧ s ∈ pre.map (·.id)
  backJoin : ∀ i ∈ back, ∃ c ∈ all, "Join" ∈ c.labels ∧ i ∈ c.ins

theorem inv_start {all : List NC} (g : Good d all) : Inv d all all [] [] := by
  refine ⟨by simp, by simp, ?_, by simp, by simp⟩
  intro x hx
  exact ⟨x, hx, rfl, rfl, (g.nodup x hx).1, (g.nodup x hx).2, by simp, by simp⟩

theorem Inv.tmp_nodup {all tmp sorted : List NC} {back} (g : Good d all) (v : Inv d all tmp sorted back) :
    (tmp.map (·.id)).Nodup := by
  have := v.perm.nodup_iff.2 g.ids
  rw [List.map_append] at this
  exact (List.nodup_append.1 this).2.1

theorem Inv.disj {all tmp sorted : List NC} {back} (g : Good d all) (v : Inv d all tmp sorted back) {s x : NC}
    (hs : s ∈ sorted) (hx : x ∈ tmp) : s.id ≠ x.id := by
  have := v.perm.nodup_iff.2 g.ids
  rw [List.map_append] at this
  exact (List.nodup_append.1 this).2.2 _ (List.mem_map_of_mem hs) _ (List.mem_map_of_mem hx)

theorem Inv.mem_all {all tmp sorted : List NC} {back} (v : Inv d all tmp sorted back) {c : NC} (hc : c ∈ all) :
    (∃ s ∈ sorted, s.id = c.id) ∨ ∃ x ∈ tmp, x.id = c.id := by
  have := v.perm.mem_iff.2 (List.mem_map_of_mem hc)
  simpa using this

/-! ### The two removals -/

/-- Without the flow ids `is` in the incoming list. -/
def dropIn (is : List String) (y : NC) : NC := { y with ins := y.ins.filter (· ∉ is) }
/-- Without the flow ids `is` in both lists. -/
def dropBoth (is : List String) (y : NC) : NC := { y with ins := y.ins.filter (· ∉ is), outs := y.outs.filter (· ∉ is) }

theorem erase_eq_filter {l : List String} (hl : l.Nodup) (i : String) : l.erase i = l.filter (· ∉ [i]) := by
  rw [hl.erase_eq_filter]
  apply List.filter_congr
  intro a ha
  simp [bne, Bool.beq_eq_decide_eq]

theorem filter_nop {l : List String} {i : String} (h : i ∉ l) : l.filter (· ∉ [i]) = l := by
  rw [List.filter_eq_self]
  intro a ha
  simp only [List.mem_singleton, decide_eq_true_eq]
  rintro rfl; exact h ha

theorem removeIn_ok {tmp : List NC} {i t : String} (hn : (tmp.map (·.id)).Nodup) (hl : ∀ y ∈ tmp, y.ins.Nodup)
    (h : ∃ y ∈ tmp, y.id = t ∧ i ∈ y.ins) (ho : ∀ y ∈ tmp, y.id ≠ t → i ∉ y.ins) :
    removeIn i t tmp = .ok (tmp.map (dropIn [i])) := by
  induction tmp with
  | nil => simp at h
  | cons x r ih =>
    rw [removeIn]
    have nop : ∀ y ∈ r, x.id = t → dropIn [i] y = y := by
      intro y hy e
      have : y.id ≠ t := by
        rintro rfl
        simp only [List.map_cons, List.nodup_cons, List.mem_map, not_exists, not_and] at hn
        exact hn.1 y hy e.symm
      simp only [dropIn, filter_nop (ho y (by simp [hy]) this)]
    split
    · rename_i e
      have hi : i ∈ x.ins := by
        obtain ⟨y, hy, e', hi⟩ := h
        rcases List.mem_cons.1 hy with rfl | hy
        · exact hi
        · simp only [List.map_cons, List.nodup_cons, List.mem_map, not_exists, not_and] at hn
          exact absurd (e'.trans e.symm) (hn.1 y hy)
      simp only [pyRemove, hi, if_true, bind, Except.bind, pure, Except.pure, List.map_cons]
      rw [erase_eq_filter (hl x (by simp))]
      congr 1
      congr 1
      conv => lhs; rw [← List.map_id r]
      apply List.map_congr_left
      intro y hy
      exact (nop y hy e).symm
    · rename_i e
      rw [ih (List.nodup_cons.1 hn).2 (fun y hy => hl y (by simp [hy])) ?_ (fun y hy => ho y (by simp [hy]))]
      · simp only [bind, Except.bind, pure, Except.pure, List.map_cons]
        have : dropIn [i] x = x := by simp only [dropIn, filter_nop (ho x (by simp) e)]
        rw [this]
      · obtain ⟨y, hy, e', hi⟩ := h
        rcases List.mem_cons.1 hy with rfl | hy
        · exact absurd e' e
        · exact ⟨y, hy, e', hi⟩

theorem removeIn_mem {tmp r : List NC} {i t : String} (h : removeIn i t tmp = .ok r) :
    (∃ y ∈ tmp, y.id = t) ∧ r.map (·.id) = tmp.map (·.id) := by
  induction tmp generalizing r with
  | nil => cases h
  | cons x l ih =>
    rw [removeIn] at h
    split at h
    · rename_i e
      cases hp : pyRemove x.ins i with
      | error e => rw [hp] at h; cases h
      | ok l' => rw [hp] at h; cases h; exact ⟨⟨x, by simp, e⟩, by simp⟩
    · cases hp : removeIn i t l with
      | error e => rw [hp] at h; cases h
      | ok l' =>
        rw [hp] at h; cases h
        obtain ⟨⟨y, hy, e⟩, h2⟩ := ih hp
        exact ⟨⟨y, by simp [hy], e⟩, by simp [h2]⟩

theorem removeOut_ok {tmp : List NC} {i t : String} (hn : (tmp.map (·.id)).Nodup) (hl : ∀ y ∈ tmp, y.outs.Nodup)
    (h : ∃ y ∈ tmp, y.id = t ∧ i ∈ y.outs) (ho : ∀ y ∈ tmp, y.id ≠ t → i ∉ y.outs) :
    removeOut i t tmp = .ok (tmp.map fun y => { y with outs := y.outs.filter (· ∉ [i]) }) := by
  induction tmp with
  | nil => simp at h
  | cons x r ih =>
    rw [removeOut]
    have nop : ∀ y ∈ r, x.id = t → ({ y with outs := y.outs.filter (· ∉ [i]) } : NC) = y := by
      intro y hy e
      have : y.id ≠ t := by
        rintro rfl
        simp only [List.map_cons, List.nodup_cons, List.mem_map, not_exists, not_and] at hn
        exact hn.1 y hy e.symm
      simp only [filter_nop (ho y (by simp [hy]) this)]
    split
    · rename_i e
      have hi : i ∈ x.outs := by
        obtain ⟨y, hy, e', hi⟩ := h
        rcases List.mem_cons.1 hy with rfl | hy
        · exact hi
        · simp only [List.map_cons, List.nodup_cons, List.mem_map, not_exists, not_and] at hn
          exact absurd (e'.trans e.symm) (hn.1 y hy)
      simp only [pyRemove, hi, if_true, bind, Except.bind, pure, Except.pure, List.map_cons]
      rw [erase_eq_filter (hl x (by simp))]
      congr 1
      congr 1
      conv => lhs; rw [← List.map_id r]
      apply List.map_congr_left
      intro y hy
      exact (nop y hy e).symm
    · rename_i e
      rw [ih (List.nodup_cons.1 hn).2 (fun y hy => hl y (by simp [hy])) ?_ (fun y hy => ho y (by simp [hy]))]
      · simp only [bind, Except.bind, pure, Except.pure, List.map_cons]
        have : ({ x with outs := x.outs.filter (· ∉ [i]) } : NC) = x := by simp only [filter_nop (ho x (by simp) e)]
        rw [this]
      · obtain ⟨y, hy, e', hi⟩ := h
        rcases List.mem_cons.1 hy with rfl | hy
        · exact absurd e' e
        · exact ⟨y, hy, e', hi⟩

theorem removeOut_mem {tmp r : List NC} {i t : String} (h : removeOut i t tmp = .ok r) :
    (∃ y ∈ tmp, y.id = t) ∧ r.map (·.id) = tmp.map (·.id) := by
  induction tmp generalizing r with
  | nil => cases h
  | cons x l ih =>
    rw [removeOut] at h
    split at h
    · rename_i e
      cases hp : pyRemove x.outs i with
      | error e => rw [hp] at h; cases h
      | ok l' => rw [hp] at h; cases h; exact ⟨⟨x, by simp, e⟩, by simp⟩
    · cases hp : removeOut i t l with
      | error e => rw [hp] at h; cases h
      | ok l' =>
        rw [hp] at h; cases h
        obtain ⟨⟨y, hy, e⟩, h2⟩ := ih hp
        exact ⟨⟨y, by simp [hy], e⟩, by simp [h2]⟩

theorem dropIn_dropIn (a : String) (l : List String) (y : NC) : dropIn l (dropIn [a] y) = dropIn (a :: l) y := by
  simp only [dropIn, List.filter_filter]
  congr 1
  apply List.filter_congr
  intro i hi
  by_cases h1 : i = a <;> by_cases h2 : i ∈ l <;> simp [h1, h2]

theorem releaseTargets_ok (is : List String) {tmp : List NC} (hn : (tmp.map (·.id)).Nodup) (hl : ∀ y ∈ tmp, y.ins.Nodup) (his : is.Nodup)
    (h : ∀ i ∈ is, ∃ t, flowTarget d i = .ok t ∧ (∃ y ∈ tmp, y.id = t ∧ i ∈ y.ins) ∧ ∀ y ∈ tmp, y.id ≠ t → i ∉ y.ins) :
    releaseTargets d is tmp = .ok (tmp.map (dropIn is)) := by
  induction is generalizing tmp with
  | nil =>
    have : dropIn [] = id := by funext y; simp [dropIn]
    simp [releaseTargets, this]
  | cons i r ih =>
    obtain ⟨t, ht, hy, ho⟩ := h i (by simp)
    rw [releaseTargets, ht]
    simp only [bind, Except.bind]
    rw [removeIn_ok hn hl hy ho]
    simp only
    rw [ih]
    · simp only [List.map_map, Except.ok.injEq]
      apply List.map_congr_left
      intro y hy
      exact dropIn_dropIn i r y
    · simpa [List.map_map, Function.comp_def, dropIn] using hn
    · intro y hy
      obtain ⟨y, hyt, rfl⟩ := List.mem_map.1 hy; have hy := hyt
      exact (hl y hy).filter _
    · exact (List.nodup_cons.1 his).2
    · intro j hj
      obtain ⟨t', ht', ⟨y, hy, e, hj'⟩, ho'⟩ := h j (by simp [hj])
      refine ⟨t', ht', ⟨dropIn [i] y, List.mem_map_of_mem hy, e, ?_⟩, ?_⟩
      · have : j ≠ i := by rintro rfl; exact (List.nodup_cons.1 his).1 hj
        simp [dropIn, hj', this]
      · intro y hy hne hj2
        obtain ⟨y, hyt, rfl⟩ := List.mem_map.1 hy; have hy := hyt
        exact ho' y hy hne (List.mem_of_mem_filter hj2)

theorem releaseTargets_mem (is : List String) {tmp r : List NC} (h : releaseTargets d is tmp = .ok r) :
    ∀ i ∈ is, ∃ t, flowTarget d i = .ok t ∧ ∃ y ∈ tmp, y.id = t := by
  induction is generalizing tmp with
  | nil => simp
  | cons j l ih =>
    rw [releaseTargets] at h
    cases ht : flowTarget d j with
    | error e => rw [ht] at h; cases h
    | ok t =>
      rw [ht] at h
      simp only [bind, Except.bind] at h
      cases hr : removeIn j t tmp with
      | error e => rw [hr] at h; cases h
      | ok tmp' =>
        rw [hr] at h
        obtain ⟨h1, h2⟩ := removeIn_mem hr
        intro i hi
        rcases List.mem_cons.1 hi with rfl | hi
        · exact ⟨t, ht, h1⟩
        · obtain ⟨t', ht', y, hy, e⟩ := ih h i hi
          have : t' ∈ tmp'.map (·.id) := List.mem_map.2 ⟨y, hy, e⟩
          rw [h2] at this
          obtain ⟨y, hy, e⟩ := List.mem_map.1 this
          exact ⟨t', ht', y, hy, e⟩

/-! ### Taking a free node -/

/-- Same source, hence same node. -/
theorem Good.out_unique {all : List NC} (g : Good d all) {a b : NC} (ha : a ∈ all) (hb : b ∈ all) {i : String} (h1 : i ∈ a.outs)
    (h2 : i ∈ b.outs) : a = b := by
  have e1 := (g.out a ha i h1).1
  have e2 := (g.out b hb i h2).1
  rw [e1] at e2
  exact g.id_inj ha hb (by simpa using e2)

theorem Good.in_unique {all : List NC} (g : Good d all) {a b : NC} (ha : a ∈ all) (hb : b ∈ all) {i : String} (h1 : i ∈ a.ins)
    (h2 : i ∈ b.ins) : a = b := by
  have e1 := (g.inn a ha i h1).1
  have e2 := (g.inn b hb i h2).1
  rw [e1] at e2
  exact g.id_inj ha hb (by simpa using e2)

/-- The target of an open flow of a node still to be sorted has not been sorted. -/
theorem Inv.target_not_sorted {all tmp sorted : List NC} {back} (g : Good d all) (v : Inv d all tmp sorted back) {x : NC}
    (hx : x ∈ tmp) {i : String} (hi : i ∈ x.outs) {m : NC} (hm : m ∈ all) (ht : flowTarget d i = .ok m.id) :
    ∃ y ∈ tmp, y.id = m.id := by
  obtain ⟨c, hc, e, -, -, -, hci, hco⟩ := v.cur x hx
  obtain ⟨hic, hib⟩ := (hco i).1 hi
  rcases v.mem_all hm with ⟨s, hs, he⟩ | h
  · exfalso
    have hsm : s = m := g.id_inj (v.sub s hs) hm he
    subst hsm
    have him := g.outIn c hc i hic s hm ht
    obtain ⟨pre, post, hsp⟩ := List.append_of_mem hs
    obtain ⟨src, h1, h2⟩ := v.order pre s post hsp i him hib
    rw [(g.out c hc i hic).1] at h1
    cases h1
    obtain ⟨y, hy, he'⟩ := List.mem_map.1 h2
    exact v.disj g (s := y) (by rw [hsp]; simp [hy]) hx (he'.trans e.symm)
  · exact h

theorem Inv.in_of_out {all tmp sorted : List NC} {back} (g : Good d all) (v : Inv d all tmp sorted back) {x y : NC}
    (hx : x ∈ tmp) {i : String} (hi : i ∈ x.outs) (hy : y ∈ tmp) (ht : flowTarget d i = .ok y.id) : i ∈ y.ins := by
  obtain ⟨c, hc, e, -, -, -, hci, hco⟩ := v.cur x hx
  obtain ⟨hic, hib⟩ := (hco i).1 hi
  obtain ⟨c', hc', e', -, -, -, hci', -⟩ := v.cur y hy
  refine (hci' i).2 ⟨g.outIn c hc i hic c' hc' (e' ▸ ht), hib, ?_⟩
  rintro ⟨s, hs, his⟩
  have := g.out_unique (v.sub s hs) hc his hic
  subst this
  exact v.disj g hs hx e.symm

theorem takeNode_ok {all tmp sorted : List NC} {back} (g : Good d all) (v : Inv d all tmp sorted back) {x : NC} (hx : x ∈ tmp)
    (hx0 : x.ins = []) (ht : ∀ i ∈ x.outs, ∃ t, flowTarget d i = .ok t ∧ ∃ y ∈ tmp, y.id = t) :
    ∃ y ∈ all, y.id = x.id ∧ takeNode d all x tmp sorted = .ok ((tmp.erase x).map (dropIn x.outs), sorted ++ [y]) ∧
      Inv d all ((tmp.erase x).map (dropIn x.outs)) (sorted ++ [y]) back := by
  have hcur := v.cur x hx
  obtain ⟨c, hc, e, hlab, hnin, hnout, hci, hco⟩ := hcur
  have hnod := v.tmp_nodup g
  have tmpnd : tmp.Nodup := hnod.of_map
  have emem : ∀ y, y ∈ tmp.erase x ↔ y ≠ x ∧ y ∈ tmp := fun y => tmpnd.mem_erase_iff
  have idne : ∀ y ∈ tmp, y ≠ x → y.id ≠ x.id := fun y hy hne he => hne (List.inj_on_of_nodup_map hnod hy hx he)
  have sub : (tmp.erase x).Sublist tmp := List.erase_sublist
  have find : all.find? (fun y => y.id == x.id) = some c := by
    cases hf : all.find? (fun y => y.id == x.id) with
    | none =>
      have := List.find?_eq_none.1 hf c hc
      simp [e] at this
    | some z =>
      have h1 := List.find?_some hf
      have h2 := List.mem_of_find?_eq_some hf
      rw [g.id_inj h2 hc (by simpa [e] using h1)]
  have rel : releaseTargets d x.outs (tmp.erase x) = .ok ((tmp.erase x).map (dropIn x.outs)) := by
    apply releaseTargets_ok _ (hnod.sublist (sub.map _)) _ hnout
    · intro i hi
      obtain ⟨t, h1, y, hy, he⟩ := ht i hi
      have hin := v.in_of_out g hx hi hy (by rw [he]; exact h1)
      have hne : y ≠ x := by rintro rfl; rw [hx0] at hin; cases hin
      refine ⟨t, h1, ⟨y, (emem y).2 ⟨hne, hy⟩, he, hin⟩, ?_⟩
      intro z hz hzne hiz
      obtain ⟨cz, hcz, ez, -, -, -, hcz', -⟩ := v.cur z ((emem z).1 hz).2
      have h2 := (g.inn cz hcz i ((hcz' i).1 hiz).1).1
      rw [h1] at h2
      cases h2
      exact hzne ez
    · intro y hy
      obtain ⟨cz, hcz, ez, -, h1, -⟩ := v.cur y (sub.subset hy)
      exact h1
  refine ⟨c, hc, e.symm, ?_, ?_⟩
  · simp only [takeNode, pyRemove, hx, if_true, bind, Except.bind, find, rel, pure, Except.pure]
  · refine ⟨?_, ?_, ?_, ?_, v.backJoin⟩
    · refine List.Perm.trans ?_ v.perm
      have h1 : (sorted ++ [c] ++ (tmp.erase x).map (dropIn x.outs)).map (·.id) = (sorted ++ x :: tmp.erase x).map (·.id) := by
        simp [dropIn, List.map_map, Function.comp_def, e]
      rw [h1]
      exact ((List.perm_cons_erase hx).symm.append_left sorted).map _
    · intro s hs
      rcases List.mem_append.1 hs with hs | hs
      · exact v.sub s hs
      · simp only [List.mem_singleton] at hs; subst hs; exact hc
    · intro y' hy'
      obtain ⟨y, hy, rfl⟩ := List.mem_map.1 hy'
      obtain ⟨hyx, hy⟩ := (emem y).1 hy
      obtain ⟨cy, hcy, ey, hl, h1, h2, h3, h4⟩ := v.cur y hy
      refine ⟨cy, hcy, ey, hl, h1.filter _, h2, ?_, h4⟩
      intro i
      simp only [dropIn, List.mem_filter, decide_eq_true_eq, h3 i, List.mem_append, List.mem_singleton, or_and_right, exists_or,
        exists_eq_left]
      constructor
      · rintro ⟨⟨a, b, hns⟩, hnx⟩
        refine ⟨a, b, ?_⟩
        rintro (h | h)
        · exact hns h
        · exact hnx ((hco i).2 ⟨h, b⟩)
      · rintro ⟨a, b, hns⟩
        exact ⟨⟨a, b, fun h => hns (.inl h)⟩, fun h => hns (.inr ((hco i).1 h).1)⟩
    · intro pre m post hs i hi hib
      rcases List.append_eq_append_iff.1 hs with ⟨as, h1, h2⟩ | ⟨bs, h1, h2⟩
      · -- m is the new element
        cases as with
        | nil =>
          simp only [List.append_nil] at h1
          simp only [List.nil_append, List.cons.injEq] at h2
          obtain ⟨rfl, -⟩ := h2
          obtain ⟨hf, src, hsrc⟩ := g.inn c hc i hi
          refine ⟨src, hsrc, ?_⟩
          have hnot : ¬(i ∈ c.ins ∧ i ∉ back ∧ ¬∃ s ∈ sorted, i ∈ s.outs) := by
            rw [← hci i, hx0]; simp
          have : ∃ s ∈ sorted, i ∈ s.outs := by
            by_contra hcon; exact hnot ⟨hi, hib, hcon⟩
          obtain ⟨s, hs, his⟩ := this
          have := (g.out s (v.sub s hs) i his).1
          rw [hsrc] at this
          cases this
          rw [h1]
          exact List.mem_map_of_mem hs
        | cons a as =>
          have := congrArg List.length h2
          simp at this
      · cases bs with
        | nil =>
          simp only [List.append_nil] at h1
          simp only [List.nil_append, List.cons.injEq] at h2
          obtain ⟨rfl, -⟩ := h2
          obtain ⟨hf, src, hsrc⟩ := g.inn m hc i hi
          refine ⟨src, hsrc, ?_⟩
          have hnot : ¬(i ∈ m.ins ∧ i ∉ back ∧ ¬∃ s ∈ sorted, i ∈ s.outs) := by
            rw [← hci i, hx0]; simp
          have : ∃ s ∈ sorted, i ∈ s.outs := by
            by_contra hcon; exact hnot ⟨hi, hib, hcon⟩
          obtain ⟨s, hs, his⟩ := this
          have := (g.out s (v.sub s hs) i his).1
          rw [hsrc] at this
          cases this
          rw [← h1]
          exact List.mem_map_of_mem hs
        | cons b bs =>
          simp only [List.cons_append, List.cons.injEq] at h2
          obtain ⟨rfl, h2⟩ := h2
          exact v.order pre m bs h1 i hi hib

theorem takeNode_mem {all tmp sorted : List NC} {x : NC} {r} (hnod : (tmp.map (·.id)).Nodup)
    (h : takeNode d all x tmp sorted = .ok r) : ∀ i ∈ x.outs, ∃ t, flowTarget d i = .ok t ∧ ∃ y ∈ tmp, y.id = t := by
  unfold takeNode at h
  cases hp : pyRemove tmp x with
  | error e => rw [hp] at h; cases h
  | ok tmp' =>
    rw [hp] at h
    simp only [bind, Except.bind] at h
    cases hf : all.find? (fun y => y.id == x.id) with
    | none => rw [hf] at h; cases h
    | some y =>
      rw [hf] at h
      simp only [bind, Except.bind] at h
      cases hr : releaseTargets d x.outs tmp' with
      | error e => rw [hr] at h; cases h
      | ok tmp'' =>
        have hsub : tmp' ⊆ tmp := by
          unfold pyRemove at hp
          split at hp
          · cases hp; exact List.erase_subset
          · cases hp
        intro i hi
        obtain ⟨t, ht, y, hy, e⟩ := releaseTargets_mem _ hr i hi
        exact ⟨t, ht, y, hsub hy, e⟩

/-- The whole inner loop keeps the invariant (if it does not raise) and takes exactly the nodes of the list. -/
theorem takeNodes_inv {all : List NC} {back} (g : Good d all) (xs : List NC) {tmp sorted : List NC} {r}
    (v : Inv d all tmp sorted back) (hxs : xs.Nodup) (hx : ∀ x ∈ xs, x ∈ tmp ∧ x.ins = [])
    (h : takeNodes d all xs tmp sorted = .ok r) :
    Inv d all r.1 r.2 back ∧ r.1.length + xs.length = tmp.length := by
  induction xs generalizing tmp sorted with
  | nil => cases h; exact ⟨v, by simp⟩
  | cons x l ih =>
    rw [takeNodes] at h
    cases ht : takeNode d all x tmp sorted with
    | error e => rw [ht] at h; cases h
    | ok p =>
      obtain ⟨hx1, hx0⟩ := hx x (by simp)
      obtain ⟨y, hy, -, e, v'⟩ := takeNode_ok g v hx1 hx0 (takeNode_mem (v.tmp_nodup g) ht)
      rw [e] at h
      simp only [bind, Except.bind] at h
      have := ih v' (List.nodup_cons.1 hxs).2 ?_ h
      · refine ⟨this.1, ?_⟩
        have h2 := this.2
        have h3 := List.length_erase_of_mem hx1
        have h4 : 0 < tmp.length := List.length_pos_of_mem hx1
        simp only [List.length_map, List.length_cons] at h2 ⊢
        omega
      · intro z hz
        obtain ⟨hz1, hz0⟩ := hx z (by simp [hz])
        have hne : z ≠ x := by rintro rfl; exact (List.nodup_cons.1 hxs).1 hz
        refine ⟨?_, hz0⟩
        have : dropIn x.outs z = z := by obtain ⟨a, b, c, d⟩ := z; simp only at hz0; subst hz0; rfl
        rw [← this]
        apply List.mem_map_of_mem
        exact (v.tmp_nodup g).of_map.mem_erase_iff.2 ⟨hne, hz1⟩

/-- When both ends of every flow are classified the inner loop does not raise. -/
theorem takeNodes_ok {all : List NC} {back} (g : Good d all) (hcl : Closed d all) (xs : List NC) {tmp sorted : List NC}
    (v : Inv d all tmp sorted back) (hxs : xs.Nodup) (hx : ∀ x ∈ xs, x ∈ tmp ∧ x.ins = []) :
    ∃ r, takeNodes d all xs tmp sorted = .ok r := by
  induction xs generalizing tmp sorted with
  | nil => exact ⟨_, rfl⟩
  | cons x l ih =>
    obtain ⟨hx1, hx0⟩ := hx x (by simp)
    have targets : ∀ i ∈ x.outs, ∃ t, flowTarget d i = .ok t ∧ ∃ y ∈ tmp, y.id = t := by
      intro i hi
      obtain ⟨c, hc, -, -, -, -, -, hco⟩ := v.cur x hx1
      obtain ⟨m, hm, ht⟩ := hcl.1 c hc i ((hco i).1 hi).1
      exact ⟨m.id, ht, v.target_not_sorted g hx1 hi hm ht⟩
    obtain ⟨y, hy, -, e, v'⟩ := takeNode_ok g v hx1 hx0 targets
    rw [takeNodes, e]
    simp only [bind, Except.bind]
    apply ih v' (List.nodup_cons.1 hxs).2
    intro z hz
    obtain ⟨hz1, hz0⟩ := hx z (by simp [hz])
    have hne : z ≠ x := by rintro rfl; exact (List.nodup_cons.1 hxs).1 hz
    refine ⟨?_, hz0⟩
    have : dropIn x.outs z = z := by obtain ⟨a, b, c, d⟩ := z; simp only at hz0; subst hz0; rfl
    rw [← this]
    apply List.mem_map_of_mem
    exact (v.tmp_nodup g).of_map.mem_erase_iff.2 ⟨hne, hz1⟩

/-! ### Cutting joins -/

theorem dropBoth_dropBoth (a : String) (l : List String) (y : NC) : dropBoth l (dropBoth [a] y) = dropBoth (a :: l) y := by
  simp only [dropBoth, List.filter_filter]
  congr 1 <;>
  · apply List.filter_congr
    intro i hi
    by_cases h1 : i = a <;> by_cases h2 : i ∈ l <;> simp [h1, h2]

theorem cutFlows_ok (is : List String) {tmp : List NC} (back : List String) (hn : (tmp.map (·.id)).Nodup)
    (hl : ∀ y ∈ tmp, y.ins.Nodup ∧ y.outs.Nodup) (his : is.Nodup)
    (h : ∀ i ∈ is, ∃ s t, flowSource d i = .ok s ∧ flowTarget d i = .ok t ∧
      ((∃ y ∈ tmp, y.id = s ∧ i ∈ y.outs) ∧ ∀ y ∈ tmp, y.id ≠ s → i ∉ y.outs) ∧
      ((∃ y ∈ tmp, y.id = t ∧ i ∈ y.ins) ∧ ∀ y ∈ tmp, y.id ≠ t → i ∉ y.ins)) :
    cutFlows d is tmp back = .ok (tmp.map (dropBoth is), back ++ is) := by
  induction is generalizing tmp back with
  | nil =>
    have : dropBoth [] = id := by funext y; simp [dropBoth]
    simp [cutFlows, this]
  | cons i r ih =>
    obtain ⟨s, t, hs, ht, ⟨hy1, ho1⟩, hy2, ho2⟩ := h i (by simp)
    rw [cutFlows, hs]
    simp only [bind, Except.bind]
    rw [removeOut_ok hn (fun y hy => (hl y hy).2) hy1 ho1]
    simp only [ht]
    rw [removeIn_ok]
    rotate_left
    · simpa [List.map_map, Function.comp_def] using hn
    · intro y hy
      obtain ⟨y, hyt, rfl⟩ := List.mem_map.1 hy; have hy := hyt
      exact (hl y hy).1
    · obtain ⟨y, hy, e, hi⟩ := hy2
      exact ⟨_, List.mem_map_of_mem hy, e, hi⟩
    · intro y hy hne
      obtain ⟨y, hyt, rfl⟩ := List.mem_map.1 hy; have hy := hyt
      exact ho2 y hy hne
    simp only [List.map_map]
    have e1 : (dropIn [i] ∘ fun y : NC => ({ y with outs := y.outs.filter (· ∉ [i]) } : NC)) = dropBoth [i] := rfl
    rw [e1, ih]
    · simp only [List.map_map, Except.ok.injEq, Prod.mk.injEq, List.append_assoc, List.singleton_append, and_true]
      apply List.map_congr_left
      intro y hy
      exact dropBoth_dropBoth i r y
    · simpa [List.map_map, Function.comp_def, dropBoth] using hn
    · intro y hy
      obtain ⟨y, hyt, rfl⟩ := List.mem_map.1 hy; have hy := hyt
      exact ⟨(hl y hy).1.filter _, (hl y hy).2.filter _⟩
    · exact (List.nodup_cons.1 his).2
    · intro j hj
      have hne : j ≠ i := by rintro rfl; exact (List.nodup_cons.1 his).1 hj
      obtain ⟨s', t', hs', ht', ⟨⟨y, hy, e, hj'⟩, ho'⟩, ⟨z, hz, ez, hjz⟩, ho''⟩ := h j (by simp [hj])
      refine ⟨s', t', hs', ht', ⟨⟨dropBoth [i] y, List.mem_map_of_mem hy, e, ?_⟩, ?_⟩, ⟨dropBoth [i] z, List.mem_map_of_mem hz, ez, ?_⟩, ?_⟩
      · simp [dropBoth, hj', hne]
      · intro y hy hne hj2
        obtain ⟨y, hyt, rfl⟩ := List.mem_map.1 hy; have hy := hyt
        exact ho' y hy hne (List.mem_of_mem_filter hj2)
      · simp [dropBoth, hjz, hne]
      · intro y hy hne hj2
        obtain ⟨y, hyt, rfl⟩ := List.mem_map.1 hy; have hy := hyt
        exact ho'' y hy hne (List.mem_of_mem_filter hj2)

theorem cutFlows_mem (is : List String) {tmp : List NC} {back : List String} {r} (h : cutFlows d is tmp back = .ok r) :
    ∀ i ∈ is, ∃ s, flowSource d i = .ok s ∧ ∃ y ∈ tmp, y.id = s := by
  induction is generalizing tmp back with
  | nil => simp
  | cons j l ih =>
    rw [cutFlows] at h
    cases hs : flowSource d j with
    | error e => rw [hs] at h; cases h
    | ok s =>
      rw [hs] at h
      simp only [bind, Except.bind] at h
      cases hr : removeOut j s tmp with
      | error e => rw [hr] at h; cases h
      | ok tmp' =>
        rw [hr] at h
        simp only at h
        cases ht : flowTarget d j with
        | error e => rw [ht] at h; cases h
        | ok t =>
          rw [ht] at h
          simp only at h
          cases hr2 : removeIn j t tmp' with
          | error e => rw [hr2] at h; cases h
          | ok tmp'' =>
            rw [hr2] at h
            obtain ⟨h1, h2⟩ := removeOut_mem hr
            obtain ⟨-, h3⟩ := removeIn_mem hr2
            intro i hi
            rcases List.mem_cons.1 hi with rfl | hi
            · exact ⟨s, hs, h1⟩
            · obtain ⟨t', ht', y, hy, e⟩ := ih h i hi
              have : t' ∈ tmp''.map (·.id) := List.mem_map.2 ⟨y, hy, e⟩
              rw [h3, h2] at this
              obtain ⟨y, hy, e⟩ := List.mem_map.1 this
              exact ⟨t', ht', y, hy, e⟩

/-- Cutting the incoming flows of a join keeps the invariant. -/
theorem cutFlows_inv {all tmp sorted : List NC} {back} (g : Good d all) (v : Inv d all tmp sorted back) {x : NC} (hx : x ∈ tmp)
    (hj : "Join" ∈ x.labels) (hs : ∀ i ∈ x.ins, ∃ s, flowSource d i = .ok s ∧ ∃ y ∈ tmp, y.id = s) :
    cutFlows d x.ins tmp back = .ok (tmp.map (dropBoth x.ins), back ++ x.ins) ∧
    Inv d all (tmp.map (dropBoth x.ins)) sorted (back ++ x.ins) := by
  obtain ⟨c, hc, e, hlab, hnin, hnout, hci, hco⟩ := v.cur x hx
  constructor
  · apply cutFlows_ok _ _ (v.tmp_nodup g) _ hnin
    · intro i hi
      obtain ⟨s, h1, y, hy, hys⟩ := hs i hi
      obtain ⟨hic, hib, hns⟩ := (hci i).1 hi
      obtain ⟨cy, hcy, ey, -, -, -, hcyi, hcyo⟩ := v.cur y hy
      have ht := (g.inn c hc i hic).1
      refine ⟨s, x.id, h1, e ▸ ht, ⟨⟨y, hy, hys, ?_⟩, ?_⟩, ⟨x, hx, rfl, hi⟩, ?_⟩
      · exact (hcyo i).2 ⟨g.inOut c hc i hic cy hcy (by rw [← ey, hys]; exact h1), hib⟩
      · intro z hz hne hiz
        obtain ⟨cz, hcz, ez, -, -, -, -, hczo⟩ := v.cur z hz
        have h2 := (g.out cz hcz i ((hczo i).1 hiz).1).1
        rw [h1] at h2
        cases h2
        exact hne ez
      · intro z hz hne hiz
        obtain ⟨cz, hcz, ez, -, -, -, hczi, -⟩ := v.cur z hz
        have h2 := (g.inn cz hcz i ((hczi i).1 hiz).1).1
        rw [ht] at h2
        have h3 : c.id = cz.id := by simpa using h2
        exact hne (by rw [ez, e, h3])
    · intro y hy
      obtain ⟨cy, hcy, ey, -, h1, h2, -⟩ := v.cur y hy
      exact ⟨h1, h2⟩
  · refine ⟨?_, v.sub, ?_, ?_, ?_⟩
    · have h1 : (sorted ++ tmp.map (dropBoth x.ins)).map (·.id) = (sorted ++ tmp).map (·.id) := by
        simp [dropBoth, List.map_map, Function.comp_def]
      rw [h1]; exact v.perm
    · intro y' hy'
      obtain ⟨y, hy, rfl⟩ := List.mem_map.1 hy'
      obtain ⟨cy, hcy, ey, hl, h1, h2, h3, h4⟩ := v.cur y hy
      refine ⟨cy, hcy, ey, hl, h1.filter _, h2.filter _, ?_, ?_⟩
      · intro i
        simp only [dropBoth, List.mem_filter, decide_eq_true_eq, h3 i, List.mem_append, not_or]
        constructor
        · rintro ⟨⟨a, b, c⟩, d⟩; exact ⟨a, ⟨b, d⟩, c⟩
        · rintro ⟨a, ⟨b, d⟩, c⟩; exact ⟨⟨a, b, c⟩, d⟩
      · intro i
        simp only [dropBoth, List.mem_filter, decide_eq_true_eq, h4 i, List.mem_append, not_or]
        constructor
        · rintro ⟨⟨a, b⟩, d⟩; exact ⟨a, b, d⟩
        · rintro ⟨a, b, d⟩; exact ⟨⟨a, b⟩, d⟩
    · intro pre m post hs i hi hib
      exact v.order pre m post hs i hi (fun h => hib (by simp [h]))
    · intro i hi
      rcases List.mem_append.1 hi with hi | hi
      · exact v.backJoin i hi
      · exact ⟨c, hc, hlab ▸ hj, ((hci i).1 hi).1⟩

/-- What the `else` branch leaves: same nodes and labels, no new open incoming flow. -/
def Shrinks (tmp tmp' : List NC) : Prop :=
  tmp'.length = tmp.length ∧ ∀ k (h : k < tmp.length) (h' : k < tmp'.length),
    tmp'[k].id = tmp[k].id ∧ tmp'[k].labels = tmp[k].labels ∧ (tmp[k].ins = [] → tmp'[k].ins = [])

theorem Shrinks.refl (tmp : List NC) : Shrinks tmp tmp := ⟨rfl, fun k h h' => ⟨rfl, rfl, id⟩⟩

theorem Shrinks.trans {a b c : List NC} (h1 : Shrinks a b) (h2 : Shrinks b c) : Shrinks a c := by
  refine ⟨h2.1.trans h1.1, fun k h h' => ?_⟩
  have hb : k < b.length := by rw [h1.1]; exact h
  obtain ⟨a1, a2, a3⟩ := h1.2 k h hb
  obtain ⟨b1, b2, b3⟩ := h2.2 k hb h'
  exact ⟨b1.trans a1, b2.trans a2, fun e => b3 (a3 e)⟩

theorem shrinks_dropBoth (tmp : List NC) (is : List String) : Shrinks tmp (tmp.map (dropBoth is)) := by
  refine ⟨by simp, fun k h h' => ?_⟩
  simp only [List.getElem_map, dropBoth, true_and]
  intro e; rw [e]; rfl

theorem cutJoins_inv {all sorted : List NC} (g : Good d all) (ks : List Nat) {tmp : List NC} {back} {r}
    (v : Inv d all tmp sorted back) (h : cutJoins d ks tmp back = .ok r) :
    Inv d all r.1 sorted r.2 ∧ Shrinks tmp r.1 ∧
      ∀ k ∈ ks, ∀ hk : k < r.1.length, "Join" ∈ r.1[k].labels → r.1[k].ins = [] := by
  induction ks generalizing tmp back with
  | nil => cases h; exact ⟨v, Shrinks.refl _, by simp⟩
  | cons k l ih =>
    rw [cutJoins] at h
    simp only [pyIndex] at h
    cases hk : tmp[k]? with
    | none => rw [hk] at h; cases h
    | some x =>
      rw [hk] at h
      simp only [bind, Except.bind] at h
      obtain ⟨hlt, hget⟩ := List.getElem?_eq_some_iff.1 hk
      have hx : x ∈ tmp := List.mem_of_getElem? hk
      by_cases hj : "Join" ∈ x.labels
      · rw [if_pos hj] at h
        cases hc : cutFlows d x.ins tmp back with
        | error e => rw [hc] at h; cases h
        | ok p =>
          obtain ⟨e, v'⟩ := cutFlows_inv g v hx hj (cutFlows_mem _ hc)
          rw [hc] at h
          rw [e] at hc
          cases hc
          simp only at h
          obtain ⟨h1, h2, h3⟩ := ih v' h
          refine ⟨h1, (shrinks_dropBoth tmp x.ins).trans h2, ?_⟩
          intro k' hk' hlt' hl
          rcases List.mem_cons.1 hk' with rfl | hk'
          · refine (h2.2 k' (by simpa using hlt) hlt').2.2 ?_
            simp only [List.getElem_map, hget, dropBoth, List.filter_eq_nil_iff]
            simp
          · exact h3 k' hk' hlt' hl
      · rw [if_neg hj] at h
        obtain ⟨h1, h2, h3⟩ := ih v h
        refine ⟨h1, h2, ?_⟩
        intro k' hk' hlt' hl
        rcases List.mem_cons.1 hk' with rfl | hk'
        · rw [(h2.2 k' hlt hlt').2.1, hget] at hl
          exact absurd hl hj
        · exact h3 k' hk' hlt' hl

/-- The source of an open incoming flow is still to be sorted, if it is classified. -/
theorem Inv.source_in_tmp {all tmp sorted : List NC} {back} (g : Good d all) (v : Inv d all tmp sorted back) {x : NC}
    (hx : x ∈ tmp) {i : String} (hi : i ∈ x.ins) {m : NC} (hm : m ∈ all) (hs : flowSource d i = .ok m.id) :
    ∃ y ∈ tmp, y.id = m.id := by
  obtain ⟨c, hc, e, -, -, -, hci, -⟩ := v.cur x hx
  obtain ⟨hic, hib, hns⟩ := (hci i).1 hi
  rcases v.mem_all hm with ⟨s, hs', he⟩ | h
  · exfalso
    have hsm : s = m := g.id_inj (v.sub s hs') hm he
    subst hsm
    exact hns ⟨s, hs', g.inOut c hc i hic s hm hs⟩
  · exact h

theorem cutJoins_ok {all sorted : List NC} (g : Good d all) (hcl : Closed d all) (ks : List Nat) {tmp : List NC} {back}
    (v : Inv d all tmp sorted back) (hks : ∀ k ∈ ks, k < tmp.length) : ∃ r, cutJoins d ks tmp back = .ok r := by
  induction ks generalizing tmp back with
  | nil => exact ⟨_, rfl⟩
  | cons k l ih =>
    have hk := hks k (by simp)
    rw [cutJoins]
    simp only [pyIndex, List.getElem?_eq_getElem hk, bind, Except.bind]
    have hx : tmp[k] ∈ tmp := List.getElem_mem hk
    by_cases hj : "Join" ∈ tmp[k].labels
    · rw [if_pos hj]
      obtain ⟨e, v'⟩ := cutFlows_inv g v hx hj (by
        intro i hi
        obtain ⟨c, hc, -, -, -, -, hci, -⟩ := v.cur _ hx
        obtain ⟨m, hm, hs⟩ := hcl.2 c hc i ((hci i).1 hi).1
        exact ⟨m.id, hs, v.source_in_tmp g hx hi hm hs⟩)
      rw [e]
      exact ih v' (fun k hk => by simpa using hks k (by simp [hk]))
    · rw [if_neg hj]
      exact ih v (fun k hk => hks k (by simp [hk]))

/-! ### The whole loop -/

theorem free_mem {tmp : List NC} {x : NC} (h : x ∈ (tmp.filter fun x => x.ins.length == 0).reverse) : x ∈ tmp ∧ x.ins = [] := by
  simp only [List.mem_reverse, List.mem_filter, beq_iff_eq, List.length_eq_zero_iff] at h
  exact h

theorem Inv.free_nodup {all tmp sorted : List NC} {back} (g : Good d all) (v : Inv d all tmp sorted back) :
    (tmp.filter fun x => x.ins.length == 0).reverse.Nodup :=
  List.nodup_reverse.2 ((v.tmp_nodup g).of_map.filter _)

/-- Partial correctness: whenever the sorting ends, the invariant holds with nothing left. -/
theorem sortLoop_inv {all : List NC} (g : Good d all) (fuel : Nat) {tmp sorted : List NC} {back} {r}
    (v : Inv d all tmp sorted back) (h : sortLoop d all fuel tmp sorted back = .ok r) : Inv d all [] r.1 r.2 := by
  induction fuel generalizing tmp sorted back with
  | zero => cases h
  | succ fuel ih =>
    rw [sortLoop] at h
    split at h
    · rename_i e
      subst e
      cases h
      exact v
    · simp only at h
      split at h
      · cases ht : takeNodes d all (tmp.filter fun x => x.ins.length == 0).reverse tmp sorted with
        | error e => rw [ht] at h; cases h
        | ok p =>
          rw [ht] at h
          exact ih (takeNodes_inv g _ v (v.free_nodup g) (fun x hx => free_mem hx) ht).1 h
      · cases ht : cutJoins d (List.range tmp.length) tmp back with
        | error e => rw [ht] at h; cases h
        | ok p =>
          rw [ht] at h
          exact ih (cutJoins_inv g _ v ht).1 h

/-- When both ends of every flow are classified the sorting never raises. -/
theorem sortLoop_no_raise {all : List NC} (g : Good d all) (hcl : Closed d all) (fuel : Nat) {tmp sorted : List NC} {back}
    (v : Inv d all tmp sorted back) :
    (∃ r, sortLoop d all fuel tmp sorted back = .ok r) ∨ sortLoop d all fuel tmp sorted back = .error .outOfFuel := by
  induction fuel generalizing tmp sorted back with
  | zero => exact .inr rfl
  | succ fuel ih =>
    rw [sortLoop]
    split
    · exact .inl ⟨_, rfl⟩
    · simp only
      split
      · obtain ⟨p, ht⟩ := takeNodes_ok g hcl _ v (v.free_nodup g) (fun x hx => free_mem hx)
        rw [ht]
        exact ih (takeNodes_inv g _ v (v.free_nodup g) (fun x hx => free_mem hx) ht).1
      · obtain ⟨p, ht⟩ := cutJoins_ok g hcl (List.range tmp.length) v (by simp)
        rw [ht]
        exact ih (cutJoins_inv g _ v ht).1

/-- If, whenever nothing is free, some join is left, the sorting ends within `2 n + 2` rounds. -/
theorem sortLoop_ends {all : List NC} (g : Good d all) (hcl : Closed d all)
    (progress : ∀ tmp sorted back, Inv d all tmp sorted back → tmp ≠ [] → (∀ x ∈ tmp, x.ins ≠ []) → ∃ x ∈ tmp, "Join" ∈ x.labels)
    (fuel : Nat) {tmp sorted : List NC} {back} (v : Inv d all tmp sorted back)
    (hf : 2 * tmp.length + (if ∃ x ∈ tmp, x.ins = [] then 0 else 1) < fuel) :
    ∃ r, sortLoop d all fuel tmp sorted back = .ok r := by
  induction fuel generalizing tmp sorted back with
  | zero => omega
  | succ fuel ih =>
    rw [sortLoop]
    split
    · exact ⟨_, rfl⟩
    · rename_i hne
      simp only
      split
      · rename_i hfree
        obtain ⟨p, ht⟩ := takeNodes_ok g hcl _ v (v.free_nodup g) (fun x hx => free_mem hx)
        rw [ht]
        obtain ⟨v', hlen⟩ := takeNodes_inv g _ v (v.free_nodup g) (fun x hx => free_mem hx) ht
        apply ih v'
        have hp : 0 < (tmp.filter fun x => x.ins.length == 0).reverse.length := by simpa using hfree
        have : (if ∃ x ∈ p.1, x.ins = [] then 0 else 1) ≤ 1 := by split <;> omega
        omega
      · rename_i hfree
        have hno : ∀ x ∈ tmp, x.ins ≠ [] := by
          intro x hx e
          apply hfree
          apply List.length_pos_of_mem (a := x)
          simp [hx, e]
        obtain ⟨p, ht⟩ := cutJoins_ok g hcl (List.range tmp.length) v (by simp)
        rw [ht]
        obtain ⟨v', hsh, hcut⟩ := cutJoins_inv g _ v ht
        apply ih v'
        obtain ⟨x, hx, hj⟩ := progress tmp sorted back v hne hno
        obtain ⟨k, hk, hxk⟩ := List.mem_iff_getElem.1 hx
        have hk' : k < p.1.length := by rw [hsh.1]; exact hk
        have hlab : "Join" ∈ p.1[k].labels := by
          rw [(hsh.2 k hk hk').2.1, hxk]; exact hj
        have : ∃ x ∈ p.1, x.ins = [] := ⟨p.1[k], List.getElem_mem _, hcut k (by simp [hk]) hk' hlab⟩
        have h2 : ¬∃ x ∈ tmp, x.ins = [] := by rintro ⟨x, hx, e⟩; exact hno x hx e
        rw [if_neg h2] at hf
        rw [if_pos this, hsh.1]
        omega

/-- If something is always free, no flow is reported as backward. -/
theorem sortLoop_no_back {all : List NC} (g : Good d all)
    (progress : ∀ tmp sorted back, Inv d all tmp sorted back → tmp ≠ [] → ∃ x ∈ tmp, x.ins = [])
    (fuel : Nat) {tmp sorted : List NC} {back} {r} (v : Inv d all tmp sorted back)
    (h : sortLoop d all fuel tmp sorted back = .ok r) : r.2 = back := by
  induction fuel generalizing tmp sorted back with
  | zero => cases h
  | succ fuel ih =>
    rw [sortLoop] at h
    split at h
    · cases h; rfl
    · rename_i hne
      simp only at h
      split at h
      · cases ht : takeNodes d all (tmp.filter fun x => x.ins.length == 0).reverse tmp sorted with
        | error e => rw [ht] at h; cases h
        | ok p =>
          rw [ht] at h
          exact ih (takeNodes_inv g _ v (v.free_nodup g) (fun x hx => free_mem hx) ht).1 h
      · rename_i hfree
        exfalso
        obtain ⟨x, hx, e⟩ := progress tmp sorted back v hne
        apply hfree
        apply List.length_pos_of_mem (a := x)
        simp [hx, e]

theorem sortLoop_mono {all : List NC} {f f' : Nat} (hf : f ≤ f') {tmp sorted : List NC} {back} {r}
    (h : sortLoop d all f tmp sorted back = .ok r) : sortLoop d all f' tmp sorted back = .ok r := by
  induction f generalizing f' tmp sorted back with
  | zero => cases h
  | succ f ih =>
    obtain ⟨f', rfl⟩ : ∃ k, f' = k + 1 := ⟨f' - 1, by omega⟩
    rw [sortLoop] at h ⊢
    split
    · rename_i e; rw [if_pos e] at h; exact h
    · rename_i e
      rw [if_neg e] at h
      simp only at h ⊢
      split
      · rename_i e2
        rw [if_pos e2] at h
        cases ht : takeNodes d all (tmp.filter fun x => x.ins.length == 0).reverse tmp sorted with
        | error e => rw [ht] at h; cases h
        | ok p => rw [ht] at h; exact ih (by omega) h
      · rename_i e2
        rw [if_neg e2] at h
        cases ht : cutJoins d (List.range tmp.length) tmp back with
        | error e => rw [ht] at h; cases h
        | ok p => rw [ht] at h; exact ih (by omega) h

/-- In a finite set in which everything has a predecessor there is a cycle. -/
theorem exists_cycle {α : Type} (R : α → α → Prop) (l : List α) (hne : l ≠ []) (h : ∀ a ∈ l, ∃ b ∈ l, R b a) :
    ∃ a ∈ l, Relation.TransGen R a a := by
  by_contra hno
  simp only [not_exists, not_and] at hno
  let r : {a // a ∈ l} → {a // a ∈ l} → Prop := fun a b => Relation.TransGen R a.1 b.1
  have : IsTrans _ r := ⟨fun a b c h1 h2 => h1.trans h2⟩
  have : Std.Irrefl r := ⟨fun a h => hno a.1 a.2 h⟩
  classical
  have : Finite {a // a ∈ l} := @Finite.of_fintype _ (List.Subtype.fintype l)
  have wf := Finite.wellFounded_of_trans_of_irrefl r
  obtain ⟨a, ha⟩ := List.exists_mem_of_ne_nil l hne
  refine wf.induction (C := fun _ => False) ⟨a, ha⟩ ?_
  intro m ih
  obtain ⟨b, hb, hR⟩ := h m.1 m.2
  exact ih ⟨b, hb⟩ (Relation.TransGen.single hR)

end Bpmn.Layouter

import Verif.Props.CsvDrawn
import Verif.Props.Width
import Verif.Spec.CsvEnds
/-!
The places of the nodes of a flat table, also with terminated branches.
-/
set_option linter.unusedSimpArgs false
set_option linter.unusedVariables false

namespace Bpmn.Csv
open Bpmn.Spec Bpmn.Spec.Csv Bpmn.Layouter

section
variable {t : FlatTable} {d : Diagram} {F : List (String × String)}

theorem Made.feeds (m : Made t d F) (g : t.Good) {x y : Id} (hx : x ∈ allIds t) (hy : y ∈ allIds t) : Feeds (nodeAt d x) (nodeAt d y) ↔ Csv.Link t x y := by
  constructor
  · rintro ⟨i, h1, h2⟩
    rw [nodeAt_outs, m.out] at h1
    rw [nodeAt_ins, m.inn] at h2
    obtain ⟨s, hs, rfl⟩ := mem_leaving.1 h1
    obtain ⟨r, hr, e⟩ := mem_entering.1 h2
    have r1 : r ∈ ids d := by
      have : flowId r y.name ∈ outOf d r := by rw [m.out]; exact mem_leaving.2 ⟨_, hr, rfl⟩
      exact outOf_mem this
    obtain ⟨e1, e2⟩ := flowId_inj (m.inv.plain _ (m.known_ids g hx).2) (m.inv.plain _ r1) e
    subst e2
    obtain ⟨z, hz, e⟩ := m.link g (m.known_ids g hx).1 hs
    rwa [Id.name_inj (m.known_ids g hy).1 (hz.small g).2 e]
  · intro h
    refine ⟨flowId x.name y.name, ?_, ?_⟩
    · rw [nodeAt_outs, m.out]; exact mem_leaving.2 ⟨_, m.flow h, rfl⟩
    · rw [nodeAt_ins, m.inn]; exact mem_entering.2 ⟨_, m.flow h, rfl⟩

theorem Made.is_node (m : Made t d F) (g : t.Good) {n : Node} (hn : n ∈ d.getNodes) : ∃ x ∈ allIds t, n = nodeAt d x := by
  obtain ⟨x, hx, e⟩ := List.mem_map.1 ((m.perm g).mem_iff.2 hn)
  exact ⟨x, hx, e.symm⟩

theorem Made.in_diagram (m : Made t d F) (g : t.Good) {x : Id} (hx : x ∈ allIds t) : nodeAt d x ∈ d.getNodes := nodeAt_mem (m.known_ids g hx).2

/-- How far along a node is. -/
def Id.far : Id → Nat
  | .row (.main k) => 20 * k
  | .row (.leg k _ m) => 20 * k + m
  | .split k => 20 * (k + 1)
  | .join k => 20 * (k - 1) + 15

theorem Link.far (g : t.Good) {x y : Id} (h : Csv.Link t x y) : x.far < y.far := by
  cases h with
  | step => simp only [Id.far]; omega
  | enter => simp only [Id.far]; omega
  | branch => simp only [Id.far]; omega
  | inside => simp only [Id.far]; omega
  | close h1 h2 h3 h4 =>
    have := (g.short _ (List.mem_of_getElem? h1) _ (List.mem_of_getElem? h2)).2
    simp only [Id.far]; omega
  | leave => simp only [Id.far]; omega

theorem link_source (g : t.Good) {x y : Id} (h : Csv.Link t x y) : x ∈ allIds t := by
  cases h with
  | step h1 h2 => exact cell_allIds (by rw [h1]; rfl)
  | enter h => obtain ⟨c, h1, -⟩ := block_before g h; exact cell_allIds (by rw [h1]; rfl)
  | @branch k j legs h1 h2 => exact List.mem_cons_of_mem _ (mem_idsFrom.2 (.inr (.inr ⟨k, legs, h1, .inl (by simp)⟩)))
  | inside h1 h2 => exact cell_allIds h1
  | close h1 h2 h3 h4 => subst h4; obtain ⟨⟨c, h⟩, -⟩ := close_cell g h1 h2; exact cell_allIds (by rw [h]; rfl)
  | @leave k legs h1 => exact List.mem_cons_of_mem _ (mem_idsFrom.2 (.inr (.inr ⟨k, legs, h1, .inr (.inl (by simp))⟩)))

theorem Made.acyclic (m : Made t d F) (g : t.Good) : Acyclic d := by
  classical
  refine Props.acyclic_of_feeds m.consistent (fun n => if h : ∃ x ∈ allIds t, n = nodeAt d x then h.choose.far else 0) ?_
  intro a ha b hb hf
  have h1 := m.is_node g ha
  have h2 := m.is_node g hb
  simp only [dif_pos h1, dif_pos h2]
  obtain ⟨i1, e1⟩ := h1.choose_spec
  obtain ⟨i2, e2⟩ := h2.choose_spec
  refine Link.far g ((m.feeds g i1 i2).1 ?_)
  rw [← e1, ← e2]
  exact hf

theorem Made.splits (m : Made t d F) (g : t.Good) {x : Id} (hx : x ∈ allIds t) (h : Splits (nodeAt d x)) : ∃ k, x = .split k := by
  by_contra hc
  push Not at hc
  unfold Splits at h
  obtain ⟨i, hi⟩ := List.exists_mem_of_length_pos (show 0 < (outs (nodeAt d x)).length by omega)
  rw [nodeAt_outs, m.out] at hi
  obtain ⟨s, hs, -⟩ := mem_leaving.1 hi
  obtain ⟨y, hy, -⟩ := m.link g (m.known_ids g hx).1 hs
  rw [m.outs_one g hy hc] at h
  simp at h

theorem Made.joins (m : Made t d F) (g : t.Good) {x : Id} (hx : x ∈ allIds t) (h : Joins (nodeAt d x)) : ∃ k, x = .join k := by
  by_contra hc
  push Not at hc
  unfold Joins at h
  obtain ⟨i, hi⟩ := List.exists_mem_of_length_pos (show 0 < (ins (nodeAt d x)).length by omega)
  rw [nodeAt_ins, m.inn] at hi
  obtain ⟨s, hs, -⟩ := mem_entering.1 hi
  obtain ⟨y, hy, -⟩ := m.link' g (m.known_ids g hx).1 hs
  rw [m.ins_one g hy hc] at h
  simp at h

theorem Made.apart (m : Made t d F) (g : t.Good) : SplitsApart d := by
  intro a ha b hb hf hs hj
  obtain ⟨x, hx, rfl⟩ := m.is_node g ha
  obtain ⟨y, hy, rfl⟩ := m.is_node g hb
  obtain ⟨k, rfl⟩ := m.splits g hx hs
  obtain ⟨q, rfl⟩ := m.joins g hy hj
  have := (m.feeds g hx hy).1 hf
  cases this

/-- The branches that are not terminated, with their numbers. -/
def openLegs (legs : List Leg) : List (Leg × Nat) := legs.zipIdx.filter fun p => !p.1.stops

theorem mem_openLegs {legs : List Leg} {p : Leg × Nat} : p ∈ openLegs legs ↔ legs[p.2]? = some p.1 ∧ p.1.stops = false := by
  simp only [openLegs, List.mem_filter, List.mem_zipIdx_iff_getElem?, Bool.not_eq_true']

theorem openLegs_nodup (legs : List Leg) : (openLegs legs).Nodup := by
  refine List.Nodup.filter _ ?_
  refine List.Nodup.of_map Prod.snd ?_
  rw [List.zipIdx_map_snd]
  exact List.nodup_range'

theorem openLegs_fst (legs : List Leg) : (openLegs legs).map Prod.fst = legs.filter fun l => !l.stops := by
  unfold openLegs
  have : (legs.zipIdx.filter fun p => !p.1.stops) = legs.zipIdx.filter ((fun l : Leg => !l.stops) ∘ Prod.fst) := rfl
  rw [this, ← List.filter_map, List.zipIdx_map_fst]

/-- The last step of a branch. -/
def lastId (k : Nat) (p : Leg × Nat) : Id := .row (.leg (k + 1) p.2 p.1.steps.length)

theorem lastId_inj {k : Nat} {legs : List Leg} {p q : Leg × Nat} (hp : p ∈ openLegs legs) (hq : q ∈ openLegs legs) (h : lastId k p = lastId k q) : p = q := by
  simp only [lastId, Id.row.injEq, Pos.leg.injEq] at h
  have h1 := (mem_openLegs.1 hp).1
  have h2 := (mem_openLegs.1 hq).1
  rw [h.2.1, h2] at h1
  exact Prod.ext (Option.some.inj h1).symm h.2.1

theorem link_join {k : Nat} {legs : List Leg} (hk : t.items[k]? = some (.block legs)) {x : Id} : Csv.Link t x (.join (k + 2)) ↔ ∃ p ∈ openLegs legs, x = lastId k p := by
  constructor
  · intro h
    cases h with
    | @close _ j n legs' leg e1 e2 e3 e4 =>
      rw [hk] at e1
      cases e1
      subst e4
      exact ⟨(leg, j), mem_openLegs.2 ⟨e2, e3⟩, rfl⟩
  · rintro ⟨p, hp, rfl⟩
    obtain ⟨h1, h2⟩ := mem_openLegs.1 hp
    exact Link.close hk h1 h2 rfl

theorem Made.join_ins (m : Made t d F) (g : t.Good) {k : Nat} {legs : List Leg} (hk : t.items[k]? = some (.block legs)) :
    (ins (nodeAt d (.join (k + 2)))).length = (openLegs legs).length := by
  rw [nodeAt_ins, m.inn]
  have hp : (F.filter (·.2 = (Id.join (k + 2)).name)).Perm ((openLegs legs).map fun p => ((lastId k p).name, (Id.join (k + 2)).name)) := by
    refine (List.perm_ext_iff_of_nodup (m.nodup.filter _) ?_).2 ?_
    · refine List.Nodup.map_on ?_ (openLegs_nodup legs)
      intro p hp q hq e
      refine lastId_inj (k := k) hp hq (Id.name_inj (((link_join hk).2 ⟨p, hp, rfl⟩).small g).1 (((link_join hk).2 ⟨q, hq, rfl⟩).small g).1 (congrArg Prod.fst e))
    · rintro ⟨a, b⟩
      simp only [List.mem_filter, decide_eq_true_eq, List.mem_map, Prod.mk.injEq]
      constructor
      · rintro ⟨h1, rfl⟩
        obtain ⟨x, hl, rfl⟩ := m.link' g (y := .join (k + 2)) trivial h1
        obtain ⟨p, hp, rfl⟩ := (link_join hk).1 hl
        exact ⟨p, hp, rfl, rfl⟩
      · rintro ⟨p, hp, rfl, rfl⟩
        exact ⟨m.flow ((link_join hk).2 ⟨p, hp, rfl⟩), rfl⟩
  rw [entering, List.length_map, hp.length_eq, List.length_map]

theorem join_all {k : Nat} {legs : List Leg} (hk : t.items[k]? = some (.block legs)) : Id.join (k + 2) ∈ allIds t :=
  List.mem_cons_of_mem _ (mem_idsFrom.2 (.inr (.inr ⟨k, legs, hk, .inr (.inl (by simp))⟩)))

theorem split_all {k : Nat} {legs : List Leg} (hk : t.items[k]? = some (.block legs)) : Id.split k ∈ allIds t :=
  List.mem_cons_of_mem _ (mem_idsFrom.2 (.inr (.inr ⟨k, legs, hk, .inl (by simp)⟩)))

theorem leg_cell {k j q : Nat} {legs : List Leg} {leg : Leg} (hk : t.items[k]? = some (.block legs)) (hj : legs[j]? = some leg) (hq : q < leg.steps.length) :
    (cell t (.leg (k + 1) j (q + 1))).isSome = true := by
  simp [cell, hk, hj, List.getElem?_eq_getElem hq]

theorem Made.join_before (m : Made t d F) (g : t.Good) {k : Nat} {legs : List Leg} (hk : t.items[k]? = some (.block legs)) :
    (before d (nodeAt d (.join (k + 2)))).Perm ((openLegs legs).map fun p => nodeAt d (lastId k p)) := by
  have nd1 : (before d (nodeAt d (.join (k + 2)))).Nodup := (m.consistent.ids.of_map).filter _
  refine (List.perm_ext_iff_of_nodup nd1 ?_).2 ?_
  · refine List.Nodup.map_on ?_ (openLegs_nodup legs)
    intro p hp q hq e
    exact lastId_inj (k := k) hp hq (Id.name_inj (((link_join hk).2 ⟨p, hp, rfl⟩).small g).1 (((link_join hk).2 ⟨q, hq, rfl⟩).small g).1 (congrArg Prod.fst e))
  · intro n
    rw [mem_before, List.mem_map]
    constructor
    · rintro ⟨hn, hf⟩
      obtain ⟨x, hx, rfl⟩ := m.is_node g hn
      obtain ⟨p, hp, rfl⟩ := (link_join hk).1 ((m.feeds g hx (join_all hk)).1 hf)
      exact ⟨p, hp, rfl⟩
    · rintro ⟨p, hp, rfl⟩
      have hl := (link_join hk).2 ⟨p, hp, rfl⟩
      have hx := link_source g hl
      exact ⟨m.in_diagram g hx, (m.feeds g hx (join_all hk)).2 hl⟩

variable {order : List String} {row col : String → Int}

/-- From a node to the next one that has no other predecessor. -/
theorem Made.next_place (m : Made t d F) (g : t.Good) (hg : OnGrid d order row col) {x y : Id} (h : Csv.Link t x y) (hx : ∀ k, x ≠ .split k) (hy : ∀ k, y ≠ .join k) :
    col y.name = col x.name + 1 ∧ row y.name = row x.name := by
  have i1 := link_source g h
  have i2 := link_allIds g h
  refine hg.line _ (m.in_diagram g i1) _ (m.in_diagram g i2) ((m.feeds g i1 i2).2 h) ?_ ?_
  · intro hs; obtain ⟨k, e⟩ := m.splits g i1 hs; exact hx k e
  · intro hs; obtain ⟨k, e⟩ := m.joins g i2 hs; exact hy k e

/-- The place of a branch among those of its block. -/
def slot (d : Diagram) (order : List String) (k j : Nat) : Nat := placeAmong order (behind d (nodeAt d (.split k))) (Id.row (.leg (k + 1) j 1)).name

theorem Made.split_outs (m : Made t d F) {k : Nat} {legs : List Leg} (hk : t.items[k]? = some (.block legs)) : (outs (nodeAt d (.split k))).length = legs.length := by
  rw [nodeAt_outs, m.out, m.fork k legs hk]; simp

theorem Made.split_splits (m : Made t d F) (g : t.Good) {k : Nat} {legs : List Leg} (hk : t.items[k]? = some (.block legs)) : Splits (nodeAt d (.split k)) := by
  have := g.two legs (List.mem_of_getElem? hk)
  have := List.length_filter_le (fun l : Leg => !l.stops) legs
  unfold Splits
  rw [m.split_outs hk]
  omega

theorem Made.slots (m : Made t d F) (g : t.Good) (ho : FlowOrder d order) {k : Nat} {legs : List Leg} (hk : t.items[k]? = some (.block legs)) :
    (∀ j < legs.length, slot d order k j < legs.length) ∧ (∀ i < legs.length, ∀ j < legs.length, slot d order k i = slot d order k j → i = j) ∧
    ((List.range legs.length).map (slot d order k)).Perm (List.range legs.length) := by
  have hs := m.in_diagram g (split_all hk)
  have ss := m.split_splits g hk
  have lt : ∀ j < legs.length, slot d order k j < legs.length := by
    intro j hj
    have hl : Csv.Link t (.split k) (.row (.leg (k + 1) j 1)) := Link.branch hk hj
    have := placeAmong_lt m.consistent ho hs (m.in_diagram g (link_allIds g hl)) (fun n hn hf => m.apart g _ hs n hn hf ss)
      ((m.feeds g (split_all hk) (link_allIds g hl)).2 hl)
    rw [m.split_outs hk] at this
    exact this
  have inj : ∀ i < legs.length, ∀ j < legs.length, slot d order k i = slot d order k j → i = j := by
    intro i hi j hj e
    have hl : Csv.Link t (.split k) (.row (.leg (k + 1) i 1)) := Link.branch hk hi
    have hl' : Csv.Link t (.split k) (.row (.leg (k + 1) j 1)) := Link.branch hk hj
    have n1 := m.in_diagram g (link_allIds g hl)
    have := placeAmong_inj (ho.all.mem_iff.2 (List.mem_map_of_mem n1))
      (List.mem_map_of_mem (mem_behind.2 ⟨n1, (m.feeds g (split_all hk) (link_allIds g hl)).2 hl⟩)) e
    have := Id.name_inj (hl.small g).2 (hl'.small g).2 this
    simp only [Id.row.injEq, Pos.leg.injEq] at this
    exact this.2.1
  refine ⟨lt, inj, ?_⟩
  apply List.Subperm.perm_of_length_le (List.subperm_of_subset ?_ ?_)
  · simp
  · refine List.Nodup.map_on ?_ List.nodup_range
    intro i hi j hj e
    exact inj i (List.mem_range.1 hi) j (List.mem_range.1 hj) e
  · intro x hx
    obtain ⟨j, hj, rfl⟩ := List.mem_map.1 hx
    exact List.mem_range.2 (lt j (List.mem_range.1 hj))

/-- A branch. -/
theorem Made.leg_place (m : Made t d F) (g : t.Good) (hg : OnGrid d order row col) {k : Nat} {legs : List Leg} (hk : t.items[k]? = some (.block legs))
    {j : Nat} {leg : Leg} (hj : legs[j]? = some leg) (q : Nat) (h1 : 1 ≤ q) (h2 : q ≤ leg.steps.length) :
    col (Id.row (.leg (k + 1) j q)).name = col (Id.split k).name + q ∧
    row (Id.row (.leg (k + 1) j q)).name = row (Id.split k).name + branchRow legs.length (slot d order k j) := by
  induction q, h1 using Nat.le_induction with
  | base =>
    have hl : Csv.Link t (.split k) (.row (.leg (k + 1) j 1)) := Link.branch hk (List.getElem?_eq_some_iff.1 hj).1
    have i1 := link_source g hl
    have i2 := link_allIds g hl
    obtain ⟨k1, k2, -⟩ := hg.branch _ (m.in_diagram g i1) _ (m.in_diagram g i2) ((m.feeds g i1 i2).2 hl) (m.split_splits g hk)
    rw [m.split_outs hk] at k2
    refine ⟨k1, k2 ?_⟩
    intro p hp hf hs
    obtain ⟨x, hx, rfl⟩ := m.is_node g hp
    obtain ⟨e, rfl⟩ := m.splits g hx hs
    have := (m.feeds g hx i1).1 hf
    cases this
  | succ q hq ih =>
    obtain ⟨a, b⟩ := ih (by omega)
    obtain ⟨q', rfl⟩ : ∃ q', q = q' + 1 := ⟨q - 1, by omega⟩
    have hl : Csv.Link t (.row (.leg (k + 1) j (q' + 1))) (.row (.leg (k + 1) j (q' + 1 + 1))) :=
      Link.inside (leg_cell hk hj (by omega)) (leg_cell hk hj (by omega))
    obtain ⟨u, v⟩ := m.next_place g hg hl (by simp) (by simp)
    rw [u, v, a, b]
    refine ⟨?_, rfl⟩
    push_cast
    omega

theorem max_open (legs : List (Leg × Nat)) (hne : legs ≠ []) {c : Int} (hc : 0 ≤ c) :
    (legs.map fun p => c + (p.1.steps.length : Int)).foldr max 0 = c + (longestLeg (legs.map Prod.fst) : Int) := by
  induction legs with
  | nil => exact absurd rfl hne
  | cons p legs ih =>
    have e : longestLeg ((p :: legs).map Prod.fst) = max p.1.steps.length (longestLeg (legs.map Prod.fst)) := rfl
    simp only [List.map_cons, List.foldr_cons] at e ⊢
    rw [e]
    by_cases hl : legs = []
    · subst hl
      simp [longestLeg]
      omega
    · rw [ih hl]
      push_cast
      omega

/-- A join. -/
theorem Made.join_place (m : Made t d F) (g : t.Good) (hg : OnGrid d order row col) {k : Nat} {legs : List Leg} (hk : t.items[k]? = some (.block legs))
    (hc : 0 ≤ col (Id.split k).name) : col (Id.join (k + 2)).name = col (Id.split k).name + 1 + longestOpen legs ∧
    row (Id.join (k + 2)).name = meanRow (openRows (row (Id.split k).name) legs ((List.range legs.length).map (slot d order k))) := by
  have two := g.two legs (List.mem_of_getElem? hk)
  have hlen : (openLegs legs).length = (legs.filter fun l => !l.stops).length := by rw [← openLegs_fst, List.length_map]
  have hji := m.join_ins g hk
  obtain ⟨g1, g2⟩ := hg.join _ (m.in_diagram g (join_all hk)) (by unfold Joins; rw [hji]; omega)
  have hb := m.join_before g hk
  have place : ∀ p ∈ openLegs legs, col (lastId k p).name = col (Id.split k).name + (p.1.steps.length : Int) ∧
      row (lastId k p).name = row (Id.split k).name + branchRow legs.length (slot d order k p.2) := by
    intro p hp
    obtain ⟨e1, -⟩ := mem_openLegs.1 hp
    exact m.leg_place g hg hk e1 _ (g.short _ (List.mem_of_getElem? hk) _ (List.mem_of_getElem? e1)).1 (Nat.le_refl _)
  constructor
  · change col (nodeAt d (.join (k + 2))).1 = _
    rw [g1, foldr_max_perm (hb.map fun n => col n.1), List.map_map]
    have : (openLegs legs).map ((fun n : Node => col n.1) ∘ fun p => nodeAt d (lastId k p)) =
        (openLegs legs).map fun p => col (Id.split k).name + (p.1.steps.length : Int) :=
      List.map_congr_left fun p hp => (place p hp).1
    rw [this, max_open _ (by rintro h; rw [h] at hlen; simp at hlen; omega) hc, openLegs_fst]
    unfold longestOpen
    omega
  · change row (nodeAt d (.join (k + 2))).1 = _
    rw [g2, sum_perm (hb.map fun n => row n.1), List.map_map, hji]
    have e1 : (openLegs legs).map ((fun n : Node => row n.1) ∘ fun p => nodeAt d (lastId k p)) =
        (openLegs legs).map fun p => row (Id.split k).name + branchRow legs.length (slot d order k p.2) :=
      List.map_congr_left fun p hp => (place p hp).2
    have e2 : openRows (row (Id.split k).name) legs ((List.range legs.length).map (slot d order k)) =
        (openLegs legs).map fun p => row (Id.split k).name + branchRow legs.length (slot d order k p.2) := by
      unfold openRows openLegs
      rw [List.zip_map_right, List.filter_map, List.map_map, List.zipIdx_eq_zip_range', List.range_eq_range']
      rfl
    rw [e1, e2]
    unfold meanRow
    rw [List.length_map]

theorem nextId_step {k : Nat} (h : ∀ legs, t.items[k]? ≠ some (.block legs)) : nextId t k = .row (.main (k + 1)) := by
  unfold nextId
  split
  · rename_i legs e; exact absurd e (h legs)
  · rfl

theorem nextId_block {k : Nat} {legs : List Leg} (h : t.items[k]? = some (.block legs)) : nextId t k = .split k := by
  unfold nextId; rw [h]

/-- The places of all nodes. -/
theorem Made.places (m : Made t d F) (g : t.Good) (fits : t.Fits) (ho : FlowOrder d order) (hg : OnGrid d order row col) :
    ∀ (l : List Item) (k : Nat) (c y : Int), t.items.drop k = l → (∀ x ∈ idsFrom k l, x ∈ allIds t) → 0 ≤ c →
      col (nextId t k).name = c → row (nextId t k).name = y →
      EndsDrawn (fun i u v => (∃ n ∈ d.getNodes, n.1 = i) ∧ col i = u ∧ row i = v) (k + 1) c y l ∧ (∀ x ∈ idsFrom k l, c ≤ col x.name) ∧
      ∀ x ∈ idsFrom k l, ∀ z ∈ idsFrom k l, col x.name = col z.name → row x.name = row z.name → x = z
  | [], k, c, y, hl, hin, hc, h1, h2 => by
    rw [nextId_step (by intro legs; rw [List.getElem?_eq_none (List.drop_eq_nil_iff.1 hl)]; simp)] at h1 h2
    refine ⟨?_, ?_, ?_⟩
    · have := m.in_diagram g (hin _ (by simp [idsFrom] : Id.row (.main (k + 1)) ∈ idsFrom k []))
      rw [main_str] at h1 h2; exact ⟨⟨_, this, main_str _⟩, h1, h2⟩
    · intro x hx; simp only [idsFrom, List.mem_singleton] at hx; subst hx; omega
    · intro x hx z hz _ _
      simp only [idsFrom, List.mem_singleton] at hx hz
      rw [hx, hz]
  | .step a :: r, k, c, y, hl, hin, hc, h1, h2 => by
    obtain ⟨e1, e2⟩ := drop_get hl
    rw [nextId_step (by intro legs; rw [e1]; simp)] at h1 h2
    obtain ⟨p1, p2⟩ := m.next_place g hg (next_link g (step_cell e1)) (by simp) (nextId_not_join t _)
    obtain ⟨q1, q2, q3⟩ := m.places g fits ho hg r (k + 1) (c + 1) y e2 (fun x hx => hin x (by simp [idsFrom, hx])) (by omega) (by rw [p1, h1]) (by rw [p2, h2])
    refine ⟨⟨?_, q1⟩, ?_, ?_⟩
    · have := m.in_diagram g (hin _ (by simp [idsFrom] : Id.row (.main (k + 1)) ∈ idsFrom k (.step a :: r)))
      rw [main_str] at h1 h2; exact ⟨⟨_, this, main_str _⟩, h1, h2⟩
    · intro x hx
      simp only [idsFrom, List.mem_cons] at hx
      rcases hx with rfl | hx
      · omega
      · have := q2 x hx; omega
    · intro x hx z hz ec er
      simp only [idsFrom, List.mem_cons] at hx hz
      rcases hx with rfl | hx <;> rcases hz with rfl | hz
      · rfl
      · have := q2 z hz; omega
      · have := q2 x hx; omega
      · exact q3 x hx z hz ec er
  | .block legs :: r, k, c, y, hl, hin, hc, h1, h2 => by
    obtain ⟨e1, e2⟩ := drop_get hl
    rw [nextId_block e1] at h1 h2
    obtain ⟨s1, s2, s3⟩ := m.slots g ho e1
    obtain ⟨j1, j2⟩ := m.join_place g hg e1 (by omega)
    rw [h1] at j1
    rw [h2] at j2
    have nb : ∀ ls, t.items[k + 1]? ≠ some (.block ls) := fun ls => g.apart k legs ls e1
    obtain ⟨p1, p2⟩ := m.next_place g hg (Link.leave e1) (by simp) (by simp)
    obtain ⟨q1, q2, q3⟩ := m.places g fits ho hg r (k + 1) (c + 2 + longestOpen legs) _ e2
      (fun x hx => hin x (by simp [idsFrom, hx])) (by omega)
      (by rw [nextId_step nb, p1, j1]; omega) (by rw [nextId_step nb, p2])
    rw [j2] at q1
    have place : ∀ {j : Nat} {leg : Leg} {q : Nat}, legs[j]? = some leg → 1 ≤ q → q ≤ leg.steps.length →
        col (Id.row (.leg (k + 1) j q)).name = c + q ∧ row (Id.row (.leg (k + 1) j q)).name = y + branchRow legs.length (slot d order k j) := by
      intro j leg q hj a b
      have := m.leg_place g hg e1 hj q a b
      rwa [h1, h2] at this
    have long : ∀ {j : Nat} {leg : Leg}, legs[j]? = some leg → leg.steps.length ≤ longestOpen legs :=
      fun {j leg} hj => fits legs (List.mem_of_getElem? e1) leg (List.mem_of_getElem? hj)
    -- the nodes of the block
    have mem : ∀ x, x ∈ idsFrom k (.block legs :: r) → x = .split k ∨ x = .join (k + 2) ∨
        (∃ j leg q, legs[j]? = some leg ∧ 1 ≤ q ∧ q ≤ leg.steps.length ∧ x = .row (.leg (k + 1) j q)) ∨ x ∈ idsFrom (k + 1) r := by
      intro x hx
      simp only [idsFrom, List.mem_cons, List.mem_append, List.mem_flatten, List.mem_mapIdx, List.not_mem_nil, or_false] at hx
      rcases hx with (rfl | ⟨l, ⟨j, hj, rfl⟩, h⟩ | rfl) | h
      · exact .inl rfl
      · obtain ⟨q, a, b, rfl⟩ := mem_legIds.1 h
        exact .inr (.inr (.inl ⟨j, _, q, List.getElem?_eq_getElem hj, a, b, rfl⟩))
      · exact .inr (.inl rfl)
      · exact .inr (.inr (.inr h))
    refine ⟨⟨?_, _, s3, ?_, ?_, q1⟩, ?_, ?_⟩
    · rw [split_str] at h1 h2; exact ⟨⟨_, m.in_diagram g (split_all e1), split_str _⟩, h1, h2⟩
    · intro j leg i hj hi q a b
      rw [List.getElem?_map, List.getElem?_range (List.getElem?_eq_some_iff.1 hj).1] at hi
      simp only [Option.map_some, Option.some.injEq] at hi
      subst hi
      obtain ⟨q', rfl⟩ : ∃ q', q = q' + 1 := ⟨q - 1, by omega⟩
      exact ⟨⟨_, m.in_diagram g (cell_allIds (leg_cell e1 hj (by omega))), rfl⟩, place hj a b⟩
    · rw [join_str] at j1 j2; exact ⟨⟨_, m.in_diagram g (join_all e1), join_str _⟩, j1, j2⟩
    · intro x hx
      rcases mem x hx with rfl | rfl | ⟨j, leg, q, hj, a, b, rfl⟩ | hx
      · omega
      · omega
      · rw [(place hj a b).1]; omega
      · have := q2 x hx; omega
    · intro x hx z hz ec er
      rcases mem x hx with rfl | rfl | ⟨j, leg, q, hj, a, b, rfl⟩ | hx <;> rcases mem z hz with rfl | rfl | ⟨j', leg', q', hj', a', b', rfl⟩ | hz
      · rfl
      · omega
      · rw [(place hj' a' b').1] at ec; omega
      · have := q2 z hz; omega
      · omega
      · rfl
      · rw [(place hj' a' b').1] at ec; have := long hj'; omega
      · have := q2 z hz; omega
      · rw [(place hj a b).1] at ec; omega
      · rw [(place hj a b).1] at ec; have := long hj; omega
      · rw [(place hj a b).1, (place hj' a' b').1] at ec
        rw [(place hj a b).2, (place hj' a' b').2] at er
        have l1 := (List.getElem?_eq_some_iff.1 hj).1
        have l2 := (List.getElem?_eq_some_iff.1 hj').1
        have ej := s2 j l1 j' l2 (branchRow_inj (s1 j l1) (s1 j' l2) (by omega))
        have eq : q = q' := by omega
        rw [ej, eq]
      · rw [(place hj a b).1] at ec; have := long hj; have := q2 z hz; omega
      · have := q2 x hx; omega
      · have := q2 x hx; omega
      · rw [(place hj' a' b').1] at ec; have := long hj'; have := q2 x hx; omega
      · exact q3 x hx z hz ec er

/-- Every row of the main line but the first is entered. -/
theorem main_entered (g : t.Good) {k : Nat} (hk : k ≤ t.items.length) (h : (cell t (.main (k + 1))).isSome = true) : ∃ z, Csv.Link t z (.row (.main (k + 1))) := by
  cases k with
  | zero => exact ⟨_, Link.step (c := t.first) rfl h⟩
  | succ k =>
    obtain ⟨x, hx⟩ : ∃ x, t.items[k]? = some x := ⟨_, List.getElem?_eq_getElem (by omega)⟩
    cases x with
    | step c => exact ⟨_, Link.step (step_cell hx) h⟩
    | block legs => exact ⟨_, Link.leave hx⟩

theorem Made.only_start (m : Made t d F) (g : t.Good) {x : Id} (hx : x ∈ allIds t) (e : Spec.ins (nodeAt d x) = []) : x = .row (.main 0) := by
  rcases List.mem_cons.1 hx with rfl | hx'
  · rfl
  · exfalso
    have : ∃ z, Csv.Link t z x := by
      rcases mem_idsFrom.1 hx' with rfl | ⟨i, c, hi, rfl⟩ | ⟨i, legs, hi, rfl | rfl | ⟨j, leg, q, h1, h2, h3, rfl⟩⟩
      · rw [Nat.zero_add]; exact main_entered g (Nat.le_refl _) (by simp [cell])
      · rw [Nat.zero_add]
        exact main_entered g (Nat.le_of_lt (List.getElem?_eq_some_iff.1 hi).1) (by rw [step_cell hi]; rfl)
      · rw [Nat.zero_add]; exact ⟨_, Link.enter hi⟩
      · rw [Nat.zero_add]
        obtain ⟨a, b, u, v, -, hu, hv, pu, pv⟩ := two_of_filter (g.two legs (List.mem_of_getElem? hi))
        exact ⟨_, Link.close hi hu (by simpa using pu) rfl⟩
      · rw [Nat.zero_add]
        obtain ⟨q', rfl⟩ : ∃ q', q = q' + 1 := ⟨q - 1, by omega⟩
        cases q' with
        | zero => exact ⟨_, Link.branch hi (List.getElem?_eq_some_iff.1 h1).1⟩
        | succ q' => exact ⟨_, Link.inside (leg_cell hi h1 (by omega)) (leg_cell hi h1 (by omega))⟩
    obtain ⟨z, hz⟩ := this
    have : flowId z.name x.name ∈ Spec.ins (nodeAt d x) := by
      rw [nodeAt_ins, m.inn]; exact mem_entering.2 ⟨_, m.flow hz, rfl⟩
    rw [e] at this
    cases this

theorem Made.start_place (m : Made t d F) (g : t.Good) (ho : FlowOrder d order) (hg : OnGrid d order row col) :
    col (Id.row (.main 0)).name = 1 ∧ row (Id.row (.main 0)).name = 2 := by
  have n0 := m.in_diagram g (show Id.row (.main 0) ∈ allIds t from List.mem_cons_self ..)
  have h0 : Spec.ins (nodeAt d (.row (.main 0))) = [] := by
    rw [nodeAt_ins, m.inn, List.eq_nil_iff_forall_not_mem]
    intro f hf
    obtain ⟨s, hs, -⟩ := mem_entering.1 hf
    obtain ⟨x, hl, -⟩ := m.link' g (y := .row (.main 0)) trivial hs
    cases hl
  obtain ⟨g1, g2⟩ := hg.start _ n0 h0
  refine ⟨g1, g2.trans ?_⟩
  have : placeAmong order (d.getNodes.filter fun n => decide (Spec.ins n = [])) (nodeAt d (.row (.main 0))).1 = 0 := by
    unfold placeAmong
    have only : ∀ j ∈ order.filter (fun j => decide (j ∈ (d.getNodes.filter fun n => decide (Spec.ins n = [])).map (·.1))),
        j = (nodeAt d (.row (.main 0))).1 := by
      intro j hj
      have := (List.mem_filter.1 hj).2
      simp only [List.mem_map, List.mem_filter, decide_eq_true_eq] at this
      obtain ⟨n, ⟨hn, hi⟩, rfl⟩ := this
      obtain ⟨x, hx, rfl⟩ := m.is_node g hn
      rw [m.only_start g hx hi]
    have hmem : (nodeAt d (.row (.main 0))).1 ∈ order.filter (fun j => decide (j ∈ (d.getNodes.filter fun n => decide (Spec.ins n = [])).map (·.1))) := by
      simp only [List.mem_filter, List.mem_map, decide_eq_true_eq]
      exact ⟨ho.all.mem_iff.2 (List.mem_map_of_mem n0), _, ⟨n0, h0⟩, rfl⟩
    generalize order.filter (fun j => decide (j ∈ (d.getNodes.filter fun n => decide (Spec.ins n = [])).map (·.1))) = l at only hmem
    cases l with
    | nil => simp at hmem
    | cons x l => rw [only x (by simp)]; simp
  rw [this]
  rfl

theorem EndsDrawn.mono {P Q : String → Int → Int → Prop} (h : ∀ i x y, P i x y → Q i x y) : ∀ (l : List Item) (k : Nat) (c y : Int), EndsDrawn P k c y l → EndsDrawn Q k c y l
  | [], k, c, y, hp => h _ _ _ hp
  | .step _ :: r, k, c, y, hp => ⟨h _ _ _ hp.1, EndsDrawn.mono h r _ _ _ hp.2⟩
  | .block legs :: r, k, c, y, hp => by
    obtain ⟨h1, ks, h2, h3, h4, h5⟩ := hp
    exact ⟨h _ _ _ h1, ks, h2, fun j leg i a b q c d => h _ _ _ (h3 j leg i a b q c d), h _ _ _ h4, EndsDrawn.mono h r _ _ _ h5⟩

end
end Bpmn.Csv

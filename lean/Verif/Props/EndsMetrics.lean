import Verif.Spec.EndsMetrics
import Verif.Props.CsvEnds
import Verif.Props.TableMetrics
import Verif.Props.LoopGrid
/-!
# The metrics of tables with terminated branches (C127)
-/
set_option linter.unusedSimpArgs false
set_option linter.unusedVariables false

namespace Bpmn.Csv
open Bpmn.Spec Bpmn.Spec.Csv Bpmn.Layouter

section
variable {t : FlatTable} {d : Diagram} {F : List (String × String)}

/-- What a node counts. -/
def weight (t : FlatTable) (e : Nat) : Id → Nat
  | .row (.main 0) => e
  | .row p => match cell t p with
    | some (_, false) => 1
    | _ => e
  | _ => e

/-- The longest way from the item with index `k` on. -/
def wayFrom (t : FlatTable) (e k : Nat) : Nat := longWay e (t.items.drop k)

/-- The longest way from a node on. -/
def ahead (t : FlatTable) (e : Nat) : Id → Nat
  | .row (.main 0) => e + wayFrom t e 0
  | .row (.main (k + 1)) => wayFrom t e k
  | .split k => wayFrom t e k
  | .join k => e + wayFrom t e (k - 1)
  | .row (.leg k j m) => match t.items[k - 1]? with
    | some (.block legs) => match legs[j]? with
      | some leg => leg.steps.length - m + (if leg.stops then e else 1 + e + wayFrom t e k)
      | none => 0
    | _ => 0

theorem wayFrom_step {e k : Nat} {c : Csv.Cell} (h : t.items[k]? = some (.step c)) : wayFrom t e k = 1 + wayFrom t e (k + 1) := by
  obtain ⟨hk, h⟩ := List.getElem?_eq_some_iff.1 h
  unfold wayFrom
  rw [List.drop_eq_getElem_cons hk, h]
  rfl

theorem wayFrom_block {e k : Nat} {legs : List Leg} (h : t.items[k]? = some (.block legs)) :
    wayFrom t e k = e + max (longestEnd legs - 1 + e) (longestOpen legs + e + wayFrom t e (k + 1)) := by
  obtain ⟨hk, h⟩ := List.getElem?_eq_some_iff.1 h
  unfold wayFrom
  rw [List.drop_eq_getElem_cons hk, h]
  rfl

theorem wayFrom_end (t : FlatTable) (e : Nat) : wayFrom t e t.items.length = e := by
  unfold wayFrom
  rw [List.drop_length]
  rfl

theorem leg_le_longest {legs : List Leg} {leg : Leg} (h : leg ∈ legs) : leg.steps.length ≤ longestLeg legs := by
  unfold longestLeg
  induction legs with
  | nil => cases h
  | cons a r ih =>
    simp only [List.map_cons, List.foldr_cons]
    rcases List.mem_cons.1 h with rfl | h
    · omega
    · have := ih h; omega

theorem longest_attained {legs : List Leg} (h : legs ≠ []) : ∃ leg ∈ legs, leg.steps.length = longestLeg legs := by
  unfold longestLeg
  induction legs with
  | nil => exact absurd rfl h
  | cons a r ih =>
    simp only [List.map_cons, List.foldr_cons]
    by_cases hr : r = []
    · subst hr; exact ⟨a, by simp, by simp⟩
    · obtain ⟨b, hb, e⟩ := ih hr
      by_cases c : (r.map fun l => l.steps.length).foldr max 0 ≤ a.steps.length
      · exact ⟨a, by simp, by omega⟩
      · exact ⟨b, by simp [hb], by omega⟩

theorem le_open {legs : List Leg} {leg : Leg} (h : leg ∈ legs) (hs : leg.stops = false) : leg.steps.length ≤ longestOpen legs :=
  leg_le_longest (List.mem_filter.2 ⟨h, by simp [hs]⟩)

theorem le_end {legs : List Leg} {leg : Leg} (h : leg ∈ legs) (hs : leg.stops = true) : leg.steps.length ≤ longestEnd legs :=
  leg_le_longest (List.mem_filter.2 ⟨h, by simp [hs]⟩)

theorem ahead_leg {e k j m : Nat} {legs : List Leg} {leg : Leg} (h1 : t.items[k]? = some (.block legs)) (h2 : legs[j]? = some leg) :
    ahead t e (.row (.leg (k + 1) j m)) = leg.steps.length - m + (if leg.stops then e else 1 + e + wayFrom t e (k + 1)) := by
  simp [ahead, h1, h2]

theorem weight_leg {e k j q : Nat} {legs : List Leg} {leg : Leg} (h1 : t.items[k]? = some (.block legs)) (h2 : legs[j]? = some leg) (hq : q < leg.steps.length) :
    weight t e (.row (.leg (k + 1) j (q + 1))) = if leg.stops = true ∧ q + 1 = leg.steps.length then e else 1 := by
  simp only [weight, cell, h1, h2, List.getElem?_eq_getElem hq, Option.map_some]
  by_cases a : leg.stops = true <;> by_cases b : q + 1 = leg.steps.length <;> simp [a, b]

theorem weight_main {e k : Nat} {c : Csv.Cell} (h : t.items[k]? = some (.step c)) : weight t e (.row (.main (k + 1))) = 1 := by
  simp [weight, step_cell h]

theorem weight_last (t : FlatTable) (e : Nat) : weight t e (.row (.main (t.items.length + 1))) = e := by
  simp [weight, cell]

theorem main_false {k : Nat} {c : Csv.Cell} (h : cell t (.main (k + 1)) = some (c, false)) : t.items[k]? = some (.step c) := by
  simp only [cell] at h
  split at h
  · simp at h
  · split at h
    · rename_i c' hc; rw [hc]; simp only [Option.some.injEq, Prod.mk.injEq, and_true] at h; rw [h]
    · cases h

/-- From a row of the main line to what follows. -/
theorem ahead_next (g : t.Good) (e k : Nat) : ahead t e (nextId t k) = wayFrom t e k := by
  unfold nextId
  split
  · rfl
  · rfl

theorem weight_ahead {e : Nat} {k : Nat} {c : Csv.Cell} (h : cell t (.main k) = some (c, false)) :
    ahead t e (.row (.main k)) = weight t e (.row (.main k)) + wayFrom t e k := by
  cases k with
  | zero => rfl
  | succ k =>
    have h1 := main_false h
    rw [weight_main h1]
    exact wayFrom_step h1

theorem ahead_up (g : t.Good) (e : Nat) {x y : Id} (h : Csv.Link t x y) : weight t e x + ahead t e y ≤ ahead t e x := by
  cases h with
  | step h1 h2 => rw [weight_ahead h1]; exact Nat.le_refl _
  | @enter k legs h1 =>
    obtain ⟨c, h2, -⟩ := block_before g h1
    rw [weight_ahead h2]; exact Nat.le_refl _
  | @branch k j legs h1 hj =>
    have h2 := List.getElem?_eq_getElem hj
    generalize legs[j] = leg at h2
    have s := (g.short legs (List.mem_of_getElem? h1) leg (List.mem_of_getElem? h2)).1
    rw [ahead_leg h1 h2]
    change e + _ ≤ wayFrom t e k
    rw [wayFrom_block h1]
    by_cases hs : leg.stops = true
    · have := le_end (List.mem_of_getElem? h2) hs
      rw [if_pos hs]; omega
    · have := le_open (List.mem_of_getElem? h2) (by simpa using hs)
      rw [if_neg hs]; omega
  | @inside k j q h1 h2 =>
    obtain ⟨⟨c, b⟩, h2⟩ := Option.isSome_iff_exists.1 h2
    obtain ⟨i, n, legs, leg, rfl, en, a1, a2, a3, -⟩ := cell_leg h2
    have hn := (List.getElem?_eq_some_iff.1 a3).1
    obtain ⟨⟨c', b'⟩, h1⟩ := Option.isSome_iff_exists.1 h1
    obtain ⟨i', n', legs', leg', ei, rfl, b1, b2, b3, -⟩ := cell_leg h1
    rw [ahead_leg a1 a2, ahead_leg a1 a2, weight_leg a1 a2 (by omega), if_neg (by omega)]
    omega
  | @close k j q legs leg h1 h2 h3 h4 =>
    subst h4
    have s := (g.short legs (List.mem_of_getElem? h1) leg (List.mem_of_getElem? h2)).1
    obtain ⟨q, hq⟩ : ∃ q, leg.steps.length = q + 1 := ⟨leg.steps.length - 1, by omega⟩
    rw [ahead_leg h1 h2, hq, weight_leg h1 h2 (by omega), if_neg (by simp [h3]), if_neg (by simp [h3])]
    change 1 + (e + wayFrom t e (k + 2 - 1)) ≤ _
    rw [show k + 2 - 1 = k + 1 by omega]
    omega
  | @leave k legs h1 =>
    change e + wayFrom t e (k + 1) ≤ e + wayFrom t e (k + 2 - 1)
    rw [show k + 2 - 1 = k + 1 by omega]

theorem ahead_down (g : t.Good) (e : Nat) {x : Id} (h : x ∈ allIds t) :
    (∃ y, Csv.Link t x y ∧ ahead t e x = weight t e x + ahead t e y) ∨ ((∀ y, ¬Csv.Link t x y) ∧ ahead t e x = weight t e x) := by
  have main : ∀ k c, cell t (.main k) = some (c, false) → ∃ y, Csv.Link t (.row (.main k)) y ∧ ahead t e (.row (.main k)) = weight t e (.row (.main k)) + ahead t e y := by
    intro k c hc
    exact ⟨_, next_link g hc, by rw [ahead_next g, weight_ahead hc]⟩
  rcases List.mem_cons.1 h with rfl | h
  · exact .inl (main 0 t.first rfl)
  · rcases mem_idsFrom.1 h with rfl | ⟨i, c, hi, rfl⟩ | ⟨i, legs, hi, rfl | rfl | ⟨j, leg, q, h1, h2, h3, rfl⟩⟩
    · rw [Nat.zero_add]
      refine .inr ⟨fun y hy => Link.not_stop g hy (c := t.last) (by simp [cell]), ?_⟩
      rw [weight_last]
      exact wayFrom_end t e
    · rw [Nat.zero_add]
      exact .inl (main (i + 1) c (step_cell hi))
    · left
      rw [Nat.zero_add]
      have hw := wayFrom_block (e := e) hi
      have reach : ∀ leg ∈ legs, e + (leg.steps.length - 1 + (if leg.stops then e else 1 + e + wayFrom t e (i + 1))) = wayFrom t e i →
          ∃ y, Csv.Link t (.split i) y ∧ ahead t e (.split i) = weight t e (.split i) + ahead t e y := by
        intro leg hl he
        obtain ⟨j, hj, rfl⟩ := List.mem_iff_getElem.1 hl
        refine ⟨_, Link.branch hi hj, ?_⟩
        rw [ahead_leg hi (List.getElem?_eq_getElem hj)]
        exact he.symm
      have two := g.two legs (List.mem_of_getElem? hi)
      obtain ⟨lo, ho, eo⟩ := longest_attained (legs := legs.filter fun l => !l.stops) (by rintro h; rw [h] at two; simp at two)
      obtain ⟨ho, so⟩ := List.mem_filter.1 ho
      have s1 := (g.short legs (List.mem_of_getElem? hi) lo ho).1
      by_cases c : longestEnd legs - 1 + e ≤ longestOpen legs + e + wayFrom t e (i + 1)
      · refine reach lo ho ?_
        rw [if_neg (by simpa using so), hw]
        change _ = longestOpen legs at eo
        omega
      · have hne : (legs.filter fun l => l.stops) ≠ [] := by
          intro h
          have : longestEnd legs = 0 := by unfold longestEnd; rw [h]; rfl
          omega
        obtain ⟨le, hle, ee⟩ := longest_attained hne
        obtain ⟨hle, se⟩ := List.mem_filter.1 hle
        refine reach le hle ?_
        rw [if_pos (by simpa using se), hw]
        change _ = longestEnd legs at ee
        omega
    · left
      rw [Nat.zero_add]
      refine ⟨_, Link.leave hi, ?_⟩
      change e + wayFrom t e (i + 2 - 1) = e + wayFrom t e (i + 1)
      rw [show i + 2 - 1 = i + 1 by omega]
    · rw [Nat.zero_add]
      obtain ⟨q, rfl⟩ : ∃ r, q = r + 1 := ⟨q - 1, by omega⟩
      by_cases last : q + 1 = leg.steps.length
      · by_cases hs : leg.stops = true
        · right
          refine ⟨fun y hy => Link.not_stop g hy (c := leg.steps[q]'(by omega)) ?_, ?_⟩
          · simp [cell, hi, h1, List.getElem?_eq_getElem (show q < leg.steps.length by omega), hs, last]
          · rw [ahead_leg hi h1, weight_leg hi h1 (by omega), if_pos hs, if_pos ⟨hs, last⟩]
            omega
        · left
          refine ⟨_, Link.close hi h1 (by simpa using hs) last, ?_⟩
          rw [ahead_leg hi h1, weight_leg hi h1 (by omega), if_neg hs, if_neg (by simp [hs])]
          change _ = 1 + (e + wayFrom t e (i + 2 - 1))
          rw [show i + 2 - 1 = i + 1 by omega]
          omega
      · left
        refine ⟨_, Link.inside (leg_cell hi h1 (by omega)) (leg_cell hi h1 (show q + 1 < _ by omega)), ?_⟩
        rw [ahead_leg hi h1, ahead_leg hi h1, weight_leg hi h1 (by omega), if_neg (c := leg.stops = true ∧ q + 1 = leg.steps.length) fun h => last h.2]
        omega

/-! ### Paths -/

theorem weigh_le (g : t.Good) (e : Nat) : ∀ (xs : List Id), (∀ x ∈ xs, x ∈ allIds t) → List.IsChain (Csv.Link t) xs → ∀ x ∈ xs.head?, (xs.map (weight t e)).sum ≤ ahead t e x
  | [], _, _, x, hx => by simp at hx
  | [a], hin, _, x, hx => by
    simp only [List.head?_cons, Option.mem_def, Option.some.injEq] at hx
    subst hx
    simp only [List.map_cons, List.map_nil, List.sum_cons, List.sum_nil, Nat.add_zero]
    rcases ahead_down g e (hin a (by simp)) with ⟨y, -, h⟩ | ⟨-, h⟩ <;> omega
  | a :: b :: r, hin, hc, x, hx => by
    simp only [List.head?_cons, Option.mem_def, Option.some.injEq] at hx
    subst hx
    obtain ⟨h1, h2⟩ := List.isChain_cons_cons.1 hc
    have := weigh_le g e (b :: r) (fun x hx => hin x (List.mem_cons_of_mem _ hx)) h2 b (by simp)
    have := ahead_up g e h1
    rw [List.map_cons, List.sum_cons]
    omega

theorem far_le (g : t.Good) {x : Id} (h : x ∈ allIds t) : x.far ≤ 20 * (t.items.length + 2) := by
  rcases List.mem_cons.1 h with rfl | h
  · simp [Id.far]
  · rcases mem_idsFrom.1 h with rfl | ⟨i, c, hi, rfl⟩ | ⟨i, legs, hi, rfl | rfl | ⟨j, leg, q, h1, h2, h3, rfl⟩⟩
    · simp only [Id.far]; omega
    · have := (List.getElem?_eq_some_iff.1 hi).1
      simp only [Id.far]; omega
    · have := (List.getElem?_eq_some_iff.1 hi).1
      simp only [Id.far]; omega
    · have := (List.getElem?_eq_some_iff.1 hi).1
      simp only [Id.far]; omega
    · have := (List.getElem?_eq_some_iff.1 hi).1
      have := (g.short legs (List.mem_of_getElem? hi) leg (List.mem_of_getElem? h1)).2
      simp only [Id.far]; omega

theorem weigh_attained (g : t.Good) (e : Nat) : ∀ (k : Nat) (x : Id), x ∈ allIds t → 20 * (t.items.length + 2) - x.far = k →
    ∃ xs : List Id, (∀ y ∈ x :: xs, y ∈ allIds t) ∧ List.IsChain (Csv.Link t) (x :: xs) ∧ ((x :: xs).map (weight t e)).sum = ahead t e x ∧
      (∀ z ∈ (x :: xs).getLast?, ∀ y, ¬Csv.Link t z y) ∧ (∀ y ∈ xs, x.far < y.far) ∧ (x :: xs).Nodup := by
  intro k
  induction k using Nat.strongRecOn with
  | ind k ih =>
    intro x hx hk
    rcases ahead_down g e hx with ⟨y, hl, he⟩ | ⟨hn, he⟩
    · have hy := link_allIds g hl
      have hf := Link.far g hl
      have b := far_le g hy
      obtain ⟨xs, p1, p2, p3, p4, p5, p6⟩ := ih (20 * (t.items.length + 2) - y.far) (by omega) y hy rfl
      have up : ∀ z ∈ y :: xs, x.far < z.far := by
        intro z hz
        rcases List.mem_cons.1 hz with rfl | hz
        · exact hf
        · have := p5 z hz; omega
      refine ⟨y :: xs, ?_, List.isChain_cons_cons.2 ⟨hl, p2⟩, ?_, ?_, up, List.nodup_cons.2 ⟨fun h => ?_, p6⟩⟩
      · intro z hz
        rcases List.mem_cons.1 hz with rfl | hz
        · exact hx
        · exact p1 z hz
      · rw [List.map_cons, List.sum_cons, p3, he]
      · intro z hz
        rw [List.getLast?_cons_cons] at hz
        exact p4 z hz
      · have := up x h; omega
    · refine ⟨[], by simpa using hx, List.isChain_singleton _, by simp [he], ?_, by simp, by simp⟩
      intro z hz
      simp at hz
      subst hz
      exact hn

theorem Made.path_ids (m : Made t d F) (g : t.Good) : ∀ (p : List Node), (∀ n ∈ p, n ∈ d.getNodes) → Follows d p →
    ∃ xs : List Id, (∀ x ∈ xs, x ∈ allIds t) ∧ p = xs.map (nodeAt d) ∧ List.IsChain (Csv.Link t) xs
  | [], _, _ => ⟨[], by simp, rfl, List.isChain_nil⟩
  | [a], hin, _ => by
    obtain ⟨x, hx, rfl⟩ := m.is_node g (hin a (by simp))
    exact ⟨[x], by simpa using hx, rfl, List.isChain_singleton _⟩
  | a :: b :: r, hin, hf => by
    obtain ⟨xs, h1, h2, h3⟩ := m.path_ids g (b :: r) (fun n hn => hin n (List.mem_cons_of_mem _ hn)) hf.2
    obtain ⟨x, hx, rfl⟩ := m.is_node g (hin a (by simp))
    cases xs with
    | nil => simp at h2
    | cons y ys =>
      simp only [List.map_cons, List.cons.injEq] at h2
      refine ⟨x :: y :: ys, ?_, by rw [List.map_cons, List.map_cons, h2.1, h2.2], List.isChain_cons_cons.2 ⟨?_, h3⟩⟩
      · intro z hz
        rcases List.mem_cons.1 hz with rfl | hz
        · exact hx
        · exact h1 z hz
      · refine (m.feeds g hx (h1 y (by simp))).1 ?_
        rw [← h2.1]
        exact (Props.next_feeds m.consistent (hin _ (by simp)) hf.1).2

theorem Made.ids_follow (m : Made t d F) (g : t.Good) : ∀ (xs : List Id), (∀ x ∈ xs, x ∈ allIds t) → List.IsChain (Csv.Link t) xs → Follows d (xs.map (nodeAt d))
  | [], _, _ => trivial
  | [a], _, _ => trivial
  | a :: b :: r, hin, hc => by
    obtain ⟨h1, h2⟩ := List.isChain_cons_cons.1 hc
    have ha := hin a (by simp)
    have hb := hin b (by simp)
    exact ⟨Props.feeds_next m.consistent (m.in_diagram g ha) (m.in_diagram g hb) ((m.feeds g ha hb).2 h1),
      m.ids_follow g (b :: r) (fun x hx => hin x (List.mem_cons_of_mem _ hx)) h2⟩

theorem Made.ids_simple (m : Made t d F) (g : t.Good) {x : Id} {xs : List Id} (hin : ∀ y ∈ x :: xs, y ∈ allIds t) (hc : List.IsChain (Csv.Link t) (x :: xs))
    (hnd : (x :: xs).Nodup) : SimplePath d ((x :: xs).map (nodeAt d)) := by
  refine ⟨by simp, ?_, m.ids_follow g _ hin hc, ?_⟩
  · intro n hn
    obtain ⟨y, hy, rfl⟩ := List.mem_map.1 hn
    exact m.in_diagram g (hin y hy)
  · refine List.Nodup.map_on ?_ hnd
    intro a ha b hb e
    exact Id.name_inj (m.known_ids g (hin a ha)).1 (m.known_ids g (hin b hb)).1 (congrArg Prod.fst e)

theorem weight_one (t : FlatTable) (x : Id) : weight t 1 x = 1 := by
  unfold weight
  split
  · rfl
  · split <;> rfl
  · rfl

theorem sum_weight_one (t : FlatTable) (xs : List Id) : (xs.map (weight t 1)).sum = xs.length := by
  induction xs with
  | nil => rfl
  | cons x xs ih => rw [List.map_cons, List.sum_cons, ih, weight_one, List.length_cons]; omega

theorem Made.work_weight (m : Made t d F) (g : t.Good) {x : Id} (hx : x ∈ allIds t) : workIn [nodeAt d x] = weight t 0 x := by
  match x, hx with
  | .split k, hx => exact Props.no_work_gate m g hx (by simp)
  | .join k, hx => exact Props.no_work_gate m g hx (by simp)
  | .row p, hx =>
    obtain ⟨hs, hi⟩ := m.known_ids g hx
    obtain ⟨⟨c, b⟩, hc⟩ : ∃ q, cell t p = some q := by
      clear hi
      rcases List.mem_cons.1 hx with e | h
      · cases e; exact ⟨_, rfl⟩
      · rcases mem_idsFrom.1 h with e | ⟨i, c, hi, e⟩ | ⟨i, legs, hi, e | e | ⟨j, leg, q, h1, h2, h3, e⟩⟩
        · cases e; exact ⟨(t.last, true), by simp [cell]⟩
        · cases e; rw [Nat.zero_add]; exact ⟨_, step_cell hi⟩
        · cases e
        · cases e
        · cases e
          obtain ⟨q, rfl⟩ : ∃ r, q = r + 1 := ⟨q - 1, by omega⟩
          rw [Nat.zero_add]
          exact Option.isSome_iff_exists.1 (leg_cell hi h1 (by omega))
    by_cases h0 : p = .main 0
    · subst h0
      have : weight t 0 (.row (.main 0)) = 0 := rfl
      rw [this]
      cases hc
      apply Props.work_zero
      rw [(m.row (p := .main 0) (c := t.first) (b := false) rfl (nodeAt_mem (x := .row (.main 0)) hi) rfl).type]
      have : rowType (t.first.row (Pos.main 0).order false) = "startEvent" := by
        unfold rowType
        rw [if_pos]
        exact (by decide : String.ofList (decimal 0) = "0")
      rw [this]; decide
    · have hw : weight t 0 (.row p) = if b then 0 else 1 := by
        unfold weight
        split
        · rename_i e; cases e; exact absurd rfl h0
        · rename_i p' _ e; cases e; rw [hc]; cases b <;> rfl
        · rename_i e1 e2; exact absurd rfl (e2 p)
      rw [hw]
      cases b with
      | false => exact Props.work_one (Props.work_of_row m g hc h0)
      | true =>
        apply Props.work_zero
        rw [(m.row hc (nodeAt_mem hi) rfl).type, (row_end h0 hs).1]
        decide

theorem Made.work_sum (m : Made t d F) (g : t.Good) : ∀ (xs : List Id), (∀ x ∈ xs, x ∈ allIds t) → workIn (xs.map (nodeAt d)) = (xs.map (weight t 0)).sum
  | [], _ => rfl
  | x :: xs, h => by
    rw [List.map_cons, Props.work_cons, m.work_sum g xs (fun y hy => h y (List.mem_cons_of_mem _ hy)), m.work_weight g (h x (by simp)), List.map_cons, List.sum_cons]

/-! ### Sums over all nodes -/

theorem leg_weight (g : t.Good) {k j : Nat} {legs : List Leg} {leg : Leg} (h1 : t.items[k]? = some (.block legs)) (h2 : legs[j]? = some leg) :
    ((legIds k j leg).map (weight t 0)).sum + (if leg.stops then 1 else 0) = leg.steps.length := by
  have s := (g.short legs (List.mem_of_getElem? h1) leg (List.mem_of_getElem? h2)).1
  have all : ∀ n, n < leg.steps.length → (((List.range n).map fun m => Id.row (.leg (k + 1) j (m + 1))).map (weight t 0)).sum = n := by
    intro n hn
    induction n with
    | zero => rfl
    | succ n ih =>
      rw [List.range_succ, List.map_append, List.map_append, List.sum_append, ih (by omega)]
      simp only [List.map_cons, List.map_nil, List.sum_cons, List.sum_nil]
      rw [weight_leg h1 h2 (by omega), if_neg (by omega)]
      omega
  obtain ⟨n, hn⟩ : ∃ n, leg.steps.length = n + 1 := ⟨leg.steps.length - 1, by omega⟩
  rw [legIds, hn, List.range_succ, List.map_append, List.map_append, List.sum_append, all n (by omega)]
  simp only [List.map_cons, List.map_nil, List.sum_cons, List.sum_nil]
  rw [weight_leg h1 h2 (by omega)]
  by_cases c : leg.stops = true
  · rw [if_pos ⟨c, hn.symm⟩, if_pos c]; omega
  · rw [if_neg (fun h => c h.1), if_neg c]; omega

theorem legs_sum (f : Id → Nat) (k : Nat) : ∀ (legs : List Leg) (o : Nat),
    (∀ j leg, legs[j]? = some leg → ((legIds k (j + o) leg).map f).sum + (if leg.stops then 1 else 0) = leg.steps.length) →
    (((legs.mapIdx fun j leg => legIds k (j + o) leg).flatten).map f).sum + (legs.filter fun l => l.stops).length = (legs.map fun l => l.steps.length).sum
  | [], _, _ => rfl
  | leg :: legs, o, h => by
    have ih := legs_sum f k legs (o + 1) fun j l hl => by
      have := h (j + 1) l (by simpa using hl)
      rw [show j + (o + 1) = j + 1 + o by omega]
      exact this
    have h0 := h 0 leg rfl
    rw [Nat.zero_add] at h0
    rw [List.mapIdx_cons, List.flatten_cons, List.map_append, List.sum_append, List.map_cons, List.sum_cons, Nat.zero_add]
    have e : (legs.mapIdx fun j leg => legIds k (j + 1 + o) leg) = legs.mapIdx fun j leg => legIds k (j + (o + 1)) leg := by
      congr 1; funext j l; rw [show j + 1 + o = j + (o + 1) by omega]
    rw [e, List.filter_cons]
    split
    · rename_i c; rw [if_pos c] at h0; rw [List.length_cons]; omega
    · rename_i c; rw [if_neg c] at h0; omega

theorem weight_sum (g : t.Good) : ∀ (l : List Item) (k : Nat), t.items.drop k = l → k ≤ t.items.length →
    ((idsFrom k l).map (weight t 0)).sum + stopsIn l = rowsIn l
  | [], k, h, hk => by
    have : k = t.items.length := by
      have := List.drop_eq_nil_iff.1 h; omega
    subst this
    simp [idsFrom, weight_last, stopsIn, rowsIn]
  | .step c :: r, k, h, hk => by
    obtain ⟨h1, h2, h3⟩ := Props.drop_item h
    have := weight_sum g r (k + 1) h2 h3
    rw [idsFrom, List.map_cons, List.sum_cons, weight_main h1, stopsIn, rowsIn]
    omega
  | .block legs :: r, k, h, hk => by
    obtain ⟨h1, h2, h3⟩ := Props.drop_item h
    have ih := weight_sum g r (k + 1) h2 h3
    have hl := legs_sum (weight t 0) k legs 0 fun j leg hj => leg_weight g h1 hj
    simp only [Nat.add_zero] at hl
    rw [idsFrom, stopsIn, rowsIn]
    simp only [List.cons_append, List.map_cons, List.map_append, List.sum_cons, List.sum_append, List.map_nil, List.sum_nil]
    change 0 + (_ + (0 + 0) + _) + _ = _
    omega

theorem Made.outs_none (m : Made t d F) (g : t.Good) {x : Id} (hx : x ∈ allIds t) (h : ∀ y, ¬Csv.Link t x y) : outs (nodeAt d x) = [] := by
  rw [nodeAt_outs, m.out, List.eq_nil_iff_forall_not_mem]
  intro f hf
  obtain ⟨s, hs, -⟩ := mem_leaving.1 hf
  obtain ⟨y, hl, -⟩ := m.link g (x := x) (m.known_ids g hx).1 hs
  exact h y hl

theorem Made.row_outs (m : Made t d F) (g : t.Good) {p : Pos} (h0 : p ≠ .main 0) (hx : Id.row p ∈ allIds t) : (outs (nodeAt d (.row p))).length = weight t 0 (.row p) := by
  have one : ∀ y, Csv.Link t (.row p) y → weight t 0 (.row p) = 1 → (outs (nodeAt d (.row p))).length = weight t 0 (.row p) := by
    intro y hl hw
    rw [m.outs_one g hl (by simp), hw]; rfl
  rcases List.mem_cons.1 hx with e | h
  · cases e; exact absurd rfl h0
  · rcases mem_idsFrom.1 h with e | ⟨i, c, hi, e⟩ | ⟨i, legs, hi, e | e | ⟨j, leg, q, h1, h2, h3, e⟩⟩
    · cases e
      rw [Nat.zero_add] at hx ⊢
      rw [weight_last, m.outs_none g hx fun y hy => Link.not_stop g hy (c := t.last) (by simp [cell])]; rfl
    · cases e
      rw [Nat.zero_add] at one ⊢
      exact one _ (next_link g (step_cell hi)) (weight_main hi)
    · cases e
    · cases e
    · cases e
      obtain ⟨q, rfl⟩ : ∃ r, q = r + 1 := ⟨q - 1, by omega⟩
      rw [Nat.zero_add] at one hx ⊢
      have hw := weight_leg (e := 0) hi h1 (show q < _ by omega)
      by_cases last : q + 1 = leg.steps.length
      · by_cases hs : leg.stops = true
        · rw [hw, if_pos ⟨hs, last⟩, m.outs_none g hx fun y hy => Link.not_stop g hy (c := leg.steps[q]'(by omega)) ?_]
          · rfl
          · simp [cell, hi, h1, List.getElem?_eq_getElem (show q < leg.steps.length by omega), hs, last]
        · exact one _ (Link.close hi h1 (by simpa using hs) last) (by rw [hw, if_neg fun h => hs h.1])
      · exact one _ (Link.inside (leg_cell hi h1 (by omega)) (leg_cell hi h1 (show q + 1 < _ by omega))) (by rw [hw, if_neg fun h => last h.2])

theorem Made.outs_sum (m : Made t d F) (g : t.Good) : ∀ (l : List Item) (k : Nat), t.items.drop k = l → k ≤ t.items.length → (∀ x ∈ idsFrom k l, x ∈ allIds t) →
    ((idsFrom k l).map fun x => (outs (nodeAt d x)).length).sum + stopsIn l = rowsIn l + 2 * blocksIn l + sideLegs l
  | [], k, h, hk, hin => by
    have : k = t.items.length := by
      have := List.drop_eq_nil_iff.1 h; omega
    subst this
    have := m.row_outs g (by simp) (hin _ (by simp [idsFrom]) : Id.row (.main (t.items.length + 1)) ∈ _)
    rw [weight_last] at this
    simp only [idsFrom, List.map_cons, List.map_nil, List.sum_cons, List.sum_nil, this, stopsIn, rowsIn, blocksIn, sideLegs]
    omega
  | .step c :: r, k, h, hk, hin => by
    obtain ⟨h1, h2, h3⟩ := Props.drop_item h
    have ih := m.outs_sum g r (k + 1) h2 h3 fun x hx => hin x (by rw [idsFrom]; exact List.mem_cons_of_mem _ hx)
    have := m.row_outs g (by simp) (hin _ (by simp [idsFrom]) : Id.row (.main (k + 1)) ∈ _)
    rw [weight_main h1] at this
    rw [idsFrom, List.map_cons, List.sum_cons, this, stopsIn, rowsIn, blocksIn, sideLegs]
    omega
  | .block legs :: r, k, h, hk, hin => by
    obtain ⟨h1, h2, h3⟩ := Props.drop_item h
    have ih := m.outs_sum g r (k + 1) h2 h3 fun x hx => hin x (by rw [idsFrom]; exact List.mem_append_right _ hx)
    have hl := legs_sum (fun x => (outs (nodeAt d x)).length) k legs 0 fun j leg hj => by
      rw [← leg_weight g h1 hj]
      congr 2
      refine List.map_congr_left fun x hx => ?_
      have hj' := (List.getElem?_eq_some_iff.1 hj)
      have hx' : x ∈ allIds t := hin x (by
        rw [idsFrom]
        refine List.mem_append_left _ (List.mem_cons_of_mem _ (List.mem_append_left _ (List.mem_flatten.2 ⟨_, List.mem_mapIdx.2 ⟨j, hj'.1, rfl⟩, ?_⟩)))
        rw [hj'.2]; exact hx)
      obtain ⟨q, -, -, rfl⟩ := mem_legIds.1 hx
      exact m.row_outs g (by simp) hx'
    simp only [Nat.add_zero] at hl
    have hj : (outs (nodeAt d (.join (k + 2)))).length = 1 := by rw [m.outs_one g (Link.leave h1) (by simp)]; rfl
    have two := g.two legs (List.mem_of_getElem? h1)
    have : (legs.filter fun l => !l.stops).length ≤ legs.length := List.length_filter_le ..
    rw [idsFrom, stopsIn, rowsIn, blocksIn, sideLegs]
    simp only [List.cons_append, List.map_cons, List.map_append, List.sum_cons, List.sum_append, List.map_nil, List.sum_nil, m.split_outs h1, hj]
    omega

end
end Bpmn.Csv

namespace Bpmn.Props
open Bpmn.Spec Bpmn.Spec.Csv Bpmn.Csv Bpmn.Layouter Bpmn.LayoutMetrics Bpmn.Metrics

/-- **C127.** The counts, the number of flows and the two longest paths of the diagram of a table whose blocks may have terminated branches. -/
theorem C127_ends_metrics (t : FlatTable) (g : t.Good) :
    ∃ d, loadCsv t.rows {} = .ok d ∧ tnse d = .ok 1 ∧ tnie d = .ok 0 ∧ tnee d = .ok (1 + stopsIn t.items) ∧
      noa d = .ok (rowsIn t.items - stopsIn t.items) ∧
      allGatewaysCount d = .ok (2 * blocksIn t.items) ∧ noac d = .ok (2 + rowsIn t.items + 2 * blocksIn t.items) ∧
      d.getFlows.length + stopsIn t.items = 1 + rowsIn t.items + 2 * blocksIn t.items + sideLegs t.items ∧
      ∃ p q N, ∀ fuel ≥ N, computeLongestPath fuel d = .ok (p, 1 + longWay 1 t.items) ∧
        computeLongestPathTasks fuel d = .ok (q, longWay 0 t.items) := by
  obtain ⟨d, h⟩ := flat_ok g
  obtain ⟨F, m⟩ := flat_made g h
  have tab := flat_table g
  obtain ⟨k1, k2, k3, k4, k5, gw, k6, k7⟩ := C124_table_counts t.rows tab d h
  obtain ⟨s, i, e, a, g', l1, l2, l3, l4, l5, -, l6, -⟩ := C11_identities d (table_typed tab h)
  have start : Id.row (.main 0) ∈ allIds t := List.mem_cons_self ..
  have perm := m.perm g
  have len : d.getNodes.length = 2 + rowsIn t.items + 2 * blocksIn t.items := by
    rw [← perm.length_eq, List.length_map, allIds, List.length_cons, ids_length]; omega
  have ws := weight_sum g t.items 0 rfl (Nat.zero_le _)
  have work : howMany d ["task", "subProcess"] = rowsIn t.items - stopsIn t.items := by
    have : howMany d ["task", "subProcess"] = workIn d.getNodes := by
      unfold howMany workIn activities
      congr 2
      funext n
      simp
    rw [this, workIn, activities, ← (perm.filter _).length_eq]
    change workIn ((allIds t).map (nodeAt d)) = _
    rw [m.work_sum g _ fun _ h => h, allIds, List.map_cons, List.sum_cons]
    change 0 + _ = _
    omega
  have na : noa d = .ok (rowsIn t.items - stopsIn t.items) := by
    rw [(C11_cardinalities d (table_typed tab h)).2.2.2.2.2.1, work]
  have nrows : rowsWith (fun _ => True) t.rows = 2 + rowsIn t.items := by
    unfold rowsWith
    rw [List.filter_eq_self.2 (fun r hr => by simpa using g.plain r hr)]
    simp only [FlatTable.rows, List.length_cons, List.length_append, List.length_nil, lines_length]; omega
  have one : rowsWith (fun r => r.order = "0") t.rows = 1 := by
    classical
    have ho : String.ofList (decimal 0) = "0" := by decide
    have hnd := tab.orders
    have hp := g.plain
    unfold rowsWith
    rw [FlatTable.rows] at hnd hp ⊢
    rw [List.map_cons, List.nodup_cons] at hnd
    rw [List.filter_cons_of_pos (by simp only [decide_eq_true_eq]; exact ⟨hp _ (List.mem_cons_self ..), ho⟩), List.filter_eq_nil_iff.2]
    · rfl
    · intro r hr
      have : r.order ≠ "0" := fun k => hnd.1 (by
        rw [show (t.first.row (decimal 0) false).order = r.order from ho.trans k.symm]
        exact List.mem_map_of_mem hr)
      simp [this]
  have hg : gw = 2 * blocksIn t.items := by rw [nrows, len] at k7; omega
  rw [k1, one] at l1
  rw [k2] at l2
  rw [na] at l4
  rw [k6] at l5
  rw [k5] at l6
  have f1 := Except.ok.inj l1
  have f2 := Except.ok.inj l2
  have f4 := Except.ok.inj l4
  have f5 := Except.ok.inj l5
  have f6 := Except.ok.inj l6
  have he : e = 1 + stopsIn t.items := by omega
  have fl : d.getFlows.length + stopsIn t.items = 1 + rowsIn t.items + 2 * blocksIn t.items + sideLegs t.items := by
    have h1 := (flow_ids m.consistent).length_eq
    rw [List.length_map, List.length_map, List.length_flatMap, ← (perm.map _).sum_eq, List.map_map, allIds, List.map_cons, List.sum_cons] at h1
    have h2 := m.outs_sum g t.items 0 rfl (Nat.zero_le _) fun x hx => List.mem_cons_of_mem _ hx
    have h3 : (outs (nodeAt d (.row (.main 0)))).length = 1 := by
      rw [m.outs_one g (next_link g (k := 0) (c := t.first) rfl) (by simp)]; rfl
    simp only [Function.comp_def, h3] at h1
    omega
  have nl := noSelfLoop_of_acyclic m.consistent (m.acyclic g)
  obtain ⟨p, hp, p2, p3⟩ := C20_longest_path d m.consistent nl
  obtain ⟨q, hq, q2, q3⟩ := C21_longest_path_tasks d m.consistent nl
  have n0 : ins (nodeAt d (.row (.main 0))) = [] := by
    rw [nodeAt_ins, m.inn, List.eq_nil_iff_forall_not_mem]
    intro f hf
    obtain ⟨s, hs, -⟩ := mem_entering.1 hf
    obtain ⟨x, hl, -⟩ := m.link' g (y := .row (.main 0)) trivial hs
    cases hl
  have below : ∀ (e : Nat) (r : List Node), SimplePath d r → (∀ n ∈ r.head?, ins n = []) →
      ∃ xs : List Id, (∀ x ∈ xs, x ∈ allIds t) ∧ r = xs.map (nodeAt d) ∧ (xs.map (weight t e)).sum ≤ e + longWay e t.items := by
    intro e r sp hs
    obtain ⟨xs, h1, rfl, h3⟩ := m.path_ids g r sp.nodes sp.follows
    refine ⟨xs, h1, rfl, ?_⟩
    cases xs with
    | nil => exact absurd rfl sp.nonempty
    | cons x xs =>
      obtain rfl := m.only_start g (h1 x (by simp)) (hs _ (by simp))
      exact weigh_le g e _ h1 h3 _ rfl
  have ep : p.length = 1 + longWay 1 t.items := by
    apply Nat.le_antisymm
    · rcases p2 with rfl | c
      · simp
      · obtain ⟨xs, -, rfl, k⟩ := below 1 p c.toSimplePath c.starts
        rwa [sum_weight_one, ← List.length_map (f := nodeAt d)] at k
    · obtain ⟨xs, w1, w2, w3, w4, -, w6⟩ := weigh_attained g 1 _ _ start rfl
      have sp := m.ids_simple g w1 w2 w6
      have := p3 _ ⟨sp, by intro n hn; cases hn; exact n0, by
        intro n hn
        rw [List.getLast?_map] at hn
        obtain ⟨z, hz, rfl⟩ := Option.map_eq_some_iff.1 hn
        exact m.outs_none g (w1 z (List.mem_of_getLast? hz)) (w4 z hz)⟩
      rw [sum_weight_one] at w3
      rw [List.length_map, w3] at this
      exact this
  have eq : q.length = longWay 0 t.items := by
    apply Nat.le_antisymm
    · rcases q2 with rfl | ⟨n, rest, sp, h0, rfl⟩
      · simp
      · obtain ⟨xs, k1, k2, k⟩ := below 0 _ sp (by intro n hn; cases hn; exact h0)
        rw [← m.work_sum g xs k1, ← k2, Nat.zero_add] at k
        exact k
    · obtain ⟨xs, w1, w2, w3, w4, -, w6⟩ := weigh_attained g 0 _ _ start rfl
      have sp := m.ids_simple g w1 w2 w6
      have := q3 _ _ sp n0
      change workIn ((_ :: xs).map (nodeAt d)) ≤ _ at this
      rw [m.work_sum g _ w1, w3] at this
      change 0 + longWay 0 t.items ≤ _ at this
      omega
  exact ⟨d, h, by rw [k1, one], k2, by rw [l3, he], na, by rw [k6, hg], by rw [k5, len], fl, p, q, 2 * d.getNodes.length + 1, fun fuel hf =>
    ⟨by rw [hp fuel (by omega), ep], by rw [hq fuel (by omega), eq]⟩⟩

/-- What C127 says about this table: the terminated branch is short, the longest paths go to the end of the table. -/
example : ∃ d, loadCsv sample.rows {} = .ok d ∧ tnse d = .ok 1 ∧ tnee d = .ok 2 ∧ noa d = .ok 7 ∧ allGatewaysCount d = .ok 4 ∧ noac d = .ok 14 ∧ d.getFlows.length = 15 ∧
    ∃ p q N, ∀ fuel ≥ N, computeLongestPath fuel d = .ok (p, 11) ∧ computeLongestPathTasks fuel d = .ok (q, 5) := by
  obtain ⟨d, h, h0, -, h1, h2, h3, h4, h5, h6⟩ := C127_ends_metrics sample sample_good
  have : stopsIn sample.items = 1 := by decide
  have e : 1 + rowsIn sample.items + 2 * blocksIn sample.items + sideLegs sample.items = 16 := by decide
  exact ⟨d, h, h0, h1, h2, h3, h4, by omega, h6⟩

/-- A terminated branch that is longer than the rest of the table. -/
def appeal : FlatTable :=
  ⟨⟨"judged", "", "", ""⟩,
   [.step ⟨"read", "", "", ""⟩,
    .block [⟨[⟨"pay", "", "", ""⟩], false⟩, ⟨[⟨"sign", "", "", ""⟩], false⟩,
      ⟨[⟨"appeal", "", "", ""⟩, ⟨"wait", "", "", ""⟩, ⟨"plead", "", "", ""⟩, ⟨"hear", "", "", ""⟩, ⟨"over", "", "", ""⟩], true⟩]],
   ⟨"closed", "", "", ""⟩⟩

theorem appeal_good : appeal.Good := by
  refine ⟨?_, ?_, ?_, ?_, ?_⟩
  · intro legs h
    simp [appeal] at h
    subst h; decide
  · intro legs h
    simp [appeal] at h
    subst h; decide
  · intro legs h
    simp [appeal] at h
    subst h; decide
  · intro i legs legs' h h'
    match i with
    | 0 => simp [appeal] at h
    | 1 => simp [appeal] at h'
    | i + 2 => simp [appeal] at h
  · intro r hr hg
    have : ∀ r ∈ appeal.rows, isGoto r.activity = false := by decide
    rw [← isGoto_iff, this r hr] at hg
    cases hg

/-- What C127 says about this table: the longest paths go into the terminated branch and end there. -/
example : ∃ d, loadCsv appeal.rows {} = .ok d ∧ tnee d = .ok 2 ∧
    ∃ p q N, ∀ fuel ≥ N, computeLongestPath fuel d = .ok (p, 8) ∧ computeLongestPathTasks fuel d = .ok (q, 5) := by
  obtain ⟨d, h, -, -, h1, -, -, -, -, h6⟩ := C127_ends_metrics appeal appeal_good
  exact ⟨d, h, h1, h6⟩

end Bpmn.Props

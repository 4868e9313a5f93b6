import Verif.Lemmas.CsvAccept
import Verif.Spec.CsvFlat
/-! The rows of a flat table. -/
set_option linter.unusedSimpArgs false
set_option linter.unusedVariables false

namespace Bpmn.Csv
open Bpmn.Spec Bpmn.Spec.Csv

/-- Where a row of a flat table stands. -/
inductive Pos where
  | main (k : Nat)
  | leg (k j m : Nat)

def Pos.order : Pos → List Char
  | .main k => decimal k
  | .leg k j m => decimal k ++ [letter j] ++ decimal m

/-- The text at a place, and whether it is terminated. -/
def cell (t : FlatTable) : Pos → Option (Cell × Bool)
  | .main 0 => some (t.first, false)
  | .main (k + 1) =>
    if k = t.items.length then some (t.last, true)
    else match t.items[k]? with
      | some (.step c) => some (c, false)
      | _ => none
  | .leg (k + 1) j (m + 1) =>
    match t.items[k]? with
    | some (.block legs) => match legs[j]? with
      | some leg => leg.steps[m]?.map fun c => (c, leg.stops && decide (m + 1 = leg.steps.length))
      | none => none
    | _ => none
  | _ => none

theorem letter_ok {i : Nat} (h : i < 26) : Letter i (letter i) := by
  unfold Letter letter
  rw [List.getD_eq_getElem?_getD, List.getElem?_eq_getElem (by simpa using h)]
  rfl

theorem letter_inj {i j : Nat} (hi : i < 26) (hj : j < 26) (h : letter i = letter j) : i = j :=
  (letter_ok hi).inj (h ▸ letter_ok hj)

theorem letter_isLetter {i : Nat} (h : i < 26) : isLetter (letter i) = true := (letter_range (letter_ok h).range.1 (letter_ok h).range.2).1

/-- The places of a good table have small letters. -/
def Pos.Small : Pos → Prop
  | .main _ => True
  | .leg _ j _ => j < 26

theorem stops_letter {c : Char} {r : List Char} (h : isLetter c = true) : Stops (c :: r) := by
  intro x hx; simp at hx; exact hx ▸ isLetter_not_digit h

theorem Pos.order_inj {p q : Pos} (hp : p.Small) (hq : q.Small) (h : p.order = q.order) : p = q := by
  cases p with
  | main k =>
    cases q with
    | main l => rw [decimal_inj h]
    | leg l j m =>
      simp only [Pos.order, List.append_assoc, List.singleton_append] at h
      have := decimal_split (m := k) (n := l) (r := []) (by simp [Stops]) (stops_letter (letter_isLetter hq)) (by simpa using h)
      simp at this
  | leg k i n =>
    cases q with
    | main l =>
      simp only [Pos.order, List.append_assoc, List.singleton_append] at h
      have := decimal_split (m := l) (n := k) (r := []) (by simp [Stops]) (stops_letter (letter_isLetter hp)) (by simpa using h.symm)
      simp at this
    | leg l j m =>
      simp only [Pos.order, List.append_assoc, List.singleton_append] at h
      obtain ⟨rfl, h'⟩ := decimal_split (stops_letter (letter_isLetter hp)) (stops_letter (letter_isLetter hq)) h
      obtain ⟨h1, h2⟩ := List.cons.inj h'
      rw [letter_inj hp hq h1, decimal_inj h2]

theorem mem_legRows {p : List Char} {leg : Leg} {r : Row} :
    r ∈ legRows p leg ↔ ∃ (m : Nat) (c : Cell), leg.steps[m]? = some c ∧ r = c.row (p ++ decimal (m + 1)) (leg.stops && decide (m + 1 = leg.steps.length)) := by
  rw [legRows, List.mem_mapIdx]
  constructor
  · rintro ⟨i, h, rfl⟩
    exact ⟨i, _, List.getElem?_eq_getElem h, rfl⟩
  · rintro ⟨m, c, h, rfl⟩
    obtain ⟨h1, rfl⟩ := List.getElem?_eq_some_iff.1 h
    exact ⟨m, h1, rfl⟩

theorem mem_block {k : Nat} {legs : List Leg} {r : Row} :
    r ∈ itemRows k (.block legs) ↔ ∃ (j : Nat) (leg : Leg) (m : Nat) (c : Cell), legs[j]? = some leg ∧ leg.steps[m]? = some c ∧
      r = c.row (Pos.leg k j (m + 1)).order (leg.stops && decide (m + 1 = leg.steps.length)) := by
  simp only [itemRows, List.mem_flatten, List.mem_mapIdx]
  constructor
  · rintro ⟨l, ⟨j, h, rfl⟩, hr⟩
    obtain ⟨m, c, h1, rfl⟩ := mem_legRows.1 hr
    exact ⟨j, _, m, c, List.getElem?_eq_getElem h, h1, rfl⟩
  · rintro ⟨j, leg, m, c, h1, h2, rfl⟩
    obtain ⟨h3, rfl⟩ := List.getElem?_eq_some_iff.1 h1
    exact ⟨_, ⟨j, h3, rfl⟩, mem_legRows.2 ⟨m, c, h2, rfl⟩⟩

theorem mem_linesFrom {r : Row} : ∀ {items : List Item} {k : Nat}, r ∈ linesFrom k items ↔ ∃ i x, items[i]? = some x ∧ r ∈ itemRows (k + i) x
  | [], k => by simp [linesFrom]
  | x :: items, k => by
    rw [linesFrom, List.mem_append, mem_linesFrom]
    constructor
    · rintro (h | ⟨i, y, h1, h2⟩)
      · exact ⟨0, x, rfl, h⟩
      · exact ⟨i + 1, y, h1, by rwa [Nat.add_right_comm, Nat.add_assoc] at h2⟩
    · rintro ⟨i, y, h1, h2⟩
      cases i with
      | zero => simp at h1; subst h1; exact Or.inl h2
      | succ i => exact Or.inr ⟨i, y, by simpa using h1, by rwa [Nat.add_right_comm, Nat.add_assoc]⟩

theorem mem_rows {t : FlatTable} {r : Row} : r ∈ t.rows ↔ ∃ p c b, cell t p = some (c, b) ∧ r = c.row p.order b := by
  rw [FlatTable.rows, List.mem_cons, List.mem_append, List.mem_singleton, mem_linesFrom]
  constructor
  · rintro (rfl | ⟨i, x, h1, h2⟩ | rfl)
    · exact ⟨.main 0, _, _, rfl, rfl⟩
    · have hi := (List.getElem?_eq_some_iff.1 h1).1
      cases x with
      | step c =>
        simp only [itemRows, List.mem_singleton] at h2
        refine ⟨.main (i + 1), c, false, ?_, by rw [h2, Nat.add_comm]; rfl⟩
        simp only [cell, h1]
        rw [if_neg (by omega)]
      | block legs =>
        obtain ⟨j, leg, m, c, a1, a2, rfl⟩ := mem_block.1 h2
        refine ⟨.leg (i + 1) j (m + 1), c, _, ?_, by rw [Nat.add_comm]⟩
        simp [cell, h1, a1, a2]
    · exact ⟨.main (t.items.length + 1), t.last, true, by simp [cell], rfl⟩
  · rintro ⟨p, c, b, h, rfl⟩
    match p, h with
    | .main 0, h => cases h; exact Or.inl rfl
    | .main (k + 1), h =>
      right
      simp only [cell] at h
      split at h
      · rename_i e
        subst e
        cases h; exact Or.inr rfl
      · split at h
        · rename_i e; cases h
          exact Or.inl ⟨k, _, e, by simp [itemRows, Pos.order, Nat.add_comm]⟩
        · cases h
    | .leg (k + 1) j (m + 1), h =>
      right; left
      simp only [cell] at h
      split at h
      · rename_i legs e
        split at h
        · rename_i leg e2
          obtain ⟨c', h1, h2⟩ := Option.map_eq_some_iff.1 h
          cases h2
          exact ⟨k, _, e, mem_block.2 ⟨j, leg, m, _, e2, h1, by rw [Nat.add_comm]⟩⟩
        · cases h
      · cases h

theorem cell_leg {t : FlatTable} {k j m : Nat} {c : Cell} {b : Bool} (h : cell t (.leg k j m) = some (c, b)) :
    ∃ i n legs leg, k = i + 1 ∧ m = n + 1 ∧ t.items[i]? = some (.block legs) ∧ legs[j]? = some leg ∧ leg.steps[n]? = some c ∧
      b = (leg.stops && decide (n + 1 = leg.steps.length)) := by
  match k, m, h with
  | k + 1, m + 1, h =>
    simp only [cell] at h
    split at h
    · rename_i legs e
      split at h
      · rename_i leg e2
        obtain ⟨c', h1, h2⟩ := Option.map_eq_some_iff.1 h
        cases h2
        exact ⟨k, m, legs, leg, rfl, rfl, e, e2, h1, rfl⟩
      · cases h
    · cases h
  | 0, _, h => simp [cell] at h
  | k + 1, 0, h => simp [cell] at h

theorem cell_small {t : FlatTable} (g : t.Good) {p : Pos} (h : (cell t p).isSome = true) : p.Small := by
  cases p with
  | main k => trivial
  | leg k j m =>
    obtain ⟨⟨c, b⟩, h⟩ := Option.isSome_iff_exists.1 h
    obtain ⟨i, n, legs, leg, _, _, h1, h2, _⟩ := cell_leg h
    have := g.few legs (List.mem_of_getElem? h1)
    have := (List.getElem?_eq_some_iff.1 h2).1
    show j < 26
    omega

theorem hasOrder_pos {t : FlatTable} (g : t.Good) {p : Pos} (hp : p.Small) : HasOrder t.rows p.order ↔ (cell t p).isSome = true := by
  constructor
  · rintro ⟨r, hr, e⟩
    obtain ⟨q, c, b, h, rfl⟩ := mem_rows.1 hr
    have hq := cell_small g (p := q) (by rw [h]; rfl)
    have : p = q := Pos.order_inj hp hq (by rw [← e]; simp [Cell.row])
    rw [this, h]; rfl
  · intro h
    obtain ⟨⟨c, b⟩, h⟩ := Option.isSome_iff_exists.1 h
    exact ⟨_, mem_rows.2 ⟨p, c, b, h, rfl⟩, by simp [Cell.row]⟩

/-! ## It is a table -/

theorem map_mapIdx_list {α β γ : Type} {l : List α} {f : Nat → α → β} {g : β → γ} : (l.mapIdx f).map g = l.mapIdx fun i a => g (f i a) := by
  apply List.ext_getElem <;> simp

theorem legRows_orders (p : List Char) (leg : Leg) : (legRows p leg).map Row.order = (List.range leg.steps.length).map fun m => String.ofList (p ++ decimal (m + 1)) := by
  apply List.ext_getElem
  · simp [legRows]
  · intro i h1 h2
    simp [legRows, Cell.row]

theorem nodup_mapIdx_flatten {α β : Type} : ∀ {l : List α} {f : Nat → α → List β}, (∀ i a, l[i]? = some a → (f i a).Nodup) →
    (∀ i j a b, i < j → l[i]? = some a → l[j]? = some b → ∀ x ∈ f i a, x ∉ f j b) → (l.mapIdx f).flatten.Nodup
  | [], f, _, _ => by simp
  | a :: l, f, h1, h2 => by
    rw [List.mapIdx_cons, List.flatten_cons, List.nodup_append]
    refine ⟨h1 0 a rfl, nodup_mapIdx_flatten (fun i b hb => h1 (i + 1) b hb)
      (fun i j b c hij hb hc => h2 (i + 1) (j + 1) b c (by omega) hb hc), ?_⟩
    intro x hx y hy e
    subst e
    obtain ⟨m, hm, hy⟩ := List.mem_flatten.1 hy
    obtain ⟨j, hj, rfl⟩ := List.mem_mapIdx.1 hm
    exact h2 0 (j + 1) a _ (by omega) rfl (List.getElem?_eq_getElem hj) x hx hy

theorem ofList_inj {a b : List Char} (h : String.ofList a = String.ofList b) : a = b := String.ofList_injective h

theorem itemRows_nodup {k : Nat} {x : Item} (hf : ∀ legs, x = .block legs → legs.length ≤ 26) : ((itemRows k x).map Row.order).Nodup := by
  cases x with
  | step c => simp [itemRows]
  | block legs =>
    have h26 := hf legs rfl
    rw [itemRows, List.map_flatten, map_mapIdx_list]
    apply nodup_mapIdx_flatten
    · intro i leg _
      rw [legRows_orders]
      refine List.Nodup.map ?_ List.nodup_range
      intro a b e
      have := decimal_inj (List.append_cancel_left (ofList_inj e))
      omega
    · intro i j a b hij ha hb x hx hy
      rw [legRows_orders, List.mem_map] at hx hy
      obtain ⟨m, _, rfl⟩ := hx
      obtain ⟨n, _, e⟩ := hy
      have hi := (List.getElem?_eq_some_iff.1 ha).1
      have hj := (List.getElem?_eq_some_iff.1 hb).1
      have := Pos.order_inj (p := .leg k j (n + 1)) (q := .leg k i (m + 1)) (show j < 26 by omega) (show i < 26 by omega) (ofList_inj e)
      simp only [Pos.leg.injEq] at this
      omega

/-- The number in the main line that an order starts with. -/
theorem itemRows_lead {k : Nat} {x : Item} (hf : ∀ legs, x = .block legs → legs.length ≤ 26) {r : Row} (hr : r ∈ itemRows k x) :
    ∃ p : Pos, p.Small ∧ r.order = String.ofList p.order ∧ ((∃ c, x = .step c) ∧ p = .main k ∨ ∃ j m, p = .leg k j (m + 1)) := by
  cases x with
  | step c =>
    simp only [itemRows, List.mem_singleton] at hr
    exact ⟨.main k, trivial, by rw [hr]; rfl, Or.inl ⟨⟨c, rfl⟩, rfl⟩⟩
  | block legs =>
    obtain ⟨j, leg, m, c, h1, h2, rfl⟩ := mem_block.1 hr
    have := hf legs rfl
    have := (List.getElem?_eq_some_iff.1 h1).1
    exact ⟨.leg k j (m + 1), show j < 26 by omega, rfl, Or.inr ⟨j, m, rfl⟩⟩

theorem linesFrom_nodup : ∀ {items : List Item} {k : Nat}, (∀ legs, Item.block legs ∈ items → legs.length ≤ 26) → ((linesFrom k items).map Row.order).Nodup
  | [], k, _ => by simp [linesFrom]
  | x :: items, k, hf => by
    rw [linesFrom, List.map_append, List.nodup_append]
    refine ⟨itemRows_nodup (fun legs e => hf legs (by simp [e])), linesFrom_nodup fun legs h => hf legs (List.mem_cons_of_mem _ h), ?_⟩
    intro a ha b hb e
    subst e
    obtain ⟨r, hr, rfl⟩ := List.mem_map.1 ha
    obtain ⟨q, hq, e⟩ := List.mem_map.1 hb
    obtain ⟨i, y, h1, h2⟩ := mem_linesFrom.1 hq
    obtain ⟨p1, s1, o1, l1⟩ := itemRows_lead (fun legs e => hf legs (by simp [e])) hr
    obtain ⟨p2, s2, o2, l2⟩ := itemRows_lead (fun legs e => hf legs (List.mem_cons_of_mem _ (e ▸ List.mem_of_getElem? h1))) h2
    have := Pos.order_inj s1 s2 (ofList_inj (o1.symm.trans (e.symm.trans o2)))
    subst this
    rcases l1 with ⟨_, rfl⟩ | ⟨j, m, rfl⟩ <;> rcases l2 with ⟨_, l2⟩ | ⟨j', m', l2⟩ <;> simp at l2 <;> omega

theorem flat_table {t : FlatTable} (g : t.Good) : Table t.rows := by
  constructor
  · have lead : ∀ r ∈ linesFrom 1 t.items, ∀ k, (k = 0 ∨ k = t.items.length + 1) → r.order ≠ String.ofList (decimal k) := by
      intro r hr k hk e
      obtain ⟨i, y, h1, h2⟩ := mem_linesFrom.1 hr
      have hi := (List.getElem?_eq_some_iff.1 h1).1
      obtain ⟨p, s, o, l⟩ := itemRows_lead (fun legs e => g.few legs (e ▸ List.mem_of_getElem? h1)) h2
      have := Pos.order_inj (q := .main k) s trivial (ofList_inj (o.symm.trans e))
      subst this
      rcases l with ⟨_, l⟩ | ⟨j, m, l⟩ <;> simp at l
      omega
    rw [FlatTable.rows, List.map_cons, List.nodup_cons, List.map_append, List.nodup_append]
    refine ⟨?_, linesFrom_nodup g.few, by simp, ?_⟩
    · rw [List.mem_append, not_or]
      constructor
      · intro h
        obtain ⟨r, hr, e⟩ := List.mem_map.1 h
        exact lead r hr 0 (Or.inl rfl) e
      · simp only [List.map_cons, List.map_nil, List.mem_singleton]
        intro e
        have := decimal_inj (ofList_inj e)
        omega
    · intro a ha b hb e
      subst e
      obtain ⟨r, hr, rfl⟩ := List.mem_map.1 ha
      simp only [List.map_cons, List.map_nil, List.mem_singleton] at hb
      exact lead r hr _ (Or.inr rfl) hb
  · intro r hr c hc
    obtain ⟨p, ce, b, h, rfl⟩ := mem_rows.1 hr
    have hs := cell_small g (p := p) (by rw [h]; rfl)
    simp only [Cell.row, String.toList_ofList] at hc
    have dig : ∀ n, c ∈ decimal n → c.isAlphanum = true := fun n h => by simp [Char.isAlphanum, decimal_isDigit h]
    cases p with
    | main k => exact dig k hc
    | leg k j m =>
      simp only [Pos.order, List.mem_append, List.mem_singleton] at hc
      rcases hc with (hc | rfl) | hc
      · exact dig k hc
      · have := letter_isLetter (show j < 26 from hs)
        have hb : letter j ≠ '|' := (letter_range (letter_ok hs).range.1 (letter_ok hs).range.2).2
        simp [Char.isAlphanum, letter_alpha this hb]
      · exact dig m hc

/-! ## The branches of a block -/

theorem decimal_ones {m : Nat} (h1 : 1 ≤ m) (h : m ≤ 10) (ho : ∀ x ∈ decimal m, x = '1') : m = 1 := by
  have key : ∀ m, m < 11 → 1 ≤ m → (∀ x ∈ decimal m, x = '1') → m = 1 := by decide
  exact key m (by omega) h1 ho

/-- The orders that start a branch at number `k`. -/
theorem branchStart_pos {t : FlatTable} (g : t.Good) {p : Pos} (h : (cell t p).isSome = true) {k : Nat} :
    BranchStart (decimal k) p.order ↔ ∃ j, p = .leg k j 1 := by
  have hs := cell_small g h
  constructor
  · rintro ⟨c, ones, e, hc, ho⟩
    cases p with
    | main l =>
      have := decimal_split (m := l) (n := k) (r := []) (by simp [Stops]) (stops_letter (alpha_letter hc)) (by simpa [Pos.order] using e)
      simp at this
    | leg l j m =>
      simp only [Pos.order, List.append_assoc, List.singleton_append] at e
      obtain ⟨rfl, e'⟩ := decimal_split (stops_letter (letter_isLetter hs)) (stops_letter (alpha_letter hc)) e
      obtain ⟨_, rfl⟩ := List.cons.inj e'
      obtain ⟨⟨ce, b⟩, h⟩ := Option.isSome_iff_exists.1 h
      obtain ⟨i, n, legs, leg, _, rfl, h1, h2, h3, _⟩ := cell_leg h
      have := (g.short legs (List.mem_of_getElem? h1) leg (List.mem_of_getElem? h2)).2
      have := (List.getElem?_eq_some_iff.1 h3).1
      have := decimal_ones (by omega) (by omega) ho
      exact ⟨j, by rw [this]⟩
  · rintro ⟨j, rfl⟩
    refine ⟨letter j, ['1'], by simp only [Pos.order, List.append_assoc, List.singleton_append]; rfl, ?_, by simp⟩
    exact letter_alpha (letter_isLetter hs) (letter_range (letter_ok hs).range.1 (letter_ok hs).range.2).2

theorem matches_row {t : FlatTable} (g : t.Good) {p : Pos} {c : Cell} {b : Bool} (h : cell t p = some (c, b)) {k : Nat} :
    matchesSplit (String.ofList (decimal k)) (c.row p.order b).order = true ↔ ∃ j, p = .leg k j 1 := by
  rw [matchesSplit_start (flat_table g) (mem_rows.2 ⟨p, c, b, h, rfl⟩), show (c.row p.order b).order.toList = p.order by simp [Cell.row],
    branchStart_pos g (by rw [h]; rfl)]

theorem filter_linesFrom {q : Row → Bool} : ∀ {items : List Item} {k i : Nat} {x : Item}, items[i]? = some x →
    (∀ j y r, items[j]? = some y → j ≠ i → r ∈ itemRows (k + j) y → q r = false) → (linesFrom k items).filter q = (itemRows (k + i) x).filter q
  | [], k, i, x, h, _ => by simp at h
  | y :: items, k, i, x, h, hq => by
    rw [linesFrom, List.filter_append]
    cases i with
    | zero =>
      simp at h; subst h
      rw [Nat.add_zero]
      refine (congrArg _ (List.filter_eq_nil_iff.2 ?_)).trans (List.append_nil _)
      intro r hr
      obtain ⟨j, z, h1, h2⟩ := mem_linesFrom.1 hr
      simpa using hq (j + 1) z r h1 (by omega) (by rwa [Nat.add_right_comm, Nat.add_assoc] at h2)
    | succ i =>
      rw [List.filter_eq_nil_iff.2, List.nil_append, filter_linesFrom (by simpa using h)]
      · rw [Nat.add_right_comm, Nat.add_assoc]
      · intro j z r h1 h2 h3
        exact hq (j + 1) z r h1 (by omega) (by rwa [Nat.add_right_comm, Nat.add_assoc] at h3)
      · intro r hr
        simpa using hq 0 y r rfl (by omega) hr

theorem filter_flatten_mapIdx {α β : Type} {q : β → Bool} : ∀ {l : List α} {f : Nat → α → List β} {g : Nat → β}, (∀ i a, l[i]? = some a → (f i a).filter q = [g i]) →
    (l.mapIdx f).flatten.filter q = (List.range l.length).map g
  | [], f, g, _ => by simp
  | a :: l, f, g, h => by
    rw [List.mapIdx_cons, List.flatten_cons, List.filter_append, h 0 a rfl,
      filter_flatten_mapIdx (f := fun i => f (i + 1)) (g := fun i => g (i + 1)) (fun i b hb => h (i + 1) b hb), List.length_cons, List.range_succ_eq_map]
    simp [Function.comp_def]

/-- The first steps of the branches, in the order of the letters. -/
theorem starts_eq {t : FlatTable} (g : t.Good) {i : Nat} {legs : List Leg} (h : t.items[i]? = some (.block legs)) :
    (t.rows.map Row.order).filter (matchesSplit (String.ofList (decimal (i + 1)))) =
      (List.range legs.length).map fun j => String.ofList (Pos.leg (i + 1) j 1).order := by
  have hi := (List.getElem?_eq_some_iff.1 h).1
  rw [branches_eq (flat_table g)]
  have none : ∀ p c b, cell t p = some (c, b) → (∀ j, p ≠ .leg (i + 1) j 1) →
      matchesSplit (String.ofList (decimal (i + 1))) (c.row p.order b).order = false := by
    intro p c b hp hj
    cases e : matchesSplit (String.ofList (decimal (i + 1))) (c.row p.order b).order with
    | false => rfl
    | true => obtain ⟨j, e⟩ := (matches_row g hp).1 e; exact absurd e (hj j)
  have a1 := none (.main 0) t.first false rfl (by simp)
  have a2 := none (.main (t.items.length + 1)) t.last true (by simp [cell]) (by simp)
  rw [FlatTable.rows, List.filter_cons, List.filter_append]
  simp only [List.filter_cons, List.filter_nil]
  rw [show t.first.row (decimal 0) false = t.first.row (Pos.main 0).order false from rfl, a1,
    show t.last.row (decimal (t.items.length + 1)) true = t.last.row (Pos.main (t.items.length + 1)).order true from rfl, a2]
  simp only [Bool.false_eq_true, if_false, List.append_nil]
  rw [filter_linesFrom h]
  · rw [itemRows]
    have hc : ∀ j leg m c, legs[j]? = some leg → leg.steps[m]? = some c →
        cell t (.leg (i + 1) j (m + 1)) = some (c, leg.stops && decide (m + 1 = leg.steps.length)) := by
      intro j leg m c h1 h2
      simp [cell, h, h1, h2]
    have key : ∀ j leg, legs[j]? = some leg →
        ((legRows (decimal (1 + i) ++ [letter j]) leg).filter fun r => matchesSplit (String.ofList (decimal (i + 1))) r.order).map Row.order =
          [String.ofList (Pos.leg (i + 1) j 1).order] := by
      intro j leg hj
      rw [Nat.add_comm 1 i]
      obtain ⟨h1, _⟩ := g.short legs (List.mem_of_getElem? h) leg (List.mem_of_getElem? hj)
      obtain ⟨c0, cs, e⟩ := List.exists_cons_of_length_pos (by omega : 0 < leg.steps.length)
      unfold legRows
      rw [e, List.mapIdx_cons, List.filter_cons]
      have h0 := hc j leg 0 c0 hj (by rw [e]; rfl)
      have m0 := (matches_row g h0 (k := i + 1)).2 ⟨j, rfl⟩
      have : (c0.row (decimal (i + 1) ++ [letter j] ++ decimal (0 + 1)) (leg.stops && decide (0 + 1 = (c0 :: cs).length))) =
          c0.row (Pos.leg (i + 1) j (0 + 1)).order (leg.stops && decide (0 + 1 = leg.steps.length)) := by rw [e]; rfl
      rw [this, m0, if_pos rfl, List.filter_eq_nil_iff.2]
      · simp [Cell.row]
      · intro r hr
        obtain ⟨m, hm, rfl⟩ := List.mem_mapIdx.1 hr
        have h2 := hc j leg (m + 1) cs[m] hj (by rw [e]; simp)
        have := none _ _ _ h2 (by simp)
        rw [e] at this
        simpa [Pos.order] using this
    have comm : ∀ l : List Row, (l.filter fun r => matchesSplit (String.ofList (decimal (i + 1))) r.order).map Row.order =
        (l.map Row.order).filter (matchesSplit (String.ofList (decimal (i + 1)))) := by
      intro l; rw [List.filter_map]; rfl
    rw [comm, List.map_flatten, map_mapIdx_list]
    apply filter_flatten_mapIdx
    intro j leg hj
    rw [← comm]
    exact key j leg hj
  · intro j y r h1 h2 h3
    have hr : r ∈ linesFrom 1 t.items := mem_linesFrom.2 ⟨j, y, h1, h3⟩
    have hr : r ∈ t.rows := by rw [FlatTable.rows]; simp [hr]
    obtain ⟨p, c, b, hp, rfl⟩ := mem_rows.1 hr
    refine none p c b hp ?_
    rintro j' rfl
    obtain ⟨p2, s2, o2, l2⟩ := itemRows_lead (fun legs e => g.few legs (e ▸ List.mem_of_getElem? h1)) h3
    have := Pos.order_inj (cell_small g (by rw [hp]; rfl)) s2 (ofList_inj o2)
    subst this
    rcases l2 with ⟨_, l2⟩ | ⟨_, _, l2⟩ <;> simp at l2
    omega

end Bpmn.Csv

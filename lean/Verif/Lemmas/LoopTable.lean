import Verif.Spec.LoopTable
import Verif.Props.GotoLayout
/-!
# The orders of a table with one loop
-/
set_option linter.unusedSimpArgs false
set_option linter.unusedVariables false

namespace Bpmn.Props
open Bpmn Spec Csv Spec.Csv

/-- What stands behind the last letter of an order. -/
theorem after_letter {u v : List Char} {a b : Char} {m k : List Char} (ha : a.isDigit = false) (hb : b.isDigit = false) (hm : ∀ x ∈ m, x.isDigit = true) (hk : ∀ x ∈ k, x.isDigit = true)
    (e : u ++ a :: m = v ++ b :: k) : u = v ∧ a = b ∧ m = k := by
  have e' := congrArg List.reverse e
  simp only [List.reverse_append, List.reverse_cons, List.append_assoc, List.singleton_append] at e'
  obtain ⟨h1, h2⟩ := digits_split (a := m.reverse) (b := k.reverse) (by simpa using hm) (by simpa using hk) (by rintro c hc; simp at hc; exact hc ▸ ha)
    (by rintro c hc; simp at hc; exact hc ▸ hb) e'
  simp only [List.reverse_inj] at h1
  injection h2 with h2 h3
  simp only [List.reverse_inj] at h3
  exact ⟨h3, h2, h1⟩

theorem alpha_not_digit {c : Char} (h : c.isAlpha = true) : c.isDigit = false := by
  simp only [Char.isAlpha, Char.isUpper, Char.isLower, Char.isDigit, Bool.or_eq_true, Bool.and_eq_true, decide_eq_true_eq, Bool.and_eq_false_iff, decide_eq_false_iff_not, UInt32.le_iff_toNat_le, ge_iff_le] at *
  simp only [Char.reduceVal, UInt32.reduceToNat] at *
  omega

namespace LoopRows
variable {rows main back on rest : List Row} {j : Nat} {goto : Row} (L : LoopTable rows main j back goto on rest)

theorem prefA (n : Nat) : BranchPrefix (decimal n ++ ['a']) := draft_prefix n 'a' (by decide) (by decide)
theorem prefB (n : Nat) : BranchPrefix (decimal n ++ ['b']) := draft_prefix n 'b' (by decide) (by decide)

theorem neAB (n : Nat) : decimal n ++ ['a'] ≠ decimal n ++ ['b'] := fun e => by
  have := List.append_cancel_left e
  simp at this

/-- Where a row stands, its order being the prefix `p` and the number `n`. -/
inductive Spot (main : List Row) (back : List Row) (goto : Row) (on rest : List Row) (r : Row) : List Char → Nat → Prop where
  | main {n : Nat} : main[n]? = some r → Spot main back goto on rest r [] n
  | back {n : Nat} : back[n]? = some r → Spot main back goto on rest r (decimal main.length ++ ['a']) (n + 1)
  | goto : r = goto → Spot main back goto on rest r (decimal main.length ++ ['a']) (back.length + 1)
  | on {n : Nat} : on[n]? = some r → Spot main back goto on rest r (decimal main.length ++ ['b']) (n + 1)
  | rest {n : Nat} : rest[n]? = some r → Spot main back goto on rest r [] (main.length + 1 + n)

theorem Spot.pref {r : Row} {p : List Char} {n : Nat} (h : Spot main back goto on rest r p n) : BranchPrefix p := by
  cases h
  · exact .nil
  · exact prefA _
  · exact prefA _
  · exact prefB _
  · exact .nil

include L in
theorem spot_order {r : Row} {p : List Char} {n : Nat} (h : Spot main back goto on rest r p n) : r ∈ rows ∧ r.order.toList = p ++ decimal n := by
  cases h with
  | main h =>
    obtain ⟨hi, e⟩ := List.getElem?_eq_some_iff.1 h
    refine ⟨L.all.mem_iff.2 (by simp [← e]), ?_⟩
    rw [← e, L.mainLine _ hi]; simp
  | @back n h =>
    obtain ⟨hi, e⟩ := List.getElem?_eq_some_iff.1 h
    refine ⟨L.all.mem_iff.2 (by simp [← e]), ?_⟩
    have := L.branchA n (by simp; omega)
    rw [List.getElem_append_left hi, e] at this
    rw [this, Nat.add_comm]
  | goto h =>
    refine ⟨L.all.mem_iff.2 (by simp [h]), ?_⟩
    have := L.branchA back.length (by simp)
    simp only [List.getElem_append_right (Nat.le_refl _), Nat.sub_self, List.getElem_cons_zero] at this
    rw [h, this, Nat.add_comm]
  | on h =>
    obtain ⟨hi, e⟩ := List.getElem?_eq_some_iff.1 h
    refine ⟨L.all.mem_iff.2 (by simp [← e]), ?_⟩
    rw [← e, L.branchB _ hi, Nat.add_comm]
  | rest h =>
    obtain ⟨hi, e⟩ := List.getElem?_eq_some_iff.1 h
    refine ⟨L.all.mem_iff.2 (by simp [← e]), ?_⟩
    rw [← e, L.restLine _ hi]

include L in
theorem spot_of {r : Row} (h : r ∈ rows) : ∃ p n, Spot main back goto on rest r p n := by
  have := L.all.mem_iff.1 h
  simp only [List.mem_append, List.mem_singleton, or_assoc] at this
  rcases this with h | h | h | h | h
  · obtain ⟨i, hi, e⟩ := List.getElem_of_mem h; exact ⟨_, i, .main (by simp [hi, e])⟩
  · obtain ⟨i, hi, e⟩ := List.getElem_of_mem h; exact ⟨_, _, .back (n := i) (by simp [hi, e])⟩
  · exact ⟨_, _, .goto h⟩
  · obtain ⟨i, hi, e⟩ := List.getElem_of_mem h; exact ⟨_, _, .on (n := i) (by simp [hi, e])⟩
  · obtain ⟨i, hi, e⟩ := List.getElem_of_mem h; exact ⟨_, _, .rest (n := i) (by simp [hi, e])⟩

include L in
theorem spot_at {r : Row} (h : r ∈ rows) {p : List Char} {n : Nat} (hp : BranchPrefix p) (e : r.order.toList = p ++ decimal n) : Spot main back goto on rest r p n := by
  obtain ⟨q, m, s⟩ := spot_of L h
  obtain ⟨rfl, rfl⟩ := step_eq s.pref hp (spot_order L s).2 e
  exact s

/-- Which spots there are. -/
theorem Spot.bound {r : Row} {p : List Char} {n : Nat} (h : Spot main back goto on rest r p n) :
    (p = [] ∧ (n < main.length ∨ main.length + 1 ≤ n ∧ n < main.length + 1 + rest.length)) ∨
    (p = decimal main.length ++ ['a'] ∧ 1 ≤ n ∧ n ≤ back.length + 1) ∨ (p = decimal main.length ++ ['b'] ∧ 1 ≤ n ∧ n ≤ on.length) := by
  cases h with
  | main h => obtain ⟨hi, e⟩ := List.getElem?_eq_some_iff.1 h; exact .inl ⟨rfl, .inl hi⟩
  | back h => obtain ⟨hi, e⟩ := List.getElem?_eq_some_iff.1 h; exact .inr (.inl ⟨rfl, by omega, by omega⟩)
  | goto h => exact .inr (.inl ⟨rfl, by omega, by omega⟩)
  | on h => obtain ⟨hi, e⟩ := List.getElem?_eq_some_iff.1 h; exact .inr (.inr ⟨rfl, by omega, by omega⟩)
  | rest h => obtain ⟨hi, e⟩ := List.getElem?_eq_some_iff.1 h; exact .inl ⟨rfl, .inr ⟨by omega, by omega⟩⟩

theorem spotA {n : Nat} (h1 : 1 ≤ n) (h2 : n ≤ back.length + 1) : ∃ r, Spot main back goto on rest r (decimal main.length ++ ['a']) n := by
  obtain ⟨n, rfl⟩ := Nat.exists_eq_add_of_le' h1
  rcases Nat.lt_or_ge n back.length with h | h
  · exact ⟨_, .back (List.getElem?_eq_getElem h)⟩
  · obtain rfl : n = back.length := by omega
    exact ⟨_, .goto rfl⟩

/-- Two rows at one spot. -/
theorem Spot.unique {r r' : Row} {p : List Char} {n : Nat} (h : Spot main back goto on rest r p n) (h' : Spot main back goto on rest r' p n) : r = r' := by
  have nn : ∀ c, decimal main.length ++ [c] ≠ [] := by intro c; simp
  have get : ∀ {l : List Row} {i k : Nat}, l[i]? = some r → l[k]? = some r' → i = k → r = r' := by
    rintro l i k h1 h2 rfl
    rw [h1] at h2; injection h2
  have lt : ∀ {l : List Row} {i : Nat} {r : Row}, l[i]? = some r → i < l.length := fun h => (List.getElem?_eq_some_iff.1 h).1
  generalize hq : p = q at h h'
  generalize hm : n = m at h'
  subst hq
  cases h with
  | main h =>
    generalize hz : ([] : List Char) = z at h'
    cases h' with
    | main h' => exact get h h' hm
    | back h' => exact absurd hz.symm (nn _)
    | goto h' => exact absurd hz.symm (nn _)
    | on h' => exact absurd hz.symm (nn _)
    | rest h' => have := lt h; omega
  | back h =>
    generalize hz : decimal main.length ++ ['a'] = z at h'
    cases h' with
    | main h' => exact absurd hz (nn _)
    | back h' => exact get h h' (by omega)
    | goto h' => have := lt h; omega
    | on h' => exact absurd hz (neAB _)
    | rest h' => exact absurd hz (nn _)
  | goto h =>
    generalize hz : decimal main.length ++ ['a'] = z at h'
    cases h' with
    | main h' => exact absurd hz (nn _)
    | back h' => have := lt h'; omega
    | goto h' => rw [h, h']
    | on h' => exact absurd hz (neAB _)
    | rest h' => exact absurd hz (nn _)
  | on h =>
    generalize hz : decimal main.length ++ ['b'] = z at h'
    cases h' with
    | main h' => exact absurd hz (nn _)
    | back h' => exact absurd hz (neAB _).symm
    | goto h' => exact absurd hz (neAB _).symm
    | on h' => exact get h h' (by omega)
    | rest h' => exact absurd hz (nn _)
  | rest h =>
    generalize hz : ([] : List Char) = z at h'
    cases h' with
    | main h' => have := lt h'; omega
    | back h' => exact absurd hz.symm (nn _)
    | goto h' => exact absurd hz.symm (nn _)
    | on h' => exact absurd hz.symm (nn _)
    | rest h' => exact get h h' (by omega)

include L in
theorem has_bound {p : List Char} {n : Nat} (hp : BranchPrefix p) (h : HasOrder rows (p ++ decimal n)) :
    (p = [] ∧ (n < main.length ∨ main.length + 1 ≤ n ∧ n < main.length + 1 + rest.length)) ∨
    (p = decimal main.length ++ ['a'] ∧ 1 ≤ n ∧ n ≤ back.length + 1) ∨ (p = decimal main.length ++ ['b'] ∧ 1 ≤ n ∧ n ≤ on.length) := by
  obtain ⟨r, hr, e⟩ := h
  exact (spot_at L hr hp e).bound

include L in
/-- No order ends with a letter. -/
theorem no_letter {q : List Char} {c : Char} (hc : c.isDigit = false) : ¬HasOrder rows (q ++ [c]) := by
  rintro ⟨r, hr, e⟩
  obtain ⟨p, n, s⟩ := spot_of L hr
  rw [(spot_order L s).2] at e
  obtain ⟨l, x, hx⟩ := List.eq_nil_or_concat (decimal n) |>.resolve_left (decimal_ne_nil n)
  have hd : x.isDigit = true := decimal_isDigit (n := n) (by rw [hx]; simp)
  rw [hx, List.concat_eq_append, ← List.append_assoc] at e
  have := (List.append_inj' e rfl).2
  simp at this
  rw [this, hc] at hd
  cases hd

include L in
/-- The split is the only one. -/
theorem only_split {p : List Char} {n : Nat} (hp : BranchPrefix p) (h : HasOrder rows (p ++ decimal n ++ ['a']) ∨ HasOrder rows (p ++ decimal n ++ ['a', '1'])) :
    p = [] ∧ n = main.length := by
  rcases h with h | h
  · exact absurd h (no_letter L (by decide))
  · have e : p ++ decimal n ++ ['a', '1'] = (p ++ decimal n ++ ['a']) ++ decimal 1 := by
      rw [show decimal 1 = ['1'] by decide]; simp
    rw [e] at h
    rcases has_bound L (.step n hp (by decide) (by decide)) h with ⟨h, -⟩ | ⟨h, -⟩ | ⟨h, -⟩
    · simp at h
    · have := (List.append_inj' h rfl).1
      exact step_eq (o := decimal main.length) hp .nil this.symm (by simp)
    · have := (List.append_inj' h rfl).2
      simp at this

include L in
theorem opens {w o : List Char} (h : OpensSplit rows w o) : ∃ n, w = decimal n ∧ n + 1 = main.length ∧ o = decimal main.length := by
  obtain ⟨p, n, hp, rfl, rfl, -, h⟩ := h
  obtain ⟨rfl, e⟩ := only_split L hp h
  exact ⟨n, by simp, e, by simp [e]⟩

include L in
/-- The rows with which the branches begin. -/
theorem starts_at {r : Row} (hr : r ∈ rows) {o : List Char} (h : BranchStart o r.order.toList) :
    o = decimal main.length ∧ (back[0]? = some r ∨ on[0]? = some r) := by
  obtain ⟨p, n, s⟩ := spot_of L hr
  obtain ⟨c, ones, e, hc, h1⟩ := h
  rw [(spot_order L s).2] at e
  have dig : ∀ x ∈ ones, x.isDigit = true := fun x hx => by rw [h1 x hx]; decide
  obtain ⟨-, -, -, l1, -, l2, -⟩ := L.sizes
  have letter : ∀ a, a.isDigit = false → p = decimal main.length ++ [a] → 1 ≤ n → n ≤ 10 → o = decimal main.length ∧ n = 1 := by
    rintro a ha rfl k1 k2
    rw [List.append_assoc, List.singleton_append] at e
    obtain ⟨e1, e2, e3⟩ := after_letter ha (alpha_not_digit hc) (fun x => decimal_isDigit) dig e
    exact ⟨e1.symm, decimal_ones k1 k2 (e3 ▸ h1)⟩
  have plain : p ≠ [] := by
    rintro rfl
    have : c ∈ decimal n := by
      rw [List.nil_append] at e; rw [e]; simp
    have := decimal_isDigit this
    rw [alpha_not_digit hc] at this
    cases this
  have b := s.bound
  cases s with
  | main h => exact absurd rfl plain
  | rest h => exact absurd rfl plain
  | @back m h =>
    obtain ⟨hi, -⟩ := List.getElem?_eq_some_iff.1 h
    obtain ⟨e1, e2⟩ := letter 'a' (by decide) rfl (by omega) (by omega)
    obtain rfl : m = 0 := by omega
    exact ⟨e1, .inl h⟩
  | goto h =>
    obtain ⟨e1, e2⟩ := letter 'a' (by decide) rfl (by omega) (by omega)
    have := L.sizes.2.2.1
    have : back = [] := List.eq_nil_of_length_eq_zero (by omega)
    exact absurd this L.sizes.2.2.1
  | @on m h =>
    obtain ⟨hi, -⟩ := List.getElem?_eq_some_iff.1 h
    obtain ⟨e1, e2⟩ := letter 'b' (by decide) rfl (by omega) (by omega)
    obtain rfl : m = 0 := by omega
    exact ⟨e1, .inr h⟩

include L in
theorem start_of {r : Row} (h : back[0]? = some r ∨ on[0]? = some r) : r ∈ rows ∧ BranchStart (decimal main.length) r.order.toList := by
  rcases h with h | h
  · obtain ⟨h1, h2⟩ := spot_order L (.back h)
    exact ⟨h1, 'a', ['1'], by rw [h2]; simp [show decimal 1 = ['1'] by decide], by decide, by simp⟩
  · obtain ⟨h1, h2⟩ := spot_order L (.on h)
    exact ⟨h1, 'b', ['1'], by rw [h2]; simp [show decimal 1 = ['1'] by decide], by decide, by simp⟩

include L in
theorem is_goto {r : Row} (hr : r ∈ rows) (h : GotoRow r) : r = goto := by
  have := L.all.mem_iff.1 hr
  simp only [List.mem_append, List.mem_singleton, or_assoc] at this
  by_contra hne
  refine (L.others r ?_).1 h
  simp only [List.mem_append, or_assoc]
  grind

include L in
theorem goes_to {q : Row} (hq : q ∈ rows) (h : GoesTo goto q.order) : main[j]? = some q := by
  obtain ⟨hg, -, ht⟩ := L.jump
  have hj := L.sizes.2.1
  have h1 := second_word h
  rw [second_word (ht _ (List.getElem?_eq_getElem hj))] at h1
  injection h1 with h1
  have k1 := spot_order L (.main (List.getElem?_eq_getElem hj))
  rw [h1] at k1
  have k2 := spot_at L hq .nil k1.2
  rw [List.getElem?_eq_getElem hj]
  congr 1
  exact Spot.unique (.main (List.getElem?_eq_getElem hj)) k2

/-! ## What the table is like -/

include L in
/-- The end is the last row of the main line. -/
theorem ended {r : Row} {p : List Char} {n : Nat} (s : Spot main back goto on rest r p n) : r.terminated = "yes" ↔ p = [] ∧ n = main.length + rest.length := by
  have pos : 0 < rest.length := List.length_pos_iff.2 L.sizes.2.2.2.2.2.2
  have lt : ∀ {l : List Row} {i : Nat}, l[i]? = some r → i < l.length := fun h => (List.getElem?_eq_some_iff.1 h).1
  have nn : ∀ c, decimal main.length ++ [c] ≠ [] := by intro c; simp
  constructor
  · intro h
    have key : rest.getLast? = some r → p = [] ∧ n = main.length + rest.length := by
      intro hl
      rw [List.getLast?_eq_getElem?] at hl
      have := step_eq s.pref .nil (spot_order L s).2 (spot_order L (.rest hl)).2
      exact ⟨this.1, by rw [this.2]; omega⟩
    cases s with
    | main h' => exact key ((L.others r (by simp [List.mem_of_getElem? h'])).2.1 h)
    | back h' => exact key ((L.others r (by simp [List.mem_of_getElem? h'])).2.1 h)
    | on h' => exact key ((L.others r (by simp [List.mem_of_getElem? h'])).2.1 h)
    | rest h' => exact key ((L.others r (by simp [List.mem_of_getElem? h'])).2.1 h)
    | goto h' => exact absurd (h' ▸ h) L.jump.2.1
  · rintro ⟨hp, hn⟩
    cases s with
    | main h => have := lt h; omega
    | back h => exact absurd hp (nn _)
    | goto h => exact absurd hp (nn _)
    | on h => exact absurd hp (nn _)
    | @rest m h =>
      refine (L.others r (by simp [List.mem_of_getElem? h])).2.2 ?_
      rw [List.getLast?_eq_getElem?, ← h]
      congr 1
      omega

include L in
theorem goto_mem : goto ∈ rows ∧ goto.order.toList = decimal main.length ++ ['a'] ++ decimal (back.length + 1) := spot_order L (.goto rfl)

include L in
theorem orders_nodup : (rows.map Row.order).Nodup := by
  have one : ∀ {p : List Char} {n : Nat} {l : List Row}, NumberedFrom p n l → (l.map Row.order).Nodup := by
    intro p n l h
    refine List.pairwise_iff_getElem.2 fun i k hi hk hlt e => ?_
    simp only [List.length_map] at hi hk
    simp only [List.getElem_map] at e
    have := (h i hi).symm.trans ((congrArg String.toList e).trans (h k hk))
    have := decimal_inj (List.append_cancel_left this)
    omega
  have two : ∀ {p q : List Char} {n m : Nat} {l l' : List Row}, BranchPrefix p → BranchPrefix q → NumberedFrom p n l → NumberedFrom q m l' → (p ≠ q ∨ n + l.length ≤ m) →
      List.Disjoint (l.map Row.order) (l'.map Row.order) := by
    intro p q n m l l' hp hq h h' hd x hx hx'
    obtain ⟨r, hr, rfl⟩ := List.mem_map.1 hx
    obtain ⟨s, hs, e⟩ := List.mem_map.1 hx'
    obtain ⟨i, hi, rfl⟩ := List.getElem_of_mem hr
    obtain ⟨k, hk, rfl⟩ := List.getElem_of_mem hs
    obtain ⟨e1, e2⟩ := step_eq hp hq (h i hi) ((congrArg String.toList e).symm.trans (h' k hk))
    rcases hd with hd | hd
    · exact hd e1
    · omega
  have nn : ∀ c, [] ≠ decimal main.length ++ [c] := by intro c; simp
  rw [(L.all.map Row.order).nodup_iff]
  simp only [List.map_append]
  rw [← List.map_append (l₁ := back)]
  have M := L.mainLine
  have A := L.branchA
  have B := L.branchB
  have R := L.restLine
  have pa := prefA main.length
  have pb := prefB main.length
  refine List.Nodup.append (List.Nodup.append (List.Nodup.append (one M) (one A) (two .nil pa M A (.inl (nn _)))) (one B) ?_) (one R) ?_
  · rw [List.disjoint_append_left]
    exact ⟨two .nil pb M B (.inl (nn _)), two pa pb A B (.inl (neAB _))⟩
  · rw [List.disjoint_append_left, List.disjoint_append_left]
    exact ⟨⟨two .nil .nil M R (.inr (by omega)), two pa .nil A R (.inl (nn _).symm)⟩, two pb .nil B R (.inl (nn _).symm)⟩

theorem digit_alnum {c : Char} (h : c.isDigit = true) : c.isAlphanum = true := by
  simp [Char.isAlphanum, h]

include L in
theorem table : Table rows := by
  refine ⟨orders_nodup L, ?_⟩
  intro r hr c hc
  obtain ⟨p, n, s⟩ := spot_of L hr
  rw [(spot_order L s).2] at hc
  rcases List.mem_append.1 hc with hc | hc
  · rcases s.bound with ⟨rfl, -⟩ | ⟨rfl, -⟩ | ⟨rfl, -⟩
    · cases hc
    · rcases List.mem_append.1 hc with hc | hc
      · exact digit_alnum (decimal_isDigit hc)
      · simp at hc; subst hc; decide
    · rcases List.mem_append.1 hc with hc | hc
      · exact digit_alnum (decimal_isDigit hc)
      · simp at hc; subst hc; decide
  · exact digit_alnum (decimal_isDigit hc)

include L in
theorem no_more {p : List Char} {n : Nat} (hp : BranchPrefix p) (hne : p ≠ []) (h : ¬HasOrder rows (p ++ decimal n)) : ¬HasOrder rows (p ++ decimal n) ∧
    ¬HasOrder rows (p ++ decimal n ++ ['a']) ∧ ¬HasOrder rows (p ++ decimal n ++ ['a', '1']) :=
  ⟨h, fun k => hne (only_split L hp (.inl k)).1, fun k => hne (only_split L hp (.inr k)).1⟩

include L in
theorem last_goto : LastStep rows (decimal main.length ++ ['a']) goto.order.toList := by
  refine .inr ⟨back.length + 1, (goto_mem L).2, no_more L (prefA _) (by simp) fun h => ?_⟩
  rcases has_bound L (prefA _) h with ⟨h, -⟩ | ⟨-, -, h⟩ | ⟨h, -⟩
  · simp at h
  · omega
  · exact neAB _ h

include L in
theorem last_on {r : Row} (hr : on.getLast? = some r) : r ∈ rows ∧ LastStep rows (decimal main.length ++ ['b']) r.order.toList := by
  have pos : 0 < on.length := List.length_pos_iff.2 L.sizes.2.2.2.2.1
  rw [List.getLast?_eq_getElem?] at hr
  obtain ⟨h1, h2⟩ := spot_order L (.on hr)
  refine ⟨h1, .inr ⟨_, h2, no_more L (prefB _) (by simp) fun h => ?_⟩⟩
  rcases has_bound L (prefB _) h with ⟨h, -⟩ | ⟨h, -⟩ | ⟨-, -, h⟩
  · simp at h
  · exact neAB _ h.symm
  · omega

include L in
theorem has_rest : HasOrder rows (decimal (main.length + 1)) ∧ ∃ s, rest[0]? = some s ∧ s ∈ rows ∧ s.order.toList = decimal (main.length + 1) := by
  have pos : 0 < rest.length := List.length_pos_iff.2 L.sizes.2.2.2.2.2.2
  have := spot_order L (.rest (List.getElem?_eq_getElem pos))
  exact ⟨⟨_, this.1, by simpa using this.2⟩, _, List.getElem?_eq_getElem pos, this.1, by simpa using this.2⟩

theorem numA (n : Nat) : NumberIn (decimal n ++ ['a']) n := ⟨[], 'a', [], .nil, .nil, by decide, by decide, by simp⟩
theorem numB (n : Nat) : NumberIn (decimal n ++ ['b']) n := ⟨[], 'b', [], .nil, .nil, by decide, by decide, by simp⟩
theorem inA {n k : Nat} (h : NumberIn (decimal n ++ ['a']) k) : k = n := draft_numbers n 'a' (by decide) (by decide) h
theorem inB {n k : Nat} (h : NumberIn (decimal n ++ ['b']) k) : k = n := draft_numbers n 'b' (by decide) (by decide) h

include L in
theorem goto_table : GotoTable rows := by
  refine ⟨table L, ?_, ?_, ?_, ?_, ?_⟩
  · intro r hr
    obtain ⟨p, n, s⟩ := spot_of L hr
    exact ⟨p, s.pref, .inr ⟨n, (spot_order L s).2⟩⟩
  · intro g hg hgo; rw [is_goto L hg hgo]; exact L.jump.2.1
  · intro g hg hgo; rw [is_goto L hg hgo]; exact ⟨_, by simp, prefA _, last_goto L⟩
  · intro g hg hgo
    rw [is_goto L hg hgo]
    have e := List.getElem?_eq_getElem L.sizes.2.1
    exact ⟨_, (spot_order L (.main e)).1, (L.others _ (by simp)).1, L.jump.2.2 _ e⟩
  · intro g hg hgo o hb
    have e := is_goto L hg hgo
    subst e
    obtain ⟨-, h⟩ := starts_at L hg hb
    rcases h with h | h
    · exact absurd hgo (L.others _ (by simp [List.mem_of_getElem? h])).1
    · exact absurd hgo (L.others _ (by simp [List.mem_of_getElem? h])).1

include L in
/-- What stands before the `goto` row. -/
theorem before_goto {w : Row} (hw : w ∈ rows) (h : ComesAfter rows w.order.toList goto.order.toList) : back.getLast? = some w := by
  obtain ⟨hg, eg⟩ := goto_mem L
  have pos : 0 < back.length := List.length_pos_iff.2 L.sizes.2.2.1
  cases h with
  | @next p n h1 h2 h3 =>
    obtain ⟨rfl, e⟩ := step_eq (prefA _) h1 eg h3
    obtain rfl : n = (back.length - 1) + 1 := by omega
    have s := spot_at L hw h1 h2
    have s' : Spot main back goto on rest _ (decimal main.length ++ ['a']) (back.length - 1 + 1) := .back (List.getElem?_eq_getElem (by omega))
    rw [s.unique s', List.getLast?_eq_getElem?, List.getElem?_eq_getElem (by omega)]
  | branch h1 h2 h3 h4 h5 =>
    obtain ⟨-, h⟩ := starts_at L hg h5
    rcases h with h | h
    · exact absurd L.jump.1 (L.others _ (by simp [List.mem_of_getElem? h])).1
    · exact absurd L.jump.1 (L.others _ (by simp [List.mem_of_getElem? h])).1

include L in
theorem not_start (o : List Char) : ¬BranchStart o goto.order.toList := by
  intro h
  obtain ⟨-, h⟩ := starts_at L (goto_mem L).1 h
  rcases h with h | h
  · exact absurd L.jump.1 (L.others _ (by simp [List.mem_of_getElem? h])).1
  · exact absurd L.jump.1 (L.others _ (by simp [List.mem_of_getElem? h])).1

include L in
theorem apart {r s : Row} (h : back[0]? = some r) (h' : on[0]? = some s) : r ≠ s := by
  rintro rfl
  obtain ⟨e, -⟩ := step_eq (prefA _) (prefB _) (spot_order L (.back h)).2 (spot_order L (.on h')).2
  exact neAB _ e

include L in
theorem first_two : ∃ r s, back[0]? = some r ∧ on[0]? = some s := by
  have p1 : 0 < back.length := List.length_pos_iff.2 L.sizes.2.2.1
  have p2 : 0 < on.length := List.length_pos_iff.2 L.sizes.2.2.2.2.1
  exact ⟨_, _, List.getElem?_eq_getElem p1, List.getElem?_eq_getElem p2⟩

include L in
theorem split_table : SplitTable rows := by
  constructor
  · intro b hb o h
    obtain ⟨rfl, k⟩ := starts_at L hb h
    obtain ⟨r, s, hr, hs⟩ := first_two L
    rcases k with k | k
    · exact ⟨s, (start_of L (.inr hs)).1, (apart L k hs).symm, (start_of L (.inr hs)).2⟩
    · exact ⟨r, (start_of L (.inl hr)).1, apart L hr k, (start_of L (.inl hr)).2⟩
  · intro g hg hgo w hw w' hw' _ _ h h'
    rw [is_goto L hg hgo] at h h'
    have := (before_goto L hw h).symm.trans (before_goto L hw' h')
    injection this

include L in
theorem no_turn : NoTurn rows := by
  constructor
  · intro g hg hgo q hq hto w hw ht hn hqt
    have hw' := is_goto L hg hgo
    subst hw'
    refine ⟨?_, fun g' hg' hne hgo' => absurd (is_goto L hg' hgo') hne⟩
    rintro ⟨p, n, hp, k1, k2⟩
    have e := goes_to L hq hto
    obtain ⟨rfl, -⟩ := step_eq .nil hp (spot_order L (.main e)).2 k1
    have hb := before_goto L hw (comesAfter_next hn)
    rw [List.getLast?_eq_getElem?] at hb
    obtain ⟨h, -⟩ := step_eq (prefA _) .nil (spot_order L (.back hb)).2 k2
    simp at h
  · intro g hg hgo q hq hto w hw ht o ho hb
    rw [is_goto L hg hgo] at hb
    exact absurd hb (not_start L _)

include L in
/-- Which branch comes back where. -/
theorem comes {y s : Row} (h : ComesBack rows y s) : on.getLast? = some y ∧ rest[0]? = some s := by
  obtain ⟨hy, hs, hg, hn, p, k, hp, hl, hk, h1, e, -⟩ := h
  obtain ⟨q, n, sp⟩ := spot_of L hy
  have := stepOf_unique (lastStep_stepOf hp hl) ⟨sp.pref, .inr ⟨n, (spot_order L sp).2⟩⟩
  subst this
  have last : ¬HasOrder rows (p ++ decimal (n + 1)) := by
    rcases hl with hl | ⟨m, hl, hl', -⟩
    · rw [(spot_order L sp).2] at hl
      exact absurd (List.append_right_eq_self.1 hl) (decimal_ne_nil _)
    · obtain ⟨-, rfl⟩ := step_eq hp hp (spot_order L sp).2 hl
      exact hl'
  have pos : 0 < rest.length := List.length_pos_iff.2 L.sizes.2.2.2.2.2.2
  have front : k = main.length → rest[0]? = some s := by
    rintro rfl
    have s' := spot_at (p := []) L hs .nil e
    have s0 : Spot main back goto on rest rest[0] [] (main.length + 1 + 0) := .rest (List.getElem?_eq_getElem pos)
    rw [s'.unique s0, List.getElem?_eq_getElem pos]
  cases sp with
  | main h => exact absurd rfl (numberIn_ne hk)
  | rest h => exact absurd rfl (numberIn_ne hk)
  | @back m h =>
    exfalso
    obtain ⟨hi, -⟩ := List.getElem?_eq_some_iff.1 h
    obtain ⟨r, hr⟩ := spotA (main := main) (back := back) (goto := goto) (on := on) (rest := rest) (n := m + 1 + 1) (by omega) (by omega)
    exact last ⟨r, spot_order L hr⟩
  | goto h => exact absurd (h ▸ L.jump.1) hg
  | @on m h =>
    obtain ⟨hi, -⟩ := List.getElem?_eq_some_iff.1 h
    refine ⟨?_, front (inB hk)⟩
    rw [List.getLast?_eq_getElem?, ← h]
    congr 1
    by_contra hne
    exact last ⟨_, spot_order L (.on (List.getElem?_eq_getElem (by omega)))⟩

include L in
theorem comes_back {y s : Row} (hy : on.getLast? = some y) (hs : rest[0]? = some s) : ComesBack rows y s := by
  obtain ⟨h1, h2⟩ := last_on L hy
  obtain ⟨h3, s', h4, h5, h6⟩ := has_rest L
  rw [hs] at h4
  injection h4 with h4
  subst h4
  have hy' := hy
  rw [List.getLast?_eq_getElem?] at hy'
  refine ⟨h1, h5, (L.others _ (by simp [List.mem_of_getElem? hy'])).1, ?_, _, main.length, prefB _, h2, numB _, ?_, h6, h6 ▸ h3⟩
  · intro ht
    have := ((ended L (.on hy')).1 ht).1
    simp at this
  · have := L.sizes; omega

include L in
theorem opens_here {w : Row} (hw : main.getLast? = some w) : w ∈ rows ∧ w.terminated ≠ "yes" ∧ OpensSplit rows w.order.toList (decimal main.length) := by
  have hs := L.sizes
  rw [List.getLast?_eq_getElem?] at hw
  obtain ⟨h1, h2⟩ := spot_order L (.main hw)
  obtain ⟨r, s, hr, -⟩ := first_two L
  obtain ⟨k1, k2⟩ := spot_order L (.back hr)
  refine ⟨h1, fun ht => ?_, [], _, .nil, h2, by rw [show main.length - 1 + 1 = main.length by omega]; rfl, ?_, .inr ⟨r, k1, ?_⟩⟩
  · have := ((ended L (.main hw)).1 ht).2; omega
  · intro h
    rcases has_bound (p := []) L .nil h with ⟨-, h⟩ | ⟨h, -⟩ | ⟨h, -⟩
    · omega
    · simp at h
    · simp at h
  · rw [k2, show decimal (0 + 1) = ['1'] by decide]; simp

include L in
/-- The table is imported. -/
theorem imported : ∃ d, loadCsv rows {} = .ok d := by
  have hs := L.sizes
  have T := goto_table L
  have lt : ∀ {l : List Row} {i : Nat} {r : Row}, l[i]? = some r → i < l.length := fun h => (List.getElem?_eq_some_iff.1 h).1
  have hr := (has_rest L).1
  have pos : 0 < rest.length := List.length_pos_iff.2 hs.2.2.2.2.2.2
  have pob : 0 < back.length := List.length_pos_iff.2 hs.2.2.1
  refine (C110_exactly T).2 ⟨?_, ?_, ?_⟩
  · intro r hrr ht
    obtain ⟨p, n, s⟩ := spot_of L hrr
    have e := (spot_order L s).2
    have hpf := s.pref
    have open' := mt (ended L s).2 ht
    cases s with
    | main h =>
      by_cases hn : n + 1 < main.length
      · exact .next .nil e (.inl ⟨_, spot_order L (.main (List.getElem?_eq_getElem hn))⟩)
      · have := lt h
        obtain ⟨x, y, hx, -⟩ := first_two L
        obtain ⟨k1, k2⟩ := spot_order L (.back hx)
        exact .next .nil e (.inr (.inr ⟨x, k1, by rw [k2, show n + 1 = main.length by omega, show decimal (0 + 1) = ['1'] by decide]; simp⟩))
    | @back m h =>
      have := lt h
      obtain ⟨x, hx⟩ := spotA (main := main) (back := back) (goto := goto) (on := on) (rest := rest) (n := m + 1 + 1) (by omega) (by omega)
      exact .next (prefA _) e (.inl ⟨x, spot_order L hx⟩)
    | goto h => exact .back ⟨prefA _, .inr ⟨_, e⟩⟩ (numA _) (by omega) hr fun j h _ => inA h
    | @on m h =>
      by_cases hn : m + 1 < on.length
      · exact .next (prefB _) e (.inl ⟨_, spot_order L (.on (List.getElem?_eq_getElem hn))⟩)
      · exact .back ⟨prefB _, .inr ⟨_, e⟩⟩ (numB _) (by omega) hr fun j h _ => inB h
    | @rest m h =>
      have := lt h
      have : m + 1 < rest.length := by
        by_contra hh
        exact open' ⟨rfl, by omega⟩
      exact .next .nil e (.inl ⟨_, spot_order L (.rest (List.getElem?_eq_getElem this))⟩)
  · intro g hg hgo
    rw [is_goto L hg hgo]
    have hl : back[back.length - 1]? = some _ := List.getElem?_eq_getElem (by omega)
    obtain ⟨k1, k2⟩ := spot_order L (.back hl)
    refine ⟨_, k1, fun ht => ?_, .next (prefA _) k2 ?_⟩
    · have := ((ended L (.back hl)).1 ht).1
      simp at this
    · rw [(goto_mem L).2, show back.length - 1 + 1 + 1 = back.length + 1 by omega]
  · intro g hg hgo u hu
    rw [is_goto L hg hgo] at hu
    obtain ⟨p, k, hp, hl, hk, h1, rfl, h⟩ := hu
    have := stepOf_unique (lastStep_stepOf hp hl) ⟨prefA _, .inr ⟨_, (goto_mem L).2⟩⟩
    subst this
    have := inA hk
    subst this
    obtain ⟨s, hs0, -, es⟩ := (has_rest L).2
    have := comes_back L (List.getLast?_eq_getElem? ▸ List.getElem?_eq_getElem (by have := List.length_pos_iff.2 hs.2.2.2.2.1; omega)) hs0
    exact ⟨_, this.1, this.2.2.1, this.2.2.2.1, es ▸ this.2.2.2.2⟩

end LoopRows
end Bpmn.Props

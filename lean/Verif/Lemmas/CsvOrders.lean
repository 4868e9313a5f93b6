import Verif.Model.CsvImport
import Verif.Lemmas.CsvExport
/-! Lemmas about orders: what the regular expressions of the CSV import match. -/
set_option linter.unusedSimpArgs false
set_option linter.unusedVariables false

namespace Bpmn.Csv
open Bpmn.Spec.Csv

theorem isLetter_not_digit {c : Char} (h : isLetter c = true) : c.isDigit = false := by
  cases hd : c.isDigit with
  | false => rfl
  | true =>
    exfalso
    simp only [isLetter, Char.isDigit, Bool.or_eq_true, Bool.and_eq_true, decide_eq_true_eq, beq_iff_eq, Char.le_def, ge_iff_le] at h hd
    have h1 : c.val ≤ 57 := by simpa using hd.2
    rcases h with (⟨h, -⟩ | rfl) | ⟨h, -⟩
    · have : (97 : UInt32) ≤ c.val := h
      have := UInt32.le_trans this h1
      revert this; decide
    · revert h1; decide
    · have : (65 : UInt32) ≤ c.val := h
      have := UInt32.le_trans this h1
      revert this; decide

theorem digit_not_letter {c : Char} (h : c.isDigit = true) : isLetter c = false := by
  cases hl : isLetter c with
  | false => rfl
  | true => rw [isLetter_not_digit hl] at h; cases h

/-- Nothing, or something that ends in a letter. -/
def Ends (p : List Char) : Prop := p = [] ∨ ∃ q c, p = q ++ [c] ∧ isLetter c = true

theorem takeWhile_all_append {q : Char → Bool} : ∀ {l r : List Char}, (∀ c ∈ l, q c = true) → (∀ c ∈ r.head?, q c = false) →
    (l ++ r).takeWhile q = l ∧ (l ++ r).dropWhile q = r
  | [], [], _, _ => by simp
  | [], c :: r, _, hr => by simp [hr c (by simp)]
  | c :: l, r, hl, hr => by
    have ih := takeWhile_all_append (l := l) (r := r) (fun x hx => hl x (List.mem_cons_of_mem _ hx)) hr
    simp [hl c (by simp), ih.1, ih.2]

theorem Ends.rev {p : List Char} (h : Ends p) : ∀ c ∈ p.reverse.head?, c.isDigit = false := by
  rcases h with rfl | ⟨q, c, rfl, hc⟩
  · simp
  · intro x hx
    simp at hx
    exact hx ▸ isLetter_not_digit hc

/-- The number at the end of an order. -/
theorem trailingNumber_digits {p ds : List Char} (hp : Ends p) (hd : ∀ c ∈ ds, c.isDigit = true) (hn : ds ≠ []) :
    trailingNumber (String.ofList (p ++ ds)) = some (String.ofList p, Nat.ofDigitChars 10 ds 0) := by
  have h := takeWhile_all_append (q := Char.isDigit) (l := ds.reverse) (r := p.reverse) (by simpa using hd) hp.rev
  simp only [trailingNumber, String.toList_ofList, List.reverse_append, h.1, h.2, List.reverse_reverse]
  rw [if_pos]
  refine ⟨hn, ?_⟩
  rcases hp with rfl | ⟨q, c, rfl, hc⟩
  · simp
  · right; right; simpa using hc

theorem trailingNumber_decimal {p : List Char} (n : Nat) (hp : Ends p) :
    trailingNumber (String.ofList (p ++ decimal n)) = some (String.ofList p, n) := by
  rw [trailingNumber_digits hp (fun _ => decimal_isDigit) (decimal_ne_nil n), decimal_eq, Nat.ofDigitChars_ten_toDigits]

theorem trailingNumber_letter (q : List Char) {c : Char} (hc : isLetter c = true) : trailingNumber (String.ofList (q ++ [c])) = none := by
  simp [trailingNumber, isLetter_not_digit hc]

/-- What is known when there is a number at the end. -/
theorem trailingNumber_some {s p : String} {n : Nat} (h : trailingNumber s = some (p, n)) :
    ∃ ds, s.toList = p.toList ++ ds ∧ ds ≠ [] ∧ (∀ c ∈ ds, c.isDigit = true) ∧ Nat.ofDigitChars 10 ds 0 = n := by
  simp only [trailingNumber] at h
  split at h
  · rename_i hh
    simp only [Option.some.injEq, Prod.mk.injEq] at h
    obtain ⟨rfl, rfl⟩ := h
    refine ⟨_, ?_, hh.1, ?_, rfl⟩
    · rw [String.toList_ofList, ← List.reverse_append, List.takeWhile_append_dropWhile, List.reverse_reverse]
    · intro c hc
      simp only [List.mem_reverse] at hc
      have := List.all_takeWhile (p := Char.isDigit) (l := s.toList.reverse)
      exact List.all_eq_true.1 this c hc
  · cases h

theorem append_toString (p : List Char) (n : Nat) : String.ofList p ++ toString n = String.ofList (p ++ decimal n) := by
  apply String.toList_injective; simp [decimal]

theorem sequenceSuccessors_decimal {p : List Char} (n : Nat) (hp : Ends p) :
    sequenceSuccessors (String.ofList (p ++ decimal n)) = [String.ofList (p ++ decimal (n + 1))] := by
  simp only [sequenceSuccessors, trailingNumber_decimal n hp, append_toString]

theorem splitCandidates_decimal {p : List Char} (n : Nat) (hp : Ends p) :
    splitCandidates (String.ofList (p ++ decimal n)) =
      [String.ofList (p ++ decimal (n + 1) ++ ['a']), String.ofList (p ++ decimal (n + 1) ++ ['a', '1'])] := by
  simp only [splitCandidates, trailingNumber_decimal n hp, append_toString]
  simp only [List.cons.injEq, and_true]
  exact ⟨String.toList_injective (by simp), String.toList_injective (by simp)⟩

theorem sequenceSuccessors_letter (q : List Char) {c : Char} (hc : isLetter c = true) : sequenceSuccessors (String.ofList (q ++ [c])) = [] := by
  simp only [sequenceSuccessors, trailingNumber_letter q hc]

theorem splitCandidates_letter (q : List Char) {c : Char} (hc : isLetter c = true) : splitCandidates (String.ofList (q ++ [c])) = [] := by
  simp only [splitCandidates, trailingNumber_letter q hc]

theorem matchesSplit_iff (next elem : String) :
    matchesSplit next elem = true ↔ ∃ c r, isLetter c = true ∧ (∀ x ∈ r, x = '1') ∧ elem.toList = next.toList ++ c :: r := by
  unfold matchesSplit
  rw [Bool.and_eq_true, List.isPrefixOf_iff_prefix]
  constructor
  · rintro ⟨⟨t, ht⟩, h⟩
    rw [← ht, List.drop_left] at h
    match t, h with
    | c :: r, h =>
      simp only [Bool.and_eq_true, List.all_eq_true, beq_iff_eq] at h
      exact ⟨c, r, h.1, h.2, ht.symm⟩
  · rintro ⟨c, r, h1, h2, h3⟩
    rw [h3]
    refine ⟨List.prefix_append _ _, ?_⟩
    rw [List.drop_left]
    simp [h1]; exact h2

/-! ## Candidates for a merge -/

theorem mergeScan_digits : ∀ (ds sk dg r : List Char), (∀ c ∈ ds, c.isDigit = true) → mergeScan sk dg (ds ++ r) = mergeScan sk (dg ++ ds) r
  | [], _, _, _, _ => by simp
  | c :: ds, sk, dg, r, h => by
    simp only [List.cons_append, mergeScan, h c (by simp), if_true]
    rw [mergeScan_digits ds _ _ _ (fun x hx => h x (List.mem_cons_of_mem _ hx))]
    simp

/-- A number followed by a letter is one match. -/
theorem mergeScan_step (n : Nat) {c : Char} (hc : isLetter c = true) (r : List Char) :
    mergeScan [] [] (decimal n ++ c :: r) = ([], decimal n, c) :: mergeScan [] [] r := by
  rw [mergeScan_digits _ _ _ _ (fun _ => decimal_isDigit)]
  simp [mergeScan, isLetter_not_digit hc, hc, decimal_ne_nil]

theorem letter_range {c : Char} (h1 : 'a' ≤ c) (h2 : c ≤ 'z') : isLetter c = true ∧ c ≠ '|' := by
  refine ⟨by simp [isLetter, h1, h2], ?_⟩
  rintro rfl
  revert h2; decide

/-- The numbers of a branch prefix. -/
inductive Numbers : List Char → List Nat → Prop where
  | nil : Numbers [] []
  | cons (n : Nat) {c : Char} {r : List Char} {l : List Nat} : 'a' ≤ c → c ≤ 'z' → Numbers r l → Numbers (decimal n ++ c :: r) (n :: l)

theorem Numbers.snoc {p : List Char} {l : List Nat} (h : Numbers p l) (n : Nat) {c : Char} (h1 : 'a' ≤ c) (h2 : c ≤ 'z') :
    Numbers (p ++ decimal n ++ [c]) (l ++ [n]) := by
  induction h with
  | nil => exact Numbers.cons n h1 h2 Numbers.nil
  | cons m a b _ ih =>
    have := Numbers.cons m a b ih
    simpa using this

theorem _root_.Bpmn.Spec.Csv.BranchPrefix.numbers {p : List Char} (h : BranchPrefix p) : ∃ l, Numbers p l := by
  induction h with
  | nil => exact ⟨[], Numbers.nil⟩
  | step n _ h1 h2 ih =>
    obtain ⟨l, hl⟩ := ih
    exact ⟨l ++ [n], hl.snoc n h1 h2⟩

theorem _root_.Bpmn.Spec.Csv.BranchPrefix.ends {p : List Char} (h : BranchPrefix p) : Ends p := by
  cases h with
  | nil => exact Or.inl rfl
  | step n _ h1 h2 => exact Or.inr ⟨_, _, rfl, (letter_range h1 h2).1⟩

/-- The candidates of a branch prefix are the successors of its numbers. -/
theorem mergeLoop_numbers {p : List Char} {l : List Nat} (h : Numbers p l) :
    mergeLoop (mergeScan [] [] p) = .ok (l.map fun n => toString (n + 1)) := by
  induction h with
  | nil => rfl
  | cons n h1 h2 _ ih =>
    obtain ⟨hl, hb⟩ := letter_range h1 h2
    rw [mergeScan_step n hl]
    simp only [mergeLoop, if_neg hb, ih, except_bind_ok, decimal_eq, Nat.ofDigitChars_ten_toDigits, List.map_cons]
    simp [pure, Except.pure]

theorem Numbers.inner {p : List Char} {l : List Nat} (h : Numbers p l) (hp : p ≠ []) : hasInnerLetter (String.ofList p) = true := by
  cases h with
  | nil => exact absurd rfl hp
  | cons n h1 h2 _ =>
    simp only [hasInnerLetter, String.toList_ofList]
    obtain ⟨c, ds, e⟩ := List.exists_cons_of_ne_nil (decimal_ne_nil n)
    rw [e]
    simp [(letter_range h1 h2).1]

/-- The candidates for the continuation after a branch. -/
theorem mergeSuccessors_branch {p : List Char} {l : List Nat} (h : Numbers p l) (hb : BranchPrefix p) (hp : p ≠ []) (m : Nat) :
    mergeSuccessors (String.ofList (p ++ decimal m)) = .ok (l.map fun n => toString (n + 1)) ∧
    mergeSuccessors (String.ofList p) = .ok (l.map fun n => toString (n + 1)) := by
  constructor
  · simp only [mergeSuccessors, trailingNumber_decimal m hb.ends, h.inner hp, if_true, String.toList_ofList, mergeLoop_numbers h]
  · rcases hb.ends with rfl | ⟨q, c, rfl, hc⟩
    · exact absurd rfl hp
    · simp only [mergeSuccessors, trailingNumber_letter q hc, h.inner hp, if_true, String.toList_ofList, mergeLoop_numbers h]

/-! ## Flow ids -/

/-- No two adjacent underscores, none at the end. -/
def Plain (s : String) : Prop := ∀ a b, s.toList ≠ a ++ '_' :: '_' :: b ∧ s.toList ≠ a ++ ['_']

theorem first_double {a b r s : List Char} (ha : ∀ x y, a ≠ x ++ '_' :: '_' :: y ∧ a ≠ x ++ ['_'])
    (hb : ∀ x y, b ≠ x ++ '_' :: '_' :: y ∧ b ≠ x ++ ['_']) (h : a ++ '_' :: '_' :: r = b ++ '_' :: '_' :: s) : a = b ∧ r = s := by
  rcases List.append_eq_append_iff.1 h with ⟨t, e1, e2⟩ | ⟨t, e1, e2⟩
  · match t, e1, e2 with
    | [], e1, e2 => simp at e1 e2; exact ⟨e1.symm, e2⟩
    | [c], e1, e2 =>
      simp at e2
      rw [← e2.1] at e1
      exact absurd e1 (hb a []).2
    | c :: c' :: t, e1, e2 =>
      simp at e2
      rw [← e2.1, ← e2.2.1] at e1
      exact absurd e1 (hb a t).1
  · match t, e1, e2 with
    | [], e1, e2 => simp at e1 e2; exact ⟨e1, e2.symm⟩
    | [c], e1, e2 =>
      simp at e2
      rw [← e2.1] at e1
      exact absurd e1 (ha b []).2
    | c :: c' :: t, e1, e2 =>
      simp at e2
      rw [← e2.1, ← e2.2.1] at e1
      exact absurd e1 (ha b t).1

/-- The id of a flow determines its ends. -/
theorem flowId_inj {s t s' t' : String} (hs : Plain s) (hs' : Plain s') (h : flowId s t = flowId s' t') : s = s' ∧ t = t' := by
  have h := congrArg String.toList h
  simp only [flowId, String.toList_append] at h
  rw [show ("__" : String).toList = ['_', '_'] from rfl] at h
  simp only [List.append_assoc, List.cons_append, List.nil_append] at h
  obtain ⟨h1, h2⟩ := first_double hs hs' h
  exact ⟨String.toList_injective h1, String.toList_injective h2⟩

theorem plain_of_no_underscore {s : String} (h : '_' ∉ s.toList) : Plain s := by
  intro a b
  constructor <;> intro e <;> exact h (by simp [e])

theorem plain_suffix {s : String} (h : '_' ∉ s.toList) {w : List Char} (hw : '_' ∉ w) (hn : w ≠ []) :
    Plain (s ++ String.ofList ('_' :: w)) := by
  intro a b
  simp only [String.toList_append, String.toList_ofList]
  constructor
  · intro e
    rcases List.append_eq_append_iff.1 e with ⟨t, e1, e2⟩ | ⟨t, e1, e2⟩
    · match t, e1, e2 with
      | [], e1, e2 => simp at e2; exact hw (by simp [e2])
      | c :: t, e1, e2 => simp at e2; exact hw (by simp [e2.2])
    · match t, e1, e2 with
      | [], e1, e2 => simp at e2; exact hw (by simp [← e2])
      | c :: t, e1, e2 =>
        simp at e2
        exact h (by simp [e1, ← e2.1])
  · intro e
    rcases List.append_eq_append_iff.1 e with ⟨t, e1, e2⟩ | ⟨t, e1, e2⟩
    · match t, e1, e2 with
      | [], e1, e2 => simp at e2; exact hn e2
      | c :: t, e1, e2 => simp at e2; exact hw (by simp [e2.2])
    · match t, e1, e2 with
      | [], e1, e2 => simp at e2; exact hn e2
      | [c], e1, e2 => simp at e2
      | c :: c' :: t, e1, e2 => simp at e2

theorem plain_split {s : String} (h : '_' ∉ s.toList) : Plain (s ++ "_split") := plain_suffix h (w := "split".toList) (by decide) (by decide)
theorem plain_join {s : String} (h : '_' ∉ s.toList) : Plain (s ++ "_join") := plain_suffix h (w := "join".toList) (by decide) (by decide)

end Bpmn.Csv

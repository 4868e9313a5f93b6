import Verif.Lemmas.CsvAccept
import Verif.Props.CsvResult
/-!
# CSV import: tables without `goto` (C45, C65)
-/
set_option linter.unusedSimpArgs false
set_option linter.unusedVariables false

namespace Bpmn.Props
open Bpmn.Spec Bpmn.Csv Bpmn.Spec.Csv

/-- **C45, fourth part.** Without `goto` rows the import gives a consistent diagram: every listed flow id belongs to exactly one flow
between the right nodes, and conversely. -/
theorem C45_consistent (rows : List Row) (t : Table rows) (hn : ∀ r ∈ rows, ¬GotoRow r) (d : Diagram) (h : loadCsv rows {} = .ok d) : Consistent d := by
  obtain ⟨d0, F, d1, d2, s⟩ := stages t h
  exact (s.fit t hn).consistent (s.kinds t)

/-- Two splits, a nested one, and joins. -/
def blockTable : List Row :=
  [Row.mk "0" "ordered" "" "" "" "", Row.mk "1" "check" "" "" "" "", Row.mk "2a" "refuse" "no" "" "" "", Row.mk "2b1" "accept" "yes" "" "" "",
   Row.mk "2b2a" "bill" "" "" "" "", Row.mk "2b2b" "ship" "" "" "yes" "", Row.mk "3" "file" "" "" "" "", Row.mk "4" "done" "" "" "" "yes"]

theorem block_table : Table blockTable := ⟨by decide, by decide⟩

theorem block_no_goto : ∀ r ∈ blockTable, ¬GotoRow r := by
  intro r hr hg
  have : ∀ r ∈ blockTable, isGoto r.activity = false := by decide
  rw [← isGoto_iff, this r hr] at hg
  cases hg

set_option maxRecDepth 8000 in
example : Table blockTable ∧ (∀ r ∈ blockTable, ¬GotoRow r) ∧ ∃ d, loadCsv blockTable {} = .ok d ∧
    (d.getNodes.map (·.1) == ["0", "1", "2a", "2b1", "2b2a", "2b2b", "3", "4", "1_split", "3_join", "2b1_split"] && d.getFlows.length == 12) = true :=
  ⟨block_table, block_no_goto, ok_of_check _ (by decide +kernel)⟩

/-! ## C65 -/

theorem _root_.Bpmn.Spec.Csv.BranchPrefix.cons (n : Nat) {c : Char} (h1 : 'a' ≤ c) (h2 : c ≤ 'z') {r : List Char} (h : BranchPrefix r) :
    BranchPrefix (decimal n ++ c :: r) := by
  induction h with
  | nil => have := BranchPrefix.step n BranchPrefix.nil h1 h2; simpa using this
  | step m _ a b ih => have := BranchPrefix.step m ih a b; simpa using this

theorem _root_.Bpmn.Csv.Numbers.branch {p : List Char} {l : List Nat} (h : Numbers p l) : BranchPrefix p := by
  induction h with
  | nil => exact BranchPrefix.nil
  | cons n h1 h2 _ ih => exact ih.cons n h1 h2

theorem _root_.Bpmn.Csv.Numbers.unique {p : List Char} {l m : List Nat} (h : Numbers p l) (k : Numbers p m) : l = m := by
  have := (mergeLoop_numbers h).symm.trans (mergeLoop_numbers k)
  simp only [Except.ok.injEq] at this
  refine List.map_injective_iff.2 ?_ this
  intro a b hab
  have : decimal (a + 1) = decimal (b + 1) := congrArg String.toList hab
  have := decimal_inj this
  omega

theorem _root_.Bpmn.Csv.Numbers.append {p q : List Char} {l m : List Nat} (h : Numbers p l) (k : Numbers q m) : Numbers (p ++ q) (l ++ m) := by
  induction h with
  | nil => simpa using k
  | cons n h1 h2 _ ih => have := Numbers.cons n h1 h2 ih; simpa using this

theorem numberIn_iff {p : List Char} {l : List Nat} (h : Numbers p l) (k : Nat) : NumberIn p k ↔ k ∈ l := by
  constructor
  · rintro ⟨q, c, rest, hq, hr, h1, h2, rfl⟩
    obtain ⟨a, ha⟩ := hq.numbers
    obtain ⟨b, hb⟩ := hr.numbers
    have := ha.append (Numbers.cons k h1 h2 hb)
    rw [← List.append_assoc] at this
    rw [h.unique this]; simp
  · intro hk
    induction h with
    | nil => simp at hk
    | @cons n c r l h1 h2 hn ih =>
      simp only [List.mem_cons] at hk
      rcases hk with rfl | hk
      · exact ⟨[], c, r, BranchPrefix.nil, hn.branch, h1, h2, by simp⟩
      · obtain ⟨q, c', rest, a1, a2, a3, a4, rfl⟩ := ih hk
        exact ⟨decimal n ++ c :: q, c', rest, a1.cons n h1 h2, a2, a3, a4, by simp⟩

theorem anyPresent_next {rows : List Row} {p : List Char} (hp : BranchPrefix p) (n : Nat) :
    (anyPresent (sequenceSuccessors (String.ofList (p ++ decimal n))) (rows.map Row.order) = true ↔ HasOrder rows (p ++ decimal (n + 1))) ∧
    (anyPresent (splitCandidates (String.ofList (p ++ decimal n))) (rows.map Row.order) = true ↔
      HasOrder rows (p ++ decimal (n + 1) ++ ['a']) ∨ HasOrder rows (p ++ decimal (n + 1) ++ ['a', '1'])) := by
  rw [sequenceSuccessors_decimal n hp.ends, splitCandidates_decimal n hp.ends, anyPresent_iff, anyPresent_iff]
  constructor
  · simp only [List.mem_singleton, exists_eq_left, hasOrder_iff]
  · simp only [List.mem_cons, List.not_mem_nil, or_false, exists_eq_or_imp, exists_eq_left, hasOrder_iff]

theorem merge_iff {rows : List Row} {p o : List Char} {l : List Nat} (hl : Numbers p l) (ho : StepOf p o) :
    (∃ cs s, mergeSuccessors (String.ofList o) = .ok cs ∧ onlyPresent cs (rows.map Row.order) = .ok s ∧
      ∀ pre n, trailingNumber s = some (pre, n) → 2 ≤ n) ↔
    ∃ k, NumberIn p k ∧ 1 ≤ k ∧ HasOrder rows (decimal (k + 1)) ∧ ∀ j, NumberIn p j → HasOrder rows (decimal (j + 1)) → j = k := by
  have tn : ∀ k, trailingNumber (toString (k + 1)) = some ("", k + 1) := by
    intro k
    have := trailingNumber_decimal (p := []) (k + 1) (Or.inl rfl)
    rwa [List.nil_append, decimal, String.ofList_toList] at this
  have str : ∀ k, String.ofList (decimal k) = toString k := by intro k; rw [decimal, String.ofList_toList]
  simp only [numberIn_iff hl]
  by_cases hp : p = []
  · subst hp
    cases hl.unique Numbers.nil
    constructor
    · rintro ⟨cs, s, h1, h2, -⟩
      have : cs = [] := by
        rcases ho.2 with rfl | ⟨n, rfl⟩
        · simpa [mergeSuccessors, trailingNumber, hasInnerLetter] using h1.symm
        · simp only [mergeSuccessors, trailingNumber_decimal n (p := []) (Or.inl rfl)] at h1
          simpa [hasInnerLetter] using h1.symm
      subst this
      simp [onlyPresent] at h2
    · rintro ⟨k, hk, -⟩; simp at hk
  · have key : mergeSuccessors (String.ofList o) = .ok (l.map fun n => toString (n + 1)) := by
      rcases ho.2 with rfl | ⟨n, rfl⟩
      · exact (mergeSuccessors_branch hl ho.1 hp 0).2
      · exact (mergeSuccessors_branch hl ho.1 hp n).1
    rw [key]
    constructor
    · rintro ⟨cs, s, h1, h2, h3⟩
      cases h1
      obtain ⟨m1, m2⟩ := onlyPresent_mem h2
      obtain ⟨k, hk, rfl⟩ := List.mem_map.1 m1
      refine ⟨k, hk, ?_, by rw [hasOrder_iff, str]; exact m2, ?_⟩
      · have := h3 _ _ (tn k); omega
      · intro j hj ho'
        rw [hasOrder_iff, str] at ho'
        have := onlyPresent_unique h2 (List.mem_map.2 ⟨j, hj, rfl⟩) ho'
        have : decimal (j + 1) = decimal (k + 1) := congrArg String.toList this
        have := decimal_inj this
        omega
    · rintro ⟨k, hk, h1, h2, h3⟩
      refine ⟨_, toString (k + 1), rfl, ?_, ?_⟩
      · unfold onlyPresent
        have all : ∀ x ∈ (l.map fun n => toString (n + 1)).filter (· ∈ rows.map Row.order), x = toString (k + 1) := by
          intro x hx
          obtain ⟨hx, hm⟩ := List.mem_filter.1 hx
          obtain ⟨j, hj, rfl⟩ := List.mem_map.1 hx
          rw [h3 j hj (by rw [hasOrder_iff, str]; simpa using hm)]
        have mem : toString (k + 1) ∈ (l.map fun n => toString (n + 1)).filter (· ∈ rows.map Row.order) := by
          rw [hasOrder_iff, str] at h2
          exact List.mem_filter.2 ⟨List.mem_map.2 ⟨k, hk, rfl⟩, by simpa using h2⟩
        match h : (l.map fun n => toString (n + 1)).filter (· ∈ rows.map Row.order) with
        | [] => rw [h] at mem; simp at mem
        | x :: r =>
          rw [h] at all
          simp only
          rw [if_pos (by
            rw [List.all_eq_true]
            intro y hy
            rw [beq_iff_eq, all y (by simp [hy]), all x (by simp)])]
          rw [all x (by simp)]
      · intro pre n e
        rw [tn k] at e
        cases e
        omega

theorem stepOf_ends {p o : List Char} (h : StepOf p o) (q : List Char) {n : Nat} (hq : BranchPrefix q) (e : o = q ++ decimal n) :
    p = q ∧ o ≠ p := by
  have t1 := trailingNumber_decimal n hq.ends
  rcases h.2 with rfl | ⟨m, rfl⟩
  · exfalso
    rcases h.1.ends with rfl | ⟨r, c, rfl, hc⟩
    · have := congrArg List.length e
      have := List.length_pos_of_ne_nil (decimal_ne_nil n)
      simp at *
      omega
    · exact not_letter_end hc e
  · have t2 := trailingNumber_decimal m h.1.ends
    rw [e, t1] at t2
    simp only [Option.some.injEq, Prod.mk.injEq] at t2
    refine ⟨(String.ofList_injective t2.1).symm, ?_⟩
    intro h
    have := congrArg List.length h
    have := List.length_pos_of_ne_nil (decimal_ne_nil m)
    rw [List.length_append] at *
    omega

theorem stepOf_unique {p q o : List Char} (h : StepOf p o) (k : StepOf q o) : p = q := by
  rcases h.2 with h2 | ⟨n, h2⟩
  · rcases k.2 with k2 | ⟨m, k2⟩
    · exact h2.symm.trans k2
    · exact (stepOf_ends h q k.1 k2).1
  · exact (stepOf_ends k p h.1 h2).1.symm

theorem goesOn_iff {rows : List Row} {p o : List Char} (ho : StepOf p o) : GoesOn (rows.map Row.order) (String.ofList o) ↔ Continues rows o := by
  obtain ⟨l, hl⟩ := ho.1.numbers
  constructor
  · intro h
    have next : ∀ x, x ∈ sequenceSuccessors (String.ofList o) ++ splitCandidates (String.ofList o) → ∃ n, o = p ++ decimal n := by
      intro x hx
      rcases ho.2 with rfl | h
      · rcases ho.1.ends with rfl | ⟨q, c, rfl, hc⟩
        · simp [sequenceSuccessors, splitCandidates, trailingNumber] at hx
        · rw [sequenceSuccessors_letter q hc, splitCandidates_letter q hc] at hx; simp at hx
      · exact h
    cases h with
    | sequence h =>
      obtain ⟨x, hx, -⟩ := anyPresent_iff.1 h
      obtain ⟨n, rfl⟩ := next x (by simp [hx])
      exact Continues.next ho.1 rfl (Or.inl ((anyPresent_next ho.1 n).1.1 h))
    | split h =>
      obtain ⟨x, hx, -⟩ := anyPresent_iff.1 h
      obtain ⟨n, rfl⟩ := next x (by simp [hx])
      exact Continues.next ho.1 rfl (Or.inr ((anyPresent_next ho.1 n).2.1 h))
    | merge h1 h2 h3 =>
      obtain ⟨k, a1, a2, a3, a4⟩ := (merge_iff hl ho).1 ⟨_, _, h1, h2, h3⟩
      exact Continues.back ho a1 a2 a3 a4
  · intro h
    cases h with
    | @next q n hq e h =>
      subst e
      rcases h with h | h
      · exact GoesOn.sequence ((anyPresent_next hq n).1.2 h)
      · exact GoesOn.split ((anyPresent_next hq n).2.2 h)
    | @back q k hq a1 a2 a3 a4 =>
      cases stepOf_unique ho hq
      obtain ⟨cs, s, b1, b2, b3⟩ := (merge_iff hl ho).2 ⟨k, a1, a2, a3, a4⟩
      exact GoesOn.merge b1 b2 b3

/-- **C65, first part.** A table whose orders are steps of branches and that has no `goto` row is imported exactly if it says for every row
that is not terminated what comes after it. -/
theorem C65_accepted (rows : List Row) (t : Table rows) (ho : ∀ r ∈ rows, ∃ p, StepOf p r.order.toList) (hn : ∀ r ∈ rows, ¬GotoRow r) :
    (∃ d, loadCsv rows {} = .ok d) ↔ ∀ r ∈ rows, r.terminated ≠ "yes" → Continues rows r.order.toList := by
  constructor
  · rintro ⟨d, h⟩ r hr hx
    obtain ⟨d0, F, d1, d2, s⟩ := stages t h
    obtain ⟨p, hp⟩ := ho r hr
    rw [← goesOn_iff hp, String.ofList_toList]
    exact s.goes t r hr hx
  · intro h
    refine load_ok t hn fun r hr hx => ?_
    obtain ⟨p, hp⟩ := ho r hr
    rw [← String.ofList_toList (s := r.order), goesOn_iff hp]
    exact h r hr hx

/-- **C65, second part.** The condition is necessary also with `goto` rows. -/
theorem C65_refused (rows : List Row) (t : Table rows) (r : Row) (hr : r ∈ rows) (hx : r.terminated ≠ "yes") (p : List Char) (hp : StepOf p r.order.toList)
    (h : ¬Continues rows r.order.toList) : ∀ d, loadCsv rows {} ≠ .ok d := by
  intro d hd
  obtain ⟨d0, F, d1, d2, s⟩ := stages t hd
  refine h ?_
  rw [← goesOn_iff hp, String.ofList_toList]
  exact s.goes t r hr hx

/-- The hypotheses hold for the table with two splits, and the right side of the equivalence too: some of its rows have a next row, some a
first branch, some end a branch. -/
example : Table blockTable ∧ (∀ r ∈ blockTable, ¬GotoRow r) ∧ (∀ r ∈ blockTable, ∃ p, StepOf p r.order.toList) ∧
    ∀ r ∈ blockTable, r.terminated ≠ "yes" → Continues blockTable r.order.toList := by
  have b2 : ∀ c, 'a' ≤ c → c ≤ 'z' → BranchPrefix (decimal 2 ++ [c]) := fun c h1 h2 => by
    have := BranchPrefix.step 2 BranchPrefix.nil h1 h2; simpa using this
  have b22 : ∀ c, 'a' ≤ c → c ≤ 'z' → BranchPrefix (decimal 2 ++ ['b'] ++ decimal 2 ++ [c]) := fun c h1 h2 =>
    BranchPrefix.step 2 (b2 'b' (by decide) (by decide)) h1 h2
  have ho : ∀ r ∈ blockTable, ∃ p, StepOf p r.order.toList := by
    intro r hr
    simp only [blockTable, List.mem_cons, List.not_mem_nil, or_false] at hr
    rcases hr with rfl | rfl | rfl | rfl | rfl | rfl | rfl | rfl
    · exact ⟨[], BranchPrefix.nil, Or.inr ⟨0, by decide⟩⟩
    · exact ⟨[], BranchPrefix.nil, Or.inr ⟨1, by decide⟩⟩
    · exact ⟨_, b2 'a' (by decide) (by decide), Or.inl (by decide)⟩
    · exact ⟨_, b2 'b' (by decide) (by decide), Or.inr ⟨1, by decide⟩⟩
    · exact ⟨_, b22 'a' (by decide) (by decide), Or.inl (by decide)⟩
    · exact ⟨_, b22 'b' (by decide) (by decide), Or.inl (by decide)⟩
    · exact ⟨[], BranchPrefix.nil, Or.inr ⟨3, by decide⟩⟩
    · exact ⟨[], BranchPrefix.nil, Or.inr ⟨4, by decide⟩⟩
  refine ⟨block_table, block_no_goto, ho, ?_⟩
  obtain ⟨d, hd, -⟩ := ok_of_check (x := loadCsv blockTable {}) (fun _ => true) (by decide +kernel)
  exact (C65_accepted _ block_table ho block_no_goto).1 ⟨d, hd⟩

/-- One direction by hand: the step 2b1 goes on with the split 2b2a, 2b2b, and these go on with 3. -/
example : Continues blockTable "2b1".toList ∧ Continues blockTable "2b2a".toList := by
  have hb : BranchPrefix (decimal 2 ++ ['b']) := by
    have := BranchPrefix.step (c := 'b') 2 BranchPrefix.nil (by decide) (by decide); simpa using this
  have h22 : BranchPrefix (decimal 2 ++ ['b'] ++ decimal 2 ++ ['a']) := BranchPrefix.step 2 hb (by decide) (by decide)
  have hnum : Numbers (decimal 2 ++ ['b'] ++ decimal 2 ++ ['a']) [2, 2] := by
    have := Numbers.cons (c := 'b') 2 (by decide) (by decide) (Numbers.cons (c := 'a') 2 (by decide) (by decide) Numbers.nil)
    simpa using this
  refine ⟨Continues.next hb (n := 1) (by decide) (Or.inr (Or.inl ?_)), Continues.back (k := 2) ⟨h22, Or.inl (by decide)⟩ ?_ (by decide) ?_ ?_⟩
  · rw [hasOrder_iff]; decide
  · rw [numberIn_iff hnum]; simp
  · rw [hasOrder_iff]; decide
  · intro j hj _
    rw [numberIn_iff hnum] at hj
    simpa using hj

end Bpmn.Props

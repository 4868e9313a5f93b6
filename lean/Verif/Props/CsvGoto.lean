import Verif.Lemmas.CsvGoto
import Verif.Props.CsvResult
/-!
# Where `goto` rows lead (C94)
-/
set_option linter.unusedSimpArgs false
set_option linter.unusedVariables false

namespace Bpmn.Props
open Bpmn Spec Csv Spec.Csv

theorem ones_split {a a' : List Char} {c c' : Char} {u u' : List Char} (hc : c ≠ '1') (hc' : c' ≠ '1') (hu : ∀ x ∈ u, x = '1') (hu' : ∀ x ∈ u', x = '1')
    (h : a ++ c :: u = a' ++ c' :: u') : a = a' ∧ c = c' ∧ u = u' := by
  have key : ∀ (a : List Char) (c : Char) (u : List Char), c ≠ '1' → (∀ x ∈ u, x = '1') →
      (a ++ c :: u).reverse.takeWhile (· == '1') = u.reverse ∧ (a ++ c :: u).reverse.dropWhile (· == '1') = c :: a.reverse := by
    intro a c u hc hu
    have e : (a ++ c :: u).reverse = u.reverse ++ c :: a.reverse := by simp
    rw [e]
    constructor
    · rw [List.takeWhile_append_of_pos (by simpa using hu), List.takeWhile_cons_of_neg (by simpa using hc)]; simp
    · rw [List.dropWhile_append_of_pos (by simpa using hu), List.dropWhile_cons_of_neg (by simpa using hc)]
  have k1 := key a c u hc hu
  have k2 := key a' c' u' hc' hu'
  rw [h] at k1
  have e1 := k1.1.symm.trans k2.1
  have e2 := k1.2.symm.trans k2.2
  simp only [List.cons.injEq] at e2
  exact ⟨by simpa using e2.2, e2.1, by simpa using e1⟩

/-! ## C94 -/

/-- **C94, branch.** A `goto` row that is the first step of a branch of a split: after the import the gateway of the split leads to the row that is the
second word of the activity. -/
theorem C94_branch (rows : List Row) (t : Table rows) (hs : ∀ r ∈ rows, ∃ p, StepOf p r.order.toList) (d : Diagram) (h : loadCsv rows {} = .ok d)
    (r : Row) (hr : r ∈ rows) (ht : r.terminated ≠ "yes") (p : List Char) (n : Nat) (hp : Prefix p) (ho : r.order.toList = p ++ decimal n)
    (hn : ¬HasOrder rows (p ++ decimal (n + 1)))
    (ha : HasOrder rows (p ++ decimal (n + 1) ++ ['a']) ∨ HasOrder rows (p ++ decimal (n + 1) ++ ['a', '1']))
    (bs : List Row) (hb : Branches rows (p ++ decimal (n + 1)) bs) (h2 : 2 ≤ bs.length)
    (b : Row) (hbm : b ∈ bs) (hg : GotoRow b) (hfirst : ∀ q m, Prefix q → b.order.toList = q ++ decimal (m + 1) → ¬HasOrder rows (q ++ decimal m))
    (q : Row) (hq : q ∈ rows) (hgq : ¬GotoRow q) (hto : GoesTo b q.order) :
    Leads d (r.order ++ "_split") q.order := by
  obtain ⟨g, hg1, hg2, -⟩ := C46_gateway_type rows t d h r hr ht p n hp ho hn ha bs hb h2
  obtain ⟨d0, F, d1, d2, s⟩ := stages t h
  have hid : r.order ++ "_split" ∈ ids d := hg2 ▸ (id_of_node s.keep.inv hg1).1
  obtain ⟨dr, g, l, hP, hF, -, -⟩ := s.plan t hr
  obtain ⟨ty, rfl, hty, rfl⟩ := hP.of_split t hr (prefix_ends hp) ho ht hn ha
  have hb2 := (hb.2 b).1 hbm
  have hu := t.under _ (by rw [keys_dictOf]; exact List.mem_map_of_mem hb2.1)
  obtain ⟨c, ones, hbo, hc, hones⟩ := hb2.2
  have hcl : isLetter c = true := alpha_letter hc
  have c1 : c ≠ '1' := by rintro rfl; cases hc
  -- the number behind the letter
  have hnum : ones ≠ [] → trailingNumber b.order = some (String.ofList (p ++ decimal (n + 1) ++ [c]), Nat.ofDigitChars 10 ones 0) := by
    intro hne
    have := trailingNumber_digits (p := p ++ decimal (n + 1) ++ [c]) (ds := ones) (Or.inr ⟨_, c, rfl, hcl⟩) (fun x hx => by rw [hones x hx]; rfl) hne
    rw [← this, order_eq (l := p ++ decimal (n + 1) ++ [c] ++ ones) (by rw [hbo]; simp)]
  have hnone : ones = [] → trailingNumber b.order = none := by
    rintro rfl
    have := trailingNumber_letter (p ++ decimal (n + 1)) hcl
    rw [← this, order_eq hbo]
  refine s.goto_leads t hb2.1 hg hq hgq hto (notGoto_gateway t.under (underscore_split r.order)) (hF _ ?_) ?_ hid
  · exact List.mem_cons_of_mem _ (List.mem_map.2 ⟨b, List.mem_filter.2 ⟨hb2.1, (matchesSplit_start t hb2.1).2 hb2.2⟩, rfl⟩)
  · intro z hz
    obtain ⟨w, hw, dr', g', l', hP', hl'⟩ := s.rounds.origin _ hz
    obtain ⟨w, hwr, rfl⟩ := List.mem_map.1 hw
    rcases hP'.targets' hl' hu with ⟨-, hss⟩ | ⟨rfl, succ, hss, hm⟩ | ⟨cs, hss, hm⟩
    · exfalso
      unfold sequenceSuccessors at hss
      cases htw : trailingNumber w.order with
      | none => rw [htw] at hss; simp at hss
      | some a =>
        obtain ⟨pre, m⟩ := a
        rw [htw] at hss
        rw [List.mem_singleton] at hss
        have en := trailing_ends (t.alnum w hwr) htw
        have e3 : b.order = String.ofList (pre.toList ++ decimal (m + 1)) := by
          rw [← append_toString, String.ofList_toList]; exact hss
        have e4 := trailingNumber_decimal (m + 1) en
        rw [← e3, String.ofList_toList] at e4
        by_cases hne : ones = []
        · rw [hnone hne] at e4; cases e4
        · rw [hnum hne] at e4
          simp only [Option.some.injEq, Prod.mk.injEq] at e4
          obtain ⟨ds, h7, h8, h9, h10⟩ := trailingNumber_some htw
          have e5 := StepOf.digits (hs w hwr) en h9 h8 h7
          rw [h10] at e5
          refine hfirst pre.toList m ?_ (by rw [e3, String.toList_ofList]) ⟨w, hwr, by rw [h7, e5]⟩
          rw [← e4.1, String.toList_ofList]
          exact Or.inr ⟨_, c, rfl, hc⟩
    · unfold splitSuccessors at hss
      cases htw : trailingNumber w.order with
      | none => rw [htw] at hss; cases hss
      | some a =>
        obtain ⟨pre, m⟩ := a
        rw [htw] at hss
        cases hss
        have en := trailing_ends (t.alnum w hwr) htw
        obtain ⟨c', ones', hc', h6, h7⟩ := (matchesSplit_iff _ _).1 (List.mem_filter.1 hm).2
        have c1' : c' ≠ '1' := by rintro rfl; revert hc'; decide
        obtain ⟨e1, -, -⟩ := ones_split c1 c1' hones h6 (hbo.symm.trans h7)
        have e2 : String.ofList (p ++ decimal (n + 1)) = String.ofList (pre.toList ++ decimal (m + 1)) := by
          rw [e1, String.ofList_toList, ← append_toString, String.ofList_toList]
        have e3 := trailingNumber_decimal (n + 1) (prefix_ends hp)
        rw [e2, trailingNumber_decimal (m + 1) en] at e3
        simp only [Option.some.injEq, Prod.mk.injEq, Nat.add_right_cancel_iff] at e3
        obtain ⟨e4, rfl⟩ := e3
        obtain ⟨ds, h8, h9, h10, h11⟩ := trailingNumber_some htw
        have e5 := StepOf.digits (hs w hwr) en h10 h9 h8
        rw [h11] at e5
        have : w.order = r.order := String.toList_injective (by rw [h8, ho, e5, String.ofList_injective e4])
        rw [this]
    · exfalso
      obtain ⟨sk, ds, c', -, hl, e⟩ := merge_candidate (t.alnum w hwr) hss hm
      have e4 := trailingNumber_decimal (Nat.ofDigitChars 10 ds 0 + 1) hl.ends
      rw [← e] at e4
      by_cases hne : ones = []
      · rw [hnone hne] at e4; cases e4
      · rw [hnum hne] at e4
        simp only [Option.some.injEq, Prod.mk.injEq] at e4
        have e5 := String.ofList_injective e4.1
        obtain ⟨x, hx⟩ := List.exists_mem_of_ne_nil _ (decimal_ne_nil (n + 1))
        have hx1 := decimal_isDigit hx
        have : x ∈ sk := by rw [← e5]; simp [hx]
        rw [alpha_not_digit (hl x this)] at hx1
        cases hx1

/-- **C94, next step.** A `goto` row p (n+1) in a branch p, behind a row p n: after the import this row leads to the row that is the second word of the
activity. -/
theorem C94_next (rows : List Row) (t : Table rows) (hs : ∀ r ∈ rows, ∃ p, StepOf p r.order.toList) (d : Diagram) (h : loadCsv rows {} = .ok d)
    (r : Row) (hr : r ∈ rows) (ht : r.terminated ≠ "yes") (hgr : ¬GotoRow r) (p : List Char) (n : Nat) (hp : Prefix p) (hd : ∃ c ∈ p, c.isDigit = true)
    (ho : r.order.toList = p ++ decimal n)
    (b : Row) (hb : b ∈ rows) (hg : GotoRow b) (hbo : b.order.toList = p ++ decimal (n + 1)) (h1 : ∃ c ∈ decimal (n + 1), c ≠ '1')
    (q : Row) (hq : q ∈ rows) (hgq : ¬GotoRow q) (hto : GoesTo b q.order) :
    Leads d r.order q.order := by
  obtain ⟨d0, F, d1, d2, s⟩ := stages t h
  obtain ⟨dr, g, l, hP, hF, -, -⟩ := s.plan t hr
  have := hP.of_sequence t hr (prefix_ends hp) ho ht ⟨b, hb, hbo⟩
  subst this
  have hu := t.under _ (by rw [keys_dictOf]; exact List.mem_map_of_mem hb)
  have mine := trailingNumber_decimal (n + 1) (prefix_ends hp)
  rw [← order_eq hbo] at mine
  refine s.goto_leads t hb hg hq hgq hto (notGoto_row t hr hgr) (hF (r.order, b.order) (by rw [← order_eq hbo]; simp)) ?_ (s.stays t hr hgr).1
  intro z hz
  obtain ⟨w, hw, dr', g', l', hP', hl'⟩ := s.rounds.origin _ hz
  obtain ⟨w, hwr, rfl⟩ := List.mem_map.1 hw
  rcases hP'.targets' hl' hu with ⟨rfl, hss⟩ | ⟨rfl, succ, hss, hm⟩ | ⟨cs, hss, hm⟩
  · unfold sequenceSuccessors at hss
    cases htw : trailingNumber w.order with
    | none => rw [htw] at hss; simp at hss
    | some a =>
      obtain ⟨pre, m⟩ := a
      rw [htw] at hss
      rw [List.mem_singleton] at hss
      have en := trailing_ends (t.alnum w hwr) htw
      have e3 : b.order = String.ofList (pre.toList ++ decimal (m + 1)) := by
        rw [← append_toString, String.ofList_toList]; exact hss
      have e4 := trailingNumber_decimal (m + 1) en
      rw [← e3, mine] at e4
      simp only [Option.some.injEq, Prod.mk.injEq, Nat.add_right_cancel_iff] at e4
      obtain ⟨e4, rfl⟩ := e4
      obtain ⟨ds, h8, h9, h10, h11⟩ := trailingNumber_some htw
      have e5 := StepOf.digits (hs w hwr) en h10 h9 h8
      rw [h11] at e5
      exact String.toList_injective (by rw [h8, ho, e5, String.ofList_injective e4])
  · exfalso
    unfold splitSuccessors at hss
    cases htw : trailingNumber w.order with
    | none => rw [htw] at hss; cases hss
    | some a =>
      obtain ⟨pre, m⟩ := a
      rw [htw] at hss
      cases hss
      obtain ⟨c, ones, hc, h6, h7⟩ := (matchesSplit_iff _ _).1 (List.mem_filter.1 hm).2
      by_cases e : ones = []
      · subst e
        rw [h7] at hbo
        exact not_letter_end hc hbo
      · have := trailingNumber_digits (p := (pre ++ toString (m + 1)).toList ++ [c]) (ds := ones) (Or.inr ⟨_, c, rfl, hc⟩)
          (fun x hx => by rw [h6 x hx]; rfl) e
        have e4 : b.order = String.ofList ((pre ++ toString (m + 1)).toList ++ [c] ++ ones) := order_eq (by rw [h7]; simp)
        rw [← e4, mine] at this
        simp only [Option.some.injEq, Prod.mk.injEq] at this
        have e5 := String.ofList_injective this.1
        rw [hbo, e5, show ∀ a : List Char, a ++ c :: ones = a ++ [c] ++ ones by simp, List.append_cancel_left_eq] at h7
        obtain ⟨z, hz, hz1⟩ := h1
        exact hz1 (h6 z (h7 ▸ hz))
  · exfalso
    obtain ⟨sk, ds, c, -, hl, e⟩ := merge_candidate (t.alnum w hwr) hss hm
    have := trailingNumber_decimal (Nat.ofDigitChars 10 ds 0 + 1) hl.ends
    rw [← e, mine] at this
    simp only [Option.some.injEq, Prod.mk.injEq] at this
    have e5 := String.ofList_injective this.1
    obtain ⟨z, hz, hz1⟩ := hd
    rw [e5] at hz
    rw [alpha_not_digit (hl z hz)] at hz1
    cases hz1

/-! ## The hypotheses hold -/

/-- A draft that is written, checked, and sent back to the first step by one branch directly and by the other after a second look. -/
def gotoTable : List Row :=
  [Row.mk "0" "asked" "" "" "" "", Row.mk "1" "write" "" "author" "" "", Row.mk "2" "check" "" "editor" "" "",
   Row.mk "3a" "goto  1 again" "no" "" "" "", Row.mk "3b1" "look" "yes" "" "" "", Row.mk "3b2" "GoTo 2" "" "" "" "",
   Row.mk "3c" "print" "late" "" "" "", Row.mk "4" "done" "" "" "" "yes"]

theorem goto_table : Table gotoTable := ⟨by decide, by decide⟩

theorem goto_steps : ∀ r ∈ gotoTable, ∃ p, StepOf p r.order.toList := by
  have b3 : ∀ c, 'a' ≤ c → c ≤ 'z' → BranchPrefix (decimal 3 ++ [c]) := fun c h1 h2 => by
    have := BranchPrefix.step 3 BranchPrefix.nil h1 h2; simpa using this
  intro r hr
  simp only [gotoTable, List.mem_cons, List.not_mem_nil, or_false] at hr
  rcases hr with rfl | rfl | rfl | rfl | rfl | rfl | rfl | rfl
  · exact ⟨[], BranchPrefix.nil, Or.inr ⟨0, by decide⟩⟩
  · exact ⟨[], BranchPrefix.nil, Or.inr ⟨1, by decide⟩⟩
  · exact ⟨[], BranchPrefix.nil, Or.inr ⟨2, by decide⟩⟩
  · exact ⟨_, b3 'a' (by decide) (by decide), Or.inl (by decide)⟩
  · exact ⟨_, b3 'b' (by decide) (by decide), Or.inr ⟨1, by decide⟩⟩
  · exact ⟨_, b3 'b' (by decide) (by decide), Or.inr ⟨2, by decide⟩⟩
  · exact ⟨_, b3 'c' (by decide) (by decide), Or.inl (by decide)⟩
  · exact ⟨[], BranchPrefix.nil, Or.inr ⟨4, by decide⟩⟩

theorem goto_branches : Branches gotoTable ([] ++ decimal (2 + 1))
    [Row.mk "3a" "goto  1 again" "no" "" "" "", Row.mk "3b1" "look" "yes" "" "" "", Row.mk "3c" "print" "late" "" "" ""] := by
  have key : ∀ b ∈ gotoTable, matchesSplit "3" b.order =
      decide (b ∈ [Row.mk "3a" "goto  1 again" "no" "" "" "", Row.mk "3b1" "look" "yes" "" "" "", Row.mk "3c" "print" "late" "" "" ""]) := by
    decide
  refine ⟨by decide, fun b => ?_⟩
  rw [show ([] ++ decimal (2 + 1)) = "3".toList by decide]
  constructor
  · intro hb
    have hm : b ∈ gotoTable := by
      simp only [List.mem_cons, List.not_mem_nil, or_false] at hb
      rcases hb with rfl | rfl | rfl <;> decide
    refine ⟨hm, ?_⟩
    rw [← matchesSplit_start goto_table hm, String.ofList_toList, key b hm]
    simpa using hb
  · rintro ⟨hm, hb⟩
    rw [← matchesSplit_start goto_table hm, String.ofList_toList, key b hm] at hb
    simpa using hb

theorem goto_no {r : Row} (h : isGoto r.activity = false) : ¬GotoRow r := by
  rw [← isGoto_iff, h]; simp

set_option maxRecDepth 8000 in
/-- The import of this table succeeds; the split leads back to 1, and the second look to 2. -/
example : ∃ d, loadCsv gotoTable {} = .ok d ∧ Leads d "2_split" "1" ∧ Leads d "3b1" "2" := by
  obtain ⟨d, hd, -⟩ := ok_of_check (x := loadCsv gotoTable {}) (fun _ => true) (by decide +kernel)
  refine ⟨d, hd, ?_, ?_⟩
  · refine C94_branch gotoTable goto_table goto_steps d hd (Row.mk "2" "check" "" "editor" "" "") (by decide) (by decide) [] 2 (Or.inl rfl) (by decide) ?_ ?_
      _ goto_branches (by decide) (Row.mk "3a" "goto  1 again" "no" "" "" "") (by decide) ?_ ?_ (Row.mk "1" "write" "" "author" "" "") (by decide) ?_
      ⟨"goto".toList, "  ".toList, " again".toList, by decide, by decide, ?_, by decide, ?_, by decide, ?_, ?_⟩
    · rw [hasOrder_iff]; decide
    · left; rw [hasOrder_iff]; decide
    · exact ⟨'g', 'o', 't', 'o', "  1 again".toList, rfl, by simp⟩
    · intro q m hq e
      exact (not_letter_end (a := ['3']) (c := 'a') (by decide) e).elim
    · exact goto_no (by decide)
    all_goals simp [White]
  · refine C94_next gotoTable goto_table goto_steps d hd (Row.mk "3b1" "look" "yes" "" "" "") (by decide) (by decide) (goto_no (by decide)) ['3', 'b'] 1
      (Or.inr ⟨['3'], 'b', rfl, rfl⟩) ⟨'3', by decide, rfl⟩ (by decide) (Row.mk "3b2" "GoTo 2" "" "" "" "") (by decide) ?_ (by decide) ⟨'2', by decide, by decide⟩
      (Row.mk "2" "check" "" "editor" "" "") (by decide) (goto_no (by decide)) ⟨"GoTo".toList, " ".toList, [], by decide, by decide, ?_, by decide, ?_, by decide, ?_, ?_⟩
    · exact ⟨'G', 'o', 'T', 'o', " 2".toList, rfl, by simp⟩
    all_goals simp [White]

end Bpmn.Props

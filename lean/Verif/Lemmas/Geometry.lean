import Verif.Spec.Geometry
import Mathlib.Tactic.Linarith
import Mathlib.Tactic.FieldSimp
import Mathlib.Tactic.Ring
import Mathlib.Algebra.Order.Field.Rat
import Mathlib.Algebra.Order.Field.Basic
/-!
Correctness of the orientation based intersection test.
-/
set_option linter.unusedSimpArgs false
set_option linter.unusedVariables false

namespace Bpmn.LayoutMetrics
open Bpmn.Spec

/-- The value whose sign `orientation` returns. -/
def cross (p1 p2 p3 : Point) : Rat := (p2.y - p1.y) * (p3.x - p2.x) - (p2.x - p1.x) * (p3.y - p2.y)

theorem orientation_cross (p1 p2 p3 : Point) :
    (orientation p1 p2 p3 = 0 ∧ cross p1 p2 p3 = 0) ∨ (orientation p1 p2 p3 = 1 ∧ cross p1 p2 p3 > 0) ∨
    (orientation p1 p2 p3 = 2 ∧ cross p1 p2 p3 < 0) := by
  have hdef : orientation p1 p2 p3 = if cross p1 p2 p3 = 0 then 0 else if cross p1 p2 p3 > 0 then 1 else 2 := rfl
  rw [hdef]
  by_cases h : cross p1 p2 p3 = 0
  · left; exact ⟨if_pos h, h⟩
  · right
    by_cases h2 : cross p1 p2 p3 > 0
    · left; exact ⟨by rw [if_neg h, if_pos h2], h2⟩
    · right; exact ⟨by rw [if_neg h, if_neg h2], lt_of_le_of_ne (not_lt.1 h2) h⟩

theorem orientation_eq_zero (p1 p2 p3 : Point) : orientation p1 p2 p3 = 0 ↔ cross p1 p2 p3 = 0 := by
  rcases orientation_cross p1 p2 p3 with ⟨h1, h2⟩ | ⟨h1, h2⟩ | ⟨h1, h2⟩
  · simp [h1, h2]
  · simp [h1, ne_of_gt h2]
  · simp [h1, ne_of_lt h2]

/-- Different orientations: the two values have opposite (weak) signs and are not both zero. -/
theorem opposite_of_ne {p1 p2 p3 q1 q2 q3 : Point} (h : orientation p1 p2 p3 ≠ orientation q1 q2 q3) :
    (0 ≤ cross p1 p2 p3 ∧ cross q1 q2 q3 ≤ 0 ∧ 0 < cross p1 p2 p3 - cross q1 q2 q3) ∨
    (cross p1 p2 p3 ≤ 0 ∧ 0 ≤ cross q1 q2 q3 ∧ cross p1 p2 p3 - cross q1 q2 q3 < 0) := by
  rcases orientation_cross p1 p2 p3 with ⟨a1, a2⟩ | ⟨a1, a2⟩ | ⟨a1, a2⟩ <;>
  rcases orientation_cross q1 q2 q3 with ⟨b1, b2⟩ | ⟨b1, b2⟩ | ⟨b1, b2⟩ <;>
  first
  | (exfalso; exact h (a1.trans b1.symm))
  | (left; refine ⟨?_, ?_, ?_⟩ <;> linarith)
  | (right; refine ⟨?_, ?_, ?_⟩ <;> linarith)

theorem same_of_eq {p1 p2 p3 q1 q2 q3 : Point} (h : orientation p1 p2 p3 = orientation q1 q2 q3) :
    (cross p1 p2 p3 = 0 ∧ cross q1 q2 q3 = 0) ∨ (0 < cross p1 p2 p3 ∧ 0 < cross q1 q2 q3) ∨
    (cross p1 p2 p3 < 0 ∧ cross q1 q2 q3 < 0) := by
  rcases orientation_cross p1 p2 p3 with ⟨a1, a2⟩ | ⟨a1, a2⟩ | ⟨a1, a2⟩ <;>
  rcases orientation_cross q1 q2 q3 with ⟨b1, b2⟩ | ⟨b1, b2⟩ | ⟨b1, b2⟩ <;>
  first
  | (left; exact ⟨a2, b2⟩)
  | (right; left; exact ⟨a2, b2⟩)
  | (right; right; exact ⟨a2, b2⟩)
  | (exfalso; omega)

/-- Ratio of a value between 0 and a difference. -/
theorem ratio_mem {v w : Rat} (h : (0 ≤ v ∧ w ≤ 0 ∧ 0 < v - w) ∨ (v ≤ 0 ∧ 0 ≤ w ∧ v - w < 0)) :
    0 ≤ v / (v - w) ∧ v / (v - w) ≤ 1 := by
  rcases h with ⟨h1, h2, h3⟩ | ⟨h1, h2, h3⟩
  · exact ⟨div_nonneg h1 h3.le, (div_le_one h3).2 (by linarith)⟩
  · exact ⟨div_nonneg_of_nonpos h1 h3.le, (div_le_one_of_neg h3).2 (by linarith)⟩

/-- General case: the segments cross. -/
theorem meet_of_crossing {P Q A B : Point} (h1 : orientation P Q A ≠ orientation P Q B)
    (h2 : orientation A B P ≠ orientation A B Q) : Meet ⟨P, Q⟩ ⟨A, B⟩ := by
  have d1 := opposite_of_ne h1
  have d2 := opposite_of_ne h2
  have e1 : cross P Q A - cross P Q B ≠ 0 := by
    rcases d1 with h | h
    · exact ne_of_gt h.2.2
    · exact ne_of_lt h.2.2
  have e2 : cross A B P - cross A B Q ≠ 0 := by
    rcases d2 with h | h
    · exact ne_of_gt h.2.2
    · exact ne_of_lt h.2.2
  have r1 := ratio_mem d1
  have r2 := ratio_mem d2
  have key : cross A B P - cross A B Q = -(cross P Q A - cross P Q B) := by unfold cross; ring
  refine ⟨⟨(1 - cross A B P / (cross A B P - cross A B Q)) * P.x + cross A B P / (cross A B P - cross A B Q) * Q.x,
    (1 - cross A B P / (cross A B P - cross A B Q)) * P.y + cross A B P / (cross A B P - cross A B Q) * Q.y⟩,
    ⟨_, r2.1, r2.2, rfl, rfl⟩, ⟨cross P Q A / (cross P Q A - cross P Q B), r1.1, r1.2, ?_, ?_⟩⟩
  · simp only
    rw [key]
    field_simp
    unfold cross; ring
  · simp only
    rw [key]
    field_simp
    unfold cross; ring

theorem liesOnSegment_iff (p q r : Point) : liesOnSegment p q r = true ↔
    min p.x q.x ≤ r.x ∧ r.x ≤ max p.x q.x ∧ min p.y q.y ≤ r.y ∧ r.y ≤ max p.y q.y := by
  simp only [liesOnSegment, Bool.and_eq_true, decide_eq_true_eq]
  tauto

/-- Between the ends on a line: position of the parameter. -/
theorem param_of_between {a b c : Rat} (hne : a ≠ b) (h1 : min a b ≤ c) (h2 : c ≤ max a b) :
    0 ≤ (c - a) / (b - a) ∧ (c - a) / (b - a) ≤ 1 := by
  rcases lt_or_gt_of_ne hne with h | h
  · rw [min_eq_left h.le] at h1; rw [max_eq_right h.le] at h2
    exact ⟨div_nonneg (by linarith) (by linarith), (div_le_one (by linarith)).2 (by linarith)⟩
  · rw [min_eq_right h.le] at h1; rw [max_eq_left h.le] at h2
    exact ⟨div_nonneg_of_nonpos (by linarith) (by linarith), (div_le_one_of_neg (by linarith)).2 (by linarith)⟩

/-- A collinear point in the bounding box is on the segment. -/
theorem onSegment_of_box {P Q R : Point} (h0 : cross P Q R = 0) (hb : liesOnSegment P Q R = true) :
    OnSegment ⟨P, Q⟩ R := by
  rw [liesOnSegment_iff] at hb
  obtain ⟨hx1, hx2, hy1, hy2⟩ := hb
  by_cases hx : P.x = Q.x
  · by_cases hy : P.y = Q.y
    · refine ⟨0, le_refl _, by norm_num, ?_, ?_⟩
      · rw [← hx] at hx1 hx2
        simp only [min_self, max_self] at hx1 hx2
        simp; linarith
      · rw [← hy] at hy1 hy2
        simp only [min_self, max_self] at hy1 hy2
        simp; linarith
    · have hd : Q.y - P.y ≠ 0 := sub_ne_zero.2 (Ne.symm hy)
      obtain ⟨r1, r2⟩ := param_of_between hy hy1 hy2
      refine ⟨_, r1, r2, ?_, ?_⟩
      · rw [← hx] at hx1 hx2
        simp only [min_self, max_self] at hx1 hx2
        have : R.x = P.x := le_antisymm hx2 hx1
        simp only
        rw [← hx, this]; ring
      · simp only; field_simp; ring
  · have hd : Q.x - P.x ≠ 0 := sub_ne_zero.2 (Ne.symm hx)
    obtain ⟨r1, r2⟩ := param_of_between hx hx1 hx2
    refine ⟨_, r1, r2, ?_, ?_⟩
    · simp only; field_simp; ring
    · simp only
      field_simp
      unfold cross at h0
      linarith

/-- The value is affine along a segment. -/
theorem cross_affine (P Q A B : Point) (t : Rat) {X : Point} (hx : X.x = (1 - t) * A.x + t * B.x)
    (hy : X.y = (1 - t) * A.y + t * B.y) : cross P Q X = (1 - t) * cross P Q A + t * cross P Q B := by
  unfold cross; rw [hx, hy]; ring

theorem cross_self (P Q : Point) (t : Rat) {X : Point} (hx : X.x = (1 - t) * P.x + t * Q.x)
    (hy : X.y = (1 - t) * P.y + t * Q.y) : cross P Q X = 0 := by
  unfold cross; rw [hx, hy]; ring

theorem between_box {a b t : Rat} (h0 : 0 ≤ t) (h1 : t ≤ 1) :
    min a b ≤ (1 - t) * a + t * b ∧ (1 - t) * a + t * b ≤ max a b := by
  rcases le_total a b with h | h
  · rw [min_eq_left h, max_eq_right h]
    constructor <;> nlinarith
  · rw [min_eq_right h, max_eq_left h]
    constructor <;> nlinarith

theorem box_of_onSegment {P Q X : Point} (h : OnSegment ⟨P, Q⟩ X) : liesOnSegment P Q X = true := by
  obtain ⟨t, h0, h1, hx, hy⟩ := h
  rw [liesOnSegment_iff, hx, hy]
  exact ⟨(between_box h0 h1).1, (between_box h0 h1).2, (between_box h0 h1).1, (between_box h0 h1).2⟩

theorem meet_symm {s1 s2 : Segment} (h : Meet s1 s2) : Meet s2 s1 := by
  obtain ⟨p, a, b⟩ := h; exact ⟨p, b, a⟩

/-- A common point excludes that both ends of one segment are strictly on one side of the other. -/
theorem not_same_side {P Q A B : Point} (h : Meet ⟨P, Q⟩ ⟨A, B⟩) (e : orientation P Q A = orientation P Q B) :
    cross P Q A = 0 ∧ cross P Q B = 0 := by
  obtain ⟨X, ⟨s, s0, s1, sx, sy⟩, ⟨t, t0, t1, tx, ty⟩⟩ := h
  have h1 := cross_self P Q s sx sy
  have h2 := cross_affine P Q A B t tx ty
  rcases same_of_eq e with h | ⟨ha, hb⟩ | ⟨ha, hb⟩
  · exact h
  · exfalso
    rw [h1] at h2
    rcases eq_or_lt_of_le t0 with h | h
    · rw [← h] at h2; linarith
    · nlinarith [mul_pos h hb, mul_nonneg (sub_nonneg.2 t1) ha.le]
  · exfalso
    rw [h1] at h2
    rcases eq_or_lt_of_le t0 with h | h
    · rw [← h] at h2; linarith
    · nlinarith [mul_pos h (neg_pos.2 hb), mul_nonneg (sub_nonneg.2 t1) (neg_pos.2 ha).le]

/-- Collinear with a proper segment: position on the line. -/
theorem param_of_collinear {P Q A : Point} (hne : P ≠ Q) (h0 : cross P Q A = 0) :
    ∃ a : Rat, A.x = (1 - a) * P.x + a * Q.x ∧ A.y = (1 - a) * P.y + a * Q.y := by
  by_cases hx : P.x = Q.x
  · have hy : P.y ≠ Q.y := by
      intro hy; apply hne; cases P; cases Q; simp_all
    have hd : Q.y - P.y ≠ 0 := sub_ne_zero.2 (Ne.symm hy)
    refine ⟨(A.y - P.y) / (Q.y - P.y), ?_, ?_⟩
    · unfold cross at h0
      rw [hx] at h0
      have h3 : (Q.y - P.y) * (A.x - Q.x) = 0 := by linarith
      have h4 : A.x - Q.x = 0 := by
        rcases mul_eq_zero.1 h3 with h | h
        · exact absurd h hd
        · exact h
      rw [hx]; linarith
    · field_simp; ring
  · have hd : Q.x - P.x ≠ 0 := sub_ne_zero.2 (Ne.symm hx)
    refine ⟨(A.x - P.x) / (Q.x - P.x), ?_, ?_⟩
    · field_simp; ring
    · field_simp
      unfold cross at h0
      linarith

/-- Everything on one line through a proper segment. -/
theorem collinear_case {P Q A B : Point} (hne : P ≠ Q) (h : Meet ⟨P, Q⟩ ⟨A, B⟩) (hA : cross P Q A = 0) (hB : cross P Q B = 0) :
    (liesOnSegment P Q A = true) ∨ (liesOnSegment P Q B = true) ∨ (liesOnSegment A B P = true ∧ cross A B P = 0) := by
  obtain ⟨X, ⟨s, s0, s1, sx, sy⟩, ⟨t, t0, t1, tx, ty⟩⟩ := h
  simp only at sx sy tx ty
  obtain ⟨a, ax, ay⟩ := param_of_collinear hne hA
  obtain ⟨b, bx, by'⟩ := param_of_collinear hne hB
  -- the parameter of the common point computed in both ways
  have hs : s = (1 - t) * a + t * b := by
    have e1 : (s - ((1 - t) * a + t * b)) * (Q.x - P.x) = 0 := by
      have : (1 - s) * P.x + s * Q.x = (1 - t) * A.x + t * B.x := by rw [← sx, tx]
      rw [ax, bx] at this; linarith
    have e2 : (s - ((1 - t) * a + t * b)) * (Q.y - P.y) = 0 := by
      have : (1 - s) * P.y + s * Q.y = (1 - t) * A.y + t * B.y := by rw [← sy, ty]
      rw [ay, by'] at this; linarith
    rcases mul_eq_zero.1 e1 with h | h
    · linarith
    · rcases mul_eq_zero.1 e2 with h' | h'
      · linarith
      · exfalso; apply hne
        cases P; cases Q
        simp only at h h'
        simp only [Point.mk.injEq]
        constructor <;> linarith
  by_cases hain : 0 ≤ a ∧ a ≤ 1
  · left
    exact box_of_onSegment ⟨a, hain.1, hain.2, ax, ay⟩
  by_cases hbin : 0 ≤ b ∧ b ≤ 1
  · right; left
    exact box_of_onSegment ⟨b, hbin.1, hbin.2, bx, by'⟩
  right; right
  -- `P` lies strictly between `A` and `B`
  have hab : (a < 0 ∧ 1 < b) ∨ (b < 0 ∧ 1 < a) := by
    by_cases ha : 0 ≤ a
    · have ha1 : 1 < a := not_le.1 (fun h => hain ⟨ha, h⟩)
      by_cases hb : 0 ≤ b
      · have hb1 : 1 < b := not_le.1 (fun h => hbin ⟨hb, h⟩)
        exfalso
        nlinarith [mul_nonneg (sub_nonneg.2 t1) (sub_nonneg.2 ha1.le), mul_nonneg t0 (sub_nonneg.2 hb1.le),
          mul_nonneg (sub_nonneg.2 t1) ha]
      · right; exact ⟨not_le.1 hb, ha1⟩
    · have ha1 : a < 0 := not_le.1 ha
      by_cases hb : 0 ≤ b
      · left; exact ⟨ha1, not_le.1 (fun h => hbin ⟨hb, h⟩)⟩
      · exfalso
        have hb1 : b < 0 := not_le.1 hb
        nlinarith [mul_nonneg (sub_nonneg.2 t1) (neg_pos.2 ha1).le, mul_nonneg t0 (neg_pos.2 hb1).le]
  have hd : b - a ≠ 0 := by
    rcases hab with h | h
    · apply ne_of_gt; linarith
    · apply ne_of_lt; linarith
  have hP : OnSegment ⟨A, B⟩ P := by
    refine ⟨(-a) / (b - a), ?_, ?_, ?_, ?_⟩
    · rcases hab with h | h
      · exact div_nonneg (by linarith) (by linarith)
      · exact div_nonneg_of_nonpos (by linarith) (by linarith)
    · rcases hab with h | h
      · exact (div_le_one (by linarith)).2 (by linarith)
      · exact (div_le_one_of_neg (by linarith)).2 (by linarith)
    · simp only; rw [ax, bx]; field_simp; ring
    · simp only; rw [ay, by']; field_simp; ring
  obtain ⟨u, u0, u1, ux, uy⟩ := hP
  exact ⟨box_of_onSegment ⟨u, u0, u1, ux, uy⟩, cross_self A B u ux uy⟩

theorem doIntersect_iff_cases (s1 s2 : Segment) : doIntersect s1 s2 = true ↔
    ((orientation s1.source s1.target s2.source ≠ orientation s1.source s1.target s2.target ∧
      orientation s2.source s2.target s1.source ≠ orientation s2.source s2.target s1.target) ∨
     (cross s1.source s1.target s2.source = 0 ∧ liesOnSegment s1.source s1.target s2.source = true) ∨
     (cross s1.source s1.target s2.target = 0 ∧ liesOnSegment s1.source s1.target s2.target = true) ∨
     (cross s2.source s2.target s1.source = 0 ∧ liesOnSegment s2.source s2.target s1.source = true) ∨
     (cross s2.source s2.target s1.target = 0 ∧ liesOnSegment s2.source s2.target s1.target = true)) := by
  simp only [doIntersect, ← orientation_eq_zero]
  split
  · simp_all
  · rename_i h1
    split
    · simp_all
    · rename_i h2
      split
      · simp_all
      · rename_i h3
        split
        · simp_all
        · rename_i h4
          split
          · simp_all
          · rename_i h5
            simp only [Bool.false_eq_true, false_iff, not_or]
            exact ⟨h1, h2, h3, h4, h5⟩

theorem doIntersect_iff (s1 s2 : Segment) : doIntersect s1 s2 = true ↔ Meet s1 s2 := by
  obtain ⟨P, Q⟩ := s1
  obtain ⟨A, B⟩ := s2
  rw [doIntersect_iff_cases]
  simp only
  constructor
  · have endA : ∀ P Q : Point, OnSegment ⟨P, Q⟩ P := fun P Q => ⟨0, le_refl _, by norm_num, by simp, by simp⟩
    have endB : ∀ P Q : Point, OnSegment ⟨P, Q⟩ Q := fun P Q => ⟨1, by norm_num, le_refl _, by simp, by simp⟩
    rintro (⟨h1, h2⟩ | ⟨h1, h2⟩ | ⟨h1, h2⟩ | ⟨h1, h2⟩ | ⟨h1, h2⟩)
    · exact meet_of_crossing h1 h2
    · exact ⟨A, onSegment_of_box h1 h2, endA A B⟩
    · exact ⟨B, onSegment_of_box h1 h2, endB A B⟩
    · exact ⟨P, endA P Q, onSegment_of_box h1 h2⟩
    · exact ⟨Q, endB P Q, onSegment_of_box h1 h2⟩
  · intro h
    by_cases e1 : orientation P Q A = orientation P Q B
    · obtain ⟨hA, hB⟩ := not_same_side h e1
      by_cases hPQ : P = Q
      · subst hPQ
        obtain ⟨X, ⟨s, s0, s1, sx, sy⟩, ht⟩ := h
        have hX : X = P := by
          cases X; cases P
          simp only at sx sy
          simp only [Point.mk.injEq]
          constructor <;> linarith
        subst hX
        obtain ⟨t, t0, t1, tx, ty⟩ := ht
        right; right; right; left
        exact ⟨cross_self A B t tx ty, box_of_onSegment ⟨t, t0, t1, tx, ty⟩⟩
      · rcases collinear_case hPQ h hA hB with h' | h' | h'
        · right; left; exact ⟨hA, h'⟩
        · right; right; left; exact ⟨hB, h'⟩
        · right; right; right; left; exact ⟨h'.2, h'.1⟩
    · by_cases e2 : orientation A B P = orientation A B Q
      · have hs := meet_symm h
        obtain ⟨hP, hQ⟩ := not_same_side hs e2
        by_cases hAB : A = B
        · subst hAB; exact absurd rfl e1
        · rcases collinear_case hAB hs hP hQ with h' | h' | h'
          · right; right; right; left; exact ⟨hP, h'⟩
          · right; right; right; right; exact ⟨hQ, h'⟩
          · right; left; exact ⟨h'.2, h'.1⟩
      · left; exact ⟨e1, e2⟩

theorem segmentsCommonPoints_iff (s1 s2 : Segment) : segmentsCommonPoints s1 s2 = true ↔ ShareEnd s1 s2 := by
  have hp : ∀ p q : Point, pointsAreEqual p q = true ↔ p = q := by
    intro p q
    cases p; cases q
    simp [pointsAreEqual]
  simp [segmentsCommonPoints, ShareEnd, hp, or_assoc]

end Bpmn.LayoutMetrics

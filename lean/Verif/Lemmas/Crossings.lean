import Verif.Lemmas.DrawnMetrics
/-!
# Crossings where a line opens into branches and where the branches meet
-/
set_option linter.unusedSimpArgs false
set_option linter.unusedVariables false

namespace Bpmn.Props
open Bpmn Spec Layouter LayoutMetrics

/-- `z` is strictly between the height 300 of the line and `y`. -/
def inner (y z : Int) : Bool := decide ((300 < z ∧ z < y) ∨ (y < z ∧ z < 300))

/-- The number of pairs of heights one of which is strictly between the line and the other. -/
def shadowed : List Int → Nat
  | [] => 0
  | y :: ys => ys.countP (fun z => inner y z || inner z y) + shadowed ys

/-- The flows from a gateway with its centre at (X, 300) to branches at these heights. -/
def fanLines (X : Int) (ys : List Int) : List Segment := ys.flatMap fun y => [seg X 300 X y, seg X y (X + 100) y]

theorem fan_pair {X y z : Int} (hne : y ≠ z) :
    (crossTest (seg X 300 X y) (seg X 300 X z) = false) ∧ (crossTest (seg X y (X + 100) y) (seg X z (X + 100) z) = false) ∧
    (crossTest (seg X 300 X y) (seg X z (X + 100) z) = inner y z) := by
  refine ⟨?_, ?_, ?_⟩
  · rw [Bool.eq_false_iff, Ne, crossTest_seg (by omega) (by omega)]
    omega
  · exact crossTest_apart (by omega)
  · rw [Bool.eq_iff_iff, crossTest_seg (by omega) (by omega), inner, decide_eq_true_eq]
    omega

theorem fan_count (X : Int) : ∀ {ys : List Int}, ys.Nodup → countCrossings (fanLines X ys) = shadowed ys
  | [], _ => rfl
  | y :: ys, h => by
    have ih := fan_count X (List.nodup_cons.1 h).2
    have hy := (List.nodup_cons.1 h).1
    rw [fanLines, List.flatMap_cons, ← fanLines, countCrossings_append, ih, shadowed]
    have h0 : countCrossings [seg X 300 X y, seg X y (X + 100) y] = 0 := by
      rw [countCrossings_cons, countCrossings_cons]
      have : crossTest (seg X 300 X y) (seg X y (X + 100) y) = false := by
        rw [Bool.eq_false_iff, Ne, crossTest_seg (by omega) (by omega)]
        omega
      simp [this, countCrossings]
    rw [h0]
    have key : ∀ zs : List Int, y ∉ zs → (fanLines X zs).countP (crossTest (seg X 300 X y)) + (fanLines X zs).countP (crossTest (seg X y (X + 100) y)) =
        zs.countP (fun z => inner y z || inner z y) := by
      intro zs
      induction zs with
      | nil => intro _; rfl
      | cons z zs ih' =>
        intro hz
        simp only [List.mem_cons, not_or] at hz
        have e := ih' hz.2
        obtain ⟨a1, a2, a3⟩ := fan_pair (X := X) hz.1
        obtain ⟨-, -, a4⟩ := fan_pair (X := X) (Ne.symm hz.1)
        rw [crossTest_symm] at a4
        have hx : ¬(inner y z = true ∧ inner z y = true) := by
          simp only [inner, decide_eq_true_eq]
          omega
        rw [fanLines, List.flatMap_cons, ← fanLines, List.countP_append, List.countP_append, List.countP_cons]
        simp only [List.countP_cons, List.countP_nil, a1, a2, a3, a4]
        cases c1 : inner y z <;> cases c2 : inner z y <;> simp [c1, c2] at hx ⊢ <;> omega
    have := key ys hy
    simp only [List.map_cons, List.map_nil, List.sum_cons, List.sum_nil]
    omega

theorem shadowed_perm {l r : List Int} (hl : l.Nodup) (h : l.Perm r) : shadowed l = shadowed r := by
  rw [← fan_count 0 hl, ← fan_count 0 (h.nodup_iff.1 hl)]
  exact countCrossings_perm (h.flatMap_right _)

/-- A height at which a branch may be. -/
def Far (y : Int) : Prop := y = 300 ∨ 350 ≤ y ∨ y ≤ 200

/-- The last flow of a branch, from (w, y) to a gateway with its centre at (Z, 300). -/
def tailLines (Z : Int) (p : Int × Int) : List Segment :=
  if p.2 = 300 then [seg p.1 300 (Z - 50) 300] else [seg p.1 p.2 Z p.2, seg Z p.2 Z 250]

theorem tail_self (Z : Int) (p : Int × Int) : countCrossings (tailLines Z p) = 0 := by
  unfold tailLines
  split
  · rfl
  · rw [countCrossings_cons, countCrossings_cons]
    have : crossTest (seg p.1 p.2 Z p.2) (seg Z p.2 Z 250) = false := by
      rw [Bool.eq_false_iff, Ne, crossTest_seg (by omega) (by omega)]
      omega
    simp [this, countCrossings]

theorem tail_pair {Z : Int} {p q : Int × Int} (hp : Far p.2) (hq : Far q.2) (hpw : p.1 ≤ Z - 100) (hqw : q.1 ≤ Z - 100) (hne : p.2 ≠ q.2) :
    ((tailLines Z p).map fun s => (tailLines Z q).countP (crossTest s)).sum = if inner p.2 q.2 || inner q.2 p.2 then 1 else 0 := by
  obtain ⟨w, y⟩ := p
  obtain ⟨v, z⟩ := q
  simp only [Far] at hp hq hpw hqw hne
  by_cases c1 : y = 300
  · by_cases c2 : z = 300
    · omega
    · have a1 : crossTest (seg w 300 (Z - 50) 300) (seg v z Z z) = false := crossTest_apart (by omega)
      have a2 : crossTest (seg w 300 (Z - 50) 300) (seg Z z Z 250) = false := crossTest_apart (by omega)
      have b1 : inner y z = false := by simp only [inner, decide_eq_false_iff_not]; omega
      have b2 : inner z y = false := by simp only [inner, decide_eq_false_iff_not]; omega
      simp [tailLines, c1, c2, a1, a2]
      subst c1
      simp [b1, b2]
  · by_cases c2 : z = 300
    · have a1 : crossTest (seg w y Z y) (seg v 300 (Z - 50) 300) = false := crossTest_apart (by omega)
      have a2 : crossTest (seg Z y Z 250) (seg v 300 (Z - 50) 300) = false := crossTest_apart (by omega)
      have b1 : inner y z = false := by simp only [inner, decide_eq_false_iff_not]; omega
      have b2 : inner z y = false := by simp only [inner, decide_eq_false_iff_not]; omega
      simp [tailLines, c1, c2, a1, a2]
      subst c2
      simp [b1, b2]
    · have a1 : crossTest (seg w y Z y) (seg v z Z z) = false := crossTest_apart (by omega)
      have a2 : crossTest (seg Z y Z 250) (seg Z z Z 250) = false := by
        rw [Bool.eq_false_iff, Ne, crossTest_seg (by omega) (by omega)]
        omega
      have a3 : crossTest (seg Z y Z 250) (seg v z Z z) = inner y z := by
        rw [Bool.eq_iff_iff, crossTest_seg (by omega) (by omega), inner, decide_eq_true_eq]
        omega
      have a4 : crossTest (seg w y Z y) (seg Z z Z 250) = inner z y := by
        rw [Bool.eq_iff_iff, crossTest_seg (by omega) (by omega), inner, decide_eq_true_eq]
        omega
      have hx : ¬(inner y z = true ∧ inner z y = true) := by
        simp only [inner, decide_eq_true_eq]
        omega
      simp only [tailLines, c1, c2, if_false, List.map_cons, List.map_nil, List.sum_cons, List.sum_nil, List.countP_cons, List.countP_nil, a1, a2, a3, a4]
      cases d1 : inner y z <;> cases d2 : inner z y <;> simp [d1, d2] at hx ⊢

theorem tail_count (Z : Int) : ∀ {ps : List (Int × Int)}, (ps.map Prod.snd).Nodup → (∀ p ∈ ps, Far p.2 ∧ p.1 ≤ Z - 100) →
    countCrossings (ps.flatMap (tailLines Z)) = shadowed (ps.map Prod.snd)
  | [], _, _ => rfl
  | p :: ps, h, hw => by
    rw [List.map_cons] at h
    have ih := tail_count Z (List.nodup_cons.1 h).2 fun q hq => hw q (by simp [hq])
    have hy := (List.nodup_cons.1 h).1
    rw [List.flatMap_cons, countCrossings_append, ih, tail_self, List.map_cons, shadowed]
    have key : ∀ qs : List (Int × Int), p.2 ∉ qs.map Prod.snd → (∀ p ∈ qs, Far p.2 ∧ p.1 ≤ Z - 100) →
        ((tailLines Z p).map fun s => (qs.flatMap (tailLines Z)).countP (crossTest s)).sum =
          (qs.map Prod.snd).countP (fun z => inner p.2 z || inner z p.2) := by
      intro qs
      induction qs with
      | nil => intro _ _; simp
      | cons q qs ih' =>
        intro hq hqs
        simp only [List.map_cons, List.mem_cons, not_or] at hq
        have e := ih' hq.2 fun q hq => hqs q (by simp [hq])
        have e2 := tail_pair (hw p (by simp)).1 (hqs q (by simp)).1 (hw p (by simp)).2 (hqs q (by simp)).2 hq.1
        rw [List.map_cons, List.countP_cons, ← e, ← e2]
        simp only [List.flatMap_cons, List.countP_append]
        rw [List.sum_map_add, Nat.add_comm]
    rw [key ps hy fun q hq => hw q (by simp [hq])]
    omega

/-- The flow that leaves the gateway with its centre at (Z, 300). -/
def outLines (Z hi : Int) : List Segment := [seg Z 300 Z 300, seg Z 300 hi 300]

theorem out_count (Z hi : Int) : countCrossings (outLines Z hi) = 0 := by
  rw [outLines, countCrossings_cons, countCrossings_cons]
  have : crossTest (seg Z 300 Z 300) (seg Z 300 hi 300) = false := by
    rw [Bool.eq_false_iff, Ne, crossTest_seg (by omega) (by omega)]
    omega
  simp [this, countCrossings]

theorem tail_out {Z hi : Int} (hh : Z ≤ hi) {p : Int × Int} (hp : Far p.2) (hw : p.1 ≤ Z - 100) :
    ((tailLines Z p).map fun s => (outLines Z hi).countP (crossTest s)).sum = if 300 < p.2 then 2 else 0 := by
  obtain ⟨w, y⟩ := p
  simp only [Far] at hp hw
  by_cases c1 : y = 300
  · have a1 : crossTest (seg w 300 (Z - 50) 300) (seg Z 300 Z 300) = false := crossTest_apart (by omega)
    have a2 : crossTest (seg w 300 (Z - 50) 300) (seg Z 300 hi 300) = false := crossTest_apart (by omega)
    simp [tailLines, outLines, c1, a1, a2]
  · have a1 : crossTest (seg w y Z y) (seg Z 300 Z 300) = false := crossTest_apart (by omega)
    have a2 : crossTest (seg w y Z y) (seg Z 300 hi 300) = false := crossTest_apart (by omega)
    have a3 : crossTest (seg Z y Z 250) (seg Z 300 Z 300) = decide (300 < y) := by
      rw [Bool.eq_iff_iff, crossTest_seg (by omega) (by omega), decide_eq_true_eq]
      omega
    have a4 : crossTest (seg Z y Z 250) (seg Z 300 hi 300) = decide (300 < y) := by
      rw [Bool.eq_iff_iff, crossTest_seg (by omega) (by omega), decide_eq_true_eq]
      omega
    by_cases c : 300 < y <;>
      simp [tailLines, outLines, c1, List.countP_cons, a1, a2, a3, a4, c]

theorem tails_out {Z hi : Int} (hh : Z ≤ hi) {ps : List (Int × Int)} (hn : (ps.map Prod.snd).Nodup) (hw : ∀ p ∈ ps, Far p.2 ∧ p.1 ≤ Z - 100) :
    countCrossings (ps.flatMap (tailLines Z) ++ outLines Z hi) = shadowed (ps.map Prod.snd) + 2 * (ps.map Prod.snd).countP (fun y => decide (300 < y)) := by
  rw [countCrossings_append, tail_count Z hn hw, out_count]
  have key : ∀ qs : List (Int × Int), (∀ p ∈ qs, Far p.2 ∧ p.1 ≤ Z - 100) →
      ((qs.flatMap (tailLines Z)).map fun s => (outLines Z hi).countP (crossTest s)).sum = 2 * (qs.map Prod.snd).countP (fun y => decide (300 < y)) := by
    intro qs hqs
    induction qs with
    | nil => rfl
    | cons q qs ih =>
      rw [List.flatMap_cons, List.map_append, List.sum_append, ih fun q hq => hqs q (by simp [hq]), tail_out hh (hqs q (by simp)).1 (hqs q (by simp)).2,
        List.map_cons, List.countP_cons]
      by_cases c : 300 < q.2 <;> simp [c] <;> omega
  rw [key ps hw, Nat.add_zero]

/-! ### The heights of the branches -/

theorem shadowed_append (l r : List Int) :
    shadowed (l ++ r) = shadowed l + shadowed r + (l.map fun y => r.countP fun z => inner y z || inner z y).sum := by
  induction l with
  | nil => simp [shadowed]
  | cons y l ih =>
    rw [List.cons_append, shadowed, ih, shadowed, List.countP_append, List.map_cons, List.sum_cons]
    omega

theorem shadowed_apart {l r : List Int} (h : ∀ y ∈ l, ∀ z ∈ r, inner y z = false ∧ inner z y = false) : shadowed (l ++ r) = shadowed l + shadowed r := by
  rw [shadowed_append]
  have : (l.map fun y => r.countP fun z => inner y z || inner z y).sum = 0 := by
    apply List.sum_eq_zero
    intro k hk
    obtain ⟨y, hy, rfl⟩ := List.mem_map.1 hk
    rw [List.countP_eq_zero]
    intro z hz
    simp [h y hy z hz]
  omega

/-- The heights below the line, from the nearest on. -/
def lower (m : Nat) : List Int := (List.range m).map fun k : Nat => 300 + 200 * ((k : Int) + 1)
/-- The heights above the line, from the nearest on. -/
def upper (m : Nat) : List Int := (List.range m).map fun k : Nat => 300 - 200 * ((k : Int) + 1)

theorem shadowed_lower (m : Nat) : 2 * shadowed (lower m) = m * (m - 1) := by
  induction m with
  | zero => rfl
  | succ m ih =>
    have e : lower (m + 1) = lower m ++ [300 + 200 * ((m : Int) + 1)] := by simp [lower, List.range_succ]
    rw [e, shadowed_append]
    have : ((lower m).map fun y => [300 + 200 * ((m : Int) + 1)].countP fun z => inner y z || inner z y).sum = m := by
      have h1 : ((lower m).map fun y => [300 + 200 * ((m : Int) + 1)].countP fun z => inner y z || inner z y) = (lower m).map fun _ => 1 := by
        apply List.map_congr_left
        intro y hy
        obtain ⟨k, hk, rfl⟩ := List.mem_map.1 hy
        have := List.mem_range.1 hk
        have : inner (300 + 200 * ((m : Int) + 1)) (300 + 200 * ((k : Int) + 1)) = true := by simp only [inner, decide_eq_true_eq]; omega
        simp [this]
      rw [h1]
      simp [lower, Function.comp_def]
    rw [this]
    have : shadowed [300 + 200 * ((m : Int) + 1)] = 0 := rfl
    rw [this, Nat.add_sub_cancel]
    cases m with
    | zero => simp at ih ⊢; exact ih
    | succ m =>
      rw [Nat.add_sub_cancel] at ih
      rw [Nat.add_zero, Nat.mul_add, ih]
      ring

theorem shadowed_upper (m : Nat) : 2 * shadowed (upper m) = m * (m - 1) := by
  induction m with
  | zero => rfl
  | succ m ih =>
    have e : upper (m + 1) = upper m ++ [300 - 200 * ((m : Int) + 1)] := by simp [upper, List.range_succ]
    rw [e, shadowed_append]
    have : ((upper m).map fun y => [300 - 200 * ((m : Int) + 1)].countP fun z => inner y z || inner z y).sum = m := by
      have h1 : ((upper m).map fun y => [300 - 200 * ((m : Int) + 1)].countP fun z => inner y z || inner z y) = (upper m).map fun _ => 1 := by
        apply List.map_congr_left
        intro y hy
        obtain ⟨k, hk, rfl⟩ := List.mem_map.1 hy
        have := List.mem_range.1 hk
        have : inner (300 - 200 * ((m : Int) + 1)) (300 - 200 * ((k : Int) + 1)) = true := by simp only [inner, decide_eq_true_eq]; omega
        simp [this]
      rw [h1]
      simp [upper, Function.comp_def]
    rw [this]
    have : shadowed [300 - 200 * ((m : Int) + 1)] = 0 := rfl
    rw [this, Nat.add_sub_cancel]
    cases m with
    | zero => simp at ih ⊢; exact ih
    | succ m =>
      rw [Nat.add_sub_cancel] at ih
      rw [Nat.add_zero, Nat.mul_add, ih]
      ring

/-- The height of the k-th of n branches. -/
def branchHeight (n k : Nat) : Int := 300 + 100 * branchRow n k

theorem far_height (n k : Nat) : Far (branchHeight n k) := by
  unfold Far branchHeight branchRow
  split
  · omega
  · split <;> omega

theorem height_inj {n k l : Nat} (hk : k < n) (hl : l < n) (h : branchHeight n k = branchHeight n l) : k = l := by
  unfold branchHeight branchRow at h
  split at h <;> split at h <;> (try split at h) <;> omega

theorem heights_nodup (n : Nat) : ((List.range n).map (branchHeight n)).Nodup :=
  List.Nodup.map_on (fun k hk l hl e => height_inj (List.mem_range.1 hk) (List.mem_range.1 hl) e) List.nodup_range

theorem heights_eq (n : Nat) : (List.range n).map (branchHeight n) = lower (n / 2) ++ ((if n % 2 = 1 then [300] else []) ++ upper (n / 2)) := by
  apply List.ext_getElem
  · simp [lower, upper]
    split <;> simp <;> omega
  · intro k h1 h2
    simp only [List.length_map, List.length_range] at h1
    simp only [List.getElem_map, List.getElem_range]
    by_cases c : k < n / 2
    · rw [List.getElem_append_left (by simp [lower]; exact c)]
      simp [lower, branchHeight, branchRow, c]
      omega
    · rw [List.getElem_append_right (by simp [lower]; omega)]
      by_cases c2 : n % 2 = 1
      · simp only [c2, if_true, List.singleton_append]
        by_cases c3 : k = n / 2
        · simp [lower, c3, branchHeight, branchRow, c2]
        · obtain ⟨u, hu⟩ : ∃ u, k = n / 2 + (u + 1) := ⟨k - n / 2 - 1, by omega⟩
          simp [lower, upper, branchHeight, branchRow, c2, hu]
          omega
      · obtain ⟨u, hu⟩ : ∃ u, k = n / 2 + u := ⟨k - n / 2, by omega⟩
        simp [lower, upper, branchHeight, branchRow, c2, hu]
        omega

theorem shadowed_heights (n : Nat) : shadowed ((List.range n).map (branchHeight n)) = n / 2 * (n / 2 - 1) := by
  rw [heights_eq]
  have low : ∀ y ∈ lower (n / 2), 300 < y := by
    intro y hy
    obtain ⟨k, hk, rfl⟩ := List.mem_map.1 hy
    omega
  have up : ∀ y ∈ upper (n / 2), y < 300 := by
    intro y hy
    obtain ⟨k, hk, rfl⟩ := List.mem_map.1 hy
    omega
  rw [shadowed_apart, shadowed_apart]
  · have h1 := shadowed_lower (n / 2)
    have h2 := shadowed_upper (n / 2)
    have h3 : shadowed (if n % 2 = 1 then [300] else []) = 0 := by split <;> rfl
    omega
  · intro y hy z hz
    have := up z hz
    have : y = 300 := by
      split at hy <;> simp at hy
      exact hy
    simp only [inner, decide_eq_false_iff_not]
    omega
  · intro y hy z hz
    have := low y hy
    have : z ≤ 300 := by
      rcases List.mem_append.1 hz with hz | hz
      · split at hz <;> simp at hz
        omega
      · have := up z hz
        omega
    simp only [inner, decide_eq_false_iff_not]
    omega

theorem below_heights (n : Nat) : ((List.range n).map (branchHeight n)).countP (fun y => decide (300 < y)) = n / 2 := by
  rw [heights_eq, List.countP_append, List.countP_append]
  have h1 : (lower (n / 2)).countP (fun y => decide (300 < y)) = n / 2 := by
    have : (lower (n / 2)).length = n / 2 := by simp [lower]
    rw [List.countP_eq_length.2]
    · exact this
    · intro y hy
      obtain ⟨k, hk, rfl⟩ := List.mem_map.1 hy
      simp only [decide_eq_true_eq]
      omega
  have h2 : (upper (n / 2)).countP (fun y => decide (300 < y)) = 0 := by
    rw [List.countP_eq_zero]
    intro y hy
    obtain ⟨k, hk, rfl⟩ := List.mem_map.1 hy
    simp only [decide_eq_true_eq]
    omega
  have h3 : (if n % 2 = 1 then [(300 : Int)] else []).countP (fun y => decide (300 < y)) = 0 := by split <;> rfl
  omega

end Bpmn.Props

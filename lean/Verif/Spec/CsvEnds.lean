import Verif.Spec.CsvDrawn
/-!
# How a flat table with terminated branches is drawn
-/
namespace Bpmn.Spec.Csv
open Bpmn.Csv

/-- The length of the longest branch that is not terminated. -/
def longestOpen (legs : List Leg) : Nat := longestLeg (legs.filter fun l => !l.stops)

/-- No terminated branch is longer than all the branches of its block that are not terminated. -/
def FlatTable.Fits (t : FlatTable) : Prop := ∀ legs, Item.block legs ∈ t.items → ∀ leg ∈ legs, leg.steps.length ≤ longestOpen legs

/-- The rows of the branches that are not terminated, if the split is in row `y` and the branches take the places `ks`. -/
def openRows (y : Int) (legs : List Leg) (ks : List Nat) : List Int :=
  ((legs.zip ks).filter fun p => !p.1.stops).map fun p => y + branchRow legs.length p.2

/-- The mean, rounded down. -/
def meanRow (ys : List Int) : Int := Int.fdiv ys.sum ys.length

/-- How the items from number `k` on and the end are drawn from column `c` on, the first of them in row `y`; `P i x y` says that the node with id `i` is
in column `x` and row `y`.  The steps of a branch follow each other in one row, the first one right of the split; the branches take, in some order, the
rows given by `branchRow`.  The join is right of the longest branch that is not terminated, in the mean row of these branches; there the main line goes
on. -/
def EndsDrawn (P : String → Int → Int → Prop) : Nat → Int → Int → List Item → Prop
  | k, c, y, [] => P (toString k) c y
  | k, c, y, .step _ :: r => P (toString k) c y ∧ EndsDrawn P (k + 1) (c + 1) y r
  | k, c, y, .block legs :: r =>
    P (toString (k - 1) ++ "_split") c y ∧
    ∃ ks : List Nat, ks.Perm (List.range legs.length) ∧
      (∀ (j : Nat) (leg : Leg) (i : Nat), legs[j]? = some leg → ks[j]? = some i →
        ∀ m, 1 ≤ m → m ≤ leg.steps.length → P (legOrder k j m) (c + m) (y + branchRow legs.length i)) ∧
      P (toString (k + 1) ++ "_join") (c + 1 + longestOpen legs) (meanRow (openRows y legs ks)) ∧
      EndsDrawn P (k + 1) (c + 2 + longestOpen legs) (meanRow (openRows y legs ks)) r

end Bpmn.Spec.Csv

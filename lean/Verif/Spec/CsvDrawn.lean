import Verif.Spec.CsvFlat
import Verif.Spec.Blocks
/-!
# How a flat table is drawn
-/
namespace Bpmn.Spec.Csv
open Bpmn.Csv

/-- No branch is terminated. -/
def FlatTable.Meets (t : FlatTable) : Prop := ∀ legs, Item.block legs ∈ t.items → ∀ leg ∈ legs, leg.stops = false

/-- The length of the longest branch. -/
def longestLeg (legs : List Leg) : Nat := (legs.map fun l => l.steps.length).foldr max 0

/-- How the items from number `k` on and the end are drawn from column `c` on, where `P i x y` says that the node with id `i` is in column `x` and row
`y`: the main line, the splits and the joins are in row 2.  The steps of a branch follow each other in one row, the first one right of the split; the
branches take, in some order, the rows given by `branchRow`.  The join is right of the longest branch. -/
def FlatDrawn (P : String → Int → Int → Prop) : Nat → Int → List Item → Prop
  | k, c, [] => P (toString k) c 2
  | k, c, .step _ :: r => P (toString k) c 2 ∧ FlatDrawn P (k + 1) (c + 1) r
  | k, c, .block legs :: r =>
    P (toString (k - 1) ++ "_split") c 2 ∧
    (∃ ks : List Nat, ks.Perm (List.range legs.length) ∧
      ∀ (j : Nat) (leg : Leg) (y : Nat), legs[j]? = some leg → ks[j]? = some y →
        ∀ m, 1 ≤ m → m ≤ leg.steps.length → P (legOrder k j m) (c + m) (2 + branchRow legs.length y)) ∧
    P (toString (k + 1) ++ "_join") (c + 1 + longestLeg legs) 2 ∧ FlatDrawn P (k + 1) (c + 2 + longestLeg legs) r

end Bpmn.Spec.Csv

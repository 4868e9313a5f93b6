import Verif.Spec.CsvDrawn
import Verif.Spec.BlockPaths
/-!
# What is counted in a table
-/
namespace Bpmn.Spec.Csv
open Bpmn.Csv

open Classical in
/-- The number of rows that are no `goto` and of which `P` is true. -/
noncomputable def rowsWith (P : Row → Prop) (rows : List Row) : Nat := (rows.filter fun r => decide (¬GotoRow r ∧ P r)).length

/-- The rows of the items. -/
def rowsIn : List Item → Nat
  | [] => 0
  | .step _ :: r => 1 + rowsIn r
  | .block legs :: r => (legs.map fun l => l.steps.length).sum + rowsIn r

/-- The rows of the items, where of each block only the longest branch counts. -/
def longRun : List Item → Nat
  | [] => 0
  | .step _ :: r => 1 + longRun r
  | .block legs :: r => longestLeg legs + longRun r

/-- The blocks among the items. -/
def blocksIn : List Item → Nat
  | [] => 0
  | .step _ :: r => blocksIn r
  | .block _ :: r => 1 + blocksIn r

/-- The branches of the blocks that are more than one. -/
def sideLegs : List Item → Nat
  | [] => 0
  | .step _ :: r => sideLegs r
  | .block legs :: r => (legs.length - 1) + sideLegs r

end Bpmn.Spec.Csv

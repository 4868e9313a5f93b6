import Verif.Spec.TableMetrics
import Verif.Spec.CsvEnds
/-!
# What is counted in a table with terminated branches
-/
namespace Bpmn.Spec.Csv
open Bpmn.Csv

/-- The length of the longest terminated branch. -/
def longestEnd (legs : List Leg) : Nat := longestLeg (legs.filter fun l => l.stops)

/-- The terminated branches of the items. -/
def stopsIn : List Item → Nat
  | [] => 0
  | .step _ :: r => stopsIn r
  | .block legs :: r => (legs.filter fun l => l.stops).length + stopsIn r

/-- The longest way from the first item on, where an activity counts 1, and ends and gateways count `g`: at a block it goes either into a terminated
branch and ends there, or through another branch, and on. -/
def longWay (g : Nat) : List Item → Nat
  | [] => g
  | .step _ :: r => 1 + longWay g r
  | .block legs :: r => g + max (longestEnd legs - 1 + g) (longestOpen legs + g + longWay g r)

end Bpmn.Spec.Csv

import Verif.Spec.DrawnMetrics
import Verif.Spec.TableMetrics
/-!
# The number of lines in a drawing of steps and blocks
-/
namespace Bpmn.Spec

/-- The gateways at which flows bend. -/
def gatewaysIn (l : List Node) : Nat := (l.filter fun n => decide (Bends n)).length

/-- The straight lines of which the flows consist. On the line there is one for each flow, and two for a flow that leaves a gateway. In a block there are two
for each flow that leaves the split, one for each flow that leaves a node of a branch, one more if that node is a gateway, and one more for the last flow of
each branch that is not in the row of the line. -/
def segmentsOf : List Piece → Nat
  | [] => 0
  | .step n :: ps => (if ps.isEmpty then 0 else 1 + gatewaysIn [n]) + segmentsOf ps
  | .block _ bs _ :: ps =>
    2 * bs.length + ((bs.map fun b => b.length + gatewaysIn b).sum + 2 * (bs.length / 2)) + (if ps.isEmpty then 0 else 2) + segmentsOf ps

end Bpmn.Spec

namespace Bpmn.Spec.Csv

/-- The bends in a drawing of the items: at the split one for each branch, at the join one for each branch in another row, and one behind the join. -/
def bendsIn : List Item → Nat
  | [] => 0
  | .step _ :: r => bendsIn r
  | .block legs :: r => legs.length + 2 * (legs.length / 2) + 1 + bendsIn r

/-- The crossings in a drawing of the items. -/
def crossingsIn : List Item → Nat
  | [] => 0
  | .step _ :: r => crossingsIn r
  | .block legs :: r => 2 * (legs.length / 2 * (legs.length / 2)) + crossingsIn r

/-- Half of the number of branches of the largest block, rounded down. -/
def halfIn : List Item → Nat
  | [] => 0
  | .step _ :: r => halfIn r
  | .block legs :: r => max (legs.length / 2) (halfIn r)

end Bpmn.Spec.Csv

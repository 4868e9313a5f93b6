import Verif.Spec.Csv
import Verif.Spec.Layout
import Verif.Spec.Structured
/-!
# Loops and the CSV export
-/
namespace Bpmn.Spec
open Bpmn.Csv Bpmn.Spec.Csv

/-- A flow from `n` to `m` leads directly from a split to a join.  A start event does not count as a split, and neither does a node that is itself a
join, unless it is an activity. -/
def Direct (n m : Node) : Prop :=
  2 ≤ (outs n).length ∧ 2 ≤ (ins m).length ∧ n.2.type ≠ some "startEvent" ∧ (2 ≤ (ins n).length → IsActivity n)

instance (n m : Node) : Decidable (Direct n m) := by unfold Direct; infer_instance

/-- The flows that do not lead directly from a split to a join. -/
def NextApart (d : Diagram) (n m : Node) : Prop := Next d n m ∧ ¬Direct n m

/-- Every cycle contains a flow that leads directly from a split to a join. -/
def LoopsDirect (d : Diagram) : Prop := ∀ n ∈ d.getNodes, ¬Relation.TransGen (NextApart d) n n

/-- Some node has a type the classification does not know, or no name. -/
def Unnamed (d : Diagram) : Prop := ∃ n ∈ d.getNodes, ¬Supported n ∨ n.2.nodeName = none

/-- Some node has more than 26 outgoing flows, or is a start event or a join without an outgoing flow. -/
def Stuck (d : Diagram) : Prop := ∃ n ∈ d.getNodes, 26 < (outs n).length ∨
  (outs n = [] ∧ (n.2.type = some "startEvent" ∨ (2 ≤ (ins n).length ∧ ¬IsActivity n ∧ n.2.type ≠ some "endEvent")))

end Bpmn.Spec

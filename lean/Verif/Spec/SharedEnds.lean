import Verif.Spec.Structured
/-!
# Processes whose ways end in the same end events

Like a block-structured process (`Verif/Spec/Structured.lean`), but any number of flows may lead into an end event. A line that comes to its end at such an event
has the event as its last node, so that the event is in the lines as often as it is reached.
-/
namespace Bpmn.Spec
open Bpmn.Csv Bpmn.Spec.Csv

def IsEnd (n : Node) : Prop := n.2.type = some "endEvent"

instance (n : Node) : Decidable (IsEnd n) := by unfold IsEnd; infer_instance

mutual
/-- The flows of the diagram are those of the line, as in `Strand.Fits`; but an end event at its end may have other incoming flows. -/
def Strand.Runs (d : Diagram) (meets : Bool) (j : Option Node) : Strand → Prop
  | .stop e => e ∈ d.getNodes ∧ outs e = [] ∧ e.2.type ≠ some "startEvent" ∧ (if IsEnd e then meets = false else Entered meets e ∧ (meets = true → IsActivity e))
  | .meet => meets = false ∧ j.isSome
  | .step n rest => n ∈ d.getNodes ∧ Entered meets n ∧ ¬IsEnd n ∧ (∃ i, outs n = [i] ∧ LeadsTo d i (rest.first j)) ∧
      rest.Runs d false j ∧ (meets = true → ¬IsActivity n → ¬rest.IsMeet)
  | .block s bs rest => s ∈ d.getNodes ∧ Entered meets s ∧ IsSplit s ∧ (meets = true → IsActivity s) ∧ bs.Run d (rest.first none) (outs s) ∧
      bs.SomeGoOn ∧ rest.Runs d true j
  | .fork s bs => s ∈ d.getNodes ∧ Entered meets s ∧ IsSplit s ∧ (meets = true → IsActivity s) ∧ bs.Run d none (outs s)

/-- The flows `fs` lead to the branches. An end event directly behind the split has no other incoming flow. -/
def Branches.Run (d : Diagram) (j : Option Node) : Branches → List String → Prop
  | .nil, fs => fs = []
  | .cons l r, fs => ∃ i gs, fs = i :: gs ∧ LeadsTo d i (l.first j) ∧ (¬l.IsMeet → ∀ n, l.first j = some n → (ins n).length ≤ 1) ∧ l.Runs d false j ∧ r.Run d j gs
end

/-- The diagram is this line: the line has all nodes, every one but the end events once. -/
structure SharedEnds (d : Diagram) (l : Strand) : Prop where
  nodes : ∀ n, n ∈ l.nodes ↔ n ∈ d.getNodes
  once : (l.nodes.filter fun n => ¬IsEnd n).Perm (d.getNodes.filter fun n => ¬IsEnd n)
  supported : ∀ n ∈ d.getNodes, Supported n
  named : ∀ n ∈ d.getNodes, n.2.nodeName.isSome
  start : ∀ n ∈ d.getNodes, ins n = [] ↔ l.first none = some n
  runs : l.Runs d false none

end Bpmn.Spec

import Verif.Model.Layouter
/-!
# `generate_layout` and the object (`bpmn_python/bpmn_diagram_layouter.py`)

`Verif/Model/Layouter.lean` gives the result of a run without exception.  Here the object after the run is given as well when the run raises: the
classification, the sorting (on a deep copy, `:156`) and the grid do not change the object, the two last steps change it in place.
-/
namespace Bpmn.Layouter
open Bpmn Classify

/-- `set_coordinates_for_nodes` (`:376-387`): the nodes after the loop, and how it ends.  The nodes before the one without a cell have been changed. -/
def moveNodes (grid : List Cell) : List Node → List Node × Py Unit
  | [] => ([], .ok ())
  | n :: r =>
    match grid.find? (fun c => c.nodeId == n.1) with
    | none => (n :: r, .error .stopIteration)
    | some c =>
      let (r, o) := moveNodes grid r
      ((n.1, { n.2 with x := some (toString (c.col * 150 + 50)), y := some (toString (c.row * 100 + 50)) }) :: r, o)

/-- The waypoints of a flow (`:398-427`, without the assignment). -/
def newPoints (d : Diagram) (f : Flow) : Py (List (String × String)) := do
  let s ← need f.2.2.sourceRef
  let t ← need f.2.2.targetRef
  let sa ← nodeAttrsById d s
  let ta ← nodeAttrsById d t
  flowWaypoints sa ta

/-- The loop of `set_flows_waypoints` (`:397-427`): the graph after the loop, and how it ends. -/
def drawFlows (d : Diagram) : List Flow → Graph → Graph × Py Unit
  | [], g => (g, .ok ())
  | f :: r, g =>
    match newPoints d f with
    | .error e => (g, .error e)
    | .ok w => drawFlows d r (g.modifyEdge f.1 f.2.1 fun a => { a with waypoints := some w })

/-- The steps of `generate_layout` that do not change the object (`:15-17`). -/
def computeGrid (fuel : Nat) (d : Diagram) : Py (List Cell) := do
  let (nodes, _) ← generateElementsClassification d
  let (sorted, _) ← topologicalSort fuel d nodes
  gridLayout fuel d sorted

/-- `generate_layout` (`:11-19`): the object after the call, and how the call ends. -/
def layoutObject (fuel : Nat) (d : Diagram) : Diagram × Py Unit :=
  match computeGrid fuel d with
  | .error e => (d, .error e)
  | .ok grid =>
    let (ns, o) := moveNodes grid d.graph.nodes
    let d := { d with graph := { d.graph with nodes := ns } }
    match o with
    | .error e => (d, .error e)
    | .ok _ =>
      let (g, o) := drawFlows d d.getFlows d.graph
      ({ d with graph := g }, o)

end Bpmn.Layouter

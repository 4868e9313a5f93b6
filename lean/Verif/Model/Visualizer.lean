import Verif.Model.Rep
/-!
# Drawing (`bpmn_python/bpmn_diagram_visualizer.py`) and `get_nodes_positions`

What is handed to the drawing libraries is modelled, not what they do with it.  `float(s)` is a parameter `num` as in
`Model/LayoutMetrics.lean`.  `bpmn_diagram_to_dot_file` (`:61-69`) is a single library call and is not modelled.
-/
namespace Bpmn.Visualizer
open Bpmn

/-- `get_nodes_positions` (`bpmn_diagram_rep.py:539-549`), the loop over the rest of the nodes. -/
def positionsLoop (num : String → Py Rat) : List Node → Dict String (Rat × Rat) → Py (Dict String (Rat × Rat))
  | [], out => .ok out
  | n :: r, out => do
    let x ← need n.2.x
    let x ← num x
    let y ← need n.2.y
    let y ← num y
    positionsLoop num r (out.set n.1 (x, y))

/-- `get_nodes_positions` (`bpmn_diagram_rep.py:539-549`). -/
def getNodesPositions (num : String → Py Rat) (d : Diagram) : Py (Dict String (Rat × Rat)) := positionsLoop num d.getNodes []

/-- A `pydotplus.Node`; an option that is not passed is `none`. -/
structure DotNode where
  name : String
  shape : Option String := none
  style : Option String := none
  label : Option String
deriving DecidableEq, Repr

/-- A `pydotplus.Edge`; `pydotplus.Dot()` is a directed graph, the edge is drawn as an arrow from `src` to `dst`. -/
structure DotEdge where
  src : String
  dst : String
  label : Option String
deriving DecidableEq, Repr

/-- The body of the first loop of `bpmn_diagram_to_png` (`:84-90`). -/
def dotNode (n : Node) : DotNode :=
  if n.2.type == some "task" then { name := n.1, shape := some "box", style := some "rounded", label := n.2.nodeName }
  else if n.2.type == some "exclusiveGateway" then { name := n.1, shape := some "diamond", label := n.2.nodeName }
  else { name := n.1, label := n.2.nodeName }

/-- The body of the second loop of `bpmn_diagram_to_png` (`:93-95`). -/
def dotEdge (f : Flow) : DotEdge := { src := f.1, dst := f.2.1, label := f.2.2.name }

/-- `bpmn_diagram_to_png` (`:72-97`): the nodes and edges of the graph that is drawn. -/
def toPng (d : Diagram) : List DotNode × List DotEdge := (d.getNodes.map dotNode, d.getFlows.map dotEdge)

/-- The calls of `draw_networkx_nodes` (`:21-42`): shape and node type. -/
def symbolTypes : List (String × String) :=
  [("s", "task"), ("s", "subProcess"), ("d", "complexGateway"), ("o", "eventBasedGateway"), ("d", "inclusiveGateway"),
   ("d", "exclusiveGateway"), ("d", "parallelGateway"), ("o", "startEvent"), ("o", "intermediateCatchEvent"), ("o", "endEvent"),
   ("o", "intermediateThrowEvent")]

/-- `draw_networkx_nodes` for the node types of the list: shape and node list of each call. -/
def symbols (d : Diagram) : List (String × String) → Py (List (String × List String))
  | [] => .ok []
  | (shape, t) :: r => do
    let ids ← d.getNodesIdListByType t
    let rest ← symbols d r
    pure ((shape, ids) :: rest)

/-- What `visualize_diagram` draws. -/
structure Drawing where
  /-- `pos` -/
  positions : Dict String (Rat × Rat)
  /-- the calls of `draw_networkx_nodes` -/
  symbols : List (String × List String)
  /-- `node_labels` -/
  nodeLabels : Dict String (Option String)
  /-- `edge_labels` -/
  edgeLabels : Dict (String × String) (Option String)

/-- `visualize_diagram` (`:13-58`). -/
def visualize (num : String → Py Rat) (d : Diagram) : Py Drawing := do
  let pos ← getNodesPositions num d
  let syms ← symbols d symbolTypes
  pure { positions := pos, symbols := syms, nodeLabels := d.getNodes.foldl (fun t n => t.set n.1 n.2.nodeName) [],
         edgeLabels := d.getFlows.foldl (fun t f => t.set (f.1, f.2.1) f.2.2.name) [] }

end Bpmn.Visualizer

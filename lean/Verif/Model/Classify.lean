import Verif.Model.Rep
/-!
# Node classification

`BpmnImportUtils.generate_nodes_clasification` (`bpmn_python/bpmn_import_utils.py:38-131`, used by the CSV export) and
`generate_elements_clasification` (`bpmn_python/bpmn_diagram_layouter.py:22-142`, used by the layouter).  The repository contains the
code twice; it is modelled twice.
-/
namespace Bpmn.Classify

/-- `split_join_classification` (`bpmn_import_utils.py:116-131`): the labels, and their entry in the dictionary. -/
def splitJoin (element : Node) (labels : List String) (table : Dict String (List String)) : Py (Dict String (List String)) := do
  let inc ← need element.2.incoming
  let labels := if inc.length ≥ 2 then labels ++ ["Join"] else labels
  let out ← need element.2.outgoing
  let labels := if out.length ≥ 2 then labels ++ ["Split"] else labels
  pure (table.set element.1 labels)

/-- One `for element in ..._list` loop of `generate_nodes_clasification`. -/
def classifyAll (labels : List String) : List Node → Dict String (List String) → Py (Dict String (List String))
  | [], t => .ok t
  | n :: r, t => do
    let t ← splitJoin n labels t
    classifyAll labels r t

/-- The node types in the order of the eleven loops of `bpmn_import_utils.py:59-112`, with the initial labels. -/
def nodeTypes : List (String × List String) :=
  [("task", ["Element"]), ("subProcess", ["Element"]), ("complexGateway", ["Element"]), ("eventBasedGateway", ["Element"]),
   ("inclusiveGateway", ["Element"]), ("exclusiveGateway", ["Element"]), ("parallelGateway", ["Element"]),
   ("startEvent", ["Element", "Start Event"]), ("intermediateCatchEvent", ["Element"]),
   ("endEvent", ["Element", "End Event"]), ("intermediateThrowEvent", ["Element"])]

/-- The sequence of loops: `get_nodes(type)` followed by the loop, for each type. -/
def nodesLoop (d : Diagram) : List (String × List String) → Dict String (List String) → Py (Dict String (List String))
  | [], t => .ok t
  | (ty, labels) :: r, t => do
    let ns ← d.getNodesOfType (some ty)
    let t ← classifyAll labels ns t
    nodesLoop d r t

/-- `generate_nodes_clasification` (`bpmn_import_utils.py:38-114`). -/
def generateNodesClassification (d : Diagram) : Py (Dict String (List String)) := nodesLoop d nodeTypes []

/-- A `{"node": (id, attributes), "classification": labels}` dictionary of the layouter.  Of the attributes only the incoming and
outgoing lists are kept: the layouter reads no others.  (Python compares these dictionaries as a whole in `list.remove`; the node id
is part of the comparison and unique in a diagram.) -/
structure NC where
  id : String
  ins : List String
  outs : List String
  labels : List String
deriving DecidableEq, Repr

/-- The body of the loops of `generate_elements_clasification` (`bpmn_diagram_layouter.py:42-48` and ten copies). -/
def classifyElement (labels : List String) (element : Node) : Py NC := do
  let inc ← need element.2.incoming
  let labels := if inc.length ≥ 2 then labels ++ ["Join"] else labels
  let out ← need element.2.outgoing
  let labels := if out.length ≥ 2 then labels ++ ["Split"] else labels
  pure ⟨element.1, inc, out, labels⟩

/-- One loop of `generate_elements_clasification`. -/
def classifyElements (labels : List String) : List Node → Py (List NC)
  | [] => .ok []
  | n :: r => do
    let c ← classifyElement labels n
    let cs ← classifyElements labels r
    pure (c :: cs)

/-- The node types in the order of the eleven loops of `bpmn_diagram_layouter.py:41-135`, with the initial labels. -/
def elementTypes : List (String × List String) :=
  [("task", ["Element"]), ("subProcess", ["Element"]), ("complexGateway", ["Element"]), ("eventBasedGateway", ["Element"]),
   ("inclusiveGateway", ["Element"]), ("exclusiveGateway", ["Element"]), ("parallelGateway", ["Element"]),
   ("startEvent", ["Element", "Start Event"]), ("intermediateCatchEvent", ["Element"]),
   ("endEvent", ["Element", "End Event"]), ("intermediateThrowEvent", ["Element"])]

/-- The eleven loops. -/
def elementsLoop (d : Diagram) : List (String × List String) → Py (List NC)
  | [] => .ok []
  | (ty, labels) :: r => do
    let ns ← d.getNodesOfType (some ty)
    let cs ← classifyElements labels ns
    let rest ← elementsLoop d r
    pure (cs ++ rest)

/-- `generate_elements_clasification` (`bpmn_diagram_layouter.py:22-142`). -/
def generateElementsClassification (d : Diagram) : Py (List NC × List (Flow × List String)) := do
  let nodes ← elementsLoop d elementTypes
  pure (nodes, d.getFlows.map fun f => (f, ["Flow"]))

end Bpmn.Classify

import Verif.Model.Graph
/-!
# `BpmnDiagramGraph` (`bpmn_python/bpmn_diagram_rep.py`)

The state of a diagram object, its query methods and its construction methods.  Construction methods that can raise after having
changed the object return the object *after* the raise next to the outcome.  Every id produced by `uuid.uuid4()` is an argument of
the operation (the string `"id" + str(uuid4())`).
-/
namespace Bpmn

/-- Diagram interchange attributes of a participant or lane (`bpmn_diagram_import.py:292-296`, `:844-848`). -/
structure BoxDi where
  isHorizontal : String
  width : String
  height : String
  x : String
  y : String
deriving DecidableEq, Repr

/-- A lane attribute dictionary (`bpmn_diagram_import.py:282-297`).  `childId`/`children` render the `childLaneSet` entry:
`childId = none` is the empty dictionary; the dictionary of lanes keyed by lane id is the list `children` (a lane carries its own id,
which is also its key). -/
inductive Lane where
  | mk (id name : String) (childId : Option String) (children : List Lane) (refs : List String) (di : Option BoxDi)
deriving Repr

/-- Entry of `sequence_flows` (`bpmn_diagram_rep.py:516-518`). -/
structure SeqFlow where
  name : String
  sourceRef : String
  targetRef : String
deriving DecidableEq, Repr

/-- Entry of `process_elements` (`bpmn_diagram_rep.py:237-240`, `bpmn_diagram_import.py:316-327`, `:236-237`). -/
structure ProcAttrs where
  id : Option String := none
  name : Option String := none
  isClosed : Option String := none
  isExecutable : Option String := none
  processType : Option String := none
  nodeIds : Option (List String) := none
  laneSet : Option (String × List Lane) := none
deriving Repr

/-- Entry of `collaboration["participants"]` (`bpmn_diagram_import.py:111`, `:843-848`). -/
structure Participant where
  name : String
  processRef : String
  di : Option BoxDi := none
deriving DecidableEq, Repr

/-- Entry of `collaboration["messageFlows"]` (`bpmn_diagram_import.py:786-788`). -/
structure MsgFlow where
  id : String
  name : String
  sourceRef : String
  targetRef : String
deriving DecidableEq, Repr

/-- A non-empty `collaboration` dictionary (`bpmn_diagram_import.py:80-84`). -/
structure Collab where
  id : String
  participants : Dict String Participant
  messageFlows : Dict String MsgFlow
deriving DecidableEq, Repr

/-- A `BpmnDiagramGraph` object (`bpmn_diagram_rep.py:46-55`); `{}` is the object made by the constructor.
`diagram_attributes` and `plane_attributes` are dictionaries with two possible keys each. -/
structure Diagram where
  graph : Graph := {}
  sequenceFlows : Dict String SeqFlow := []
  processElements : Dict String ProcAttrs := []
  diagramId : Option String := none
  diagramName : Option String := none
  planeId : Option String := none
  planeElement : Option String := none
  collaboration : Option Collab := none
deriving Repr

namespace Diagram

/-! ## Query methods -/

/-- `get_nodes()` with the default argument: all nodes (`bpmn_diagram_rep.py:112-114`). -/
def getNodes (d : Diagram) : List Node := d.graph.nodes

/-- `get_nodes(node_type)` (`bpmn_diagram_rep.py:105-120`).  `nodeType = none` is the Python value `None`
(passed by `bpmn_diagram_metrics.py:27-36`). -/
def getNodesOfType (d : Diagram) (nodeType : Option String) : Py (List Node) :=
  if nodeType = some "" then .ok d.graph.nodes
  else pyFilter (fun n => do let t ← need n.2.type; pure (some t == nodeType)) d.graph.nodes

/-- `get_nodes_list_by_process_id` (`bpmn_diagram_rep.py:122-134`). -/
def getNodesByProcess (d : Diagram) (processId : String) : Py (List Node) :=
  pyFilter (fun n => do let p ← need n.2.process; pure (p == processId)) d.graph.nodes

/-- `get_node_by_id` (`bpmn_diagram_rep.py:136-146`). -/
def getNodeById (d : Diagram) (nodeId : String) : Option Node := d.graph.nodes.find? (·.1 == nodeId)

/-- `get_nodes_id_list_by_type` (`bpmn_diagram_rep.py:148-160`). -/
def getNodesIdListByType (d : Diagram) (nodeType : String) : Py (List String) := do
  let ns ← pyFilter (fun n => do let t ← need n.2.type; pure (t == nodeType)) d.graph.nodes
  pure (ns.map Prod.fst)

/-- `get_flows` (`bpmn_diagram_rep.py:162-168`). -/
def getFlows (d : Diagram) : List Flow := d.graph.flows

/-- `get_flow_by_id` (`bpmn_diagram_rep.py:170-180`). -/
def getFlowById (d : Diagram) (flowId : String) : Py (Option Flow) :=
  pyFind (fun f => do let i ← need f.2.2.id; pure (i == flowId)) d.graph.flows

/-- `get_flows_list_by_process_id` (`bpmn_diagram_rep.py:182-194`). -/
def getFlowsByProcess (d : Diagram) (processId : String) : List Flow :=
  d.graph.flows.filter fun f => f.2.2.process == some processId

/-! ## Construction methods -/

/-- `create_new_diagram_graph` (`bpmn_diagram_rep.py:197-212`); `uid` is the generated diagram id. -/
def createNew (_ : Diagram) (diagramName uid : String) : Diagram :=
  { diagramId := some uid, diagramName := some diagramName }

/-- `add_process_to_diagram` (`bpmn_diagram_rep.py:214-244`); returns the process id `procUid`. -/
def addProcess (d : Diagram) (name : String) (isClosed isExecutable : Bool) (processType : String)
    (planeUid procUid : String) : Diagram :=
  { d with
    processElements := d.processElements.set procUid
      { name := some name, isClosed := some (boolStr isClosed), isExecutable := some (boolStr isExecutable),
        processType := some processType }
    planeId := some planeUid
    planeElement := some procUid }

/-- The attribute assignments of `add_flow_node_to_diagram` (`bpmn_diagram_rep.py:259-270`). -/
def flowNodeAttrs (processId nodeType name nodeId : String) (a : NodeAttrs) : NodeAttrs :=
  { a with
    id := some nodeId, type := some nodeType, nodeName := some name, incoming := some [], outgoing := some [],
    process := some processId, width := some "100", height := some "100", x := some "100", y := some "100" }

/-- `self.diagram_graph.node[n][...] = ...` on an existing node. -/
def updNode (d : Diagram) (n : String) (f : NodeAttrs → NodeAttrs) : Diagram :=
  { d with graph := d.graph.modifyNode n f }

/-- `add_flow_node_to_diagram` (`bpmn_diagram_rep.py:246-271`).  `nodeId` is the explicit id or, when none was given, the
generated one: the caller computes it with `pickId`. -/
def addFlowNode (d : Diagram) (processId nodeType name nodeId : String) : Diagram :=
  { d with graph := (d.graph.addNode nodeId).modifyNode nodeId (flowNodeAttrs processId nodeType name nodeId) }

/-- `if node_id is None: node_id = id_prefix + uuid4()` (`bpmn_diagram_rep.py:256-257`). -/
def pickId (nodeId : Option String) (uid : String) : String := nodeId.getD uid

/-- `add_task_to_diagram` (`bpmn_diagram_rep.py:273-286`). -/
def addTask (d : Diagram) (processId name : String) (nodeId : Option String) (uid : String) : Diagram :=
  d.addFlowNode processId "task" name (pickId nodeId uid)

/-- `add_subprocess_to_diagram` (`bpmn_diagram_rep.py:288-310`). -/
def addSubprocess (d : Diagram) (processId name : String) (isExpanded triggeredByEvent : Bool)
    (nodeId : Option String) (uid : String) : Diagram :=
  let n := pickId nodeId uid
  (d.addFlowNode processId "subProcess" name n).updNode n fun a =>
    { a with isExpanded := some (boolStr isExpanded), triggeredByEvent := some (boolStr triggeredByEvent) }

/-- The event definition list computed by `add_start_event_to_diagram` (`bpmn_diagram_rep.py:343-356`).
`start_event_definition` is a string or `None`. -/
def startEventDefs (definition : Option String) (defUid : String) : List EventDef :=
  if definition = some "message" then [⟨defUid, "messageEventDefinition"⟩]
  else if definition = some "timer" then [⟨defUid, "timerEventDefinition"⟩]
  else if definition = some "conditional" then [⟨defUid, "conditionalEventDefinition"⟩]
  else if definition = some "signal" then [⟨defUid, "signalEventDefinition"⟩]
  else if definition = some "escalation" then [⟨defUid, "escalationEventDefinition"⟩]
  else []

/-- `add_start_event_to_diagram` (`bpmn_diagram_rep.py:312-359`). -/
def addStartEvent (d : Diagram) (processId name : String) (definition : Option String)
    (parallelMultiple isInterrupting : Bool) (nodeId : Option String) (uid defUid : String) : Diagram :=
  let n := pickId nodeId uid
  (d.addFlowNode processId "startEvent" name n).updNode n fun a =>
    { a with
      parallelMultiple := some (boolStr parallelMultiple), isInterrupting := some (boolStr isInterrupting),
      eventDefinitions := some (startEventDefs definition defUid) }

/-- The event definition list computed by `add_end_event_to_diagram` (`bpmn_diagram_rep.py:383-398`). -/
def endEventDefs (definition : Option String) (defUid : String) : List EventDef :=
  if definition = some "terminate" then [⟨defUid, "terminateEventDefinition"⟩]
  else if definition = some "escalation" then [⟨defUid, "escalationEventDefinition"⟩]
  else if definition = some "message" then [⟨defUid, "messageEventDefinition"⟩]
  else if definition = some "compensate" then [⟨defUid, "compensateEventDefinition"⟩]
  else if definition = some "signal" then [⟨defUid, "signalEventDefinition"⟩]
  else if definition = some "error" then [⟨defUid, "errorEventDefinition"⟩]
  else []

/-- `add_end_event_to_diagram` (`bpmn_diagram_rep.py:361-401`). -/
def addEndEvent (d : Diagram) (processId name : String) (definition : Option String)
    (nodeId : Option String) (uid defUid : String) : Diagram :=
  let n := pickId nodeId uid
  (d.addFlowNode processId "endEvent" name n).updNode n fun a =>
    { a with eventDefinitions := some (endEventDefs definition defUid) }

/-- The test of `bpmn_diagram_rep.py:431`. -/
def validDirection (s : String) : Bool :=
  s == "Unspecified" || s == "Converging" || s == "Diverging" || s == "Mixed"

/-- `add_gateway_to_diagram` (`bpmn_diagram_rep.py:416-435`).  The node is added before the direction is checked. -/
def addGateway (d : Diagram) (processId gatewayType name direction : String) (nodeId : Option String) (uid : String) :
    Diagram × Py String :=
  let n := pickId nodeId uid
  let d := d.addFlowNode processId gatewayType name n
  if validDirection direction then
    (d.updNode n fun a => { a with gatewayDirection := some direction }, .ok n)
  else (d, .error .bpmnError)

/-- Common body of `add_exclusive_gateway_to_diagram` and `add_inclusive_gateway_to_diagram`
(`bpmn_diagram_rep.py:451-457`, `:473-479`). -/
def addDefaultGateway (d : Diagram) (gatewayType processId name direction : String) (default : Option String)
    (nodeId : Option String) (uid : String) : Diagram × Py String :=
  match d.addGateway processId gatewayType name direction nodeId uid with
  | (d, .ok n) => (d.updNode n fun a => { a with default := some default }, .ok n)
  | (d, .error e) => (d, .error e)

/-- `add_exclusive_gateway_to_diagram` (`bpmn_diagram_rep.py:437-457`). -/
def addExclusiveGateway (d : Diagram) := d.addDefaultGateway "exclusiveGateway"

/-- `add_inclusive_gateway_to_diagram` (`bpmn_diagram_rep.py:459-479`). -/
def addInclusiveGateway (d : Diagram) := d.addDefaultGateway "inclusiveGateway"

/-- `add_parallel_gateway_to_diagram` (`bpmn_diagram_rep.py:481-499`). -/
def addParallelGateway (d : Diagram) (processId name direction : String) (nodeId : Option String) (uid : String) :
    Diagram × Py String :=
  d.addGateway processId "parallelGateway" name direction nodeId uid

/-- `self.diagram_graph.node[n]` (`KeyError` if there is no such node). -/
def nodeAttrs (d : Diagram) (n : String) : Py NodeAttrs := need (d.graph.nodes.get? n)

/-- The `waypoints` of `bpmn_diagram_rep.py:528-530`; raises `KeyError` when a coordinate is missing. -/
def newWaypoints (s t : NodeAttrs) : Py (List (String × String)) := do
  let sx ← need s.x
  let sy ← need s.y
  let tx ← need t.x
  let ty ← need t.y
  pure [(sx, sy), (tx, ty)]

/-- `node[key].append(v)` on an attribute that must be present. -/
def appendTo (l : Option (List String)) (v : String) : Py (List String) := do
  let l ← need l
  pure (l ++ [v])

/-- `add_sequence_flow_to_diagram` (`bpmn_diagram_rep.py:501-537`).  `uid` is the generated flow id.  The statements are executed in
order; when one raises, the diagram changed so far is returned with the exception. -/
def addSequenceFlow (d : Diagram) (processId src tgt name uid : String) : Diagram × Py String :=
  -- 516-518
  let d := { d with sequenceFlows := d.sequenceFlows.set uid ⟨name, src, tgt⟩ }
  -- 519-525
  let d := { d with
    graph := (d.graph.addEdge src tgt).modifyEdge src tgt fun a =>
      { a with id := some uid, name := some name, process := some processId, sourceRef := some src, targetRef := some tgt } }
  -- 526-530
  match d.nodeAttrs src, d.nodeAttrs tgt with
  | .ok s, .ok t =>
    match newWaypoints s t with
    | .error e => (d, .error e)
    | .ok w =>
      let d := { d with graph := d.graph.modifyEdge src tgt fun a => { a with waypoints := some w } }
      -- 533
      match appendTo s.outgoing uid with
      | .error e => (d, .error e)
      | .ok out =>
        let d := d.updNode src fun a => { a with outgoing := some out }
        -- 536 (the target may be the node just changed)
        match d.nodeAttrs tgt with
        | .error e => (d, .error e)
        | .ok t =>
          match appendTo t.incoming uid with
          | .error e => (d, .error e)
          | .ok inc => (d.updNode tgt fun a => { a with incoming := some inc }, .ok uid)
  | .error e, _ => (d, .error e)
  | _, .error e => (d, .error e)

end Diagram

/-- A call of the construction API.  `uid`-arguments are the ids generated by `uuid4` during the call. -/
inductive Op where
  | createNew (name uid : String)
  | addProcess (name : String) (isClosed isExecutable : Bool) (processType planeUid procUid : String)
  | addFlowNode (processId nodeType name : String) (nodeId : Option String) (uid : String)
  | addTask (processId name : String) (nodeId : Option String) (uid : String)
  | addSubprocess (processId name : String) (isExpanded triggeredByEvent : Bool) (nodeId : Option String) (uid : String)
  | addStartEvent (processId name : String) (definition : Option String) (parallelMultiple isInterrupting : Bool)
      (nodeId : Option String) (uid defUid : String)
  | addEndEvent (processId name : String) (definition : Option String) (nodeId : Option String) (uid defUid : String)
  | addGateway (processId gatewayType name direction : String) (nodeId : Option String) (uid : String)
  | addExclusiveGateway (processId name direction : String) (default : Option String) (nodeId : Option String) (uid : String)
  | addInclusiveGateway (processId name direction : String) (default : Option String) (nodeId : Option String) (uid : String)
  | addParallelGateway (processId name direction : String) (nodeId : Option String) (uid : String)
  | addSequenceFlow (processId src tgt name uid : String)
deriving Repr

namespace Op
open Diagram

/-- Executes one call: the object after the call, and the id returned by the call or the exception raised. -/
def exec (d : Diagram) : Op → Diagram × Py String
  | .createNew name uid => (d.createNew name uid, .ok uid)
  | .addProcess name c e t pl pr => (d.addProcess name c e t pl pr, .ok pr)
  | .addFlowNode p ty name n uid => (d.addFlowNode p ty name (pickId n uid), .ok (pickId n uid))
  | .addTask p name n uid => (d.addTask p name n uid, .ok (pickId n uid))
  | .addSubprocess p name ex tr n uid => (d.addSubprocess p name ex tr n uid, .ok (pickId n uid))
  | .addStartEvent p name df pm ii n uid du => (d.addStartEvent p name df pm ii n uid du, .ok (pickId n uid))
  | .addEndEvent p name df n uid du => (d.addEndEvent p name df n uid du, .ok (pickId n uid))
  | .addGateway p ty name dir n uid => d.addGateway p ty name dir n uid
  | .addExclusiveGateway p name dir df n uid => d.addExclusiveGateway p name dir df n uid
  | .addInclusiveGateway p name dir df n uid => d.addInclusiveGateway p name dir df n uid
  | .addParallelGateway p name dir n uid => d.addParallelGateway p name dir n uid
  | .addSequenceFlow p s t name uid => d.addSequenceFlow p s t name uid

/-- Executes a history, exceptions being caught by the caller after each call. -/
def run (d : Diagram) : List Op → Diagram
  | [] => d
  | op :: ops => run (op.exec d).1 ops

end Op
end Bpmn

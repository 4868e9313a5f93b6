import Verif.Model.Rep
import Verif.Spec.Sane
import Verif.Spec.Abstract
/-!
# Diagrams that can be exported, and when two diagrams say the same

Conditions and comparisons for the XML round trip, in terms of what the query methods return.
-/
namespace Bpmn.Spec
open Bpmn

/-- The attributes that depend on the type of a node, by name, as far as they are present.  The attribute `default` is optional where it
is allowed and therefore listed apart; an absent `default` is the same as `None`. -/
def presentKeys (a : NodeAttrs) : List String :=
  (if a.isExpanded.isSome then ["isExpanded"] else []) ++ (if a.triggeredByEvent.isSome then ["triggeredByEvent"] else []) ++
  (if a.parallelMultiple.isSome then ["parallelMultiple"] else []) ++ (if a.isInterrupting.isSome then ["isInterrupting"] else []) ++
  (if a.cancelActivity.isSome then ["cancelActivity"] else []) ++ (if a.attachedToRef.isSome then ["attachedToRef"] else []) ++
  (if a.eventDefinitions.isSome then ["eventDefinitions"] else []) ++ (if a.gatewayDirection.isSome then ["gatewayDirection"] else []) ++
  (if a.instantiate.isSome then ["instantiate"] else []) ++ (if a.eventGatewayType.isSome then ["eventGatewayType"] else []) ++
  (if a.isCollection.isSome then ["isCollection"] else [])

/-- The kinds of nodes: type, attributes, whether a default flow is allowed, kinds of event definitions. -/
def nodeKinds : List (String × List String × Bool × List String) :=
  [("task", [], true, []), ("userTask", [], true, []), ("serviceTask", [], true, []), ("manualTask", [], true, []),
   ("subProcess", ["isExpanded", "triggeredByEvent"], true, []),
   ("dataObject", ["isCollection"], false, []),
   ("inclusiveGateway", ["gatewayDirection"], true, []), ("exclusiveGateway", ["gatewayDirection"], true, []),
   ("complexGateway", ["gatewayDirection"], true, []), ("parallelGateway", ["gatewayDirection"], false, []),
   ("eventBasedGateway", ["gatewayDirection", "instantiate", "eventGatewayType"], false, []),
   ("startEvent", ["parallelMultiple", "isInterrupting", "eventDefinitions"], false,
     ["messageEventDefinition", "timerEventDefinition", "conditionalEventDefinition", "escalationEventDefinition", "signalEventDefinition"]),
   ("intermediateCatchEvent", ["parallelMultiple", "eventDefinitions"], false,
     ["messageEventDefinition", "timerEventDefinition", "signalEventDefinition", "conditionalEventDefinition", "escalationEventDefinition"]),
   ("endEvent", ["eventDefinitions"], false,
     ["messageEventDefinition", "signalEventDefinition", "escalationEventDefinition", "errorEventDefinition", "compensateEventDefinition",
      "terminateEventDefinition"]),
   ("intermediateThrowEvent", ["eventDefinitions"], false,
     ["messageEventDefinition", "signalEventDefinition", "escalationEventDefinition", "compensateEventDefinition"]),
   ("boundaryEvent", ["parallelMultiple", "cancelActivity", "attachedToRef", "eventDefinitions"], false,
     ["messageEventDefinition", "timerEventDefinition", "signalEventDefinition", "conditionalEventDefinition", "escalationEventDefinition",
      "errorEventDefinition"])]

/-- A node with all attributes of its kind and no others. -/
structure NodeReady (n : Node) : Prop where
  id : n.2.id = some n.1
  name : n.2.nodeName.isSome
  process : n.2.process.isSome
  width : n.2.width.isSome
  height : n.2.height.isSome
  x : n.2.x.isSome
  y : n.2.y.isSome
  kind : ∃ k ∈ nodeKinds, n.2.type = some k.1 ∧ presentKeys n.2 = k.2.1 ∧ (n.2.default.join.isSome → k.2.2.1 = true) ∧
    ∀ e ∈ n.2.eventDefinitions.getD [], e.defType ∈ k.2.2.2
  /-- both lists are present and contain no empty id -/
  incoming : ∃ l, n.2.incoming = some l ∧ "" ∉ l
  outgoing : ∃ l, n.2.outgoing = some l ∧ "" ∉ l

/-- A flow with all its attributes.  A condition expression is not empty, and the flow is named after it. -/
structure FlowReady (a : EdgeAttrs) : Prop where
  id : a.id.isSome
  name : a.name.isSome
  source : a.sourceRef.isSome
  target : a.targetRef.isSome
  waypoints : a.waypoints.isSome
  condition : ∀ c, a.conditionExpression = some c → c.expr ≠ "" ∧ a.name = some c.expr

/-- `p` is the id of a process or of a sub-process. -/
def Container (d : Diagram) (p : String) : Prop :=
  p ∈ d.processElements.map (·.1) ∨ ∃ m ∈ d.graph.nodes, m.1 = p ∧ m.2.type = some "subProcess"

/-- The lanes of a process. -/
def lanesOf (a : ProcAttrs) : List Lane := (a.laneSet.map (·.2)).getD []

/-- The id of a lane. -/
def laneId : Lane → String
  | .mk id _ _ _ _ _ => id

/-- A lane without lanes inside, with its graphics; it refers to no empty id. -/
def LaneReady (l : Lane) : Prop := ∃ id name refs box, l = .mk id name none [] refs (some box) ∧ "" ∉ refs

/-- The ids of all lanes. -/
def laneIds (d : Diagram) : List String := d.processElements.flatMap fun p => (lanesOf p.2).map laneId

/-- The ids of the pools. -/
def poolIds (d : Diagram) : List String := ((d.collaboration.map (·.participants)).getD []).map (·.1)

/-- The ids of the message flows. -/
def messageIds (d : Diagram) : List String := ((d.collaboration.map (·.messageFlows)).getD []).map (·.1)

/-- Everything the export needs is there, ids are unique, and sub-processes are not nested in circles. -/
structure Writable (d : Diagram) : Prop where
  header : d.diagramId.isSome ∧ d.diagramName.isSome ∧ d.planeId.isSome ∧ d.planeElement.isSome
  /-- pools have graphics, and message flows are among the flows -/
  pools : ∀ c, d.collaboration = some c → (∀ p ∈ c.participants, p.2.di.isSome) ∧ ∀ m ∈ c.messageFlows, ∃ e ∈ d.graph.edges, e.attrs.id = some m.1
  lanes : ∀ p ∈ d.processElements, ∀ l ∈ lanesOf p.2, LaneReady l
  sane : Sane d
  nodes : ∀ n ∈ d.graph.nodes, NodeReady n
  flows : ∀ e ∈ d.graph.edges, FlowReady e.attrs
  procIds : (d.processElements.map (·.1)).Nodup
  procs : ∀ p ∈ d.processElements, p.2.isClosed.isSome ∧ p.2.isExecutable.isSome ∧ p.2.processType.isSome
  /-- no process has the id of a node -/
  apart : ∀ p ∈ d.processElements, ∀ n ∈ d.graph.nodes, p.1 ≠ n.1
  /-- no circles -/
  noCircles : ∃ depth : String → Nat, ∀ n ∈ d.graph.nodes, ∀ m ∈ d.graph.nodes, n.2.process = some m.1 → m.2.type = some "subProcess" →
    depth m.1 < depth n.1
  flowIds : (d.graph.edges.map (·.attrs.id)).Nodup

/-- A complete diagram: moreover, each element belongs to a process or to a sub-process, each flow to one of these or to the message flows,
flows are listed by their ends and sequence flows by the table, and all pools have a process. -/
structure Exportable (d : Diagram) : Prop extends Writable d where
  placed : ∀ n ∈ d.graph.nodes, ∀ p, n.2.process = some p → Container d p
  flowProcess : ∀ e ∈ d.graph.edges, (∃ p, e.attrs.process = some p ∧ Container d p) ∨ ∃ i ∈ messageIds d, e.attrs.id = some i
  /-- a message flow is described by its flow, which is in no process and has no condition -/
  messages : ∀ c, d.collaboration = some c → (c.messageFlows.map (·.1)).Nodup ∧ ∀ m ∈ c.messageFlows, m.2.id = m.1 ∧
    ∀ e ∈ d.graph.edges, e.attrs.id = some m.1 → e.attrs.name = some m.2.name ∧ e.attrs.sourceRef = some m.2.sourceRef ∧
      e.attrs.targetRef = some m.2.targetRef ∧ e.attrs.process = none ∧ e.attrs.conditionExpression = none
  owners : ∀ c, d.collaboration = some c → ∀ p ∈ c.participants, p.2.processRef ≠ ""
  /-- pools, lanes and nodes have different ids, and no lane has the id of a flow -/
  shapeIds : (poolIds d ++ laneIds d ++ d.graph.nodes.map (·.1)).Nodup
  laneNames : ∀ e ∈ d.graph.edges, ∀ i ∈ laneIds d, e.attrs.id ≠ some i
  /-- a flow is in the lists of its ends -/
  listed : ∀ e ∈ d.graph.edges, ∀ i s t, e.attrs.id = some i → e.attrs.sourceRef = some s → e.attrs.targetRef = some t →
    (∃ a l, d.graph.nodes.get? s = some a ∧ a.outgoing = some l ∧ i ∈ l) ∧
    (∃ a l, d.graph.nodes.get? t = some a ∧ a.incoming = some l ∧ i ∈ l)
  /-- the table lists the flows of processes -/
  table : ∀ i v, d.sequenceFlows.get? i = some v ↔ ∃ e ∈ d.graph.edges, e.attrs.process.isSome ∧ e.attrs.id = some i ∧ e.attrs.name = some v.name ∧
    e.attrs.sourceRef = some v.sourceRef ∧ e.attrs.targetRef = some v.targetRef

/-- The node is in a process, directly or in a sub-process. -/
inductive InProcess (d : Diagram) : String → Prop
  | direct {n a p} : (n, a) ∈ d.graph.nodes → a.process = some p → p ∈ d.processElements.map (·.1) → InProcess d n
  | nested {n a m b} : (n, a) ∈ d.graph.nodes → a.process = some m → (m, b) ∈ d.graph.nodes → b.type = some "subProcess" →
      InProcess d m → InProcess d n

/-- Equal attributes; the event definitions may be in another order, an absent `default` is the same as `None`, and the list of node
ids inside a sub-process is not compared. -/
structure SameNode (a b : NodeAttrs) : Prop where
  rest : { a with eventDefinitions := none, default := none, nodeIds := none } =
    { b with eventDefinitions := none, default := none, nodeIds := none }
  default : a.default.join = b.default.join
  defs : a.eventDefinitions.isSome = b.eventDefinitions.isSome ∧ (a.eventDefinitions.getD []).Perm (b.eventDefinitions.getD [])

/-- What is kept of a process entry: everything but the name, the id of the lane set (see C34) and the list of node ids. -/
def keptOfProcess (p : String × ProcAttrs) : String × Option String × Option String × Option String × Option (List Lane) :=
  (p.1, p.2.isClosed, p.2.isExecutable, p.2.processType, p.2.laneSet.map (·.2))

/-- The second diagram has the same header, processes, pools, message flows, nodes, flows, table as the first one. -/
structure SameDiagram (d e : Diagram) : Prop where
  header : e.diagramId = d.diagramId ∧ e.diagramName = d.diagramName ∧ e.planeId = d.planeId ∧ e.planeElement = d.planeElement
  processes : e.processElements.map keptOfProcess = d.processElements.map keptOfProcess
  collaboration : e.collaboration = d.collaboration
  nodeIds : (e.getNodes.map (·.1)).Perm (d.getNodes.map (·.1))
  nodes : ∀ n a, (n, a) ∈ d.getNodes → ∃ b, (n, b) ∈ e.getNodes ∧ SameNode a b
  flows : (e.getFlows.map (·.2.2)).Perm (d.getFlows.map (·.2.2))
  table : ∀ i, e.sequenceFlows.get? i = d.sequenceFlows.get? i

/-! ## Histories that build exportable diagrams -/

/-- Generic calls name a kind of node that needs no attributes beyond those the call sets. -/
def usable : Op → Bool
  | .addFlowNode _ kind _ _ _ => kind ∈ ["task", "userTask", "serviceTask", "manualTask"]
  | .addGateway _ kind _ _ _ _ => kind ∈ ["inclusiveGateway", "exclusiveGateway", "complexGateway", "parallelGateway"]
  | _ => true

/-- `p` is the id of a declared process or sub-process. -/
def Placed (A : ADiagram) (p : String) : Prop :=
  (∃ q ∈ A.procs, q.id = p) ∨ ∃ m ∈ A.nodes, m.id = p ∧ m.attrs.type = some "subProcess"

/-- The caller's further obligations: kinds of nodes are supported, elements are put into a process or sub-process that exists, processes
and nodes have different ids, and generated flow ids are not empty. -/
structure Orderly (A : ADiagram) (op : Op) : Prop where
  kind : usable op = true
  node : ∀ n, declaredNode op = some n → (∃ p, n.attrs.process = some p ∧ Placed A p) ∧ ∀ q ∈ A.procs, q.id ≠ n.id
  flow : ∀ f, declaredFlow op = some f → f.id ≠ "" ∧ Placed A f.process
  proc : ∀ name c e t pl pr, op = .addProcess name c e t pl pr → ∀ n ∈ A.nodes, n.id ≠ pr

/-- Every call of the history meets all obligations at the moment it is made. -/
def OrderlyHistory (A : ADiagram) : List Op → Prop
  | [] => True
  | op :: ops => (Allowed A op ∧ Orderly A op) ∧ OrderlyHistory (step A op) ops

end Bpmn.Spec

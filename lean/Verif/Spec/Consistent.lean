import Verif.Model.Rep
/-!
# Consistent diagrams and paths, in terms of what the query methods return

"Consistent" is what the reader of a diagram relies on: incoming/outgoing lists, flows and nodes agree.  Every diagram built by an
allowed history is consistent (`Verif/Lemmas/Consistent.lean`).
-/
namespace Bpmn.Spec

/-- The `outgoing` list of a node (empty if the attribute is missing). -/
def outs (n : Node) : List String := n.2.outgoing.getD []
/-- The `incoming` list of a node (empty if the attribute is missing). -/
def ins (n : Node) : List String := n.2.incoming.getD []

/-- `get_flow_by_id(i)` returns a flow leading from `s` to `t`. -/
def FlowFromTo (d : Diagram) (i s t : String) : Prop :=
  ∃ a b e, d.getFlowById i = .ok (some (a, b, e)) ∧ e.id = some i ∧ e.sourceRef = some s ∧ e.targetRef = some t

/-- Lists, flows and nodes agree. -/
structure Consistent (d : Diagram) : Prop where
  /-- node ids are unique -/
  ids : (d.getNodes.map (·.1)).Nodup
  /-- every node has both lists, without repetition -/
  lists : ∀ n ∈ d.getNodes, n.2.incoming.isSome ∧ n.2.outgoing.isSome ∧ (ins n).Nodup ∧ (outs n).Nodup
  /-- every node has a type -/
  typed : ∀ n ∈ d.getNodes, n.2.type.isSome
  /-- an id in an outgoing list is the id of a flow from this node into a node whose incoming list has the id -/
  outFlow : ∀ n ∈ d.getNodes, ∀ i ∈ outs n, ∃ m ∈ d.getNodes, FlowFromTo d i n.1 m.1 ∧ i ∈ ins m
  /-- an id in an incoming list is the id of a flow into this node from a node whose outgoing list has the id -/
  inFlow : ∀ m ∈ d.getNodes, ∀ i ∈ ins m, ∃ n ∈ d.getNodes, FlowFromTo d i n.1 m.1 ∧ i ∈ outs n
  /-- flow ids are unique -/
  flowIds : (d.getFlows.map (·.2.2.id)).Nodup
  /-- every flow is listed by its source -/
  listed : ∀ f ∈ d.getFlows, ∃ i, ∃ n ∈ d.getNodes, f.2.2.id = some i ∧ f.2.2.sourceRef = some n.1 ∧ i ∈ outs n

/-- A sequence flow leads from node `a` to node `b`. -/
def Next (d : Diagram) (a b : Node) : Prop :=
  ∃ i ∈ outs a, ∃ f, d.getFlowById i = .ok (some f) ∧ f.2.2.targetRef = some b.1 ∧ d.getNodeById b.1 = some b

/-- Each node of the list is followed by a node to which a flow leads. -/
def Follows (d : Diagram) : List Node → Prop
  | a :: b :: r => Next d a b ∧ Follows d (b :: r)
  | _ => True

/-- A path that visits no node twice. -/
structure SimplePath (d : Diagram) (p : List Node) : Prop where
  nonempty : p ≠ []
  nodes : ∀ n ∈ p, n ∈ d.getNodes
  follows : Follows d p
  nodup : p.Nodup

/-- A simple path from a node without incoming flows to a node without outgoing flows. -/
structure CompletePath (d : Diagram) (p : List Node) : Prop extends SimplePath d p where
  starts : ∀ n ∈ p.head?, ins n = []
  ends : ∀ n ∈ p.getLast?, outs n = []

/-- The tasks and sub-processes of a list of nodes, in order. -/
def activities (p : List Node) : List Node := p.filter fun n => n.2.type = some "task" ∨ n.2.type = some "subProcess"

end Bpmn.Spec

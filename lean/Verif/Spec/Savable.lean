import Verif.Spec.RoundTrip
/-!
# Which diagrams can be saved

What has to be present in a diagram for the XML export, in terms of what the query methods return.
-/
namespace Bpmn.Spec
open Bpmn

/-- The attributes that the element of a node of the type is written with (beside the common ones): those of its kind (`nodeKinds`), apart
from `isExpanded`, which belongs to the shape.  Other types of nodes have none. -/
def writtenKeys (type : String) : List String :=
  (((nodeKinds.find? (·.1 == type)).map (·.2.1)).getD []).filter (· ≠ "isExpanded")

/-- A node of the type with everything its element is written with. -/
structure NodeComplete (a : NodeAttrs) (t : String) : Prop where
  type : a.type = some t
  name : a.nodeName.isSome
  incoming : a.incoming.isSome
  outgoing : a.outgoing.isSome
  keys : ∀ k ∈ writtenKeys t, k ∈ presentKeys a

/-- A flow with everything its element is written with. -/
def FlowComplete (a : EdgeAttrs) : Prop := a.id.isSome ∧ a.name.isSome ∧ a.sourceRef.isSome ∧ a.targetRef.isSome

/-- The node is complete; if it is a sub-process, every node knows its process, and the nodes and flows inside can be written, too.  As a
least relation this excludes sub-processes inside themselves. -/
inductive NodeWritable (d : Diagram) : Node → Prop
  | plain {n : Node} {t : String} : NodeComplete n.2 t → t ≠ "subProcess" → NodeWritable d n
  | sub {n : Node} {i : String} : NodeComplete n.2 "subProcess" → n.2.id = some i → (∀ m ∈ d.getNodes, m.2.process.isSome) →
      (∀ m ∈ d.getNodes, m.2.process = some i → NodeWritable d m) →
      (∀ f ∈ d.getFlows, f.2.2.process = some i → FlowComplete f.2.2) → NodeWritable d n

/-- The lane and the lanes inside have a place. -/
inductive LaneDrawn : Lane → Prop
  | mk {id name : String} {childId : Option String} {children : List Lane} {refs : List String} {box : BoxDi} :
      (childId.isSome → ∀ c ∈ children, LaneDrawn c) → LaneDrawn (.mk id name childId children refs (some box))

/-- The attributes of a process. -/
def ProcComplete (a : ProcAttrs) : Prop := a.isClosed.isSome ∧ a.isExecutable.isSome ∧ a.processType.isSome

/-- A node with type, place and size; a sub-process is expanded or not. -/
def NodeDrawn (a : NodeAttrs) : Prop :=
  a.width.isSome ∧ a.height.isSome ∧ a.x.isSome ∧ a.y.isSome ∧ a.type.isSome ∧ (a.type = some "subProcess" → a.isExpanded.isSome)

/-- Everything that `export_xml_file` writes is there. -/
structure Savable (d : Diagram) : Prop where
  header : d.diagramId.isSome ∧ d.diagramName.isSome ∧ d.planeId.isSome ∧ d.planeElement.isSome
  /-- pools have a place, and message flows are among the flows -/
  pools : ∀ c, d.collaboration = some c →
    (∀ p ∈ c.participants, p.2.di.isSome) ∧ ∀ m ∈ c.messageFlows, ∃ f ∈ d.getFlows, f.2.2.id = some m.1
  processes : ∀ p ∈ d.processElements, ProcComplete p.2 ∧ ∀ l ∈ lanesOf p.2, LaneDrawn l
  /-- every node knows its process, if there are processes -/
  placed : ∀ p ∈ d.processElements, ∀ n ∈ d.getNodes, n.2.process.isSome
  /-- the nodes and flows of the processes can be written -/
  nodes : ∀ p ∈ d.processElements, ∀ n ∈ d.getNodes, n.2.process = some p.1 → NodeWritable d n
  flows : ∀ p ∈ d.processElements, ∀ f ∈ d.getFlows, f.2.2.process = some p.1 → FlowComplete f.2.2
  /-- all nodes and flows, of a process or not, have a place -/
  shapes : ∀ n ∈ d.getNodes, NodeDrawn n.2
  edges : ∀ f ∈ d.getFlows, f.2.2.id.isSome ∧ f.2.2.waypoints.isSome

/-- Everything that `export_xml_file_no_di` writes is there: nothing, if there is no process. -/
def SavableNoDi (d : Diagram) : Prop :=
  ∀ p ∈ d.processElements, ProcComplete p.2 ∧ (∀ n ∈ d.getNodes, NodeWritable d n) ∧ ∀ f ∈ d.getFlows, FlowComplete f.2.2

end Bpmn.Spec

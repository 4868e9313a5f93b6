import Verif.Spec.RoundTrip
import Verif.Spec.Xml
/-!
# Names and ids in written files

Namespaces and ids are read off the written tree alone.
-/
namespace Bpmn.Spec
open Bpmn

mutual
/-- Tag and attributes of an element and of all elements below it, in document order. -/
def elementsOf : ETree → List (String × List (String × String))
  | .node t as _ _ ks => (t, as) :: elementsOfAll ks
/-- The same for a list of elements. -/
def elementsOfAll : List ETree → List (String × List (String × String))
  | [] => []
  | t :: r => elementsOf t ++ elementsOfAll r
end

/-- The attributes of an element. -/
def attrsOf : ETree → List (String × String)
  | .node _ as _ _ _ => as

/-- A name without colon. -/
def NoColon (s : String) : Prop := ':' ∉ s.toList

/-- In a document whose root has these attributes, and that declares namespaces nowhere else, the tag stands for this local name of this
namespace. -/
inductive StandsFor (root : List (String × String)) : String → String → String → Prop
  | default {tag uri : String} (ht : NoColon tag) (hd : ("xmlns", uri) ∈ root) : StandsFor root tag uri tag
  | prefixed {p l uri : String} (hp : NoColon p) (hl : NoColon l) (hd : ("xmlns:" ++ p, uri) ∈ root) : StandsFor root (p ++ ":" ++ l) uri l

/-- The namespace of BPMN models. -/
def modelUri : String := "http://www.omg.org/spec/BPMN/20100524/MODEL"
/-- The namespace of BPMN diagrams. -/
def diUri : String := "http://www.omg.org/spec/BPMN/20100524/DI"
/-- The namespace of bounds. -/
def dcUri : String := "http://www.omg.org/spec/DD/20100524/DC"
/-- The namespace of waypoints. -/
def ddUri : String := "http://www.omg.org/spec/DD/20100524/DI"

/-- The element is one of the BPMN model. -/
def ModelElement (root : List (String × String)) (e : String × List (String × String)) : Prop :=
  ∃ l, StandsFor root e.1 modelUri l

/-- The element is one of the drawing, with its official name. -/
def DrawingElement (root : List (String × String)) (e : String × List (String × String)) : Prop :=
  ∃ uri l, StandsFor root e.1 uri l ∧ (uri, l) ∈ [(diUri, "BPMNDiagram"), (diUri, "BPMNPlane"), (diUri, "BPMNShape"), (diUri, "BPMNEdge"),
    (dcUri, "Bounds"), (ddUri, "waypoint")]

/-- No attribute name occurs twice, none has a colon, and none declares a namespace. -/
def PlainAttrs (e : String × List (String × String)) : Prop :=
  (e.2.map (·.1)).Nodup ∧ ∀ k ∈ e.2.map (·.1), NoColon k ∧ k ≠ "xmlns"

/-- Types of nodes and of event definitions are names without colon. -/
def PlainTypes (d : Diagram) : Prop :=
  ∀ n ∈ d.getNodes, (∀ t, n.2.type = some t → NoColon t) ∧ ∀ e ∈ n.2.eventDefinitions.getD [], NoColon e.defType

/-! ## Ids -/

/-- The id of an element, if it has one. -/
def idOf (e : String × List (String × String)) : Option String := (e.2.find? fun a => a.1 == "id").map (·.2)

/-- All ids in a tree, in document order. -/
def treeIds (t : ETree) : List String := (elementsOf t).filterMap idOf

/-- The ids of event definitions that have one. -/
def definitionIds (d : Diagram) : List String :=
  d.getNodes.flatMap fun n => ((n.2.eventDefinitions.getD []).map (·.id)).filter (· ≠ "")

/-- The flows that belong to a process or sub-process. -/
def placedFlows (d : Diagram) : List EdgeAttrs := (d.getFlows.map (·.2.2)).filter (·.process.isSome)

/-- The ids of what a diagram contains. -/
def modelIds (d : Diagram) : List String :=
  (d.collaboration.map (·.id)).toList ++ messageIds d ++ poolIds d ++ d.processElements.map (·.1) ++ laneIds d ++ d.getNodes.map (·.1) ++
  definitionIds d ++ (placedFlows d).filterMap (·.id) ++ (placedFlows d).filterMap (fun a => a.conditionExpression.map (·.id))

/-- The ids of what is drawn; message flows are drawn twice. -/
def drawnIds (d : Diagram) : List String :=
  messageIds d ++ poolIds d ++ laneIds d ++ d.getNodes.map (·.1) ++ d.getFlows.filterMap (·.2.2.id)

end Bpmn.Spec

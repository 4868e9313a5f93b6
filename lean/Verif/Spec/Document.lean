import Verif.Model.Xml
import Verif.Model.Rep
/-!
# Conditions on documents to be imported
-/
namespace Bpmn.Spec
open Bpmn

/-- The local names of the elements that become nodes. -/
def nodeTags : List String :=
  ["task", "userTask", "serviceTask", "manualTask", "subProcess", "dataObject", "inclusiveGateway", "exclusiveGateway", "parallelGateway",
   "eventBasedGateway", "complexGateway", "startEvent", "endEvent", "intermediateCatchEvent", "intermediateThrowEvent", "boundaryEvent"]

mutual
/-- The ids of the nodes described by an element: its own, and those of the nodes inside a sub-process. -/
def nodeIdsIn : Xml → List String
  | .elem t as ks =>
    if removeNamespace t ∈ nodeTags then
      (Xml.elem t as ks).getAttr "id" :: (if removeNamespace t = "subProcess" then nodeIdsAll ks else [])
    else []
  | _ => []
/-- The same for a list of elements. -/
def nodeIdsAll : List Xml → List String
  | [] => []
  | x :: r => nodeIdsIn x ++ nodeIdsAll r
end

/-- `x` is an element with the given local name. -/
def IsNamed (name : String) (x : Xml) : Prop := ∃ t as ks, x = .elem t as ks ∧ removeNamespace t = name

/-- The ends of every sequence flow among the elements `ks` are nodes among these elements or inside the sub-processes among them. -/
def FlowsLocal (ks : List Xml) : Prop :=
  ∀ x ∈ ks, IsNamed "sequenceFlow" x → x.getAttr "sourceRef" ∈ nodeIdsAll ks ∧ x.getAttr "targetRef" ∈ nodeIdsAll ks

mutual
/-- In every sub-process the sequence flows join nodes of the sub-process. -/
def LocalIn : Xml → Prop
  | .elem t _ ks => removeNamespace t = "subProcess" → FlowsLocal ks ∧ LocalAll ks
  | _ => True
/-- The same for a list of elements. -/
def LocalAll : List Xml → Prop
  | [] => True
  | x :: r => LocalIn x ∧ LocalAll r
end

/-- Node ids are not used twice in the processes of the document, and sequence flows join nodes of the process or sub-process that they
belong to. -/
structure WellPlaced (root : Xml) : Prop where
  distinct : ((Xml.byNameIn "process" [root]).flatMap fun p => nodeIdsAll p.children).Nodup
  flows : ∀ p ∈ Xml.byNameIn "process" [root], FlowsLocal p.children ∧ LocalAll p.children

/-- The outgoing list of a node; empty if there is no such node or list. -/
def outgoingOf (d : Diagram) (n : String) : List String := ((d.graph.nodes.get? n).bind (·.outgoing)).getD []
/-- The incoming list of a node; empty if there is no such node or list. -/
def incomingOf (d : Diagram) (n : String) : List String := ((d.graph.nodes.get? n).bind (·.incoming)).getD []

/-- Every entry of the table `sequence_flows` is listed by its source and by its target, which are joined by an edge. -/
def InStep (d : Diagram) : Prop :=
  ∀ i f, d.sequenceFlows.get? i = some f → i ∈ outgoingOf d f.sourceRef ∧ i ∈ incomingOf d f.targetRef ∧
    d.graph.hasEdge f.sourceRef f.targetRef = true

end Bpmn.Spec

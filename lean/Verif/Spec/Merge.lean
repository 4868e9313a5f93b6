import Verif.Model.Import
import Verif.Spec.Sane
/-!
# Loading a document into a diagram that is already in use
-/
namespace Bpmn.Spec
open Bpmn

/-- `x` is the document part `y` or lies somewhere inside it. -/
inductive Inside : Xml → Xml → Prop
  | self (x : Xml) : Inside x x
  | child {x k : Xml} {t : String} {as : List (String × String)} {ks : List Xml} (h : k ∈ ks) (i : Inside x k) : Inside x (.elem t as ks)

/-- `v` is the value of some attribute of some element of the document; the empty string counts as mentioned, it stands for every
missing attribute. -/
def Mentioned (root : Xml) (v : String) : Prop :=
  v = "" ∨ ∃ t as ks k, Inside (.elem t as ks) root ∧ (k, v) ∈ as

/-- `v` names something in the diagram: a node, an end of a flow, an entry of the table of sequence flows, a process, a participant or
a message flow. -/
def Uses (d : Diagram) (v : String) : Prop :=
  v ∈ d.graph.nodes.keys ∨ (∃ e ∈ d.graph.edges, e.u = v ∨ e.v = v) ∨ v ∈ d.sequenceFlows.keys ∨ v ∈ d.processElements.keys ∨
    ∃ c, d.collaboration = some c ∧ (v ∈ c.participants.keys ∨ v ∈ c.messageFlows.keys)

/-- The attributes of the flow between two nodes, `diagram_graph[u][v]`. -/
def flowBetween (d : Diagram) (u v : String) : Option EdgeAttrs := (d.graph.edges.find? fun e => decide (SamePair e.u e.v u v)).map (·.attrs)

/-- Some flow between `u` and `v` is filed under a name that the document mentions. -/
def FiledUnderMentioned (root : Xml) (d : Diagram) (u v : String) : Prop :=
  (∃ i f, d.sequenceFlows.get? i = some f ∧ Mentioned root i ∧ SamePair f.sourceRef f.targetRef u v) ∨
    ∃ c i m, d.collaboration = some c ∧ c.messageFlows.get? i = some m ∧ Mentioned root i ∧ SamePair m.sourceRef m.targetRef u v

/-- `e` holds what `d` holds, followed by what `D` holds; names and ids of the diagram are those of `D`, and the collaboration is
that of `D` if `D` has one, otherwise that of `d`. -/
structure Together (d D e : Diagram) : Prop where
  nodes : e.getNodes = d.getNodes ++ D.getNodes
  flows : e.getFlows = d.getFlows ++ D.getFlows
  table : e.sequenceFlows = d.sequenceFlows ++ D.sequenceFlows
  processes : e.processElements = d.processElements ++ D.processElements
  diagramId : e.diagramId = D.diagramId
  diagramName : e.diagramName = D.diagramName
  planeId : e.planeId = D.planeId
  planeElement : e.planeElement = D.planeElement
  replaced : D.collaboration ≠ none → e.collaboration = D.collaboration
  kept : D.collaboration = none → e.collaboration = d.collaboration

end Bpmn.Spec

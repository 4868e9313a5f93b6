import Verif.Spec.Sane
import Verif.Spec.Loaded
/-!
# Objects whose dictionaries are dictionaries
-/
namespace Bpmn.Spec
open Bpmn

/-- No key occurs twice: in the dictionary of nodes, in the table of sequence flows, among the processes and among the participants; no two
edges join the same two nodes.  In Python this is so by the nature of dictionaries and graphs. -/
structure EachKeyOnce (d : Diagram) : Prop where
  nodes : (d.graph.nodes.map (·.1)).Nodup
  edges : d.graph.edges.Pairwise fun a b => ¬ SamePair a.u a.v b.u b.v
  table : (d.sequenceFlows.map (·.1)).Nodup
  processes : (d.processElements.map (·.1)).Nodup
  pools : ∀ c, d.collaboration = some c → (c.participants.map (·.1)).Nodup

/-- The plane draws a flow between `u` and `v`: some edge of the plane refers to an entry of the diagram with these ends. -/
def FlowShown (plane : Xml) (d : Diagram) (u v : String) : Prop :=
  ∃ x ∈ plane.children, localTag x = "BPMNEdge" ∧
    ((∃ f, d.sequenceFlows.get? (x.getAttr "bpmnElement") = some f ∧ SamePair f.sourceRef f.targetRef u v) ∨
      (d.sequenceFlows.get? (x.getAttr "bpmnElement") = none ∧
        ∃ c m, d.collaboration = some c ∧ c.messageFlows.get? (x.getAttr "bpmnElement") = some m ∧ SamePair m.sourceRef m.targetRef u v))

end Bpmn.Spec

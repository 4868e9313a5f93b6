import Verif.Spec.RoundTrip
/-!
# What is left of a diagram that was saved and loaded
-/
namespace Bpmn.Spec
open Bpmn

/-- The types of events. -/
def eventTypes : List (Option String) :=
  [some "startEvent", some "intermediateCatchEvent", some "endEvent", some "intermediateThrowEvent", some "boundaryEvent"]

/-- Only events keep a list of event definitions. -/
def savedNode (a : NodeAttrs) : NodeAttrs := if a.type ∈ eventTypes then a else { a with eventDefinitions := none }

/-- A flow with a condition is named after it. -/
def savedFlow (a : EdgeAttrs) : EdgeAttrs :=
  match a.conditionExpression with
  | some c => { a with name := some c.expr }
  | none => a

/-- The second diagram has the same header, processes, pools, nodes and flows as the first one, apart from empty lists of event definitions and the
names of flows with conditions; its table lists the sequence flows. -/
structure SavedAs (d e : Diagram) : Prop where
  header : e.diagramId = d.diagramId ∧ e.diagramName = d.diagramName ∧ e.planeId = d.planeId ∧ e.planeElement = d.planeElement
  processes : e.processElements.map keptOfProcess = d.processElements.map keptOfProcess
  collaboration : e.collaboration = d.collaboration
  nodeIds : (e.getNodes.map (·.1)).Perm (d.getNodes.map (·.1))
  nodes : ∀ n a, (n, a) ∈ d.getNodes → ∃ b, (n, b) ∈ e.getNodes ∧ SameNode (savedNode a) b
  flows : (e.getFlows.map (·.2.2)).Perm (d.getFlows.map fun f => savedFlow f.2.2)
  table : ∀ i v, e.sequenceFlows.get? i = some v ↔ ∃ f ∈ d.getFlows, f.2.2.process.isSome ∧ f.2.2.id = some i ∧ (savedFlow f.2.2).name = some v.name ∧
    f.2.2.sourceRef = some v.sourceRef ∧ f.2.2.targetRef = some v.targetRef

end Bpmn.Spec

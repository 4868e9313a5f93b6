import Verif.Spec.Consistent
/-!
# What a node's classification should be
-/
namespace Bpmn.Spec

/-- The eleven supported node types. -/
def supportedTypes : List String :=
  ["task", "subProcess", "complexGateway", "eventBasedGateway", "inclusiveGateway", "exclusiveGateway", "parallelGateway",
   "startEvent", "intermediateCatchEvent", "endEvent", "intermediateThrowEvent"]

/-- The node has one of the supported types. -/
def Supported (n : Node) : Prop := ∃ t ∈ supportedTypes, n.2.type = some t

instance (n : Node) : Decidable (Supported n) := by unfold Supported; infer_instance

/-- Every node has a type, an incoming list and an outgoing list. -/
def Complete (d : Diagram) : Prop := ∀ n ∈ d.getNodes, n.2.type.isSome ∧ n.2.incoming.isSome ∧ n.2.outgoing.isSome

/-- The nodes at the ends of flows are of the supported types (nodes without flows, e.g. data objects, may be of any type). -/
def FlowsSupported (d : Diagram) : Prop := ∀ n ∈ d.getNodes, ins n ≠ [] ∨ outs n ≠ [] → Supported n

/-- The labels that a node should get. -/
def labels (n : Node) : List String :=
  ["Element"] ++ (if n.2.type = some "startEvent" then ["Start Event"] else []) ++
    (if n.2.type = some "endEvent" then ["End Event"] else []) ++
    (if 2 ≤ (ins n).length then ["Join"] else []) ++ (if 2 ≤ (outs n).length then ["Split"] else [])

end Bpmn.Spec

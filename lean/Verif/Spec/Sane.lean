import Verif.Model.Rep
/-!
# When is a diagram object sane?

A condition on diagram objects in terms of what the query methods return: unique node ids, edges between nodes of the diagram, at most
one edge per unordered pair, and every edge described by its own attributes.
-/
namespace Bpmn.Spec

/-- Both pairs contain the same two ends. -/
def SamePair (a b c d : String) : Prop := (a = c ∧ b = d) ∨ (a = d ∧ b = c)

instance (a b c d : String) : Decidable (SamePair a b c d) := by unfold SamePair; infer_instance

/-- Node ids are unique, edges join nodes of the diagram, no two edges join the same unordered pair, and each edge has an id, a name,
a source and a target, the latter two being its ends. -/
structure Sane (d : Diagram) : Prop where
  nodesUnique : (d.graph.nodes.map Prod.fst).Nodup
  endsKnown : ∀ e ∈ d.graph.edges, e.u ∈ d.graph.nodes.map Prod.fst ∧ e.v ∈ d.graph.nodes.map Prod.fst
  onePerPair : d.graph.edges.Pairwise fun e f => ¬SamePair e.u e.v f.u f.v
  described : ∀ e ∈ d.graph.edges, e.attrs.id.isSome ∧ e.attrs.name.isSome ∧
    ∃ s t, e.attrs.sourceRef = some s ∧ e.attrs.targetRef = some t ∧ SamePair e.u e.v s t

end Bpmn.Spec

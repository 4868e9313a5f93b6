import Verif.Spec.Blocks
/-!
# Several processes in one diagram

A diagram may hold any number of processes, for example one per pool. `generate_layout` draws all of them on one sheet.
-/
namespace Bpmn.Spec

/-- Nodes with which a process begins: the first has no incoming flow, and each of the others is the only node behind the one before it. -/
structure Lead (d : Diagram) (l : List Node) : Prop where
  inside : ∀ n ∈ l, n ∈ d.getNodes
  start : ∀ n ∈ l.head?, ins n = []
  line : List.IsChain Link l

/-- The diagram consists of lines of nodes, each from its own start to its own end, with no flow between them. -/
structure SideBySide (d : Diagram) (cs : List (List Node)) : Prop where
  nodes : cs.flatten.Perm d.getNodes
  supported : ∀ n ∈ d.getNodes, Supported n
  nonempty : ∀ c ∈ cs, c ≠ []
  lead : ∀ c ∈ cs, Lead d c
  stop : ∀ c ∈ cs, ∀ n ∈ c.getLast?, outs n = []

end Bpmn.Spec

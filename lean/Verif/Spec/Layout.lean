import Verif.Spec.Classes
import Mathlib.Logic.Relation
/-!
# Vocabulary for statements about the layouter
-/
namespace Bpmn.Spec

/-- The diagram with the coordinates of all nodes and the waypoints of all flows blanked out. -/
def eraseLayout (d : Diagram) : Diagram :=
  { d with graph :=
      { nodes := d.graph.nodes.map fun n => (n.1, { n.2 with x := none, y := none })
        edges := d.graph.edges.map fun e => { e with attrs := { e.attrs with waypoints := none } } } }

/-- In the list, `a` stands before an occurrence of `b`. -/
def Before (l : List String) (a b : String) : Prop := ∃ pre post, l = pre ++ b :: post ∧ a ∈ pre

/-- No node can be reached from itself along flows. -/
def Acyclic (d : Diagram) : Prop := ∀ n ∈ d.getNodes, ¬Relation.TransGen (Next d) n n

/-- Every node can be reached along flows from a node without incoming flows. -/
def ReachableFromStart (d : Diagram) : Prop :=
  ∀ n ∈ d.getNodes, ∃ s ∈ d.getNodes, ins s = [] ∧ Relation.ReflTransGen (Next d) s n

/-- The nodes of the list form a cycle: each is followed by the next, the last by the first. -/
def Cycle (d : Diagram) (c : List Node) : Prop :=
  c ≠ [] ∧ (∀ n ∈ c, n ∈ d.getNodes) ∧ Follows d c ∧ ∀ a ∈ c.getLast?, ∀ b ∈ c.head?, Next d a b

/-- Consecutive nodes are joined by a flow which is the only outgoing flow of the first and the only incoming flow of the second; the
last node has no outgoing flow. -/
def Links (d : Diagram) : List Node → Prop
  | [] => True
  | [a] => outs a = []
  | a :: b :: r => (∃ i, outs a = [i] ∧ ins b = [i] ∧ FlowFromTo d i a.1 b.1) ∧ Links d (b :: r)

/-- The diagram is a single chain: its nodes, all of supported types, are those of the list, in this order. -/
structure Chain (d : Diagram) (c : List Node) : Prop where
  nodes : c.Perm d.getNodes
  supported : ∀ n ∈ c, Supported n
  start : ∀ n ∈ c.head?, ins n = []
  links : Links d c

/-- The node's coordinates are the integers `x`, `y`. -/
def At (n : Node) (x y : Int) : Prop := n.2.x = some (toString x) ∧ n.2.y = some (toString y)

end Bpmn.Spec

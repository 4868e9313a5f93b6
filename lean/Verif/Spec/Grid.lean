import Verif.Spec.Layout
/-!
# The grid on which a diagram is drawn

Where `generate_layout` should put the nodes: rows and columns, one node per cell.
-/
namespace Bpmn.Spec

/-- A flow leads from `n` to `m`: it is listed by both. -/
def Feeds (n m : Node) : Prop := ∃ i ∈ outs n, i ∈ ins m

instance (n m : Node) : Decidable (Feeds n m) := by unfold Feeds; infer_instance

/-- Several flows leave the node. -/
def Splits (n : Node) : Prop := 2 ≤ (outs n).length

/-- Several flows enter the node. -/
def Joins (n : Node) : Prop := 2 ≤ (ins n).length

/-- The nodes before `m`. -/
def before (d : Diagram) (m : Node) : List Node := d.getNodes.filter fun n => decide (Feeds n m)

/-- The nodes behind `n`. -/
def behind (d : Diagram) (n : Node) : List Node := d.getNodes.filter fun m => decide (Feeds n m)

/-- The rows of the branches of a split, relative to its own row: first below it with distance 2, 4, ..., then, if their number is odd, one beside
it, then above it with distance 2, 4, ... -/
def branchRow (n k : Nat) : Int :=
  if k < n / 2 then 2 * ((k : Int) + 1)
  else if n % 2 = 1 then -2 * ((k : Int) - (n / 2 : Nat))
  else -2 * ((k : Int) - (n / 2 : Nat) + 1)

/-- The place of an id among the ids of a list of nodes, counted from 0 in the given order. -/
def placeAmong (order : List String) (ns : List Node) (i : String) : Nat := (order.filter fun j => decide (j ∈ ns.map (·.1))).idxOf i

/-- Where the nodes are drawn, if `order` tells which of several starts and which of several branches comes first:

* a node without incoming flow is in column 1; the first of them is in row 2, the second in row 4, ...
* the only successor of a node, if it has no other predecessor, is right of it;
* the branches of a split are in the column right of it, in the rows given by `branchRow`, relative to the row of the split - or, if the split is
  itself a branch of a split, relative to the row of that one;
* where branches join, the node is right of all its predecessors and in their mean row, rounded down. -/
structure OnGrid (d : Diagram) (order : List String) (row col : String → Int) : Prop where
  start : ∀ n ∈ d.getNodes, ins n = [] → col n.1 = 1 ∧ row n.1 = 2 + 2 * (placeAmong order (d.getNodes.filter fun n => decide (ins n = [])) n.1 : Nat)
  line : ∀ n ∈ d.getNodes, ∀ m ∈ d.getNodes, Feeds n m → ¬Splits n → ¬Joins m → col m.1 = col n.1 + 1 ∧ row m.1 = row n.1
  branch : ∀ n ∈ d.getNodes, ∀ m ∈ d.getNodes, Feeds n m → Splits n → col m.1 = col n.1 + 1 ∧
    ((∀ p ∈ d.getNodes, Feeds p n → ¬Splits p) → row m.1 = row n.1 + branchRow (outs n).length (placeAmong order (behind d n) m.1)) ∧
    ∀ p ∈ d.getNodes, Feeds p n → Splits p → row m.1 = row p.1 + branchRow (outs n).length (placeAmong order (behind d n) m.1)
  join : ∀ m ∈ d.getNodes, Joins m → col m.1 = ((before d m).map fun n => col n.1).foldr max 0 + 1 ∧
    row m.1 = Int.fdiv ((before d m).map fun n => row n.1).sum (ins m).length

/-- No two nodes are in the same cell. -/
def OneEach (d : Diagram) (row col : String → Int) : Prop :=
  ∀ n ∈ d.getNodes, ∀ m ∈ d.getNodes, row n.1 = row m.1 → col n.1 = col m.1 → n.1 = m.1

/-- No split is followed directly by a join. -/
def SplitsApart (d : Diagram) : Prop := ∀ n ∈ d.getNodes, ∀ m ∈ d.getNodes, Feeds n m → Splits n → ¬Joins m

/-- The order lists the nodes once each, and every node before the ones that follow it. -/
structure FlowOrder (d : Diagram) (order : List String) : Prop where
  all : order.Perm (d.getNodes.map (·.1))
  sorted : ∀ n ∈ d.getNodes, ∀ m ∈ d.getNodes, Feeds n m → Before order n.1 m.1

/-- A flow that leads from a split, or to a node that no other flow enters. -/
def Forward (d : Diagram) (n m : Node) : Prop := n ∈ d.getNodes ∧ m ∈ d.getNodes ∧ Feeds n m ∧ (Splits n ∨ ¬Joins m)

end Bpmn.Spec

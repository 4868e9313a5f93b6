import Verif.Spec.Grid
/-!
# Loops in a drawing
-/
namespace Bpmn.Spec

/-- A flow of the diagram leads from `n` to `m`. -/
def StepTo (d : Diagram) (n m : Node) : Prop := n ∈ d.getNodes ∧ m ∈ d.getNodes ∧ Feeds n m

/-- The node lies on a loop, or can be reached from one. -/
def AfterLoop (d : Diagram) (m : Node) : Prop := ∃ n, Relation.TransGen (StepTo d) n n ∧ Relation.ReflTransGen (StepTo d) n m

/-- A join on or behind a loop. The flows into it come from nodes that are on or behind a loop and are no joins, and from other nodes that are no splits. -/
structure LateJoin (d : Diagram) (j : Node) : Prop where
  mem : j ∈ d.getNodes
  joins : Joins j
  late : AfterLoop d j
  ways : ∀ n ∈ d.getNodes, Feeds n j → AfterLoop d n ∧ ¬Joins n ∨ ¬AfterLoop d n ∧ ¬Splits n

open Classical in
/-- The nodes directly before `m` that are neither on nor behind a loop. -/
noncomputable def earlyBefore (d : Diagram) (m : Node) : List Node := (before d m).filter fun n => decide (¬AfterLoop d n)

open Classical in
/-- The nodes directly before `m` that also come before it in the order. -/
noncomputable def earlierBefore (d : Diagram) (order : List String) (m : Node) : List Node := (before d m).filter fun n => decide (Before order n.1 m.1)

/-- The order lists the nodes once each. First the nodes that are neither on nor behind a loop, every one of them before the ones that follow it; then the
joins on and behind the loops; then the other nodes on and behind the loops. There, too, a node that is no join comes after the one that leads to it. -/
structure LoopOrder (d : Diagram) (order : List String) : Prop where
  all : order.Perm (d.getNodes.map (·.1))
  sorted : ∀ n ∈ d.getNodes, ∀ m ∈ d.getNodes, Feeds n m → ¬(AfterLoop d m ∧ Joins m) → Before order n.1 m.1
  early : ∀ n ∈ d.getNodes, ∀ m ∈ d.getNodes, ¬AfterLoop d n → AfterLoop d m → Before order n.1 m.1
  late : ∀ n ∈ d.getNodes, ∀ m ∈ d.getNodes, AfterLoop d n → AfterLoop d m → Joins n → ¬Joins m → Before order n.1 m.1

/-- Where the nodes of a diagram with loops are drawn: the rules of `OnGrid`, but a join is placed by those of its predecessors that come before it in the
order. Its row is still their sum divided by the number of all flows into the join. -/
structure LoopGrid (d : Diagram) (order : List String) (row col : String → Int) : Prop where
  start : ∀ n ∈ d.getNodes, ins n = [] → col n.1 = 1 ∧ row n.1 = 2 + 2 * (placeAmong order (d.getNodes.filter fun n => decide (ins n = [])) n.1 : Nat)
  line : ∀ n ∈ d.getNodes, ∀ m ∈ d.getNodes, Feeds n m → ¬Splits n → ¬Joins m → col m.1 = col n.1 + 1 ∧ row m.1 = row n.1
  branch : ∀ n ∈ d.getNodes, ∀ m ∈ d.getNodes, Feeds n m → Splits n → col m.1 = col n.1 + 1 ∧
    ((∀ p ∈ d.getNodes, Feeds p n → ¬Splits p) → row m.1 = row n.1 + branchRow (outs n).length (placeAmong order (behind d n) m.1)) ∧
    ∀ p ∈ d.getNodes, Feeds p n → Splits p → row m.1 = row p.1 + branchRow (outs n).length (placeAmong order (behind d n) m.1)
  join : ∀ m ∈ d.getNodes, Joins m → col m.1 = ((earlierBefore d order m).map fun n => col n.1).foldr max 0 + 1 ∧
    row m.1 = Int.fdiv ((earlierBefore d order m).map fun n => row n.1).sum (ins m).length

/-- The diagram is a process with one loop: the nodes `first` in a line, a join, the nodes `body` in a line, and a split; from there the nodes `back` lead to the
join again, and the nodes `rest` away from the loop. -/
structure OneLoop (d : Diagram) (first : List Node) (join : Node) (body : List Node) (split : Node) (back rest : List Node) : Prop where
  nodes : (first ++ join :: (body ++ split :: (back ++ rest))).Perm d.getNodes
  supported : ∀ n ∈ d.getNodes, Supported n
  forward : Follows d (first ++ join :: (body ++ split :: rest))
  backward : Follows d (split :: (back ++ [join]))
  begins : ∀ n ∈ first.head?, ins n = []
  one : ∀ n ∈ d.getNodes, (n ≠ join → (ins n).length ≤ 1) ∧ (n ≠ split → (outs n).length ≤ 1)
  two : (ins join).length = 2 ∧ (outs split).length = 2
  some : first ≠ [] ∧ back ≠ [] ∧ rest ≠ []

/-- In `d'`, the nodes of the list are drawn side by side, the first in the given column, with the given vertical coordinate. -/
def InLine (d' : Diagram) (column y : Int) (ns : List Node) : Prop :=
  ∀ i (hi : i < ns.length), ∃ n', d'.getNodeById (ns[i]).1 = some n' ∧ At n' (150 * (column + i) + 50) y

end Bpmn.Spec

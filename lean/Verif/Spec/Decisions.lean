import Verif.Spec.TreeProcess
import Verif.Spec.Grid
/-!
# Decision trees

Lines of nodes that split and never meet again: how large they are, and which of them fit on the grid.
-/
namespace Bpmn.Spec

mutual
/-- Nodes one after the other, and then the last node or a split with branches of this kind. -/
def Strand.Spreads : Strand → Prop
  | .stop _ => True
  | .step _ rest => rest.Spreads
  | .fork _ bs => bs.Spread
  | _ => False

def Branches.Spread : Branches → Prop
  | .nil => True
  | .cons l r => l.Spreads ∧ r.Spread
end

mutual
/-- The number of ends. -/
def Strand.ends : Strand → Nat
  | .step _ rest => rest.ends
  | .fork _ bs => bs.ends
  | _ => 1

def Branches.ends : Branches → Nat
  | .nil => 0
  | .cons l r => l.ends + r.ends
end

mutual
/-- The heaviest way from the first node to an end, where the node `n` weighs `w n`. -/
def Strand.heaviest (w : Node → Nat) : Strand → Nat
  | .stop e => w e
  | .step n rest => w n + rest.heaviest w
  | .fork s bs => w s + bs.heaviest w
  | _ => 0

def Branches.heaviest (w : Node → Nat) : Branches → Nat
  | .nil => 0
  | .cons l r => max (l.heaviest w) (r.heaviest w)
end

/-- There is a split somewhere in the line. -/
def Strand.HasSplit : Strand → Prop
  | .step _ rest => rest.HasSplit
  | .fork _ _ => True
  | _ => False

/-- Two branches of a split do not come into each other's way: at most one of them splits again, and the other does not go on beyond that split. -/
def Beside (a b : Strand) : Prop := ¬(a.HasSplit ∧ b.HasSplit) ∧ (a.HasSplit → b.long ≤ a.long + 1) ∧ (b.HasSplit → a.long ≤ b.long + 1)

def Branches.AllBeside (a : Strand) : Branches → Prop
  | .nil => True
  | .cons b r => Beside a b ∧ r.AllBeside a

mutual
/-- A series of decisions: of the branches of a split, which begin with other nodes than splits, at most one splits again, and no other branch has more nodes than
this one has up to its split, this included. -/
def Strand.IsSeries : Strand → Prop
  | .stop _ => True
  | .step _ rest => rest.IsSeries
  | .fork _ bs => bs.AreSeries
  | _ => False

def Branches.AreSeries : Branches → Prop
  | .nil => True
  | .cons l r => 1 ≤ l.long ∧ l.IsSeries ∧ r.AllBeside l ∧ r.AreSeries
end

/-- From `n` one comes over `k` nodes, which do not split and where nothing joins, to the split `m`. -/
inductive SplitsAfter (d : Diagram) : Nat → Node → Node → Prop where
  | here {n : Node} : n ∈ d.getNodes → Splits n → SplitsAfter d 0 n n
  | next {k : Nat} {n q m : Node} : n ∈ d.getNodes → ¬Splits n → Feeds n q → ¬Joins q → SplitsAfter d k q m → SplitsAfter d (k + 1) n m

end Bpmn.Spec

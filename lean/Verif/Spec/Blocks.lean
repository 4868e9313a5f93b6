import Verif.Spec.Grid
import Mathlib.Data.List.Chain
import Mathlib.Data.List.Forall2
/-!
# Processes made of steps and blocks

A process that runs along one line, which opens from time to time into branches that all meet again.
-/
namespace Bpmn.Spec

/-- The one flow that leaves `a` is the one flow that enters `b`. -/
def Link (a b : Node) : Prop := ∃ i, outs a = [i] ∧ ins b = [i]

/-- A part of the line: a single node, or a split, its branches and the node where they meet. -/
inductive Piece where
  | step (n : Node)
  | block (s : Node) (branches : List (List Node)) (j : Node)

namespace Piece

def first : Piece → Node
  | step n => n
  | block s _ _ => s

def last : Piece → Node
  | step n => n
  | block _ _ j => j

def nodes : Piece → List Node
  | step n => [n]
  | block s bs j => s :: (bs.flatten ++ [j])

/-- The flows inside a part: the branches of a block, at least two and none of them empty, are chains; the flows that leave the split lead to the
beginnings of the branches, one to each, and those that enter the join come from their ends. -/
def Ok : Piece → Prop
  | step _ => True
  | block s bs j =>
    2 ≤ bs.length ∧ (outs s).length = bs.length ∧ (ins j).length = bs.length ∧
    ∀ b ∈ bs, b ≠ [] ∧ List.IsChain Link b ∧ (∀ n ∈ b.head?, ∃ i ∈ outs s, ins n = [i]) ∧ ∀ n ∈ b.getLast?, ∃ i ∈ ins j, outs n = [i]

end Piece

/-- The diagram, all of whose nodes are of supported types, is one line of steps and blocks. -/
structure Blocks (d : Diagram) (ps : List Piece) : Prop where
  nodes : (ps.flatMap Piece.nodes).Perm d.getNodes
  supported : ∀ n ∈ d.getNodes, Supported n
  parts : ∀ p ∈ ps, p.Ok
  line : List.IsChain (fun p q => Link p.last q.first) ps
  start : ∀ p ∈ ps.head?, ins p.first = []
  stop : ∀ p ∈ ps.getLast?, outs p.last = []

/-- The length of the longest branch. -/
def longest (bs : List (List Node)) : Nat := (bs.map List.length).foldr max 0

/-- How the line is drawn from column `c` on, where `P n x y` says that `n` is drawn in column `x` and row `y`: everything but the branches is in row 2.
Each branch is drawn in one row, beginning in the column right of the split; the `n` branches take, in some order, the `n` rows given by `branchRow`. The
join is right of the longest branch. -/
def Drawn (P : Node → Int → Int → Prop) : Int → List Piece → Prop
  | _, [] => True
  | c, .step n :: ps => P n c 2 ∧ Drawn P (c + 1) ps
  | c, .block s bs j :: ps =>
    P s c 2 ∧
    (∃ ks, ks.Perm (List.range bs.length) ∧
      List.Forall₂ (fun (b : List Node) (k : Nat) => ∀ (t : Nat) (n : Node), b[t]? = some n → P n (c + 1 + t) (2 + branchRow bs.length k)) bs ks) ∧
    P j (c + 1 + longest bs) 2 ∧ Drawn P (c + 2 + longest bs) ps

end Bpmn.Spec

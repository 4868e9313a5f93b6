import Verif.Spec.Blocks
/-!
# Ways through a line of steps and blocks
-/
namespace Bpmn.Spec

/-- A way through the line: every step, and at each block the split, one of its branches, and the join. -/
inductive WayThrough : List Piece → List Node → Prop where
  | nil : WayThrough [] []
  | step {n : Node} {ps : List Piece} {w : List Node} : WayThrough ps w → WayThrough (.step n :: ps) (n :: w)
  | block {s j : Node} {bs : List (List Node)} {b : List Node} {ps : List Piece} {w : List Node} : b ∈ bs → WayThrough ps w →
      WayThrough (.block s bs j :: ps) (s :: (b ++ j :: w))

/-- The number of tasks and sub-processes among the nodes. -/
def workIn (l : List Node) : Nat := (activities l).length

/-- The tasks and sub-processes on the line, where of each block only the branch with most of them counts. -/
def mostWork : List Piece → Nat
  | [] => 0
  | .step n :: ps => workIn [n] + mostWork ps
  | .block s bs j :: ps => workIn [s] + ((bs.map workIn).foldr max 0 + (workIn [j] + mostWork ps))

/-- The branches of the blocks that are more than one. -/
def sideBranches : List Piece → Nat
  | [] => 0
  | .step _ :: ps => sideBranches ps
  | .block _ bs _ :: ps => (bs.length - 1) + sideBranches ps

end Bpmn.Spec

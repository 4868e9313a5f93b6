import Verif.Spec.Blocks
import Verif.Spec.DrawnMetrics
/-!
# The size of a drawing
-/
namespace Bpmn.Spec

/-- The columns that a part of the line takes: one for a step; for a block those of the split, the join and the longest branch. -/
def Piece.wide : Piece → Nat
  | .step _ => 1
  | .block _ bs _ => 2 + longest bs

/-- Half of the number of branches of a block, rounded down. -/
def Piece.half : Piece → Nat
  | .step _ => 0
  | .block _ bs _ => bs.length / 2

/-- The columns of the whole line. -/
def columnsOf (ps : List Piece) : Nat := (ps.map Piece.wide).sum

/-- The largest `half`. -/
def halfOf (ps : List Piece) : Nat := (ps.map Piece.half).foldr max 0

end Bpmn.Spec

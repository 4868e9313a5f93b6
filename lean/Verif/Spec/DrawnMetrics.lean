import Verif.Spec.Blocks
import Verif.Spec.Geometry
/-!
# The lines of a drawing
-/
namespace Bpmn.Spec
open Bpmn.LayoutMetrics

/-- The strings of integers are read as these integers, as `float` does. -/
def ReadsIntegers (num : String → Py Rat) : Prop := ∀ k : Int, num (toString k) = .ok (k : Rat)

/-- In `d'` the node has the coordinates `x`, `y`. -/
def DrawnAt (d' : Diagram) (n : Node) (x y : Int) : Prop := ∃ n', d'.getNodeById n.1 = some n' ∧ At n' x y

/-- The kinds of gateways at which flows bend. -/
def Bends (n : Node) : Prop := n.2.type ∈ [some "parallelGateway", some "inclusiveGateway", some "exclusiveGateway"]

instance (n : Node) : Decidable (Bends n) := by unfold Bends; infer_instance

/-- The corners of a flow between two nodes at (sx, sy) and (tx, ty). -/
def route (n m : Node) (sx sy tx ty : Int) : List (Int × Int) :=
  if Bends n then [(sx + 50, sy + 50), (sx + 50, ty + 50), (tx, ty + 50)]
  else if sy ≠ ty ∧ Bends m then [(sx + 50, sy + 50), (tx + 50, sy + 50), (tx + 50, ty)]
  else [(sx + 50, sy + 50), (tx, ty + 50)]

/-- The flow is drawn with a bend: its source is such a gateway, or its target is one and is in another row. -/
def Turns (d' : Diagram) (f : Flow) : Prop := ∃ n m sx sy tx ty, f.2.2.sourceRef = some n.1 ∧ f.2.2.targetRef = some m.1 ∧
  d'.getNodeById n.1 = some n ∧ d'.getNodeById m.1 = some m ∧ At n sx sy ∧ At m tx ty ∧ (Bends n ∨ sy ≠ ty ∧ Bends m)

/-- The lines between consecutive corners. -/
def lines : List (Int × Int) → List Segment
  | a :: b :: r => ⟨⟨a.1, a.2⟩, ⟨b.1, b.2⟩⟩ :: lines (b :: r)
  | _ => []

/-- Blocks begin and end with gateways, and their branches end with other nodes. -/
def Gated : Piece → Prop
  | .step _ => True
  | .block s bs j => Bends s ∧ Bends j ∧ ∀ b ∈ bs, ∀ n ∈ b.getLast?, ¬Bends n

/-- The crossings counted in the drawing of a line of steps and blocks. With `m` the number of branches of a block drawn above the line, which is also the
number of those below it: `m (m - 1)` at the split and as many at the join, and `2 m` more if the line goes on behind the join. -/
def crossingsOf : List Piece → Nat
  | [] => 0
  | .step _ :: ps => crossingsOf ps
  | .block _ bs _ :: ps =>
    2 * (bs.length / 2 * (bs.length / 2 - 1)) + (if ps.isEmpty then 0 else 2 * (bs.length / 2)) + crossingsOf ps

end Bpmn.Spec

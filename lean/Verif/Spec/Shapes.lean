import Verif.Spec.DrawnMetrics
/-!
# The shapes of nodes in a drawing
-/
namespace Bpmn.Spec
open Bpmn.LayoutMetrics

/-- The node has this size. -/
def Sized (n : Node) (w h : Int) : Prop := n.2.width = some (toString w) ∧ n.2.height = some (toString h)

/-- The point is inside the shape of the node, not just on its edge. -/
def InShape (n : Node) (p : Point) : Prop := ∃ x y w h : Int, At n x y ∧ Sized n w h ∧ x < p.x ∧ p.x < x + w ∧ y < p.y ∧ p.y < y + h

/-- The flow is drawn along these corners. -/
def Through (f : Flow) (l : List (Int × Int)) : Prop := f.2.2.waypoints = some (l.map fun p => (toString p.1, toString p.2))

/-- The point is on a line of the flow. -/
def OnFlow (f : Flow) (p : Point) : Prop := ∃ l, Through f l ∧ ∃ s ∈ lines l, OnSegment s p

end Bpmn.Spec

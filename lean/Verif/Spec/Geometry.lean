import Verif.Model.LayoutMetrics
/-!
# Closed segments in the plane, independent of the orientation tests of the code
-/
namespace Bpmn.Spec
open Bpmn.LayoutMetrics

/-- `p` is a convex combination of the two ends of `s`. -/
def OnSegment (s : Segment) (p : Point) : Prop :=
  ∃ t : Rat, 0 ≤ t ∧ t ≤ 1 ∧ p.x = (1 - t) * s.source.x + t * s.target.x ∧ p.y = (1 - t) * s.source.y + t * s.target.y

/-- The two segments have a point in common. -/
def Meet (s1 s2 : Segment) : Prop := ∃ p, OnSegment s1 p ∧ OnSegment s2 p

/-- The two segments have a common end point. -/
def ShareEnd (s1 s2 : Segment) : Prop :=
  s1.source = s2.source ∨ s1.source = s2.target ∨ s1.target = s2.source ∨ s1.target = s2.target

end Bpmn.Spec

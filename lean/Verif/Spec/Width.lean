import Verif.Spec.Grid
import Verif.Spec.DrawnMetrics
/-!
# Paths and columns
-/
namespace Bpmn.Spec

/-- A path, without repetitions, that begins at a node without incoming flows and ends at `n`. -/
structure PathTo (d : Diagram) (n : Node) (p : List Node) : Prop extends SimplePath d p where
  starts : ∀ m ∈ p.head?, ins m = []
  ends : p.getLast? = some n

/-- The longest of these paths has `k` nodes. -/
def Depth (d : Diagram) (n : Node) (k : Nat) : Prop := (∃ p, PathTo d n p ∧ p.length = k) ∧ ∀ p, PathTo d n p → p.length ≤ k

end Bpmn.Spec

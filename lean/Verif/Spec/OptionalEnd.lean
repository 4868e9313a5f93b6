import Verif.Spec.Optional
import Verif.Spec.Classes
/-!
# Processes whose last step is optional
-/
namespace Bpmn.Spec

/-- A line with optional steps, of which the last one, `a`, stands directly before the end: the gateway `g` leads to it and to the end event `e`, and it leads to `e`, too. -/
structure OptionalEnd (d : Diagram) (s : Node) (parts : List Part) (g a e : Node) : Prop where
  line : OptionalLine d s (parts ++ [.optional g a e])
  known : ∀ n ∈ d.getNodes, Supported n
  named : ∀ n ∈ d.getNodes, n.2.nodeName.isSome
  events : ∀ n ∈ d.getNodes, (n.2.type = some "startEvent" ↔ n = s) ∧ (n.2.type = some "endEvent" ↔ n = e)

end Bpmn.Spec

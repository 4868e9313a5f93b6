import Verif.Spec.Grid
import Mathlib.Data.List.Chain
/-!
# Lines with optional steps

A start, and then steps one after the other, some of which can be skipped.
-/
namespace Bpmn.Spec

/-- A step, or a gateway `g` behind which the step `a` is done or skipped, and the node `j` where both ways meet. -/
inductive Part where
  | step (n : Node)
  | optional (g a j : Node)

def Part.nodes : Part → List Node
  | .step n => [n]
  | .optional g a j => [g, a, j]

/-- The number of optional steps. -/
def optionals : List Part → Nat
  | [] => 0
  | .step _ :: r => optionals r
  | .optional _ _ _ :: r => optionals r + 1

/-- The number of nodes. -/
def nodesIn (l : List Part) : Nat := (l.flatMap Part.nodes).length

/-- The diagram is the start `s` and these parts, one after the other, and has no other flows. -/
structure OptionalLine (d : Diagram) (s : Node) (parts : List Part) : Prop where
  nodes : (s :: parts.flatMap Part.nodes).Perm d.getNodes
  line : (s :: parts.flatMap Part.nodes).IsChain Feeds
  start : ins s = [] ∧ (outs s).length ≤ 1
  steps : ∀ n, .step n ∈ parts → (ins n).length = 1 ∧ (outs n).length ≤ 1
  skips : ∀ g a j, .optional g a j ∈ parts → Feeds g j ∧ (ins g).length = 1 ∧ (outs g).length = 2 ∧ (ins a).length = 1 ∧ (outs a).length = 1 ∧
    (ins j).length = 2 ∧ (outs j).length ≤ 1

/-- The row of the line behind `k` optional steps: 2, 3, 1, -1, -3, ... -/
def lineRow (k : Nat) : Int := if k = 0 then 2 else 5 - 2 * k

end Bpmn.Spec

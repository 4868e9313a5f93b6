import Verif.Spec.OptionalExport
import Verif.Spec.Structured
/-!
# Processes with optional steps and their tables
-/
namespace Bpmn.Spec
open Bpmn.Csv Bpmn.Spec.Csv

/-- A start event, activities one after the other, some of which are optional - a gateway leads to the activity and past it to another gateway -, and an end event. -/
structure OptionalProcess (d : Diagram) (s : Node) (parts : List Part) (e : Node) : Prop where
  line : OptionalLine d s (parts ++ [.step e])
  starts : s.2.type = some "startEvent"
  ends : e.2.type = some "endEvent" ∧ outs e = []
  named : ∀ n ∈ d.getNodes, n.2.nodeName.isSome
  steps : ∀ n, .step n ∈ parts → IsActivity n
  skips : ∀ g a j, .optional g a j ∈ parts → g.2.type ∈ gatewayTypes ∧ IsActivity a ∧ j.2.type ∈ gatewayTypes

/-- Two optional steps directly follow each other. -/
def Adjacent (parts : List Part) : Prop := ∃ pre g a j g' a' j' post, parts = pre ++ .optional g a j :: .optional g' a' j' :: post

/-- What the table has for the part with number `k`. The branches have the letters `a` and `b` in the order of the flows of the gateway, and their conditions. -/
def Part.entry (first : Node → Bool) (done past : Node → String) (k : Nat) : Part → Entry
  | .step n => .line (Row.mk (toString k) (caption n).1 "" "" (caption n).2.1 (caption n).2.2)
  | .optional g a _ => .optional (Row.mk (toString k ++ if first g then "a1" else "b1") (caption a).1 (done g) "" (caption a).2.1 (caption a).2.2)
      (Row.mk (toString k ++ if first g then "b1" else "a1") ("goto " ++ toString (k + 1)) (past g) "" "" "")

/-- The same for several parts, from number `k` on. -/
def entries (first : Node → Bool) (done past : Node → String) : Nat → List Part → List Entry
  | _, [] => []
  | k, p :: t => p.entry first done past k :: entries first done past (k + 1) t

/-- `first`, `done` and `past` say for each gateway which of its two flows is the first one, and the conditions of both. -/
def Describes (d : Diagram) (parts : List Part) (first : Node → Bool) (done past : Node → String) : Prop :=
  ∀ g a j, .optional g a j ∈ parts → ∃ i i', outs g = (if first g then [i, i'] else [i', i]) ∧ LeadsTo d i (some a) ∧ LeadsTo d i' (some j) ∧
    done g = splitCondition d g i ∧ past g = skipCondition d g i'

end Bpmn.Spec

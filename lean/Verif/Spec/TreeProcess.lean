import Verif.Spec.FlatProcess
/-!
# Processes without joins

A start event, activities one after the other, and at the end of this line an end event or a gateway with branches that are such lines again.
-/
namespace Bpmn.Spec
open Bpmn.Csv Bpmn.Spec.Csv

def Strand.IsFork : Strand → Prop
  | .fork _ _ => True
  | _ => False

/-- The number of activities and events of a line, up to its end or its split. -/
def Strand.long : Strand → Nat
  | .step _ rest => 1 + rest.long
  | .stop _ => 1
  | _ => 0

mutual
/-- Activities, and then an end event or a gateway with branches of this kind, which do not meet again. A branch has one to ten rows before its own split, so it does not
begin with a gateway. -/
def Strand.IsTree : Strand → Prop
  | .stop e => e.2.type = some "endEvent"
  | .step n rest => IsActivity n ∧ rest.IsTree
  | .fork s bs => IsGateway s ∧ bs.AreTrees
  | _ => False

def Branches.AreTrees : Branches → Prop
  | .nil => True
  | .cons l r => l.IsTree ∧ 1 ≤ l.long ∧ l.long ≤ 10 ∧ r.AreTrees
end

/-- The diagram is a start event and this tree; no activity or event has a text that begins with `goto`. -/
structure TreeProcess (d : Diagram) (s : Node) (l : Strand) : Prop where
  structured : Structured d (.step s l)
  begins : s.2.type = some "startEvent"
  tree : l.IsTree
  plain : ∀ n ∈ d.getNodes, HasRow n → ¬GotoRow (Row.mk "" (caption n).1 "" "" "" "")

end Bpmn.Spec

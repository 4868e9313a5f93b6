import Verif.Spec.Structured
/-!
# Rows behind which the table of a process has nothing

Lines of a process (`Strand`) in which a row is followed by something that the table does not show.
-/
namespace Bpmn.Spec
open Bpmn.Csv Bpmn.Spec.Csv

/-- The first node of the line has a row. -/
def Strand.Begins : Strand → Prop
  | .stop e => HasRow e
  | .meet => False
  | .step n _ => HasRow n
  | .block s _ _ => HasRow s
  | .fork s _ => HasRow s

/-- The first branch begins with a node that has a row, or has no nodes (and so a row that refers to the number behind the split). -/
def Branches.FirstBegins : Branches → Prop
  | .nil => False
  | .cons l _ => l.IsMeet ∨ l.Begins

/-- The table shows how the line begins: its first node has a row, or it is a split whose first branch begins with a row. Where branches meet, a node that is no activity
is passed over. -/
def Strand.Shows : Strand → Bool → Prop
  | .stop e, _ => HasRow e
  | .meet, _ => False
  | .step n rest, meets => if meets = true ∧ ¬IsActivity n then rest.Shows false else HasRow n
  | .block s bs _, _ => HasRow s ∨ bs.FirstBegins
  | .fork s bs, _ => HasRow s ∨ bs.FirstBegins

/-- The line, outside of the branches of its splits, has a row for something that does not end the process, and the table does not show what comes next: it is an activity at
the end of the line, an activity that splits into branches which do not meet again, or a node with a row before something that the table does not show. -/
def Strand.Dangles : Strand → Bool → Prop
  | .stop e, _ => IsActivity e
  | .meet, _ => False
  | .step n rest, meets => (¬(meets = true ∧ ¬IsActivity n) ∧ HasRow n ∧ ¬rest.Shows false) ∨ rest.Dangles false
  | .block s _ rest, _ => (HasRow s ∧ ¬rest.Shows true) ∨ rest.Dangles true
  | .fork s _, _ => HasRow s

end Bpmn.Spec

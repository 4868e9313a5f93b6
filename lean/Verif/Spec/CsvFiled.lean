import Verif.Spec.CsvFlat
/-!
# What comes back of a flat table that was drawn and saved
-/
namespace Bpmn.Spec.Csv
open Bpmn.Csv

/-- No branch of the block starts with a condition (apart from white space). -/
def Unconditional (legs : List Leg) : Prop := ∀ leg ∈ legs, ∀ c, leg.steps.head? = some c → ∀ x ∈ c.condition.toList, White x

/-- The rows of a branch: what is kept, and the condition of the first row. -/
def legFiled (p : List Char) (leg : Leg) : List Row :=
  (legRows p leg).mapIdx fun m r => if m = 0 then { kept r with condition := r.condition } else kept r

open Classical in
/-- The rows of an item: the branches of a block keep their conditions, unless there is none but white space. -/
noncomputable def itemFiled (k : Nat) : Item → List Row
  | .step c => [kept (c.row (decimal k) false)]
  | .block legs => if Unconditional legs then (itemRows k (.block legs)).map kept
      else (legs.mapIdx fun j leg => legFiled (decimal k ++ [letter j]) leg).flatten

/-- The rows of the items from number `k` on. -/
noncomputable def linesFiled (k : Nat) : List Item → List Row
  | [] => []
  | i :: r => itemFiled k i ++ linesFiled (k + 1) r

/-- The table that comes back: the rows without what is lost, but with the conditions of the branches. -/
noncomputable def FlatTable.filed (t : FlatTable) : List Row :=
  kept (t.first.row (decimal 0) false) :: (linesFiled 1 t.items ++ [kept (t.last.row (decimal (t.items.length + 1)) true)])

/-- Nothing in the table is lost: nobody is named, and conditions are only where branches start. -/
structure FlatTable.Faithful (t : FlatTable) : Prop where
  fields : ∀ r ∈ t.rows, { kept r with condition := r.condition } = r
  ends : t.first.condition = "" ∧ t.last.condition = ""
  steps : ∀ c, Item.step c ∈ t.items → c.condition = ""
  later : ∀ legs, Item.block legs ∈ t.items → ∀ leg ∈ legs, ∀ c ∈ leg.steps.tail, c.condition = ""
  starts : ∀ legs, Item.block legs ∈ t.items → ∀ leg ∈ legs, ∀ c, leg.steps.head? = some c → (∀ x ∈ c.condition.toList, White x) → c.condition = ""

end Bpmn.Spec.Csv

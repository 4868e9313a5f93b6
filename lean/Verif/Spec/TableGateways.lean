import Verif.Spec.EndsMetrics
import Verif.Spec.CsvFiled
/-!
# The gateways of a table
-/
namespace Bpmn.Spec.Csv
open Bpmn.Csv

/-- The text is the word, apart from white space around it. -/
def SaysWord (s w : String) : Prop := ∃ a b, s.toList = a ++ w.toList ++ b ∧ (∀ c ∈ a, White c) ∧ ∀ c ∈ b, White c

/-- The condition of one of the branches is the word. -/
def Asks (legs : List Leg) (w : String) : Prop := ∃ leg ∈ legs, ∃ c ∈ leg.steps.head?, SaysWord c.condition w

/-- Two branches, one for `yes` and one for `no`, or one of them for `else`. -/
def YesOrNo (legs : List Leg) : Prop := legs.length = 2 ∧ (Asks legs "yes" ∧ Asks legs "no" ∨ Asks legs "else")

/-- The type of the gateways of a block. -/
def BlockKind (legs : List Leg) (ty : String) : Prop :=
  ty = "exclusiveGateway" ∧ YesOrNo legs ∨ ty = "parallelGateway" ∧ Unconditional legs ∨ ty = "inclusiveGateway" ∧ ¬YesOrNo legs ∧ ¬Unconditional legs

open Classical in
/-- The number of types that blocks of the items have. -/
noncomputable def kindsIn (items : List Item) : Nat :=
  (["exclusiveGateway", "parallelGateway", "inclusiveGateway"].filter fun ty => decide (∃ legs, Item.block legs ∈ items ∧ BlockKind legs ty)).length

end Bpmn.Spec.Csv

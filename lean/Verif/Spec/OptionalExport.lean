import Verif.Spec.OptionalTable
import Verif.Model.Layouter
import Verif.Model.Import
import Verif.Model.Export
/-!
# Tables with optional steps, exported again
-/
namespace Bpmn.Spec.Csv
open Bpmn.Csv

/-- What the export writes for a row, with the given order: activity (not of a terminated row) and marks; no condition, nobody. -/
def written (o : String) (r : Row) : Row :=
  Row.mk o (if r.terminated = "yes" then "" else r.activity) "" "" (if r.order ≠ "0" ∧ r.terminated ≠ "yes" ∧ r.subprocess = "yes" then "yes" else "")
    (if r.terminated = "yes" then "yes" else "")

/-- What the export writes for the item with number `n`; `first n` says whether the step is branch `a`, and the `goto` branch `b`, or the other way round. Only steps have conditions, given by `cell`. -/
def Entry.written (cell : Row → String) (first : Nat → Bool) (n : Nat) : Entry → Entry
  | .line r => .line (Csv.written (toString n) r)
  | .optional x _ => .optional { Csv.written (toString n ++ if first n then "a1" else "b1") x with condition := cell x }
      (Row.mk (toString n ++ if first n then "b1" else "a1") ("goto " ++ toString (n + 1)) "" "" "" "")

/-- The items that the export writes, from number `n` on. -/
def Entry.again (cell : Row → String) (first : Nat → Bool) : Nat → List Entry → List Entry
  | _, [] => []
  | n, e :: t => e.written cell first n :: Entry.again cell first (n + 1) t

/-- No conditions are written. -/
def bare : Row → String := fun _ => ""

/-- No optional step stands directly before the last row, and there are two rows or more. -/
structure EndsApart (items : List Entry) : Prop where
  two : 2 ≤ items.length
  apart : ∀ n x g, items[n]? = some (.optional x g) → n + 2 < items.length

/-- The rows of the line have no conditions, and the condition of a step is not only white space. -/
structure PlainCells (items : List Entry) : Prop where
  line : ∀ (n : Nat) (r : Row), items[n]? = some (.line r) → r.condition = ""
  step : ∀ (n : Nat) (x g : Row), items[n]? = some (.optional x g) → (∀ c ∈ x.condition.toList, White c) → x.condition = ""

/-- A table is imported and the diagram is exported, `n` times one after the other. -/
inductive Copied : Nat → List Row → List Row → Prop
  | none (rows : List Row) : Copied 0 rows rows
  | more {n : Nat} {rows rows' rows'' : List Row} {d : Diagram} {bound : Nat} : loadCsv rows {} = .ok d → (∀ fuel ≥ bound, exportRows d fuel = .ok rows') → Copied n rows' rows'' → Copied (n + 1) rows rows''

/-- A table is imported, drawn, saved as XML, loaded and exported, `n` times one after the other. (`ord` is the order in which the import goes through sets.) -/
inductive Filed (ord : List String → List String) : Nat → List Row → List Row → Prop
  | none (rows : List Row) : Filed ord 0 rows rows
  | more {n : Nat} {rows rows' rows'' : List Row} {d d' e : Diagram} {x : ETree} {bound : Nat} : loadCsv rows {} = .ok d → (∀ fuel ≥ bound, Layouter.generateLayout fuel d = .ok d') →
      (∀ fuel ≥ bound, Export.exportXmlFile fuel d' = .ok x) → Import.load ord x.toDom {} = .ok e → (∀ fuel ≥ bound, exportRows e fuel = .ok rows') → Filed ord n rows' rows'' → Filed ord (n + 1) rows rows''

/-- Numbers and activities of two lists of items agree, and their optional steps stand at the same places. -/
def SameItems (items items' : List Entry) : Prop :=
  items.length = items'.length ∧ ∀ (n : Nat) (h : n < items.length) (h' : n < items'.length), match items[n], items'[n] with
    | .line r, .line r' => r'.order = r.order ∧ (r.terminated ≠ "yes" → r'.activity = r.activity)
    | .optional x _, .optional x' _ => x'.activity = x.activity
    | _, _ => False

end Bpmn.Spec.Csv

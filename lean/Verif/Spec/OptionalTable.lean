import Verif.Spec.GotoTable
import Verif.Spec.Optional
/-!
# Tables with optional steps
-/
namespace Bpmn.Spec.Csv
open Bpmn.Csv

/-- A row of the main line; or an optional step: a split with a branch of one row `x`, and a branch that is a `goto` row `g`. -/
inductive Entry where
  | line (r : Row)
  | optional (x g : Row)

def Entry.rows : Entry → List Row
  | .line r => [r]
  | .optional x g => [x, g]

/-- A table of rows and optional steps, its rows in any order. The items are numbered from 0 on, the first one is a row. The last item is a row and the only one marked as an end. The
branches of an optional step are `a` and `b`, in one order or the other, and the `goto` row names the row behind the optional step. No other row is a `goto`. -/
structure OptionalTable (rows : List Row) (items : List Entry) : Prop where
  all : rows.Perm (items.flatMap Entry.rows)
  first : ∃ r, items[0]? = some (.line r)
  line : ∀ n r, items[n]? = some (.line r) → r.order.toList = decimal n ∧ ¬GotoRow r ∧ (r.terminated = "yes" ↔ n + 1 = items.length)
  optional : ∀ n x g, items[n]? = some (.optional x g) →
    (x.order.toList = decimal n ++ ['a', '1'] ∧ g.order.toList = decimal n ++ ['b', '1'] ∨ x.order.toList = decimal n ++ ['b', '1'] ∧ g.order.toList = decimal n ++ ['a', '1']) ∧
    ¬GotoRow x ∧ x.terminated ≠ "yes" ∧ GotoRow g ∧ g.terminated ≠ "yes" ∧ ∃ q, items[n + 1]? = some (.line q) ∧ GoesTo g q.order

/-- How many nodes the items stand for: a row is a node, an optional step is a gateway and a node. -/
def Entry.width : List Entry → Nat
  | [] => 0
  | .line _ :: t => Entry.width t + 1
  | .optional _ _ :: t => Entry.width t + 2

/-- How many optional steps there are. -/
def Entry.skips : List Entry → Nat
  | [] => 0
  | .line _ :: t => Entry.skips t
  | .optional _ _ :: t => Entry.skips t + 1

/-- The flows of a table with optional steps: from a row to the row behind it; or, if an optional step stands behind it, to a gateway, from there to the optional step and to the row
behind it, and from the optional step to that row. -/
inductive OptionalFlow (items : List Entry) : String → String → Prop where
  | next {n : Nat} {r q : Row} : items[n]? = some (.line r) → items[n + 1]? = some (.line q) → OptionalFlow items r.order q.order
  | split {n : Nat} {w x g : Row} : items[n]? = some (.line w) → items[n + 1]? = some (.optional x g) → OptionalFlow items w.order (w.order ++ "_split")
  | take {n : Nat} {w x g : Row} : items[n]? = some (.line w) → items[n + 1]? = some (.optional x g) → OptionalFlow items (w.order ++ "_split") x.order
  | skip {n : Nat} {w x g q : Row} : items[n]? = some (.line w) → items[n + 1]? = some (.optional x g) → items[n + 2]? = some (.line q) →
      OptionalFlow items (w.order ++ "_split") q.order
  | back {n : Nat} {x g q : Row} : items[n]? = some (.optional x g) → items[n + 1]? = some (.line q) → OptionalFlow items x.order q.order

/-- In `d'`, the node with this id is drawn there. -/
def DrawnId (d' : Diagram) (id : String) (x y : Int) : Prop := ∃ n', d'.getNodeById id = some n' ∧ At n' x y

end Bpmn.Spec.Csv

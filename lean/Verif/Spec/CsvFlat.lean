import Verif.Spec.CsvImport
/-!
# Flat tables: a main line with blocks of branches
-/
namespace Bpmn.Spec.Csv
open Bpmn.Csv

/-- The text of a row. -/
structure Cell where
  activity : String
  condition : String
  who : String
  subprocess : String

/-- The row with this text. -/
def Cell.row (c : Cell) (order : List Char) (stops : Bool) : Row :=
  Row.mk (String.ofList order) c.activity c.condition c.who c.subprocess (if stops then "yes" else "")

/-- A branch: its steps, and whether its last step is terminated. -/
structure Leg where
  steps : List Cell
  stops : Bool

/-- The main line has single steps and blocks of branches. -/
inductive Item where
  | step (c : Cell)
  | block (legs : List Leg)

/-- The letter of a branch. -/
def letter (i : Nat) : Char := "abcdefghijklmnopqrstuvwxyz".toList.getD i 'z'

/-- The rows of a branch, numbered from 1 behind its prefix. -/
def legRows (p : List Char) (leg : Leg) : List Row :=
  leg.steps.mapIdx fun m c => c.row (p ++ decimal (m + 1)) (leg.stops && decide (m + 1 = leg.steps.length))

/-- The rows of the item with number `k` of the main line. -/
def itemRows (k : Nat) : Item → List Row
  | .step c => [c.row (decimal k) false]
  | .block legs => (legs.mapIdx fun j leg => legRows (decimal k ++ [letter j]) leg).flatten

/-- The rows of the items from number `k` on. -/
def linesFrom (k : Nat) : List Item → List Row
  | [] => []
  | i :: r => itemRows k i ++ linesFrom (k + 1) r

/-- A start, items, and an end. -/
structure FlatTable where
  first : Cell
  items : List Item
  last : Cell

/-- The table: row 0, the items from 1 on, and a terminated row. -/
def FlatTable.rows (t : FlatTable) : List Row :=
  t.first.row (decimal 0) false :: (linesFrom 1 t.items ++ [t.last.row (decimal (t.items.length + 1)) true])

/-- A block has at most 26 branches, at least two of which are not terminated, of one to ten steps; between two blocks there is a step;
no row is a `goto`. -/
structure FlatTable.Good (t : FlatTable) : Prop where
  few : ∀ legs, Item.block legs ∈ t.items → legs.length ≤ 26
  two : ∀ legs, Item.block legs ∈ t.items → 2 ≤ (legs.filter fun l => !l.stops).length
  short : ∀ legs, Item.block legs ∈ t.items → ∀ leg ∈ legs, 1 ≤ leg.steps.length ∧ leg.steps.length ≤ 10
  apart : ∀ i legs legs', t.items[i]? = some (.block legs) → t.items[i + 1]? ≠ some (.block legs')
  plain : ∀ r ∈ t.rows, ¬GotoRow r

/-- What is left of a row: the order, the activity if not terminated, and the marks (the start has no mark for a subprocess). -/
def kept (r : Row) : Row :=
  Row.mk r.order (if r.terminated = "yes" then "" else r.activity) "" ""
    (if r.order ≠ "0" ∧ r.terminated ≠ "yes" ∧ r.subprocess = "yes" then "yes" else "") r.terminated

/-- The main line has a row with this number. -/
def FlatTable.OnLine (t : FlatTable) (k : Nat) : Prop := k = 0 ∨ k = t.items.length + 1 ∨ ∃ i c, k = i + 1 ∧ t.items[i]? = some (.step c)

/-- The order of a step of a branch. -/
def legOrder (k j m : Nat) : String := String.ofList (decimal k ++ [letter j] ++ decimal m)

/-- How the process goes on: from row to row of the main line; at a block from the row before through a split into every branch, along the
branch, and, unless the branch is terminated, through a join to the row behind the block. -/
inductive FlatTable.Arrow (t : FlatTable) : String → String → Prop where
  | next {k : Nat} : t.OnLine k → t.OnLine (k + 1) → t.Arrow (toString k) (toString (k + 1))
  | fork {k : Nat} {legs : List Leg} : t.items[k]? = some (.block legs) → t.Arrow (toString k) (toString k ++ "_split")
  | branch {k j : Nat} {legs : List Leg} : t.items[k]? = some (.block legs) → j < legs.length → t.Arrow (toString k ++ "_split") (legOrder (k + 1) j 1)
  | along {k j m : Nat} {legs : List Leg} {leg : Leg} : t.items[k]? = some (.block legs) → legs[j]? = some leg → 1 ≤ m → m < leg.steps.length →
      t.Arrow (legOrder (k + 1) j m) (legOrder (k + 1) j (m + 1))
  | join {k j : Nat} {legs : List Leg} {leg : Leg} : t.items[k]? = some (.block legs) → legs[j]? = some leg → leg.stops = false →
      t.Arrow (legOrder (k + 1) j leg.steps.length) (toString (k + 2) ++ "_join")
  | out {k : Nat} {legs : List Leg} : t.items[k]? = some (.block legs) → t.Arrow (toString (k + 2) ++ "_join") (toString (k + 2))

/-- The table of a linear process: a start, tasks, and an end. -/
def lineRows (start : String) (tasks : List String) : List Row :=
  Row.mk "0" start "" "" "" "" :: (tasks.mapIdx fun i a => Row.mk (toString (i + 1)) a "" "" "" "") ++ [Row.mk (toString (tasks.length + 1)) "" "" "" "" "yes"]

end Bpmn.Spec.Csv

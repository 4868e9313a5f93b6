import Verif.Spec.CsvImport
/-!
# Tables with `goto` rows
-/
namespace Bpmn.Spec.Csv
open Bpmn.Csv

/-- A table as it is meant to be written: every order is a step of a branch; a `goto` row is the last step of a branch, is not marked as an end, and names a row
that is not a `goto` itself; a branch that consists of a `goto` is not the only branch of its split. -/
structure GotoTable (rows : List Row) : Prop where
  table : Table rows
  steps : ∀ r ∈ rows, ∃ p, StepOf p r.order.toList
  open' : ∀ g ∈ rows, GotoRow g → g.terminated ≠ "yes"
  last : ∀ g ∈ rows, GotoRow g → ∃ p, p ≠ [] ∧ BranchPrefix p ∧ LastStep rows p g.order.toList
  target : ∀ g ∈ rows, GotoRow g → ∃ q ∈ rows, ¬GotoRow q ∧ GoesTo g q.order
  company : ∀ g ∈ rows, GotoRow g → ∀ o, BranchStart o g.order.toList → ∃ b ∈ rows, b ≠ g ∧ BranchStart o b.order.toList

/-- The row with order `g` comes directly after the row with order `x`: the next number, or the first step of a branch of the split behind `x`. -/
inductive ComesAfter (rows : List Row) (x g : List Char) : Prop where
  | next {p : List Char} {n : Nat} : BranchPrefix p → x = p ++ decimal n → g = p ++ decimal (n + 1) → ComesAfter rows x g
  | branch {p : List Char} {n : Nat} : BranchPrefix p → x = p ++ decimal n → ¬HasOrder rows (p ++ decimal (n + 1)) →
      HasOrder rows (p ++ decimal (n + 1) ++ ['a']) ∨ HasOrder rows (p ++ decimal (n + 1) ++ ['a', '1']) →
      BranchStart (p ++ decimal (n + 1)) g → ComesAfter rows x g

/-- The row with order `y` is the last step of a branch, and the main line goes on behind the split around it with the row `s`. -/
def ReturnsTo (rows : List Row) (y s : List Char) : Prop :=
  ∃ p k, BranchPrefix p ∧ LastStep rows p y ∧ NumberIn p k ∧ 1 ≤ k ∧ s = decimal (k + 1) ∧ HasOrder rows s

/-- The order `b` is the next number of the same branch after the order `a`. -/
def NextNumber (a b : List Char) : Prop := ∃ p n, BranchPrefix p ∧ a = p ++ decimal n ∧ b = p ++ decimal (n + 1)

/-- Behind the row with order `w` the table has no next number but a split, with branches whose orders begin with `o`. -/
def OpensSplit (rows : List Row) (w o : List Char) : Prop :=
  ∃ p n, BranchPrefix p ∧ w = p ++ decimal n ∧ o = p ++ decimal (n + 1) ∧ ¬HasOrder rows o ∧ (HasOrder rows (o ++ ['a']) ∨ HasOrder rows (o ++ ['a', '1']))

/-- Every split has two branches, and every `goto` is reached from one row. -/
structure SplitTable (rows : List Row) : Prop where
  full : ∀ b ∈ rows, ∀ o, BranchStart o b.order.toList → ∃ c ∈ rows, c ≠ b ∧ BranchStart o c.order.toList
  once : ∀ g ∈ rows, GotoRow g → ∀ w ∈ rows, ∀ w' ∈ rows, w.terminated ≠ "yes" → w'.terminated ≠ "yes" →
    ComesAfter rows w.order.toList g.order.toList → ComesAfter rows w'.order.toList g.order.toList → w = w'

/-- No `goto` asks for a flow against an existing one. A `goto` with the next number after row `w` that names `q`: row `w` is not the next number after `q`, nor is there another
`goto`, with the next number after `q`, that names `w`. A branch of the split behind row `w` that is a `goto` does not name `w`. -/
structure NoWayBack (rows : List Row) : Prop where
  next : ∀ g ∈ rows, GotoRow g → ∀ q ∈ rows, GoesTo g q.order → ∀ w ∈ rows, w.terminated ≠ "yes" → NextNumber w.order.toList g.order.toList →
    q.terminated ≠ "yes" → ¬NextNumber q.order.toList w.order.toList ∧
      ∀ g' ∈ rows, g' ≠ g → GotoRow g' → GoesTo g' w.order → ¬NextNumber q.order.toList g'.order.toList
  branch : ∀ g ∈ rows, GotoRow g → ∀ q ∈ rows, GoesTo g q.order → ∀ w ∈ rows, w.terminated ≠ "yes" → ∀ o, OpensSplit rows w.order.toList o →
    BranchStart o g.order.toList → q ≠ w

/-- No `goto` asks for a flow between two nodes that already have one. A `goto` with the next number after row `w` that names `q`: row `w` is not the next number after
`q`, nor is there another `goto`, with the next number after `q`, that names `w`. A branch of the split behind row `w` that is a `goto` to `q`: `q` is neither `w` nor the first step of a
branch of the same split, and no other branch of this split is a `goto` to `q`. -/
structure NoTurn (rows : List Row) : Prop where
  next : ∀ g ∈ rows, GotoRow g → ∀ q ∈ rows, GoesTo g q.order → ∀ w ∈ rows, w.terminated ≠ "yes" → NextNumber w.order.toList g.order.toList →
    q.terminated ≠ "yes" → ¬NextNumber q.order.toList w.order.toList ∧
      ∀ g' ∈ rows, g' ≠ g → GotoRow g' → GoesTo g' w.order → ¬NextNumber q.order.toList g'.order.toList
  branch : ∀ g ∈ rows, GotoRow g → ∀ q ∈ rows, GoesTo g q.order → ∀ w ∈ rows, w.terminated ≠ "yes" → ∀ o, OpensSplit rows w.order.toList o →
    BranchStart o g.order.toList → q ≠ w ∧ ¬BranchStart o q.order.toList ∧
      ∀ g' ∈ rows, g' ≠ g → GotoRow g' → BranchStart o g'.order.toList → ¬GoesTo g' q.order

/-- Row `y` is no `goto` and no end, it is the last step of a branch, and behind it the main line goes on with row `s`. -/
def ComesBack (rows : List Row) (y s : Row) : Prop :=
  y ∈ rows ∧ s ∈ rows ∧ ¬GotoRow y ∧ y.terminated ≠ "yes" ∧ ReturnsTo rows y.order.toList s.order.toList

/-- The nodes that a table stands for: its rows but for the `goto` rows, a gateway for every split, and a gateway before a row to which two branches come back. -/
inductive TableNode (rows : List Row) : String → Prop where
  | row {r : Row} : r ∈ rows → ¬GotoRow r → TableNode rows r.order
  | split {w : Row} {o : List Char} : w ∈ rows → w.terminated ≠ "yes" → OpensSplit rows w.order.toList o → TableNode rows (w.order ++ "_split")
  | join {y z s : Row} : ComesBack rows y s → ComesBack rows z s → y ≠ z → TableNode rows (s.order ++ "_join")

/-- The flows that a table stands for: to the next number; to the gateway of a split and from there to the first step of every branch; from the last step of a branch to
the row behind the split, over a gateway if another branch comes back too; and instead of a flow to a `goto` a flow to the row that it names. -/
inductive TableFlow (rows : List Row) : String → String → Prop where
  | next {w b : Row} : w ∈ rows → b ∈ rows → ¬GotoRow b → w.terminated ≠ "yes" → NextNumber w.order.toList b.order.toList → TableFlow rows w.order b.order
  | nextGoto {w g q : Row} : w ∈ rows → g ∈ rows → GotoRow g → q ∈ rows → GoesTo g q.order → w.terminated ≠ "yes" → NextNumber w.order.toList g.order.toList →
      TableFlow rows w.order q.order
  | split {w : Row} {o : List Char} : w ∈ rows → w.terminated ≠ "yes" → OpensSplit rows w.order.toList o → TableFlow rows w.order (w.order ++ "_split")
  | branch {w b : Row} {o : List Char} : w ∈ rows → w.terminated ≠ "yes" → OpensSplit rows w.order.toList o → b ∈ rows → ¬GotoRow b →
      BranchStart o b.order.toList → TableFlow rows (w.order ++ "_split") b.order
  | branchGoto {w g q : Row} {o : List Char} : w ∈ rows → w.terminated ≠ "yes" → OpensSplit rows w.order.toList o → g ∈ rows → GotoRow g →
      BranchStart o g.order.toList → q ∈ rows → GoesTo g q.order → TableFlow rows (w.order ++ "_split") q.order
  | toJoin {y z s : Row} : ComesBack rows y s → ComesBack rows z s → y ≠ z → TableFlow rows y.order (s.order ++ "_join")
  | join {y z s : Row} : ComesBack rows y s → ComesBack rows z s → y ≠ z → TableFlow rows (s.order ++ "_join") s.order
  | alone {y s : Row} : ComesBack rows y s → (∀ z, ComesBack rows z s → z = y) → TableFlow rows y.order s.order

/-- The rows `m 0`, ..., `m k` are numbered from 0 on and follow each other. -/
structure MainLine (rows : List Row) (m : Nat → Row) (k : Nat) : Prop where
  row : ∀ i ≤ k, m i ∈ rows ∧ (m i).order.toList = decimal i
  goesOn : ∀ i < k, (m i).terminated ≠ "yes"

/-- No `goto` names the row and no branch comes back to it. -/
def Untouched (rows : List Row) (r : Row) : Prop := (∀ g ∈ rows, GotoRow g → ¬GoesTo g r.order) ∧ ∀ y, ¬ComesBack rows y r

/-- Every row but for the first one and the `goto` rows is reached from somewhere. -/
def AllReached (rows : List Row) : Prop := ∀ r ∈ rows, ¬GotoRow r → r.order ≠ "0" → ∃ a, TableFlow rows a r.order

end Bpmn.Spec.Csv

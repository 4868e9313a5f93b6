import Verif.Spec.GotoTable
import Verif.Spec.Grid
/-!
# A table with one loop
-/
namespace Bpmn.Spec.Csv
open Bpmn.Csv

/-- The orders of the rows are a prefix and the numbers from `n` on. -/
def NumberedFrom (p : List Char) (n : Nat) (rs : List Row) : Prop := ∀ i (h : i < rs.length), (rs[i]).order.toList = p ++ decimal (n + i)

/-- A table for a process with one loop, its rows in any order: the rows `main`, numbered from 0 on; behind them a split with the branches `a` and `b`. Branch `a` has the
rows `back` and ends with a `goto` row that names row `j`, which is one of `main` but not the first. Branch `b` has the rows `on`, and the main line goes on behind it with the rows `rest`, the last of
which is the only one marked as an end. No other row is a `goto`. The branches have one to nine and one to ten rows (C48: the eleventh row of a branch is mistaken for a branch). -/
structure LoopTable (rows main : List Row) (j : Nat) (back : List Row) (goto : Row) (on rest : List Row) : Prop where
  all : rows.Perm (main ++ (back ++ [goto]) ++ on ++ rest)
  mainLine : NumberedFrom [] 0 main
  branchA : NumberedFrom (decimal main.length ++ ['a']) 1 (back ++ [goto])
  branchB : NumberedFrom (decimal main.length ++ ['b']) 1 on
  restLine : NumberedFrom [] (main.length + 1) rest
  jump : GotoRow goto ∧ goto.terminated ≠ "yes" ∧ ∀ q, main[j]? = some q → GoesTo goto q.order
  others : ∀ r ∈ main ++ back ++ on ++ rest, ¬GotoRow r ∧ (r.terminated = "yes" ↔ rest.getLast? = some r)
  sizes : 1 ≤ j ∧ j < main.length ∧ back ≠ [] ∧ back.length ≤ 9 ∧ on ≠ [] ∧ on.length ≤ 10 ∧ rest ≠ []

/-- In `d'`, the nodes with these ids are drawn side by side, the first in the given column, with the given vertical coordinate. -/
def DrawnRow (d' : Diagram) (column y : Int) (ids : List String) : Prop :=
  ∀ i (hi : i < ids.length), ∃ n', d'.getNodeById ids[i] = some n' ∧ At n' (150 * (column + i) + 50) y

end Bpmn.Spec.Csv

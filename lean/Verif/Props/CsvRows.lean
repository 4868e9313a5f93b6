import Verif.Lemmas.CsvSays
import Verif.Props.CsvExport
/-! # C84: what the rows of the CSV export say -/
set_option linter.unusedSimpArgs false
set_option linter.unusedVariables false

namespace Bpmn.Props
open Bpmn.Csv Bpmn.Spec Bpmn.Spec.Csv

/-- **C84.** When the CSV export of a consistent diagram succeeds, every row is the row of a node that can be reached from the start, with the
condition of the flow by which it was reached, or stands for a flow that leads from a split directly to a join. -/
theorem C84_rows_say (d : Diagram) (h : Consistent d) (fuel : Nat) (rows : List Row) (hr : exportRows d fuel = .ok rows) :
    ∃ s, starts d = [s] ∧ ∀ r ∈ rows, NodeRow d s r ∨ SkipRow d s r := by
  unfold exportRows at hr
  rw [startNodes_eq fun n hn => (h.lists n hn).1] at hr
  rw [show d.getNodes.filter (fun n => decide ((ins n).length = 0)) = starts d from rfl] at hr
  simp only [except_bind_ok] at hr
  split at hr
  · rename_i s hs
    refine ⟨s, hs, ?_⟩
    have hm : s ∈ starts d := by simp [hs]
    obtain ⟨hm, h0⟩ := List.mem_filter.1 hm
    rw [nodes_eq h.complete h.ids] at hr
    simp only [except_bind_ok] at hr
    obtain ⟨⟨rows', nx⟩, h1, h2⟩ := except_bind_eq_ok hr
    simp only [except_pure, Except.ok.injEq] at h2
    subst h2
    obtain ⟨⟨new, e1, e2⟩, _⟩ := exportNode_says h hm fuel s "" "" .refl (.start rfl) .nil _ _ _ _ _ h1
    simp at e1
    subst e1
    exact e2
  · simp at hr

/-- A check that may be skipped: one flow leads from the split directly to the join. -/
def skipOps : List Op :=
  [.createNew "d" "D", .addProcess "p" false true "None" "PL" "P",
   .addStartEvent "P" "begin" none false true (some "s") "u1" "u2", .addExclusiveGateway "P" "g" "Diverging" (some "f4") none "g",
   .addTask "P" "check" (some "t1") "u", .addTask "P" "audit" (some "t2") "u", .addExclusiveGateway "P" "j" "Converging" none none "j",
   .addEndEvent "P" "done" none (some "e") "u" "v",
   .addSequenceFlow "P" "s" "g" "" "f1", .addSequenceFlow "P" "g" "t1" "large" "f2", .addSequenceFlow "P" "g" "j" "small" "f3",
   .addSequenceFlow "P" "g" "t2" "odd" "f4", .addSequenceFlow "P" "t1" "j" "" "f5", .addSequenceFlow "P" "t2" "j" "" "f6",
   .addSequenceFlow "P" "j" "e" "" "f7"]

theorem skip_allowed : AllowedHistory {} skipOps := by
  simp [skipOps, AllowedHistory, Allowed, step, declaredNode, declaredFlow, directionArg, directions, chosen]

set_option maxRecDepth 8000 in
/-- Its rows: two nodes with a condition, one flow that leads directly to the join, two nodes without condition. -/
example : Consistent (Op.run {} skipOps) ∧ ∃ rows, exportRows (Op.run {} skipOps) 8 = .ok rows ∧ rows =
    [Row.mk "0" "begin" "" "" "" "", Row.mk "1a1" "check" "large" "" "" "", Row.mk "1b1" "goto 2" "small" "" "" "",
     Row.mk "1c1" "audit" "else" "" "" "", Row.mk "2" "done" "" "" "" "yes"] := by
  refine ⟨consistent_of_allowed _ skip_allowed, ?_⟩
  obtain ⟨rows, e, h⟩ := ok_of_check (x := exportRows (Op.run {} skipOps) 8)
    (fun rows => rows == [Row.mk "0" "begin" "" "" "" "", Row.mk "1a1" "check" "large" "" "" "", Row.mk "1b1" "goto 2" "small" "" "" "",
     Row.mk "1c1" "audit" "else" "" "" "", Row.mk "2" "done" "" "" "" "yes"]) (by decide +kernel)
  exact ⟨rows, e, by simpa using h⟩

/-- Two splits and two joins: every flow of the second split leads directly to a join. -/
def dangleOps : List Op :=
  [.createNew "d" "D", .addProcess "p" false true "None" "PL" "P",
   .addStartEvent "P" "begin" none false true (some "s") "u1" "u2",
   .addInclusiveGateway "P" "h" "Diverging" none none "h", .addInclusiveGateway "P" "g" "Diverging" none none "g",
   .addInclusiveGateway "P" "j1" "Converging" none none "j1", .addInclusiveGateway "P" "j2" "Converging" none none "j2",
   .addTask "P" "bill" (some "t") "u", .addEndEvent "P" "done" none (some "e") "u" "v",
   .addSequenceFlow "P" "s" "h" "" "f1", .addSequenceFlow "P" "h" "g" "" "f2", .addSequenceFlow "P" "h" "j1" "" "f3",
   .addSequenceFlow "P" "g" "j1" "" "f4", .addSequenceFlow "P" "g" "j2" "" "f5", .addSequenceFlow "P" "j1" "j2" "" "f6",
   .addSequenceFlow "P" "j2" "t" "" "f7", .addSequenceFlow "P" "t" "e" "" "f8"]

theorem dangle_allowed : AllowedHistory {} dangleOps := by
  simp [dangleOps, AllowedHistory, Allowed, step, declaredNode, declaredFlow, directionArg, directions, chosen]

def dangleRank (n : Node) : Nat :=
  if n.1 = "s" then 0 else if n.1 = "h" then 1 else if n.1 = "g" then 2 else if n.1 = "j1" then 3 else if n.1 = "j2" then 4 else if n.1 = "t" then 5 else 6

set_option maxRecDepth 8000 in
/-- **C84 (dangling).** For some acyclic diagrams the export writes `goto` rows to orders that no row has, and leaves out all activities and
the end. -/
theorem C84_dangling : ∃ d, Consistent d ∧ Acyclic d ∧ Tabular d ∧ ∃ rows, (∀ fuel ≥ d.getNodes.length, exportRows d fuel = .ok rows) ∧
    rows.map (fun r => (r.order, r.activity)) = [("0", "begin"), ("1a1a1", "goto 1a2"), ("1a1b1", "goto 1a2"), ("1b1", "goto 2")] := by
  have ht : Tabular (Op.run {} dangleOps) := by
    constructor
    · decide +kernel
    · unfold Supported; decide +kernel
    · decide +kernel
    · decide +kernel
    · decide +kernel
    · decide +kernel
  have hc := consistent_of_allowed _ dangle_allowed
  have ha : Acyclic (Op.run {} dangleOps) := acyclic_of_check dangleRank (by decide +kernel)
  refine ⟨Op.run {} dangleOps, hc, ha, ht, ?_⟩
  obtain ⟨rows, hr⟩ := C54_acyclic_succeeds _ hc ha ht
  refine ⟨rows, hr, ?_⟩
  obtain ⟨rows', e, hp⟩ := ok_of_check (x := exportRows (Op.run {} dangleOps) (Op.run {} dangleOps).getNodes.length)
    (fun rows => rows.map (fun r => (r.order, r.activity)) == [("0", "begin"), ("1a1a1", "goto 1a2"), ("1a1b1", "goto 1a2"), ("1b1", "goto 2")]) (by decide +kernel)
  rw [hr _ (Nat.le_refl _)] at e
  cases e
  simpa using hp

end Bpmn.Props

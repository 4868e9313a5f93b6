import Verif.Lemmas.CsvLoops
import Verif.Props.Structured
import Verif.Props.CsvExport
/-! # C106: loops and the CSV export -/
set_option linter.unusedSimpArgs false
set_option linter.unusedVariables false

namespace Bpmn.Props
open Bpmn.Spec Bpmn.Spec.Csv Bpmn.Csv

/-- **C106 (loops that are closed directly).** If every cycle contains a flow that leads directly from a split to a join, the CSV export succeeds. -/
theorem C106_direct_loops (d : Diagram) (h : Consistent d) (hl : LoopsDirect d) (hx : Tabular d) :
    ∃ rows, ∀ fuel ≥ d.getNodes.length, exportRows d fuel = .ok rows :=
  exportRows_apart h hl hx

/-- **C106 (up to the loop).** A process begins with a block-structured line `l`, and this line leads to a join `j` with no split around it, as where a loop
begins.  The CSV export then writes exactly the table of the line, whatever is behind the join: one row for every activity and every start or end event
of the line, and one for every branch without nodes. -/
theorem C106_up_to_join (d : Diagram) (l : Strand) (j : Node) (h : Consistent d) (hx : Tabular d)
    (hs : ∀ n ∈ d.getNodes, ins n = [] → l.first none = some n) (hf : l.Fits d false (some j))
    (hj : j ∈ d.getNodes) (h1 : j.2.type ≠ some "startEvent") (h2 : j.2.type ≠ some "endEvent") (h3 : 2 ≤ (ins j).length) :
    ∃ rows, (∃ N, ∀ fuel ≥ N, exportRows d fuel = .ok rows) ∧ rows = l.table d false "" 0 "" ∧
      ((l.nodes.filter fun n => HasRow n).map caption).Sublist (rows.map content) ∧
      rows.length = (l.nodes.filter fun n => HasRow n).length + l.skips :=
  ⟨_, rows_to_join h hx hs hf hj h1 h2 h3, rfl, line_complete l false (some j) hf "" 0 ""⟩

/-- **C106 (exceptions).** On a consistent diagram with one start node the CSV export raises no exceptions but these: `KeyError`, and then some node has no
name or an unknown type; `IndexError`, and then some node has more than 26 outgoing flows, or is a start event or a join without any. -/
theorem C106_exceptions (d : Diagram) (h : Consistent d) (hs : (starts d).length = 1) (fuel : Nat) (e : PyErr) (he : exportRows d fuel = .error e) :
    e = .outOfFuel ∨ (e = .keyError ∧ Unnamed d) ∨ (e = .indexError ∧ Stuck d) := by
  rcases exportRows_outcome h hs fuel with ⟨rows, e'⟩ | e' | ⟨e', hu⟩ | ⟨e', hu⟩ <;> rw [e'] at he <;> cases he
  · exact .inl rfl
  · exact .inr (.inl ⟨rfl, hu⟩)
  · exact .inr (.inr ⟨rfl, hu⟩)

/-- **C106 (success or no end).** Without such nodes the CSV export either succeeds or recurses without end. -/
theorem C106_success_or_no_end (d : Diagram) (h : Consistent d) (hx : Tabular d) :
    (∃ rows N, ∀ fuel ≥ N, exportRows d fuel = .ok rows) ∨ ∀ fuel, exportRows d fuel = .error .outOfFuel := by
  by_cases hc : ∃ fuel rows, exportRows d fuel = .ok rows
  · obtain ⟨N, rows, e⟩ := hc
    exact .inl ⟨rows, N, fun fuel hf => exportRows_mono hf e⟩
  · refine .inr fun fuel => ?_
    rcases exportRows_outcome h hx.start fuel with ⟨rows, e⟩ | e | ⟨e, n, hn, hu⟩ | ⟨e, n, hn, hu⟩
    · exact absurd ⟨fuel, rows, e⟩ hc
    · exact e
    · rcases hu with hu | hu
      · exact absurd (hx.supported n hn) hu
      · have := hx.named n hn
        rw [hu] at this
        cases this
    · exfalso
      rcases hu with hu | ⟨ho, hu | ⟨h2, ha, hne⟩⟩
      · have := hx.few n hn
        omega
      · exact hx.begins n hn hu ho
      · rw [IsActivity, not_or] at ha
        exact hx.joins n hn h2 ha.1 ha.2 hne ho

/-! ## Examples -/

/-- An order is taken, packed, billed and signed; then it is checked, as often as there are mistakes. -/
def recheckOps : List Op :=
  [.createNew "d" "D", .addProcess "p" false true "None" "PL" "P",
   .addStartEvent "P" "begin" none false true (some "s") "u1" "u2", .addTask "P" "order" (some "t") "u",
   .addParallelGateway "P" "g" "Diverging" none "g", .addTask "P" "pack" (some "a") "u", .addTask "P" "bill" (some "b") "u",
   .addParallelGateway "P" "j" "Converging" none "j", .addTask "P" "sign" (some "i") "u",
   .addExclusiveGateway "P" "k" "Converging" none none "k", .addTask "P" "check" (some "c") "u", .addExclusiveGateway "P" "x" "Diverging" none none "x",
   .addEndEvent "P" "done" none (some "e") "u" "v",
   .addSequenceFlow "P" "s" "t" "" "f1", .addSequenceFlow "P" "t" "g" "" "f2", .addSequenceFlow "P" "g" "a" "" "f3", .addSequenceFlow "P" "g" "b" "" "f4",
   .addSequenceFlow "P" "a" "j" "" "f5", .addSequenceFlow "P" "b" "j" "" "f6", .addSequenceFlow "P" "j" "i" "" "f7", .addSequenceFlow "P" "i" "k" "" "f12", .addSequenceFlow "P" "k" "c" "" "f8",
   .addSequenceFlow "P" "c" "x" "" "f9", .addSequenceFlow "P" "x" "k" "wrong" "f10", .addSequenceFlow "P" "x" "e" "right" "f11"]

theorem recheck_allowed : AllowedHistory {} recheckOps := by
  simp [recheckOps, AllowedHistory, Allowed, step, declaredNode, declaredFlow, directionArg, directions, chosen]

/-- Ranks along its flows, except the one back. -/
def recheckRank (n : Node) : Nat :=
  if n.1 = "s" then 0 else if n.1 = "t" then 1 else if n.1 = "g" then 2 else if n.1 = "a" then 3 else if n.1 = "b" then 3
  else if n.1 = "j" then 4 else if n.1 = "i" then 5 else if n.1 = "k" then 6 else if n.1 = "c" then 7 else if n.1 = "x" then 8
  else 9

theorem loopsDirect_of_check {d : Diagram} (rank : Node → Nat) (key : ∀ a ∈ d.getNodes, ∀ i ∈ outs a, ∀ b ∈ d.getNodes,
    (d.getFlowById i).map (fun r => r.map fun f => f.2.2.targetRef) = .ok (some (some b.1)) → ¬Direct a b → rank a < rank b) : LoopsDirect d := by
  intro n hn hc
  have : ∀ b, Relation.TransGen (NextApart d) n b → b ∈ d.getNodes ∧ rank n < rank b := by
    have one : ∀ a ∈ d.getNodes, ∀ b, NextApart d a b → b ∈ d.getNodes ∧ rank a < rank b := by
      rintro a ha b ⟨⟨i, hi, f, hf, ht, hb⟩, hd⟩
      have hm := (Spec.Consistent.mem_of_getNodeById hb).1
      refine ⟨hm, key a ha i hi b hm ?_ hd⟩
      rw [hf]
      simp [Except.map, ht]
    intro b hab
    induction hab with
    | single h => exact one n hn _ h
    | tail _ h ih =>
      obtain ⟨h1, h2⟩ := one _ ih.1 _ h
      exact ⟨h1, by omega⟩
  have := (this n hc).2
  omega

set_option maxRecDepth 8000 in
theorem recheck_tabular : Tabular (Op.run {} recheckOps) := by
  constructor
  · decide +kernel
  · unfold Supported; decide +kernel
  · decide +kernel
  · decide +kernel
  · decide +kernel
  · decide +kernel

set_option maxRecDepth 8000 in
/-- `C106_direct_loops` applies to it: there is a cycle, and it is closed directly. -/
example : Consistent (Op.run {} recheckOps) ∧ LoopsDirect (Op.run {} recheckOps) ∧ Tabular (Op.run {} recheckOps) ∧ ¬Acyclic (Op.run {} recheckOps) := by
  have hc := consistent_of_allowed _ recheck_allowed
  refine ⟨hc, loopsDirect_of_check recheckRank (by decide +kernel), recheck_tabular, ?_⟩
  intro ha
  have step : ∀ a i b, (nodeOf (Op.run {} recheckOps) a) ∈ (Op.run {} recheckOps).getNodes → i ∈ outs (nodeOf (Op.run {} recheckOps) a) →
      (flowTarget (Op.run {} recheckOps) i).map (·.2) = .ok (some (nodeOf (Op.run {} recheckOps) b)) →
      Next (Op.run {} recheckOps) (nodeOf (Op.run {} recheckOps) a) (nodeOf (Op.run {} recheckOps) b) := by
    intro a i b hn hi ht
    obtain ⟨f, m, hm, e, hnx⟩ := flowTarget_out hc hn hi
    rw [e] at ht
    simp only [Except.map, Except.ok.injEq, Option.some.injEq] at ht
    rw [← ht]
    exact hnx
  have h1 := step "k" "f8" "c" (by decide +kernel) (by decide +kernel) (by decide +kernel)
  have h2 := step "c" "f9" "x" (by decide +kernel) (by decide +kernel) (by decide +kernel)
  have h3 := step "x" "f10" "k" (by decide +kernel) (by decide +kernel) (by decide +kernel)
  exact ha _ (by decide +kernel) (((Relation.TransGen.single h1).tail h2).tail h3)

/-- Its beginning. -/
def recheckLine (d : Diagram) : Strand :=
  let n := nodeOf d
  .step (n "s") (.step (n "t") (.block (n "g") (.cons (.step (n "a") .meet) (.cons (.step (n "b") .meet) .nil)) (.step (n "j") (.step (n "i") .meet))))

set_option maxRecDepth 8000 in
/-- `C106_up_to_join` applies to it: the check and the end of the process have no rows. -/
example : ∃ N, ∀ fuel ≥ N, exportRows (Op.run {} recheckOps) fuel =
    .ok [Row.mk "0" "begin" "" "" "" "", Row.mk "1" "order" "" "" "" "", Row.mk "2a1" "pack" "" "" "" "", Row.mk "2b1" "bill" "" "" "" "",
      Row.mk "3" "sign" "" "" "" ""] := by
  obtain ⟨rows, h1, h2, -⟩ := C106_up_to_join _ (recheckLine (Op.run {} recheckOps)) (nodeOf (Op.run {} recheckOps) "k") (consistent_of_allowed _ recheck_allowed) recheck_tabular
    (by decide +kernel) (fits_of_check (by decide +kernel)) (by decide +kernel) (by decide +kernel) (by decide +kernel) (by decide +kernel)
  have e : (recheckLine (Op.run {} recheckOps)).table (Op.run {} recheckOps) false "" 0 "" =
      [Row.mk "0" "begin" "" "" "" "", Row.mk "1" "order" "" "" "" "", Row.mk "2a1" "pack" "" "" "" "", Row.mk "2b1" "bill" "" "" "" "",
      Row.mk "3" "sign" "" "" "" ""] := by decide +kernel
  rw [h2, e] at h1
  exact h1

/-- A start event alone. -/
def loneOps : List Op :=
  [.createNew "d" "D", .addProcess "p" false true "None" "PL" "P", .addStartEvent "P" "begin" none false true (some "s") "u1" "u2"]

/-- `C106_exceptions` applies to it. -/
example : Consistent (Op.run {} loneOps) ∧ (starts (Op.run {} loneOps)).length = 1 ∧ exportRows (Op.run {} loneOps) 1 = .error .indexError := by
  refine ⟨consistent_of_allowed _ ?_, by decide +kernel, by decide +kernel⟩
  simp [loneOps, AllowedHistory, Allowed, step, declaredNode, declaredFlow, directionArg, directions, chosen]

end Bpmn.Props

import Verif.Lemmas.Structured
import Verif.Props.CsvRows
/-! # C96: the CSV export of block-structured diagrams -/
set_option linter.unusedSimpArgs false
set_option linter.unusedVariables false

namespace Bpmn.Props
open Bpmn.Spec Bpmn.Spec.Csv Bpmn.Csv

/-- **C96.** The CSV export of a block-structured diagram terminates and writes exactly its table. -/
theorem C96_rows (d : Diagram) (l : Strand) (h : Consistent d) (s : Structured d l) :
    ∃ N, ∀ fuel ≥ N, exportRows d fuel = .ok (l.table d false "" 0 "") := structured_rows h s

/-- **C96 (complete).** In this table every activity, start event and end event has one row, in the order of the line; the other rows, one for every branch without nodes,
are references. -/
theorem C96_complete (d : Diagram) (l : Strand) (h : Consistent d) (s : Structured d l) :
    ∃ rows, (∃ N, ∀ fuel ≥ N, exportRows d fuel = .ok rows) ∧ ∃ ns : List Node, ns.Perm (d.getNodes.filter fun n => HasRow n) ∧
      (ns.map caption).Sublist (rows.map content) ∧ rows.length = ns.length + l.skips := by
  refine ⟨_, structured_rows h s, l.nodes.filter fun n => HasRow n, s.nodes.filter _, ?_⟩
  exact line_complete l false none s.fits "" 0 ""

/-- An order: checked and shipped, done at once, or refused. Inside the first branch, packing and billing are parallel. -/
def strandOps : List Op :=
  [.createNew "d" "D", .addProcess "p" false true "None" "PL" "P",
   .addStartEvent "P" "begin" none false true (some "s") "u1" "u2", .addTask "P" "order" (some "t0") "u",
   .addExclusiveGateway "P" "g" "Diverging" (some "f5") none "g",
   .addTask "P" "check" (some "t1") "u", .addParallelGateway "P" "g2" "Diverging" none "g2", .addTask "P" "pack" (some "p1") "u", .addTask "P" "bill" (some "p2") "u",
   .addParallelGateway "P" "j2" "Converging" none "j2", .addTask "P" "ship" (some "t2") "u",
   .addTask "P" "explain" (some "t3") "u", .addEndEvent "P" "refused" none (some "e2") "u" "v",
   .addExclusiveGateway "P" "j" "Converging" none none "j", .addTask "P" "close" (some "t4") "u", .addEndEvent "P" "done" none (some "e") "u" "v",
   .addSequenceFlow "P" "s" "t0" "" "f1", .addSequenceFlow "P" "t0" "g" "" "f2",
   .addSequenceFlow "P" "g" "t1" "large" "f3", .addSequenceFlow "P" "g" "j" "small" "f4", .addSequenceFlow "P" "g" "t3" "odd" "f5",
   .addSequenceFlow "P" "t1" "g2" "" "f6", .addSequenceFlow "P" "g2" "p1" "x" "f7", .addSequenceFlow "P" "g2" "p2" "y" "f8",
   .addSequenceFlow "P" "p1" "j2" "" "f9", .addSequenceFlow "P" "p2" "j2" "" "f10", .addSequenceFlow "P" "j2" "t2" "" "f11", .addSequenceFlow "P" "t2" "j" "" "f12",
   .addSequenceFlow "P" "t3" "e2" "" "f13", .addSequenceFlow "P" "j" "t4" "" "f14", .addSequenceFlow "P" "t4" "e" "" "f15"]

theorem strand_allowed : AllowedHistory {} strandOps := by
  simp [strandOps, AllowedHistory, Allowed, step, declaredNode, declaredFlow, directionArg, directions, chosen]

/-- The node with an id. -/
def nodeOf (d : Diagram) (i : String) : Node := (d.getNodeById i).getD ("", {})

/-- Its structure. -/
def strandLine (d : Diagram) : Strand :=
  let n := nodeOf d
  .step (n "s") (.step (n "t0") (.block (n "g")
    (.cons (.step (n "t1") (.block (n "g2") (.cons (.step (n "p1") .meet) (.cons (.step (n "p2") .meet) .nil)) (.step (n "j2") (.step (n "t2") .meet))))
      (.cons .meet (.cons (.step (n "t3") (.stop (n "e2"))) .nil)))
    (.step (n "j") (.step (n "t4") (.stop (n "e"))))))

set_option maxRecDepth 8000 in
theorem strand_structured : Structured (Op.run {} strandOps) (strandLine (Op.run {} strandOps)) :=
  structured_of_check (by decide +kernel)

set_option maxRecDepth 8000 in
/-- The hypotheses hold for it; the table. -/
example : Consistent (Op.run {} strandOps) ∧ Structured (Op.run {} strandOps) (strandLine (Op.run {} strandOps)) ∧
    (strandLine (Op.run {} strandOps)).table (Op.run {} strandOps) false "" 0 "" =
      [Row.mk "0" "begin" "" "" "" "", Row.mk "1" "order" "" "" "" "", Row.mk "2a1" "check" "large" "" "" "", Row.mk "2a2a1" "pack" "" "" "" "",
       Row.mk "2a2b1" "bill" "" "" "" "", Row.mk "2a3" "ship" "" "" "" "", Row.mk "2b1" "goto 3" "small" "" "" "", Row.mk "2c1" "explain" "else" "" "" "",
       Row.mk "2c2" "refused" "" "" "" "yes", Row.mk "3" "close" "" "" "" "", Row.mk "4" "done" "" "" "" "yes"] :=
  ⟨consistent_of_allowed _ strand_allowed, strand_structured, by decide +kernel⟩

/-- A block that is the last part of a branch of another block. -/
def lateJoinOps : List Op :=
  [.createNew "d" "D", .addProcess "p" false true "None" "PL" "P",
   .addStartEvent "P" "begin" none false true (some "s") "u1" "u2", .addParallelGateway "P" "g" "Diverging" none "g", .addParallelGateway "P" "g2" "Diverging" none "g2",
   .addTask "P" "pack" (some "a") "u", .addTask "P" "wrap" (some "b") "u", .addTask "P" "bill" (some "c") "u",
   .addParallelGateway "P" "j2" "Converging" none "j2", .addParallelGateway "P" "j" "Converging" none "j", .addTask "P" "ship" (some "t") "u",
   .addEndEvent "P" "done" none (some "e") "u" "v",
   .addSequenceFlow "P" "s" "g" "" "f1", .addSequenceFlow "P" "g" "g2" "" "f2", .addSequenceFlow "P" "g" "c" "" "f3", .addSequenceFlow "P" "g2" "a" "" "f4",
   .addSequenceFlow "P" "g2" "b" "" "f5", .addSequenceFlow "P" "a" "j2" "" "f6", .addSequenceFlow "P" "b" "j2" "" "f7", .addSequenceFlow "P" "j2" "j" "" "f8",
   .addSequenceFlow "P" "c" "j" "" "f9", .addSequenceFlow "P" "j" "t" "" "f10", .addSequenceFlow "P" "t" "e" "" "f11"]

theorem lateJoin_allowed : AllowedHistory {} lateJoinOps := by
  simp [lateJoinOps, AllowedHistory, Allowed, step, declaredNode, declaredFlow, directionArg, directions, chosen]

set_option maxRecDepth 8000 in
/-- **C96 (sharp).** If a block is the last part of a branch and its branches meet at a gateway, the export runs on behind the outer join inside the branch: what follows is written twice. -/
theorem C96_block_at_the_end : ∃ d, Consistent d ∧ (d.getNodes.map fun n => n.2.nodeName).Nodup ∧ (∃ n ∈ d.getNodes, n.2.nodeName = some "ship") ∧
    ∃ N rows, (∀ fuel ≥ N, exportRows d fuel = .ok rows) ∧ rows.map (·.activity) = ["begin", "pack", "wrap", "ship", "done", "bill", "ship", "done"] := by
  refine ⟨Op.run {} lateJoinOps, consistent_of_allowed _ lateJoin_allowed, by decide +kernel, by decide +kernel, 20, ?_⟩
  obtain ⟨rows, e, hp⟩ := ok_of_check (x := exportRows (Op.run {} lateJoinOps) 20) (fun rows => rows.map (·.activity) == ["begin", "pack", "wrap", "ship", "done", "bill", "ship", "done"]) (by decide +kernel)
  exact ⟨rows, fun fuel hf => exportRows_mono hf e, by simpa using hp⟩

/-- A gateway at which two branches meet and two others begin. -/
def joinSplitOps : List Op :=
  [.createNew "d" "D", .addProcess "p" false true "None" "PL" "P",
   .addStartEvent "P" "begin" none false true (some "s") "u1" "u2", .addParallelGateway "P" "g" "Diverging" none "g",
   .addTask "P" "pack" (some "a") "u", .addTask "P" "wrap" (some "b") "u", .addParallelGateway "P" "x" "Mixed" none "x", .addTask "P" "bill" (some "c") "u", .addTask "P" "ship" (some "t") "u",
   .addParallelGateway "P" "j" "Converging" none "j",
   .addEndEvent "P" "done" none (some "e") "u" "v",
   .addSequenceFlow "P" "s" "g" "" "f1", .addSequenceFlow "P" "g" "a" "" "f2", .addSequenceFlow "P" "g" "b" "" "f3", .addSequenceFlow "P" "a" "x" "" "f4",
   .addSequenceFlow "P" "b" "x" "" "f5", .addSequenceFlow "P" "x" "c" "" "f6", .addSequenceFlow "P" "x" "t" "" "f7", .addSequenceFlow "P" "c" "j" "" "f8",
   .addSequenceFlow "P" "t" "j" "" "f9", .addSequenceFlow "P" "j" "e" "" "f10"]

theorem joinSplit_allowed : AllowedHistory {} joinSplitOps := by
  simp [joinSplitOps, AllowedHistory, Allowed, step, declaredNode, declaredFlow, directionArg, directions, chosen]

set_option maxRecDepth 8000 in
/-- **C96 (sharp).** Behind a gateway at which branches meet and other branches begin, only the first of these is followed, and only to the next join. -/
theorem C96_join_and_split : ∃ d, Consistent d ∧ (d.getNodes.map fun n => n.2.nodeName).Nodup ∧ (∃ n ∈ d.getNodes, n.2.nodeName = some "ship") ∧ (∃ n ∈ d.getNodes, n.2.nodeName = some "done") ∧
    ∃ N rows, (∀ fuel ≥ N, exportRows d fuel = .ok rows) ∧ rows.map (·.activity) = ["begin", "pack", "wrap", "bill"] := by
  refine ⟨Op.run {} joinSplitOps, consistent_of_allowed _ joinSplit_allowed, by decide +kernel, by decide +kernel, by decide +kernel, 20, ?_⟩
  obtain ⟨rows, e, hp⟩ := ok_of_check (x := exportRows (Op.run {} joinSplitOps) 20) (fun rows => rows.map (·.activity) == ["begin", "pack", "wrap", "bill"]) (by decide +kernel)
  exact ⟨rows, fun fuel hf => exportRows_mono hf e, by simpa using hp⟩

/-- Two branches that end in the same end event. -/
def commonEndOps : List Op :=
  [.createNew "d" "D", .addProcess "p" false true "None" "PL" "P",
   .addStartEvent "P" "begin" none false true (some "s") "u1" "u2", .addParallelGateway "P" "g" "Diverging" none "g",
   .addTask "P" "pack" (some "a") "u", .addTask "P" "wrap" (some "b") "u", 
   .addEndEvent "P" "done" none (some "e") "u" "v",
   .addSequenceFlow "P" "s" "g" "" "f1", .addSequenceFlow "P" "g" "a" "" "f2", .addSequenceFlow "P" "g" "b" "" "f3", .addSequenceFlow "P" "a" "e" "" "f4",
   .addSequenceFlow "P" "b" "e" "" "f5"]

theorem commonEnd_allowed : AllowedHistory {} commonEndOps := by
  simp [commonEndOps, AllowedHistory, Allowed, step, declaredNode, declaredFlow, directionArg, directions, chosen]

set_option maxRecDepth 8000 in
/-- **C96 (sharp).** An end event in which branches meet is written once for each branch. -/
theorem C96_common_end : ∃ d, Consistent d ∧ (d.getNodes.map fun n => n.2.nodeName).Nodup ∧ (∃ n ∈ d.getNodes, n.2.nodeName = some "done") ∧
    ∃ N rows, (∀ fuel ≥ N, exportRows d fuel = .ok rows) ∧ rows.map (·.activity) = ["begin", "pack", "done", "wrap", "done"] := by
  refine ⟨Op.run {} commonEndOps, consistent_of_allowed _ commonEnd_allowed, by decide +kernel, by decide +kernel, 20, ?_⟩
  obtain ⟨rows, e, hp⟩ := ok_of_check (x := exportRows (Op.run {} commonEndOps) 20) (fun rows => rows.map (·.activity) == ["begin", "pack", "done", "wrap", "done"]) (by decide +kernel)
  exact ⟨rows, fun fuel hf => exportRows_mono hf e, by simpa using hp⟩

end Bpmn.Props

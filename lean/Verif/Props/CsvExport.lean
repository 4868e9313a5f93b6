import Verif.Lemmas.CsvTree
import Verif.Props.XmlContent
import Verif.Props.Layouter
/-!
# CSV export: C41, C42, C43, C54, C55, C56
-/
set_option linter.unusedSimpArgs false
set_option linter.unusedVariables false

namespace Bpmn.Props
open Bpmn.Spec Bpmn.Csv Bpmn.Spec.Csv

/-- A start event, an exclusive gateway with two branches, an end event for each. -/
def treeOps : List Op :=
  [.createNew "d" "D", .addProcess "p" false true "None" "PL" "P",
   .addStartEvent "P" "begin" (some "timer") false true (some "s") "u1" "u2",
   .addExclusiveGateway "P" "g" "Diverging" (some "f3") none "g",
   .addTask "P" "ship" (some "t1") "u4", .addSubprocess "P" "refund" false false (some "t2") "u5",
   .addEndEvent "P" "shipped" none (some "e1") "u6" "u7", .addEndEvent "P" "refunded" (some "message") (some "e2") "u8" "u9",
   .addSequenceFlow "P" "s" "g" "" "f1", .addSequenceFlow "P" "g" "t1" "paid" "f2", .addSequenceFlow "P" "g" "t2" "" "f3",
   .addSequenceFlow "P" "t1" "e1" "" "f4", .addSequenceFlow "P" "t2" "e2" "" "f5"]

theorem tree_allowed : AllowedHistory {} treeOps := by
  simp [treeOps, AllowedHistory, Allowed, step, declaredNode, declaredFlow, directionArg, directions, chosen]

/-! ## C41 -/

/-- **C41.** On every diagram whose nodes have a type and both lists, the CSV export raises `BpmnPythonError` exactly when the number of
nodes without incoming flows is not one. -/
theorem C41_one_start (d : Diagram) (h : Complete d) (fuel : Nat) :
    exportRows d fuel = .error .bpmnError ↔ (starts d).length ≠ 1 := by
  unfold exportRows
  rw [startNodes_eq fun n hn => (h n hn).2.1]
  rw [show d.getNodes.filter (fun n => decide ((ins n).length = 0)) = starts d from rfl]
  simp only [except_bind_ok]
  match starts d with
  | [] => simp
  | [s] =>
    constructor
    · intro hh
      refine absurd hh (NoBpmn.bind (classify_no d) fun cls _ => NoBpmn.bind (exportNode_no d cls fuel _ _ _ _ _ _ _) fun x _ => noBpmn_ok _)
    · simp
  | _ :: _ :: _ => simp

/-- Two start events; an error, also without any budget. -/
example : Complete (Op.run {} (treeOps ++ [.addTask "P" "alone" (some "t9") "u"])) ∧
    (starts (Op.run {} (treeOps ++ [.addTask "P" "alone" (some "t9") "u"]))).length = 2 ∧
    exportRows (Op.run {} (treeOps ++ [.addTask "P" "alone" (some "t9") "u"])) 0 = .error .bpmnError ∧
    (starts (Op.run {} treeOps)).length = 1 := by
  refine ⟨?_, ?_, ?_, ?_⟩
  · unfold Complete; decide
  · decide
  · rw [C41_one_start _ (by unfold Complete; decide)]; decide
  · decide

/-! ## C42 -/

/-- **C42.** When the CSV export succeeds, no two rows have the same Order, and every Order is a number, or numbers separated by the
small letters of branches. -/
theorem C42_orders (d : Diagram) (fuel : Nat) (rows : List Row) (h : exportRows d fuel = .ok rows) :
    (rows.map Row.order).Nodup ∧ ∀ r ∈ rows, IsOrder r.order := by
  unfold exportRows at h
  obtain ⟨st, _, h⟩ := except_bind_eq_ok h
  split at h
  · obtain ⟨cls, _, h⟩ := except_bind_eq_ok h
    obtain ⟨⟨rows', nx⟩, h1, h⟩ := except_bind_eq_ok h
    simp only [except_pure, Except.ok.injEq] at h
    subst h
    obtain ⟨new, e, hn, _, ho⟩ := exportNode_ok d cls fuel _ _ _ _ _ _ _ _ _ h1
    simp at e
    subst e
    exact ⟨hn, ho (by simpa using BranchPrefix.nil)⟩
  · simp at h

/-- Orders with branches, and what they look like. -/
example : exportRows (Op.run {} treeOps) 8 = .ok [Row.mk "0" "timer begin" "" "" "" "", Row.mk "1a1" "ship" "paid" "" "" "",
    Row.mk "1a2" "shipped" "" "" "" "yes", Row.mk "1b1" "refund" "else" "" "yes" "", Row.mk "1b2" "message refunded" "" "" "" "yes"] ∧
    IsOrder "1a2" := by
  refine ⟨by decide +kernel, ['1', 'a'], 2, ?_, by decide⟩
  exact BranchPrefix.step 1 (c := 'a') .nil (by decide) (by decide)

/-! ## C43 -/

theorem partsOf_append_cons (c : Char) (s t : String) (l : List Char) (hl : t.toList = c :: l) (hs : c ∉ s.toList) :
    partsOf c (s ++ t) = s :: partsOf c (String.ofList l) := by
  simp [partsOf, hl, List.splitOn_append_cons_self_of_not_mem hs]

/-- The characters of a line. -/
theorem line_toList (r : Row) : r.line.toList = [','].intercalate ((fields r).map String.toList) := by
  simp [Row.line, fields, List.intercalate, List.intersperse]

theorem count_intercalate (c : Char) : ∀ ls : List (List Char), ls ≠ [] →
    (([c].intercalate ls).splitOn c).length = ls.length + (ls.map (List.count c)).sum := by
  have len : ∀ l : List Char, (l.splitOn c).length = l.count c + 1 := by
    intro l
    induction l with
    | nil => simp
    | cons x l ih =>
      rw [List.splitOn_cons_eq_if_modifyHead]
      by_cases hx : x = c
      · simp [hx, ih]
      · simp [hx, ih]
  intro ls
  induction ls with
  | nil => simp
  | cons a ls ih =>
    intro _
    cases ls with
    | nil => simp [len]; omega
    | cons b ls =>
      have := ih (by simp)
      have e : [c].intercalate (a :: b :: ls) = a ++ c :: [c].intercalate (b :: ls) := by simp [List.intercalate, List.intersperse]
      rw [e, List.splitOn_append_cons_self, List.length_append, this, len]
      simp
      omega

theorem partsOf_intercalate_iff (c : Char) (ss : List String) (hne : ss ≠ []) :
    (([c].intercalate (ss.map String.toList)).splitOn c).map String.ofList = ss ↔ ∀ s ∈ ss, c ∉ s.toList := by
  constructor
  · intro h
    have h1 := congrArg List.length h
    rw [List.length_map, count_intercalate _ _ (by simpa using hne)] at h1
    simp only [List.length_map, List.map_map] at h1
    have h2 : (ss.map (List.count c ∘ String.toList)).sum = 0 := by omega
    intro s hs hc
    rw [List.sum_eq_zero_iff_forall_eq_nat] at h2
    have := h2 _ (List.mem_map.2 ⟨s, hs, rfl⟩)
    simp only [Function.comp, List.count_eq_zero] at this
    exact this hc
  · intro h
    rw [List.splitOn_intercalate c (by simpa using h) (by simpa using hne)]
    simp [Function.comp_def]

/-- **C43.** Splitting a written line at commas gives back the six fields exactly when no field contains a comma; every comma in a field
gives one part more. -/
theorem C43_line (r : Row) :
    (partsOf ',' r.line = fields r ↔ ∀ f ∈ fields r, ',' ∉ f.toList) ∧
    (partsOf ',' r.line).length = 6 + ((fields r).map fun f => f.toList.count ',').sum := by
  constructor
  · unfold partsOf
    rw [line_toList]
    exact partsOf_intercalate_iff ',' (fields r) (by simp [fields])
  · unfold partsOf
    rw [line_toList, List.length_map, count_intercalate _ _ (by simp [fields])]
    simp [fields]

theorem lines_toList (ls : List String) (a : String) :
    (a ++ "\n" ++ String.join (ls.map fun l => l ++ "\n")).toList = ['\n'].intercalate (((a :: ls) ++ [""]).map String.toList) := by
  induction ls generalizing a with
  | nil => simp [List.intercalate, List.intersperse, String.join]
  | cons b ls ih =>
    have := ih b
    have e : ['\n'].intercalate (((a :: b :: ls) ++ [""]).map String.toList) =
        a.toList ++ '\n' :: ['\n'].intercalate (((b :: ls) ++ [""]).map String.toList) := by
      simp [List.intercalate, List.intersperse]
    rw [e, ← this]
    simp [String.toList_join]

theorem header_line : ("Order,Activity,Condition,Who,Subprocess,Terminated\n" : String) =
    "Order,Activity,Condition,Who,Subprocess,Terminated" ++ "\n" := by decide

theorem fileText_eq (rows : List Row) : fileText rows = "Order,Activity,Condition,Who,Subprocess,Terminated" ++ "\n" ++
    String.join ((rows.map Row.line).map fun l => l ++ "\n") := by
  rw [List.map_map]
  exact congrArg (fun h => h ++ String.join (rows.map fun r => r.line ++ "\n")) header_line

theorem fileText_toList (rows : List Row) :
    (fileText rows).toList =
      ['\n'].intercalate ((("Order,Activity,Condition,Who,Subprocess,Terminated" :: rows.map Row.line) ++ [""]).map String.toList) :=
  (congrArg String.toList (fileText_eq rows)).trans (lines_toList _ _)

/-- **C43, the whole file.** Reading the written file by splitting it at line ends and commas gives the header and the fields of all rows
exactly when no field of any row contains a comma or a line end. -/
theorem C43_file (rows : List Row) :
    readTable (fileText rows) = header :: rows.map fields ↔ ∀ r ∈ rows, ∀ f ∈ fields r, ',' ∉ f.toList ∧ '\n' ∉ f.toList := by
  have hhead : partsOf ',' "Order,Activity,Condition,Who,Subprocess,Terminated" = header := by decide
  have lineNl : ∀ r : Row, '\n' ∉ r.line.toList ↔ ∀ f ∈ fields r, '\n' ∉ f.toList := by
    intro r
    simp [Row.line, fields, not_or]
  have split : (∀ r ∈ rows, '\n' ∉ r.line.toList) →
      partsOf '\n' (fileText rows) = ("Order,Activity,Condition,Who,Subprocess,Terminated" :: rows.map Row.line) ++ [""] := by
    intro h
    unfold partsOf
    rw [fileText_toList]
    apply (partsOf_intercalate_iff '\n' _ (by simp)).2
    intro s hs
    simp only [List.cons_append, List.mem_cons, List.mem_append, List.mem_map, List.not_mem_nil, or_false] at hs
    rcases hs with rfl | ⟨r, hr, rfl⟩ | rfl
    · decide
    · exact h r hr
    · simp
  constructor
  · intro h
    have hl : ∀ r ∈ rows, '\n' ∉ r.line.toList := by
      have h1 := congrArg List.length h
      unfold readTable partsOf at h1
      rw [fileText_toList] at h1
      simp only [List.length_map, List.length_dropLast, count_intercalate _ _ (show
        (((("Order,Activity,Condition,Who,Subprocess,Terminated" :: rows.map Row.line) ++ [""]).map String.toList) ≠ []) by simp)] at h1
      simp only [List.length_append, List.length_cons, List.length_map, List.length_nil, List.map_append, List.map_cons, List.map_nil,
        List.sum_append, List.sum_cons, List.sum_nil, List.map_map] at h1
      have h2 : (rows.map (List.count '\n' ∘ (String.toList ∘ Row.line))).sum = 0 := by
        have e : (List.count '\n' ∘ String.toList ∘ Row.line) = (List.count '\n' ∘ (String.toList ∘ Row.line)) := rfl
        omega
      rw [List.sum_eq_zero_iff_forall_eq_nat] at h2
      intro r hr
      have := h2 _ (List.mem_map.2 ⟨r, hr, rfl⟩)
      simpa [List.count_eq_zero] using this
    unfold readTable at h
    rw [split hl, List.dropLast_concat, List.map_cons, hhead, List.map_map] at h
    simp only [List.cons.injEq, true_and] at h
    intro r hr f hf
    refine ⟨?_, (lineNl r).1 (hl r hr) f hf⟩
    have := (List.map_inj_left.1 h) r hr
    exact (C43_line r).1.1 this f hf
  · intro h
    have hl : ∀ r ∈ rows, '\n' ∉ r.line.toList := fun r hr => (lineNl r).2 fun f hf => (h r hr f hf).2
    unfold readTable
    rw [split hl, List.dropLast_concat, List.map_cons, hhead, List.map_map]
    congr 1
    apply List.map_congr_left
    intro r hr
    exact (C43_line r).1.2 fun f hf => (h r hr f hf).1

/-- **C43, the exported file.** The file that the export writes holds the header and the exported rows in their order: reading it gives back the fields of
these rows exactly when no field contains a comma or a line end; an export that fails gives no text. -/
theorem C43_export (d : Diagram) (fuel : Nat) :
    (∀ rows, exportRows d fuel = .ok rows → ∃ text, exportText d fuel = .ok text ∧
      (readTable text = header :: rows.map fields ↔ ∀ r ∈ rows, ∀ f ∈ fields r, ',' ∉ f.toList ∧ '\n' ∉ f.toList)) ∧
    ∀ e, exportRows d fuel = .error e → exportText d fuel = .error e := by
  constructor
  · intro rows h
    exact ⟨_, by unfold exportText; rw [h]; rfl, C43_file rows⟩
  · intro e h
    unfold exportText
    rw [h]; rfl

/-- A name with a comma is torn apart. -/
example : partsOf ',' (Row.mk "3" "pick, pack" "" "" "" "").line = ["3", "pick", " pack", "", "", "", ""] := by decide

/-! ## C54 -/

/-- **C54.** The CSV export of every consistent acyclic diagram that has one start, supported and named elements, at most 26 branches at a
split, and something after every start event and joining gateway, succeeds; the depth of the recursion is at most the number of nodes. -/
theorem C54_acyclic_succeeds (d : Diagram) (h : Consistent d) (ha : Acyclic d) (hx : Tabular d) :
    ∃ rows, ∀ fuel ≥ d.getNodes.length, exportRows d fuel = .ok rows :=
  exportRows_fine h ha hx

/-- The rank of each node of `treeOps`. -/
def treeRank (n : Node) : Nat := if n.1 = "s" then 0 else if n.1 = "g" then 1 else if n.1 = "t1" ∨ n.1 = "t2" then 2 else 3

/-- Acyclicity of a diagram by a check of the ranks at both ends of every listed flow. -/
theorem acyclic_of_check {d : Diagram} (rank : Node → Nat) (key : ∀ a ∈ d.getNodes, ∀ i ∈ outs a, ∀ b ∈ d.getNodes,
    (d.getFlowById i).map (fun r => r.map fun f => f.2.2.targetRef) = .ok (some (some b.1)) → rank a < rank b) : Acyclic d := by
  refine acyclic_of_rank rank ?_
  rintro a ha b ⟨i, hi, f, hf, ht, hb⟩
  apply key a ha i hi b (Spec.Consistent.mem_of_getNodeById hb).1
  rw [hf]
  simp [Except.map, ht]

theorem tree_tabular : Tabular (Op.run {} treeOps) := by
  constructor
  · decide +kernel
  · unfold Supported; decide +kernel
  · decide +kernel
  · decide +kernel
  · decide +kernel
  · decide +kernel

/-- The hypotheses are met. -/
example : Consistent (Op.run {} treeOps) ∧ Acyclic (Op.run {} treeOps) ∧ Tabular (Op.run {} treeOps) :=
  ⟨consistent_of_allowed _ tree_allowed, acyclic_of_check treeRank (by decide +kernel), tree_tabular⟩

/-! ## C55 -/

/-- Two nested splits that end in the same join; then a task and an end event. -/
def sharedJoinOps : List Op :=
  [.createNew "d" "D", .addProcess "p" false true "None" "PL" "P",
   .addStartEvent "P" "begin" none false true (some "s") "u1" "u2",
   .addParallelGateway "P" "g1" "Diverging" none "g1", .addParallelGateway "P" "g2" "Diverging" none "g2",
   .addTask "P" "x" (some "x") "u", .addTask "P" "y" (some "y") "u", .addTask "P" "z" (some "z") "u",
   .addParallelGateway "P" "j" "Converging" none "j", .addTask "P" "bill" (some "t") "u", .addEndEvent "P" "done" none (some "e") "u" "v",
   .addSequenceFlow "P" "s" "g1" "" "f1", .addSequenceFlow "P" "g1" "g2" "" "f2", .addSequenceFlow "P" "g1" "z" "" "f3",
   .addSequenceFlow "P" "g2" "x" "" "f4", .addSequenceFlow "P" "g2" "y" "" "f5",
   .addSequenceFlow "P" "x" "j" "" "f6", .addSequenceFlow "P" "y" "j" "" "f7", .addSequenceFlow "P" "z" "j" "" "f8",
   .addSequenceFlow "P" "j" "t" "" "f9", .addSequenceFlow "P" "t" "e" "" "f10"]

/-- A split into three; two branches are joined early, followed by a task before the last join. -/
def earlyJoinOps : List Op :=
  [.createNew "d" "D", .addProcess "p" false true "None" "PL" "P",
   .addStartEvent "P" "begin" none false true (some "s") "u1" "u2",
   .addParallelGateway "P" "g1" "Diverging" none "g1",
   .addTask "P" "a" (some "a") "u", .addTask "P" "b" (some "b") "u", .addTask "P" "c" (some "c") "u", .addTask "P" "pack" (some "l") "u",
   .addParallelGateway "P" "j1" "Converging" none "j1", .addParallelGateway "P" "j2" "Converging" none "j2",
   .addEndEvent "P" "done" none (some "e") "u" "v",
   .addSequenceFlow "P" "s" "g1" "" "f1", .addSequenceFlow "P" "g1" "a" "" "f2", .addSequenceFlow "P" "g1" "b" "" "f3",
   .addSequenceFlow "P" "g1" "c" "" "f4", .addSequenceFlow "P" "a" "j1" "" "f5", .addSequenceFlow "P" "b" "j1" "" "f6",
   .addSequenceFlow "P" "j1" "l" "" "f7", .addSequenceFlow "P" "l" "j2" "" "f8", .addSequenceFlow "P" "c" "j2" "" "f9",
   .addSequenceFlow "P" "j2" "e" "" "f10"]

theorem sharedJoin_allowed : AllowedHistory {} sharedJoinOps := by
  simp [sharedJoinOps, AllowedHistory, Allowed, step, declaredNode, declaredFlow, directionArg, directions, chosen]

theorem earlyJoin_allowed : AllowedHistory {} earlyJoinOps := by
  simp [earlyJoinOps, AllowedHistory, Allowed, step, declaredNode, declaredFlow, directionArg, directions, chosen]

/-- The rank of each node of `sharedJoinOps`. -/
def sharedRank (n : Node) : Nat :=
  if n.1 = "s" then 0 else if n.1 = "g1" then 1 else if n.1 = "g2" then 2 else if n.1 = "x" ∨ n.1 = "y" ∨ n.1 = "z" then 3
  else if n.1 = "j" then 4 else if n.1 = "t" then 5 else 6

/-- The rank of each node of `earlyJoinOps`. -/
def earlyRank (n : Node) : Nat :=
  if n.1 = "s" then 0 else if n.1 = "g1" then 1 else if n.1 = "a" ∨ n.1 = "b" ∨ n.1 = "c" then 2 else if n.1 = "j1" then 3
  else if n.1 = "l" then 4 else if n.1 = "j2" then 5 else 6

/-- **C55 (repeated).** The CSV export of an acyclic diagram can export an activity twice. -/
theorem C55_repeated : ∃ d, Consistent d ∧ Acyclic d ∧ Tabular d ∧ (d.getNodes.filter fun n => n.2.nodeName = some "bill").length = 1 ∧
    ∃ rows, (∀ fuel ≥ d.getNodes.length, exportRows d fuel = .ok rows) ∧ (rows.filter fun r => r.activity = "bill").length = 2 := by
  have ht : Tabular (Op.run {} sharedJoinOps) := by
    constructor
    · decide +kernel
    · unfold Supported; decide +kernel
    · decide +kernel
    · decide +kernel
    · decide +kernel
    · decide +kernel
  have hc := consistent_of_allowed _ sharedJoin_allowed
  have ha : Acyclic (Op.run {} sharedJoinOps) := acyclic_of_check sharedRank (by decide +kernel)
  refine ⟨Op.run {} sharedJoinOps, hc, ha, ht, by decide +kernel, ?_⟩
  obtain ⟨rows, hr⟩ := C54_acyclic_succeeds _ hc ha ht
  refine ⟨rows, hr, ?_⟩
  obtain ⟨rows', e, hp⟩ := ok_of_check (x := exportRows (Op.run {} sharedJoinOps) (Op.run {} sharedJoinOps).getNodes.length)
    (fun rows => (rows.filter fun r => r.activity = "bill").length == 2) (by decide +kernel)
  rw [hr _ (Nat.le_refl _)] at e
  cases e
  simpa using hp

/-- **C55 (lost).** The CSV export of an acyclic diagram can leave out an activity, although it can be reached from the start and the end
can be reached from it. -/
theorem C55_lost : ∃ d, Consistent d ∧ Acyclic d ∧ Tabular d ∧ (∃ n ∈ d.getNodes, n.2.nodeName = some "pack" ∧ n.2.type = some "task") ∧
    ∃ rows, (∀ fuel ≥ d.getNodes.length, exportRows d fuel = .ok rows) ∧ ∀ r ∈ rows, r.activity ≠ "pack" := by
  have ht : Tabular (Op.run {} earlyJoinOps) := by
    constructor
    · decide +kernel
    · unfold Supported; decide +kernel
    · decide +kernel
    · decide +kernel
    · decide +kernel
    · decide +kernel
  have hc := consistent_of_allowed _ earlyJoin_allowed
  have ha : Acyclic (Op.run {} earlyJoinOps) := acyclic_of_check earlyRank (by decide +kernel)
  refine ⟨Op.run {} earlyJoinOps, hc, ha, ht, by decide +kernel, ?_⟩
  obtain ⟨rows, hr⟩ := C54_acyclic_succeeds _ hc ha ht
  refine ⟨rows, hr, ?_⟩
  obtain ⟨rows', e, hp⟩ := ok_of_check (x := exportRows (Op.run {} earlyJoinOps) (Op.run {} earlyJoinOps).getNodes.length)
    (fun rows => rows.all fun r => r.activity != "pack") (by decide +kernel)
  rw [hr _ (Nat.le_refl _)] at e
  cases e
  simpa using hp

/-- A split and join before a loop whose body is again a split and join. -/
def csvLoopOps : List Op :=
  [.createNew "d" "D", .addProcess "p" false true "None" "PL" "P",
   .addStartEvent "P" "begin" none false true (some "s") "u1" "u2", .addParallelGateway "P" "g" "Diverging" none "g",
   .addTask "P" "a" (some "a") "u", .addTask "P" "b" (some "b") "u", .addTask "P" "work" (some "x") "u",
   .addTask "P" "c" (some "c") "u", .addTask "P" "e" (some "e") "u", .addParallelGateway "P" "k" "Mixed" none "k",
   .addSequenceFlow "P" "s" "g" "" "f1", .addSequenceFlow "P" "g" "a" "" "f2", .addSequenceFlow "P" "g" "b" "" "f3",
   .addSequenceFlow "P" "a" "x" "" "f4", .addSequenceFlow "P" "b" "x" "" "f5",
   .addSequenceFlow "P" "x" "c" "" "f6", .addSequenceFlow "P" "x" "e" "" "f7", .addSequenceFlow "P" "c" "k" "" "f8",
   .addSequenceFlow "P" "e" "k" "" "f9", .addSequenceFlow "P" "k" "x" "" "f10"]

theorem csvLoop_allowed : AllowedHistory {} csvLoopOps := by
  simp [csvLoopOps, AllowedHistory, Allowed, step, declaredNode, declaredFlow, directionArg, directions, chosen]

/-- The diagram of `csvLoopOps`. -/
def csvLoop : Diagram := Op.run {} csvLoopOps

/-- A node of `csvLoopOps`. -/
def loopNode (i : String) : Node := (csvLoop.getNodeById i).getD ("", {})

theorem target_of_map {d : Diagram} {i : String} {n : Node} (h : (flowTarget d i).map (·.2) = .ok (some n)) :
    ∃ f, flowTarget d i = .ok (f, some n) := by
  cases e : flowTarget d i with
  | error x => rw [e] at h; cases h
  | ok p => rw [e] at h; obtain ⟨f, t⟩ := p; cases h; exact ⟨f, rfl⟩

/-- The classification of `csvLoopOps`. -/
def loopClasses : Dict String (List String) := (Classify.generateNodesClassification csvLoop).toOption.getD []

/-- The tasks of the loop lead back to its head. -/
theorem loop_branch (i : String) (hi : i = "c" ∨ i = "e") (fuel : Nat) (o : Nat) (p c w : String) (rows : List Row) :
    exportNode csvLoop loopClasses fuel (some (loopNode i)) o p c w false rows = .error .outOfFuel ∨
    ∃ rows', exportNode csvLoop loopClasses fuel (some (loopNode i)) o p c w false rows = .ok (rows', some (loopNode "x")) := by
  match fuel with
  | 0 => exact .inl rfl
  | fuel + 1 =>
    obtain ⟨f8, h8⟩ := target_of_map (d := csvLoop) (i := if i = "c" then "f8" else "f9") (n := loopNode "k") (by rcases hi with rfl | rfl <;> decide +kernel)
    obtain ⟨f10, h10⟩ := target_of_map (d := csvLoop) (i := "f10") (n := loopNode "x") (by decide +kernel)
    have hty : (loopNode i).2.type = some "task" := by rcases hi with rfl | rfl <;> decide +kernel
    obtain ⟨name, hname⟩ : ∃ name, (loopNode i).2.nodeName = some name := Option.isSome_iff_exists.1 (by rcases hi with rfl | rfl <;> decide +kernel)
    have hcl : loopClasses.get? (loopNode i).1 = some ["Element"] := by rcases hi with rfl | rfl <;> decide +kernel
    have hout : (loopNode i).2.outgoing = some [if i = "c" then "f8" else "f9"] := by rcases hi with rfl | rfl <;> decide +kernel
    simp only [exportNode, found, except_bind_ok, hty, need_some, exportElement, hcl, ownRow, hname, exportNext, hout, except_pure, pyIndex,
      List.getElem?_cons_zero, h8, List.length_cons, List.length_nil, String.reduceEq, if_false, if_true]
    simp only [List.mem_cons, String.reduceEq, List.not_mem_nil, or_self, false_and, if_false]
    match fuel with
    | 0 => exact .inl rfl
    | fuel + 1 =>
      right
      have hty' : (loopNode "k").2.type = some "parallelGateway" := by decide +kernel
      have hcl' : loopClasses.get? (loopNode "k").1 = some ["Element", "Join"] := by decide +kernel
      have hout' : (loopNode "k").2.outgoing = some ["f10"] := by decide +kernel
      simp only [exportNode, found, except_bind_ok, hty', need_some, exportElement, hcl', retract, hout', except_pure, pyIndex,
        List.getElem?_cons_zero, h10, String.reduceEq, if_false]
      simp only [List.mem_cons, String.reduceEq, or_true, true_or, true_and, or_self, if_true, if_false, except_bind_ok]
      exact ⟨_, rfl⟩

/-- From the head of the loop on, no budget suffices. -/
theorem loop_head : ∀ (fuel : Nat) (o : Nat) (p c w : String) (rows : List Row),
    exportNode csvLoop loopClasses fuel (some (loopNode "x")) o p c w true rows = .error .outOfFuel
  | 0, _, _, _, _, _ => rfl
  | fuel + 1, o, p, c, w, rows => by
    obtain ⟨f6, h6⟩ := target_of_map (d := csvLoop) (i := "f6") (n := loopNode "c") (by decide +kernel)
    obtain ⟨f7, h7⟩ := target_of_map (d := csvLoop) (i := "f7") (n := loopNode "e") (by decide +kernel)
    have hty : (loopNode "x").2.type = some "task" := by decide +kernel
    have hname : (loopNode "x").2.nodeName = some "work" := by decide +kernel
    have hcl : loopClasses.get? (loopNode "x").1 = some ["Element", "Join", "Split"] := by decide +kernel
    have hout : (loopNode "x").2.outgoing = some ["f6", "f7"] := by decide +kernel
    have hc1 : loopClasses.get? (loopNode "c").1 = some ["Element"] := by decide +kernel
    have hc2 : loopClasses.get? (loopNode "e").1 = some ["Element"] := by decide +kernel
    obtain ⟨s0, hs0⟩ := asciiLower_lt (i := 0) (by decide)
    obtain ⟨s1, hs1⟩ := asciiLower_lt (i := 0 + 1) (by decide)
    simp only [exportNode, found, except_bind_ok, hty, need_some, exportElement, hcl, ownRow, hname, exportNext, hout, except_pure,
      splitLoop, h6, h7, hs0, hs1, hc1, hc2, String.reduceEq, if_false, if_true]
    simp only [List.mem_cons, String.reduceEq, List.not_mem_nil, or_self, or_true, true_or, and_false, if_false, if_true, Bool.true_eq_false]
    rcases loop_branch "c" (.inl rfl) fuel 1 (p ++ toString o ++ s0) _ w (rows ++ [Row.mk (p ++ toString o) "work" c w "" ""]) with e | ⟨rows1, e⟩
    · rw [e]; rfl
    · rw [e]
      simp only [except_bind_ok]
      rcases loop_branch "e" (.inr rfl) fuel 1 (p ++ toString o ++ s1) _ w rows1 with e | ⟨rows2, e⟩
      · rw [e]; rfl
      · rw [e]
        simp only [except_bind_ok]
        exact loop_head fuel _ _ _ _ _

/-- A call before the loop: either the budget is used up, or it returns the head of the loop. -/
theorem loop_entry (i : String) (hi : i = "a" ∨ i = "b") (fuel : Nat) (o : Nat) (p c w : String) (rows : List Row) :
    exportNode csvLoop loopClasses fuel (some (loopNode i)) o p c w false rows = .error .outOfFuel ∨
    ∃ rows', exportNode csvLoop loopClasses fuel (some (loopNode i)) o p c w false rows = .ok (rows', some (loopNode "x")) := by
  match fuel with
  | 0 => exact .inl rfl
  | fuel + 1 =>
    obtain ⟨f4, h4⟩ := target_of_map (d := csvLoop) (i := if i = "a" then "f4" else "f5") (n := loopNode "x") (by rcases hi with rfl | rfl <;> decide +kernel)
    have hty : (loopNode i).2.type = some "task" := by rcases hi with rfl | rfl <;> decide +kernel
    obtain ⟨name, hname⟩ : ∃ name, (loopNode i).2.nodeName = some name := Option.isSome_iff_exists.1 (by rcases hi with rfl | rfl <;> decide +kernel)
    have hcl : loopClasses.get? (loopNode i).1 = some ["Element"] := by rcases hi with rfl | rfl <;> decide +kernel
    have hout : (loopNode i).2.outgoing = some [if i = "a" then "f4" else "f5"] := by rcases hi with rfl | rfl <;> decide +kernel
    simp only [exportNode, found, except_bind_ok, hty, need_some, exportElement, hcl, ownRow, hname, exportNext, hout, except_pure, pyIndex,
      List.getElem?_cons_zero, h4, List.length_cons, List.length_nil, String.reduceEq, if_false, if_true]
    simp only [List.mem_cons, String.reduceEq, List.not_mem_nil, or_self, false_and, if_false]
    match fuel with
    | 0 => exact .inl rfl
    | fuel + 1 =>
      right
      have hty' : (loopNode "x").2.type = some "task" := by decide +kernel
      have hcl' : loopClasses.get? (loopNode "x").1 = some ["Element", "Join", "Split"] := by decide +kernel
      simp only [exportNode, found, except_bind_ok, hty', need_some, exportElement, hcl', retract, except_pure, String.reduceEq, if_false]
      simp only [List.mem_cons, String.reduceEq, or_true, true_or, true_and, or_self, if_true, if_false, except_bind_ok]
      exact ⟨_, rfl⟩

/-- **C55 (no end).** On a diagram with a loop the CSV export may recurse without end: no budget suffices. -/
theorem C55_no_end : ∃ d, Consistent d ∧ Tabular d ∧ ∀ fuel, exportRows d fuel = .error .outOfFuel := by
  refine ⟨csvLoop, consistent_of_allowed _ csvLoop_allowed, ?_, ?_⟩
  · constructor
    · decide +kernel
    · unfold Supported; decide +kernel
    · decide +kernel
    · decide +kernel
    · decide +kernel
    · decide +kernel
  · intro fuel
    have hst : startNodes csvLoop.getNodes = .ok [loopNode "s"] := by decide +kernel
    have hcls : Classify.generateNodesClassification csvLoop = .ok loopClasses := by decide +kernel
    obtain ⟨f1, h1⟩ := target_of_map (d := csvLoop) (i := "f1") (n := loopNode "g") (by decide +kernel)
    obtain ⟨f2, h2⟩ := target_of_map (d := csvLoop) (i := "f2") (n := loopNode "a") (by decide +kernel)
    obtain ⟨f3, h3⟩ := target_of_map (d := csvLoop) (i := "f3") (n := loopNode "b") (by decide +kernel)
    simp only [exportRows, hst, hcls, except_bind_ok]
    match fuel with
    | 0 => rfl
    | 1 =>
      have hty : (loopNode "s").2.type = some "startEvent" := by decide +kernel
      have hname : (loopNode "s").2.nodeName = some "begin" := by decide +kernel
      have hout : (loopNode "s").2.outgoing = some ["f1"] := by decide +kernel
      simp only [exportNode, found, except_bind_ok, hty, need_some, exportStart, hname, hout, pyIndex, List.getElem?_cons_zero, h1,
        if_true, except_bind_error]
    | fuel + 2 =>
      have hty : (loopNode "s").2.type = some "startEvent" := by decide +kernel
      have hname : (loopNode "s").2.nodeName = some "begin" := by decide +kernel
      have hout : (loopNode "s").2.outgoing = some ["f1"] := by decide +kernel
      have hty' : (loopNode "g").2.type = some "parallelGateway" := by decide +kernel
      have hcl : loopClasses.get? (loopNode "g").1 = some ["Element", "Split"] := by decide +kernel
      have hout' : (loopNode "g").2.outgoing = some ["f2", "f3"] := by decide +kernel
      have hc1 : loopClasses.get? (loopNode "a").1 = some ["Element"] := by decide +kernel
      have hc2 : loopClasses.get? (loopNode "b").1 = some ["Element"] := by decide +kernel
      obtain ⟨s0, hs0⟩ := asciiLower_lt (i := 0) (by decide)
      obtain ⟨s1, hs1⟩ := asciiLower_lt (i := 0 + 1) (by decide)
      simp only [exportNode, found, except_bind_ok, hty, need_some, exportStart, hname, hout, pyIndex, List.getElem?_cons_zero, h1,
        hty', exportElement, hcl, ownRow, exportNext, hout', splitLoop, h2, h3, hs0, hs1, hc1, hc2, String.reduceEq, if_false, if_true]
      simp only [List.mem_cons, String.reduceEq, List.not_mem_nil, or_self, or_true, true_or, false_and, if_false, if_true, except_bind_ok]
      rcases loop_entry "a" (.inl rfl) fuel 1 ("" ++ toString (0 + 1) ++ s0) _ "" _ with e | ⟨rows1, e⟩
      · rw [e]; rfl
      · rw [e]
        simp only [except_bind_ok]
        rcases loop_entry "b" (.inr rfl) fuel 1 ("" ++ toString (0 + 1) ++ s1) _ "" rows1 with e | ⟨rows2, e⟩
        · rw [e]; rfl
        · rw [e]
          simp only [except_bind_ok, loop_head fuel]
          rfl

/-! ## C56 -/

/-- **C56.** When the CSV export of a consistent diagram without joins (start events with one outgoing flow, end events with none)
succeeds, the rows are, one for each, the activities, start and end events that can be reached from the start. -/
theorem C56_trees_complete (d : Diagram) (h : Consistent d) (ht : Treelike d) (fuel : Nat) (rows : List Row)
    (hr : exportRows d fuel = .ok rows) :
    ∃ s, starts d = [s] ∧ ∃ ns : List Node, rows.map content = ns.map caption ∧ ns.Nodup ∧
      ∀ n, n ∈ ns ↔ Relation.ReflTransGen (Next d) s n ∧ HasRow n := by
  unfold exportRows at hr
  rw [startNodes_eq fun n hn => (h.lists n hn).1] at hr
  rw [show d.getNodes.filter (fun n => decide ((ins n).length = 0)) = starts d from rfl] at hr
  simp only [except_bind_ok] at hr
  split at hr
  · rename_i s hs
    refine ⟨s, hs, ?_⟩
    have hm : s ∈ starts d := by simp [hs]
    obtain ⟨hm, h0⟩ := List.mem_filter.1 hm
    simp only [decide_eq_true_eq, List.length_eq_zero_iff] at h0
    rw [nodes_eq h.complete h.ids] at hr
    simp only [except_bind_ok] at hr
    obtain ⟨⟨rows', nx⟩, h1, h2⟩ := except_bind_eq_ok hr
    simp only [except_pure, Except.ok.injEq] at h2
    subst h2
    obtain ⟨_, new, ns, e1, e2, e3, e4⟩ := exportNode_lists h ht hm h0 fuel 0 s .zero _ _ _ _ _ _ _ _ h1
    simp at e1
    subst e1
    exact ⟨ns, e2, e3, e4⟩
  · simp at hr

/-- A tree with a timer, a subprocess and a message; all five rows. -/
example : Consistent (Op.run {} treeOps) ∧ Treelike (Op.run {} treeOps) ∧
    ∃ rows, exportRows (Op.run {} treeOps) 8 = .ok rows ∧ rows.map content =
      [("timer begin", "", ""), ("ship", "", ""), ("shipped", "", "yes"), ("refund", "yes", ""), ("message refunded", "", "yes")] := by
  refine ⟨consistent_of_allowed _ tree_allowed, ⟨by decide +kernel, by decide +kernel, by decide +kernel⟩, ?_⟩
  obtain ⟨rows, e, h⟩ := ok_of_check (x := exportRows (Op.run {} treeOps) 8)
    (fun rows => rows.map content == [("timer begin", "", ""), ("ship", "", ""), ("shipped", "", "yes"), ("refund", "yes", ""), ("message refunded", "", "yes")])
    (by decide +kernel)
  exact ⟨rows, e, by simpa using h⟩

end Bpmn.Props

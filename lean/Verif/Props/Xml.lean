import Verif.Lemmas.Orderly
/-!
# Properties C33, C38 - C40, C51: XML round trip, comments, indentation, tag names

`Export.exportXmlFile` is the tree written by `export_xml_file`, `ETree.toDom` the document read back from it, `Import.load` is
`load_diagram_from_xml`.  `ord` is the order in which Python iterates over a set; every order is allowed.
-/
set_option linter.unusedSimpArgs false
set_option linter.unusedVariables false

namespace Bpmn.Props
open Bpmn Bpmn.Spec

/-- A history with a sub-process (containing a sub-process), two processes, events, a gateway and eight flows. -/
def xmlOps : List Op :=
  [.createNew "d" "D", .addProcess "p" false true "None" "PL" "P", .addProcess "q" true false "Public" "PM" "Q",
   .addStartEvent "P" "s" (some "timer") false true (some "s") "u1" "u2",
   .addExclusiveGateway "P" "g" "Diverging" (some "f2") none "g",
   .addSubprocess "P" "sub" true false (some "sub") "u3", .addTask "P" "t2" (some "t2") "u5",
   .addTask "sub" "in1" (some "in1") "u6", .addSubprocess "sub" "in2" false true (some "in2") "u7", .addTask "in2" "deep" (some "deep") "u8",
   .addFlowNode "in2" "userTask" "deep2" (some "deep2") "u8",
   .addEndEvent "Q" "e" (some "message") (some "e") "u9" "u10", .addTask "Q" "t3" (some "t3") "u11",
   .addSequenceFlow "P" "s" "g" "" "f1", .addSequenceFlow "P" "g" "sub" "yes" "f2",
   .addSequenceFlow "P" "g" "t2" "no" "f3", .addSequenceFlow "P" "t2" "sub" "" "f4",
   .addSequenceFlow "sub" "in1" "in2" "" "f5", .addSequenceFlow "in2" "deep2" "deep" "x" "f6", .addSequenceFlow "Q" "t3" "e" "" "f7"]

set_option maxRecDepth 4000 in
theorem xml_orderly : OrderlyHistory {} xmlOps := by
  simp only [xmlOps, OrderlyHistory]
  refine ⟨⟨?_, ?_⟩, ⟨?_, ?_⟩, ⟨?_, ?_⟩, ⟨?_, ?_⟩, ⟨?_, ?_⟩, ⟨?_, ?_⟩, ⟨?_, ?_⟩, ⟨?_, ?_⟩, ⟨?_, ?_⟩, ⟨?_, ?_⟩, ⟨?_, ?_⟩, ⟨?_, ?_⟩, ⟨?_, ?_⟩,
    ⟨?_, ?_⟩, ⟨?_, ?_⟩, ⟨?_, ?_⟩, ⟨?_, ?_⟩, ⟨?_, ?_⟩, ⟨?_, ?_⟩, ⟨?_, ?_⟩, trivial⟩
  all_goals first
    | (constructor <;> simp [Allowed, step, declaredNode, declaredFlow, directionArg, directions, chosen, usable, Placed, baseNode])
    | simp [Allowed, step, declaredNode, declaredFlow, directionArg, directions, chosen]

/-! ## C33 -/

/-- **C33.** Exporting a complete diagram succeeds (for every sufficient budget, with the same result), and loading the result into a new
object succeeds and gives the same diagram, whatever the iteration order of sets. -/
theorem C33_round_trip (d : Diagram) (hd : Exportable d) : ∃ t N, (∀ fuel ≥ N, Export.exportXmlFile fuel d = .ok t) ∧
    ∀ ord : List String → List String, (∀ l, (ord l).Perm l) → ∃ e, Import.load ord t.toDom {} = .ok e ∧ SameDiagram d e := by
  obtain ⟨height, N, hN, hh⟩ := hd.height
  refine ⟨Export.indent 0 (docTree d N), N, ?_, ?_⟩
  · intro fuel hf
    have hf' : ∀ n ∈ d.graph.nodes, height n.1 < fuel := fun n hn => Nat.lt_of_lt_of_le (hN n hn) hf
    simp [Export.exportXmlFile, definitions_ok hd.toWritable hh hf', docTree_fuel hh hN hf']
  · intro ord ho
    obtain ⟨e, h1, h2, -, -⟩ := load_docTree hd ho hh hN
    refine ⟨e, ?_, h2⟩
    rw [← Import.load_squeeze, Export.squeeze_indent 0 _ (clean_docTree hd.toWritable N)]
    exact h1

/-- **C33.** The same for every orderly history that creates a diagram and at least one process. -/
theorem C33_history_round_trip (ops : List Op) (h : OrderlyHistory {} ops) (hh : (runAbs {} ops).header.isSome)
    (hp : (runAbs {} ops).plane.isSome) : ∃ t N, (∀ fuel ≥ N, Export.exportXmlFile fuel (Op.run {} ops) = .ok t) ∧
    ∀ ord : List String → List String, (∀ l, (ord l).Perm l) →
      ∃ e, Import.load ord t.toDom {} = .ok e ∧ SameDiagram (Op.run {} ops) e :=
  C33_round_trip _ (exportable_of_orderly h hh hp)

example : OrderlyHistory {} xmlOps ∧ (runAbs {} xmlOps).header.isSome ∧ (runAbs {} xmlOps).plane.isSome ∧
    (Op.run {} xmlOps).getNodes.length = 10 ∧ (Op.run {} xmlOps).getFlows.length = 7 := by
  obtain ⟨e, w⟩ := run_empty xmlOps xml_orderly.allowed
  refine ⟨xml_orderly, rfl, rfl, ?_, ?_⟩
  · rw [e]
    rfl
  · have h := (Graph.flows_attrs_perm (Sane.empty.run xmlOps).wf).length_eq
    rw [e] at h ⊢
    simp only [List.length_map] at h
    exact h.trans rfl

example : Exportable (Op.run {} xmlOps) := exportable_of_orderly xml_orderly rfl rfl

/-! ## C38 -/

theorem importElements_other (ord : List String → List String) (pid : String) (o : Import.Owner) (s : String) : ∀ (ks : List Xml) (d e : Diagram),
    .other s ∈ ks → Import.importElements ord pid o ks d ≠ .ok e
  | [], _, _, h => by simp at h
  | x :: r, d, e, h => by
    intro he
    rw [Import.importElements] at he
    rcases List.mem_cons.1 h with rfl | h
    · simp [Import.importElement] at he
    · cases hx : Import.importElement ord pid o x d with
      | error _ => rw [hx] at he; simp at he
      | ok d' =>
        rw [hx] at he
        exact importElements_other ord pid o s r d' e h he

theorem importProcess_other {ord : List String → List String} {plane x : Xml} {d e : Diagram} {s : String} (h : .other s ∈ x.children) :
    Import.importProcess ord plane x d ≠ .ok e := by
  intro he
  unfold Import.importProcess at he
  obtain ⟨d1, -, he⟩ := except_bind_eq_ok he
  obtain ⟨d2, h2, -⟩ := except_bind_eq_ok he
  exact importElements_other _ _ _ s _ _ _ h h2

theorem importProcesses_other {ord : List String → List String} {plane x : Xml} {s : String} (h : .other s ∈ x.children) :
    ∀ (l : List Xml) (d e : Diagram), x ∈ l → Import.importProcesses ord plane l d ≠ .ok e
  | [], _, _, hx => by simp at hx
  | y :: r, d, e, hx => by
    intro he
    rw [Import.importProcesses] at he
    cases h1 : Import.importProcess ord plane y d with
    | error _ => rw [h1] at he; simp at he
    | ok d' =>
      rw [h1] at he
      rcases List.mem_cons.1 hx with rfl | hx
      · exact importProcess_other h h1
      · exact importProcesses_other h r d' e hx he

/-- **C38.** A document with a comment (or another node that is neither element nor text) directly inside a process is never loaded. -/
theorem C38_comment_in_process (ord : List String → List String) (root x : Xml) (hx : x ∈ Xml.byNameIn "process" [root]) (s : String)
    (hs : .other s ∈ x.children) (d e : Diagram) : Import.load ord root d ≠ .ok e := by
  intro he
  unfold Import.load at he
  obtain ⟨a, -, he⟩ := except_bind_eq_ok he
  obtain ⟨b, -, he⟩ := except_bind_eq_ok he
  obtain ⟨d1, h1, -⟩ := except_bind_eq_ok he
  exact importProcesses_other hs _ _ _ hx h1

/-- A document that loads; with a comment in the process it does not, and with a comment outside it still does. -/
def commentDoc (inside outside : List Xml) : Xml :=
  .elem "definitions" [] (outside ++
    [.elem "bpmndi:BPMNDiagram" [("id", "D")] [.elem "bpmndi:BPMNPlane" [("id", "PL"), ("bpmnElement", "P")] []],
     .elem "process" [("id", "P")] (inside ++ [.elem "task" [("id", "t"), ("name", "T")] []])])

example : (Import.load id (commentDoc [] []) {}).toOption.map (·.getNodes.map (·.1)) = some ["t"] ∧
    (Import.load id (commentDoc [] [.other "c"]) {}).toOption.map (·.getNodes.map (·.1)) = some ["t"] ∧
    Import.load id (commentDoc [.other "c"] []) {} = .error .attributeError := by
  refine ⟨rfl, rfl, rfl⟩

/-! ## C39 -/

/-- **C39.** `indent` changes nothing but blank text before the first child and blank text after elements, which become line breaks. -/
theorem C39_indent_only_whitespace (level : Nat) (t : ETree) : Reindented t (Export.indent level t) := Export.reindented_indent level t

/-- **C39.** Indenting twice is the same as indenting once. -/
theorem C39_indent_idempotent (level : Nat) (t : ETree) : Export.indent level (Export.indent level t) = Export.indent level t :=
  Export.indent_idem level t

example : Export.indent 0 (.node "a" [("k", "v")] none none [.node "b" [] (some "text") none [], .node "c" [] none (some " ") []]) =
    .node "a" [("k", "v")] (some "\n  ") (some "\n") [.node "b" [] (some "text") (some "\n") [], .node "c" [] none (some "\n") []] := by
  simp [Export.indent, Export.indentAll, Export.blank, Export.newline, Export.pySpace]

/-! ## C40 -/

/-- **C40.** Everything up to the last colon is removed from a tag name. -/
theorem C40_strip_namespace (p n : String) (h : ':' ∉ n.toList) : removeNamespace (p ++ ":" ++ n) = n ∧ removeNamespace n = n := by
  refine ⟨?_, removeNamespace_of_plain n h⟩
  have : (p ++ ":" ++ n).toList = p.toList ++ ':' :: n.toList := by simp
  rw [removeNamespace, this, afterColon_append _ _ _ h]
  simp

/-- **C40.** The result has no colon; removing the prefix again changes nothing. -/
theorem C40_idempotent (s : String) : ':' ∉ (removeNamespace s).toList ∧ removeNamespace (removeNamespace s) = removeNamespace s := by
  have : ':' ∉ (removeNamespace s).toList := by
    simp only [removeNamespace, String.toList_ofList]
    exact colon_not_mem_afterColon _ _ (by simp)
  exact ⟨this, removeNamespace_of_plain _ this⟩

example : removeNamespace "bpmn:a:task" = "task" := by decide

/-! ## C51 -/

/-- **C51.** Text between elements does not matter: documents that differ only in such text are loaded with the same result (the same
diagram or the same exception), into every object. -/
theorem C51_text_between_elements (ord : List String → List String) (x y : Xml) (h : squeeze x = squeeze y) (d : Diagram) :
    Import.load ord x d = Import.load ord y d := by
  rw [← Import.load_squeeze ord x, h, Import.load_squeeze]

/-- Pretty printing is such a difference (for every exported tree). -/
example (d : Diagram) (hd : Writable d) (f : Nat) :
    squeeze (Export.indent 0 (docTree d f)).toDom = squeeze (docTree d f).toDom := by
  have h := clean_docTree hd f
  rw [← Export.squeeze_indent 0 _ h, squeeze_idem]

end Bpmn.Props

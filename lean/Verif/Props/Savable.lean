import Verif.Lemmas.Savable
import Verif.Props.Xml
/-!
# Property C98: exactly which diagrams can be exported as XML

`Spec/Savable.lean` says what has to be there, in terms of what the query methods return.
-/
set_option linter.unusedSimpArgs false
set_option linter.unusedVariables false

namespace Bpmn.Props
open Bpmn Bpmn.Spec Export

/-- **C98.** `export_xml_file` writes a file (the same one for every sufficient budget) exactly if everything it writes is there. -/
theorem C98_exactly_which (d : Diagram) : (∃ t N, ∀ fuel ≥ N, exportXmlFile fuel d = .ok t) ↔ Savable d := by
  rw [← savable_iff]
  constructor
  · rintro ⟨t, N, h⟩
    exact ⟨N, t, h N (Nat.le_refl N)⟩
  · rintro ⟨N, t, h⟩
    exact ⟨t, N, fun fuel hf => exportXmlFile_later hf h⟩

/-- **C98.** The same for `export_xml_file_no_di`, which needs no places, but every node and flow of the diagram once for each process. -/
theorem C98_no_di (d : Diagram) : (∃ t N, ∀ fuel ≥ N, exportXmlFileNoDi fuel d = .ok t) ↔ SavableNoDi d := by
  rw [← savable_iff_no_di]
  constructor
  · rintro ⟨t, N, h⟩
    exact ⟨N, t, h N (Nat.le_refl N)⟩
  · rintro ⟨N, t, h⟩
    exact ⟨t, N, fun fuel hf => exportXmlFileNoDi_later hf h⟩

/-- **C98.** If something is missing, the export raises a `KeyError` or a `TypeError`, or it recurses without end. -/
theorem C98_otherwise (d : Diagram) (h : ¬ Savable d) :
    (∃ e N, (e = .keyError ∨ e = .typeError) ∧ ∀ fuel ≥ N, exportXmlFile fuel d = .error e) ∨ ∀ fuel, exportXmlFile fuel d = .error .outOfFuel := by
  by_cases hf : ∀ fuel, exportXmlFile fuel d = .error .outOfFuel
  · exact .inr hf
  · obtain ⟨N, hN⟩ := Classical.not_forall.1 hf
    cases hr : exportXmlFile N d with
    | ok t => exact absurd (savable_iff.1 ⟨N, t, hr⟩) h
    | error e =>
      refine .inl ⟨e, N, ?_, fun fuel hfu => ?_⟩
      · rcases Mild.file d N e hr with h | h | h
        · exact .inl h
        · exact .inr h
        · subst h; exact absurd hr hN
      · rcases Later.file d hfu with h | h
        · exact absurd h hN
        · rw [h, hr]

/-- Two processes, nested sub-processes, events, a gateway: everything is there. -/
example : Savable (Op.run {} xmlOps) := by
  obtain ⟨t, N, h, -⟩ := C33_history_round_trip xmlOps xml_orderly rfl rfl
  exact (C98_exactly_which _).1 ⟨t, N, h⟩

/-- A sub-process with the id of its process. -/
def selfAttrs : NodeAttrs :=
  { id := some "p", type := some "subProcess", nodeName := some "", process := some "p", incoming := some [], outgoing := some [],
    triggeredByEvent := some "false", isExpanded := some "true", width := some "1", height := some "1", x := some "1", y := some "1" }

/-- Everything has a place, but the export does not end. -/
def selfInside : Diagram :=
  { diagramId := some "d", diagramName := some "", planeId := some "pl", planeElement := some "p",
    processElements := [("p", { isClosed := some "false", isExecutable := some "false", processType := some "None" })],
    graph := { nodes := [("p", selfAttrs)] } }

theorem selfInside_node : ∀ fuel, exportNode selfInside fuel ("p", selfAttrs) = .error .outOfFuel
  | 0 => rfl
  | fuel + 1 => by
    have e : selfInside.getNodesByProcess "p" = .ok [("p", selfAttrs)] := rfl
    rw [exportNode]
    simp [selfAttrs, need, isTask, Bind.bind, Except.bind]
    rw [show selfInside.getNodesByProcess "p" = .ok [("p", selfAttrs)] from rfl]
    simp only [forEach, selfInside_node fuel, Bind.bind, Except.bind]

example : ∀ fuel, exportXmlFile fuel selfInside = .error .outOfFuel := by
  intro fuel
  have e : exportProcess selfInside fuel "p" (selfInside.processElements.headD ("", {})).2 = .error .outOfFuel := by
    have e : ∀ x, (do
        let nodes ← selfInside.getNodesByProcess "p"
        let ns ← forEach (exportNode selfInside fuel) nodes
        let fs ← forEach (fun f => exportFlow f.2.2) (selfInside.getFlowsByProcess "p")
        pure (el "process" x ([] ++ ns ++ fs), ([] : List ETree)) : Py _) = .error .outOfFuel := by
      intro x
      rw [show selfInside.getNodesByProcess "p" = .ok [("p", selfAttrs)] from rfl]
      simp only [forEach, selfInside_node fuel, Bind.bind, Except.bind]
    exact e _
  have e : exportProcesses selfInside fuel selfInside.processElements = .error .outOfFuel := by
    show (exportProcess selfInside fuel "p" (selfInside.processElements.headD ("", {})).2 >>= _) = _
    rw [e]
    rfl
  have e : definitions fuel selfInside = .error .outOfFuel := by
    show (exportProcesses selfInside fuel selfInside.processElements >>= _) = _
    rw [e]
    rfl
  unfold exportXmlFile
  rw [e]
  rfl

/-- So this diagram is not among those of `C98_exactly_which`, though every attribute is there: the relation `NodeWritable` excludes it. -/
example : ¬ NodeWritable selfInside ("p", selfAttrs) := by
  intro h
  obtain ⟨F, t, ht⟩ := ok_of_writable h
  rw [selfInside_node] at ht
  cases ht

/-- A start event added as a plain node lacks the attributes of start events: a `TypeError`. -/
example : exportNode {} 1 ("s", { id := some "s", type := some "startEvent", nodeName := some "", incoming := some [], outgoing := some [] }) =
    .error .typeError := rfl

/-- A flow without waypoints between two nodes. -/
example : ¬ Savable { graph := { nodes := [("a", selfAttrs), ("b", selfAttrs)], edges := [⟨"a", "b", { id := some "f" }⟩] } } := by
  intro h
  have := (h.edges ("a", "b", { id := some "f" }) (by decide)).2
  simp at this

end Bpmn.Props

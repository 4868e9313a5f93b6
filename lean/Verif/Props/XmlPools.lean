import Verif.Lemmas.Stable
import Verif.Props.XmlContent
/-!
# Properties C33, C35 with pools; C72: saving and loading again

-/
set_option linter.unusedSimpArgs false
set_option linter.unusedVariables false

namespace Bpmn.Props
open Bpmn Bpmn.Spec

/-- A diagram with two pools, the first one with two lanes, a sequence flow in each pool and a message flow between the pools. -/
def poolDiagram : Diagram :=
  let base : NodeAttrs := { incoming := some [], outgoing := some [], width := some "1", height := some "1", x := some "1", y := some "1" }
  let s : NodeAttrs := { base with id := some "s", type := some "startEvent", nodeName := some "S", outgoing := some ["f"], process := some "p", parallelMultiple := some "false", isInterrupting := some "true", eventDefinitions := some [⟨"d1", "timerEventDefinition"⟩, ⟨"d2", "messageEventDefinition"⟩] }
  let a : NodeAttrs := { base with id := some "a", type := some "task", nodeName := some "A", incoming := some ["f"], outgoing := some ["m"], process := some "p", default := some none }
  let b : NodeAttrs := { base with id := some "b", type := some "userTask", nodeName := some "B", incoming := some ["m"], outgoing := some ["g"], process := some "q", default := some (some "g") }
  let e : NodeAttrs := { base with id := some "e", type := some "endEvent", nodeName := some "E", incoming := some ["g"], process := some "q", eventDefinitions := some [] }
  let f : EdgeAttrs := { id := some "f", name := some "go", process := some "p", sourceRef := some "s", targetRef := some "a", waypoints := some [("1", "1"), ("2", "2")], conditionExpression := some ⟨"c", "go"⟩ }
  let g : EdgeAttrs := { id := some "g", name := some "", process := some "q", sourceRef := some "b", targetRef := some "e", waypoints := some [("5", "5")] }
  let m : EdgeAttrs := { id := some "m", name := some "order", sourceRef := some "a", targetRef := some "b", waypoints := some [("3", "3"), ("4", "4")] }
  let box : BoxDi := ⟨"true", "10", "10", "0", "0"⟩
  { graph := ⟨[("s", s), ("b", b), ("a", a), ("e", e)], [⟨"s", "a", f⟩, ⟨"a", "b", m⟩, ⟨"b", "e", g⟩]⟩, diagramId := some "d", diagramName := some "D",
    planeId := some "pl", planeElement := some "co",
    sequenceFlows := [("f", ⟨"go", "s", "a"⟩), ("g", ⟨"", "b", "e"⟩)],
    processElements := [("p", { id := some "p", name := some "Shop", isClosed := some "false", isExecutable := some "true", processType := some "None", laneSet := some ("ls", [.mk "l1" "one" none [] ["s"] (some box), .mk "l2" "two" none [] ["a"] (some box)]) }),
      ("q", { id := some "q", isClosed := some "false", isExecutable := some "true", processType := some "None" })],
    collaboration := some ⟨"co", [("pa", { name := "Shop", processRef := "p", di := some box }), ("pb", { name := "Bank", processRef := "q", di := some box })], [("m", ⟨"m", "order", "a", "b"⟩)]⟩ }

theorem pool_exportable : Exportable poolDiagram where
  header := by decide
  pools := by
    intro c hc
    simp only [poolDiagram, Option.some.injEq] at hc
    subst hc
    simp [poolDiagram]
  lanes := by
    intro p hp l hl
    simp only [poolDiagram, List.mem_cons, List.not_mem_nil, or_false] at hp
    rcases hp with rfl | rfl
    · simp only [lanesOf, Option.map_some, Option.getD_some, List.mem_cons, List.not_mem_nil, or_false] at hl
      rcases hl with rfl | rfl
      · exact ⟨_, _, _, _, rfl, by decide⟩
      · exact ⟨_, _, _, _, rfl, by decide⟩
    · simp [lanesOf] at hl
  sane := by
    constructor
    · decide
    · decide
    · simp [poolDiagram, SamePair]
    · simp [poolDiagram, SamePair]
  nodes := by
    intro n hn
    simp only [poolDiagram, List.mem_cons, List.not_mem_nil, or_false] at hn
    rcases hn with rfl | rfl | rfl | rfl
    all_goals
      refine ⟨rfl, rfl, rfl, rfl, rfl, rfl, rfl, ?_, ⟨_, rfl, by decide⟩, ⟨_, rfl, by decide⟩⟩
    · exact ⟨("startEvent", ["parallelMultiple", "isInterrupting", "eventDefinitions"], false,
        ["messageEventDefinition", "timerEventDefinition", "conditionalEventDefinition", "escalationEventDefinition", "signalEventDefinition"]),
        by decide, rfl, rfl, by simp, by simp⟩
    · exact ⟨("userTask", [], true, []), by decide, rfl, rfl, by simp, by simp⟩
    · exact ⟨("task", [], true, []), by decide, rfl, rfl, by simp, by simp⟩
    · exact ⟨("endEvent", ["eventDefinitions"], false,
        ["messageEventDefinition", "signalEventDefinition", "escalationEventDefinition", "errorEventDefinition", "compensateEventDefinition",
         "terminateEventDefinition"]), by decide, rfl, rfl, by simp, by simp⟩
  flows := by
    intro e he
    simp only [poolDiagram, List.mem_cons, List.not_mem_nil, or_false] at he
    rcases he with rfl | rfl | rfl <;> constructor <;> simp
  procIds := by decide
  procs := by decide
  apart := by decide
  noCircles := ⟨fun _ => 0, by decide⟩
  flowIds := by decide
  placed := by
    intro n hn p hp
    left
    simp only [poolDiagram, List.mem_cons, List.not_mem_nil, or_false] at hn
    rcases hn with rfl | rfl | rfl | rfl <;> (simp at hp; subst hp; simp [poolDiagram])
  flowProcess := by
    intro e he
    simp only [poolDiagram, List.mem_cons, List.not_mem_nil, or_false] at he
    rcases he with rfl | rfl | rfl
    · exact .inl ⟨"p", rfl, .inl (by decide)⟩
    · exact .inr ⟨"m", by decide, rfl⟩
    · exact .inl ⟨"q", rfl, .inl (by decide)⟩
  messages := by
    intro c hc
    simp only [poolDiagram, Option.some.injEq] at hc
    subst hc
    simp [poolDiagram]
  owners := by
    intro c hc
    simp only [poolDiagram, Option.some.injEq] at hc
    subst hc
    simp
  shapeIds := by decide
  laneNames := by decide
  listed := by
    intro e he i s t hi hs ht
    simp only [poolDiagram, List.mem_cons, List.not_mem_nil, or_false] at he
    rcases he with rfl | rfl | rfl <;> (simp at hi hs ht; subst hi hs ht; simp [poolDiagram, Dict.get?_cons])
  table := by
    intro i v
    simp only [poolDiagram, Dict.get?_cons, List.mem_cons, List.not_mem_nil, or_false]
    obtain ⟨n, s, t⟩ := v
    constructor
    · intro h
      split at h
      · next e => simp_all
      · split at h <;> simp_all
    · rintro ⟨e, rfl | rfl | rfl, h⟩
      · simp_all
      · simp_all
      · simp only [Option.some.injEq] at h
        obtain ⟨-, rfl, rfl, rfl, rfl⟩ := h
        simp

/-- An example for C33 and C35. -/
example : Exportable poolDiagram ∧ laneIds poolDiagram = ["l1", "l2"] ∧ poolIds poolDiagram = ["pa", "pb"] ∧
    messageIds poolDiagram = ["m"] ∧ poolDiagram.getFlows.length = 3 := ⟨pool_exportable, by decide, by decide, by decide, by decide⟩

/-! ## C72 -/

/-- `f` is what is loaded after `d` was saved: the export terminates, and its result is loaded into a new object, with any iteration
order of sets. -/
def SavedAndLoaded (d f : Diagram) : Prop :=
  ∃ t N ord, (∀ fuel ≥ N, Export.exportXmlFile fuel d = .ok t) ∧ (∀ l, (ord l : List String).Perm l) ∧ Import.load ord t.toDom {} = .ok f

/-- `f` comes from `d` by saving and loading `n` times. -/
def After : Nat → Diagram → Diagram → Prop
  | 0, d, f => f = d
  | n + 1, d, f => ∃ e, After n d e ∧ SavedAndLoaded e f

theorem savedAndLoaded {d f : Diagram} (hd : Exportable d) (h : SavedAndLoaded d f) : SameDiagram d f ∧ Exportable f := by
  obtain ⟨t, M, ord, ht, ho, he⟩ := h
  obtain ⟨height, N, hN, hh⟩ := hd.height
  have hf' : ∀ n ∈ d.graph.nodes, height n.1 < max N M := fun n hn => Nat.lt_of_lt_of_le (hN n hn) (Nat.le_max_left ..)
  have h1 : Export.exportXmlFile (max N M) d = .ok (Export.indent 0 (docTree d N)) := by
    simp [Export.exportXmlFile, definitions_ok hd.toWritable hh hf', docTree_fuel hh hN hf']
  rw [ht _ (Nat.le_max_right ..), Except.ok.injEq] at h1
  obtain ⟨e, h2, h3, -, h4⟩ := load_docTree hd ho hh hN
  rw [h1, ← Import.load_squeeze, Export.squeeze_indent 0 _ (clean_docTree hd.toWritable N), h2, Except.ok.injEq] at he
  subst he
  exact ⟨h3, exportable_same hd h3 h4⟩

/-- **C72.** A complete diagram can be saved and loaded any number of times: whatever comes out after `n` times is the same diagram as
at the start (in the sense of C33) and complete, so that saving and loading it again succeeds. -/
theorem C72_any_number_of_times (n : Nat) (d f : Diagram) (hd : Exportable d) (h : After n d f) :
    SameDiagram d f ∧ Exportable f ∧ ∃ t N, (∀ fuel ≥ N, Export.exportXmlFile fuel f = .ok t) ∧
      ∀ ord : List String → List String, (∀ l, (ord l).Perm l) → ∃ e, Import.load ord t.toDom {} = .ok e ∧ After (n + 1) d e := by
  have key : SameDiagram d f ∧ Exportable f := by
    induction n generalizing f with
    | zero =>
      cases h
      exact ⟨.refl d, hd⟩
    | succ n ih =>
      obtain ⟨e, h1, h2⟩ := h
      obtain ⟨h3, h4⟩ := ih e h1
      obtain ⟨h5, h6⟩ := savedAndLoaded h4 h2
      exact ⟨h3.trans h5, h6⟩
  refine ⟨key.1, key.2, ?_⟩
  obtain ⟨t, N, h1, h2⟩ := C33_round_trip f key.2
  refine ⟨t, N, h1, fun ord ho => ?_⟩
  obtain ⟨e, h3, -⟩ := h2 ord ho
  exact ⟨e, h3, f, h, t, N, ord, h1, ho, h3⟩

/-- For every number there is such a diagram. -/
example (n : Nat) : ∃ f, After n poolDiagram f := by
  induction n with
  | zero => exact ⟨_, rfl⟩
  | succ n ih =>
    obtain ⟨f, h⟩ := ih
    obtain ⟨-, -, t, N, -, h1⟩ := C72_any_number_of_times n _ f pool_exportable h
    obtain ⟨e, -, h2⟩ := h1 id fun _ => .refl _
    exact ⟨e, h2⟩

end Bpmn.Props

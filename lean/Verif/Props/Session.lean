import Verif.Lemmas.Session
import Verif.Props.DocInOrder
/-!
# Working sessions (C101)
-/
set_option linter.unusedSimpArgs false
set_option linter.unusedVariables false

namespace Bpmn.Props
open Bpmn Spec Layouter Csv Spec.Csv

/-- **C101.** Whatever a session on a complete diagram does, the diagram stays complete and consists of what was there and what was added.  So it can be
saved at any moment, and the file gives it back. -/
theorem C101_session (d e : Diagram) (ops : List Op) (hd : Exportable d) (h : Session d ops e) :
    Exportable e ∧ Outcome d ops e ∧ ∃ t N, (∀ fuel ≥ N, Export.exportXmlFile fuel e = .ok t) ∧
      ∀ ord : List String → List String, (∀ l, (ord l).Perm l) → ∃ f, Import.load ord t.toDom {} = .ok f ∧ SameDiagram e f := by
  obtain ⟨h1, h2⟩ := session_keeps hd h
  exact ⟨h1, h2, C33_round_trip e h1⟩

/-- **C101.** No call of a session raises an exception. -/
theorem C101_no_exception (d e : Diagram) (ops : List Op) (op : Op) (hd : Exportable d) (h : Session d ops e) (hf : Fits e op) :
    ∃ i, (op.exec e).2 = .ok i :=
  (fits_exec (session_keeps hd h).1 hf).2.2

/-- **C101, after loading a document in order.** -/
theorem C101_from_document (ord : List String → List String) (hord : ∀ l, (ord l).Perm l) (root diagram plane : Xml) (d e : Diagram) (ops : List Op)
    (h : Import.load ord root {} = .ok d) (hd : (Xml.byNameIn "BPMNDiagram" [root]).head? = some diagram)
    (hp : (diagram.byName "BPMNPlane").head? = some plane) (o : DocInOrder root plane) (hs : Session d ops e) :
    Outcome d ops e ∧ ∃ t N, (∀ fuel ≥ N, Export.exportXmlFile fuel e = .ok t) ∧
      ∀ ord : List String → List String, (∀ l, (ord l).Perm l) → ∃ f, Import.load ord t.toDom {} = .ok f ∧ SameDiagram e f :=
  (C101_session d e ops (Import.exportable_of_doc hord h hd hp o) hs).2

/-- **C101, after building a diagram by calls.** -/
theorem C101_from_calls (built ops : List Op) (e : Diagram) (h : OrderlyHistory {} built) (hh : (runAbs {} built).header.isSome)
    (hp : (runAbs {} built).plane.isSome) (hs : Session (Op.run {} built) ops e) :
    Outcome (Op.run {} built) ops e ∧ ∃ t N, (∀ fuel ≥ N, Export.exportXmlFile fuel e = .ok t) ∧
      ∀ ord : List String → List String, (∀ l, (ord l).Perm l) → ∃ f, Import.load ord t.toDom {} = .ok f ∧ SameDiagram e f :=
  (C101_session _ e ops (exportable_of_orderly h hh hp) hs).2

/-- **C101, after importing a table, laying it out, saving it and loading the file.** -/
theorem C101_from_table (rows : List Row) (t : Table rows) (d d' d'' e : Diagram) (ops : List Op) (h : loadCsv rows {} = .ok d) {fuel : Nat}
    (hl : generateLayout fuel d = .ok d') (hs : SavedAndLoaded d' d'') (he : Session d'' ops e) :
    Outcome d'' ops e ∧ ∃ t N, (∀ fuel ≥ N, Export.exportXmlFile fuel e = .ok t) ∧
      ∀ ord : List String → List String, (∀ l, (ord l).Perm l) → ∃ f, Import.load ord t.toDom {} = .ok f ∧ SameDiagram e f := by
  obtain ⟨h1, h2⟩ := csv_layout_exportable rows t d d' h hl
  obtain ⟨x, N, ord, k1, k2, k3⟩ := hs
  have hs' : SavedAndLoaded (saved d') d'' := by
    refine ⟨x, N, ord, fun n hn => ?_, k2, k3⟩
    rw [← export_saved d' (fun e he => (h1.described e he).2.1) n]
    exact k1 n hn
  exact (C101_session _ e ops (savedAndLoaded h2 hs').2 he).2

/-- A split without the last flow, and the last flow. -/
def begunOps : List Op := splitOps.take 13
def lastFlow : Op := .addSequenceFlow "P" "j" "e" "" "f6"
def newProcess : Op := .addProcess "q" true false "None" "PM" "Q"

set_option maxRecDepth 4000 in
theorem begun_orderly : OrderlyHistory {} begunOps := by
  simp only [begunOps, splitOps, List.take, OrderlyHistory]
  refine ⟨⟨?_, ?_⟩, ⟨?_, ?_⟩, ⟨?_, ?_⟩, ⟨?_, ?_⟩, ⟨?_, ?_⟩, ⟨?_, ?_⟩, ⟨?_, ?_⟩, ⟨?_, ?_⟩, ⟨?_, ?_⟩, ⟨?_, ?_⟩, ⟨?_, ?_⟩, ⟨?_, ?_⟩, ⟨?_, ?_⟩, trivial⟩
  all_goals first
    | (constructor <;> simp [Allowed, step, declaredNode, declaredFlow, directionArg, directions, chosen, usable, Placed, baseNode])
    | simp [Allowed, step, declaredNode, declaredFlow, directionArg, directions, chosen]

theorem lastFlow_fits : Fits (Op.run {} begunOps) lastFlow where
  notNew := by intro _ _ h; cases h
  kind := rfl
  direction := by intro _ h; cases h
  node := by intro _ h; cases h
  flow := by
    intro f h
    cases h
    refine ⟨by decide, by decide +kernel, .inl (by decide +kernel), by decide +kernel, by decide +kernel, ?_⟩
    have : ((Op.run {} begunOps).getFlows.all fun g => g.2.2.id != some "f6" && !decide (SamePair g.1 g.2.1 "j" "e")) = true := by decide +kernel
    intro g hg
    have := List.all_eq_true.1 this g hg
    simp only [Bool.and_eq_true, bne_iff_ne, Bool.not_eq_true', decide_eq_false_iff_not] at this
    exact this
  proc := by intro _ _ _ _ _ _ h; cases h

/-- A session with a call, a layout, saving, loading, and another call. -/
example : OrderlyHistory {} begunOps ∧ (runAbs {} begunOps).header.isSome ∧ (runAbs {} begunOps).plane.isSome ∧
    ∃ e, Session (Op.run {} begunOps) [lastFlow, newProcess] e := by
  refine ⟨begun_orderly, rfl, rfl, ?_⟩
  have hd := exportable_of_orderly begun_orderly rfl rfl
  have s1 := Session.call Session.start lastFlow_fits
  have e1 : (lastFlow.exec (Op.run {} begunOps)).1 = Op.run {} splitOps := rfl
  rw [e1] at s1
  obtain ⟨d', hl, -⟩ := split_layout
  have s2 := s1.layout hl
  obtain ⟨k1, k2, t, N, ht, hload⟩ := C101_session _ _ _ hd s2
  obtain ⟨f, hf, -⟩ := hload id fun l => List.Perm.refl l
  have s3 := s2.file ht (fun l => List.Perm.refl l) hf
  obtain ⟨-, o, -⟩ := C101_session _ _ _ hd s3
  refine ⟨_, s3.call (op := newProcess) ⟨(by intro _ _ h; cases h), rfl, (by intro _ h; cases h), (by intro _ h; cases h), (by intro _ h; cases h), ?_⟩⟩
  intro _ _ _ _ _ _ h
  cases h
  refine ⟨?_, ?_⟩
  · have := congrArg (List.map (·.1)) o.processes
    simp only [List.map_append, List.map_map, Function.comp_def, keptOfProcess] at this
    rw [this]
    decide +kernel
  · intro hm
    have := o.nodeIds.mem_iff.1 hm
    revert this
    decide +kernel

end Bpmn.Props

import Verif.Props.XmlAccept
/-!
# Property C78: names of conditional flows in exported documents
-/
set_option linter.unusedSimpArgs false
set_option linter.unusedVariables false

namespace Bpmn.Props
open Bpmn Bpmn.Spec Bpmn.Export

/-- An edge of which the name, if it has a condition, is only known to be present or absent. -/
def unnamed (e : Edge) : Edge :=
  if e.attrs.conditionExpression.isSome then { e with attrs := { e.attrs with name := e.attrs.name.map fun _ => "" } } else e

/-- Two diagrams that differ at most in the names of conditional flows and in the table of flows. -/
structure SameButConditionalNames (d e : Diagram) : Prop where
  header : e.diagramId = d.diagramId ∧ e.diagramName = d.diagramName ∧ e.planeId = d.planeId ∧ e.planeElement = d.planeElement
  processes : e.processElements = d.processElements
  collaboration : e.collaboration = d.collaboration
  nodes : e.graph.nodes = d.graph.nodes
  flows : e.graph.edges.map unnamed = d.graph.edges.map unnamed

/-- The diagram with the names of conditional flows erased. -/
def blinded (d : Diagram) : Diagram := { d with sequenceFlows := [], graph := { d.graph with edges := d.graph.edges.map unnamed } }

/-- `unnamed` on attributes. -/
def unnamedAttrs (a : EdgeAttrs) : EdgeAttrs := if a.conditionExpression.isSome then { a with name := a.name.map fun _ => "" } else a

theorem unnamed_eq (e : Edge) : unnamed e = { e with attrs := unnamedAttrs e.attrs } := by
  unfold unnamed unnamedAttrs
  split <;> rfl

theorem unnamed_id (a : EdgeAttrs) : (unnamedAttrs a).id = a.id := by
  unfold unnamedAttrs; split <;> rfl

theorem unnamed_process (a : EdgeAttrs) : (unnamedAttrs a).process = a.process := by
  unfold unnamedAttrs; split <;> rfl

theorem unnamed_waypoints (a : EdgeAttrs) : (unnamedAttrs a).waypoints = a.waypoints := by
  unfold unnamedAttrs; split <;> rfl

theorem exportFlow_unnamed (a : EdgeAttrs) : exportFlow (unnamedAttrs a) = exportFlow a := by
  obtain ⟨i, n, p, s, t, c, w⟩ := a
  cases c with
  | none => rfl
  | some c => cases n <;> cases i <;> cases s <;> cases t <;> rfl

/-- The flow with its attributes changed. -/
def mapFlow (f : Flow) : Flow := (f.1, f.2.1, unnamedAttrs f.2.2)

theorem incident_unnamed (es : List Edge) (seen : List String) (n : String) :
    Graph.incident (es.map unnamed) seen n = (Graph.incident es seen n).map mapFlow := by
  unfold Graph.incident
  induction es with
  | nil => rfl
  | cons e es ih =>
    simp only [List.map_cons, List.filterMap_cons, unnamed_eq e]
    by_cases h1 : e.u = n
    · by_cases h2 : e.v ∈ seen
      · simp [h1, h2, ih]
      · simp [h1, h2, ih, mapFlow]
    · by_cases h3 : e.v = n
      · by_cases h2 : e.u ∈ seen
        · simp [h1, h3, h2, ih]
        · simp [h1, h3, h2, ih, mapFlow]
      · simp [h1, h3, ih]

theorem iterFrom_unnamed (es : List Edge) : ∀ (ns seen : List String), Graph.iterFrom (es.map unnamed) seen ns = (Graph.iterFrom es seen ns).map mapFlow
  | [], seen => rfl
  | n :: ns, seen => by
    simp only [Graph.iterFrom, incident_unnamed, iterFrom_unnamed es ns, List.map_append]

theorem flows_blinded (d : Diagram) : (blinded d).getFlows = d.getFlows.map mapFlow := by
  unfold Diagram.getFlows Graph.flows blinded
  exact iterFrom_unnamed d.graph.edges _ _

theorem flowsBy_blinded (d : Diagram) (p : String) : (blinded d).getFlowsByProcess p = (d.getFlowsByProcess p).map mapFlow := by
  have := flows_blinded d
  unfold Diagram.getFlows at this
  unfold Diagram.getFlowsByProcess
  rw [this, List.filter_map]
  congr 1
  apply List.filter_congr
  intro f _
  simp [mapFlow, unnamed_process]

theorem pyFind_map {α β : Type} (g : α → β) (p : β → Py Bool) (q : α → Py Bool) (h : ∀ x, p (g x) = q x) : ∀ l : List α,
    pyFind p (l.map g) = (do let r ← pyFind q l; pure (r.map g))
  | [] => rfl
  | x :: l => by
    simp only [List.map_cons, pyFind, h]
    cases hq : q x with
    | error e => rfl
    | ok b =>
      cases b with
      | true => rfl
      | false => simpa using pyFind_map g p q h l

theorem flowById_blinded (d : Diagram) (i : String) : (blinded d).getFlowById i = (do let r ← d.getFlowById i; pure (r.map mapFlow)) := by
  have := flows_blinded d
  unfold Diagram.getFlows at this
  unfold Diagram.getFlowById
  rw [this]
  refine pyFind_map mapFlow _ _ ?_ _
  intro f
  simp [mapFlow, unnamed_id]

theorem forEach_map {α β : Type} (f : β → Py ETree) (g : α → β) : ∀ l : List α, forEach f (l.map g) = forEach (fun x => f (g x)) l
  | [] => rfl
  | x :: l => by simp only [List.map_cons, forEach, forEach_map f g l]

theorem exportFlows_blinded (l : List Flow) : forEach (fun f => exportFlow f.2.2) (l.map mapFlow) = forEach (fun f => exportFlow f.2.2) l := by
  rw [forEach_map]
  congr 1
  funext f
  exact exportFlow_unnamed _

theorem nodesBy_blinded (d : Diagram) (p : String) : (blinded d).getNodesByProcess p = d.getNodesByProcess p := rfl

theorem exportNode_blinded (d : Diagram) : ∀ (fuel : Nat), exportNode (blinded d) fuel = exportNode d fuel
  | 0 => by funext n; rfl
  | fuel + 1 => by
    funext ⟨i, p⟩
    simp only [exportNode, nodesBy_blinded, exportNode_blinded d fuel, flowsBy_blinded, exportFlows_blinded]

theorem exportProcess_blinded (d : Diagram) (fuel : Nat) (pid : String) (a : ProcAttrs) : exportProcess (blinded d) fuel pid a = exportProcess d fuel pid a := by
  simp only [exportProcess, nodesBy_blinded, exportNode_blinded, flowsBy_blinded, exportFlows_blinded]

theorem exportProcesses_blinded (d : Diagram) (fuel : Nat) : ∀ l, exportProcesses (blinded d) fuel l = exportProcesses d fuel l
  | [] => rfl
  | (pid, a) :: r => by simp only [exportProcesses, exportProcess_blinded, exportProcesses_blinded d fuel r]

theorem exportMessageFlows_blinded (d : Diagram) : ∀ l, exportMessageFlows (blinded d) l = exportMessageFlows d l
  | [] => rfl
  | (id, m) :: r => by
    simp only [exportMessageFlows, flowById_blinded, exportMessageFlows_blinded d r]
    cases hq : d.getFlowById id with
    | error e => rfl
    | ok o =>
      cases o with
      | none => rfl
      | some f => simp [mapFlow, unnamed_waypoints]

theorem exportCollaboration_blinded (d : Diagram) : exportCollaboration (blinded d) = exportCollaboration d := by
  unfold exportCollaboration
  simp only [exportMessageFlows_blinded]
  rfl

theorem exportFlowDi_unnamed (a : EdgeAttrs) : exportFlowDi (unnamedAttrs a) = exportFlowDi a := by
  simp [exportFlowDi, unnamed_id, unnamed_waypoints]

theorem definitions_blinded (fuel : Nat) (d : Diagram) : definitions fuel (blinded d) = definitions fuel d := by
  unfold definitions
  simp only [exportCollaboration_blinded, exportProcesses_blinded, flows_blinded, forEach_map, mapFlow, exportFlowDi_unnamed]
  rfl

theorem definitionsNoDi_blinded (fuel : Nat) (d : Diagram) : definitionsNoDi fuel (blinded d) = definitionsNoDi fuel d := by
  unfold definitionsNoDi exportProcessNoDi
  simp only [exportNode_blinded, flows_blinded, exportFlows_blinded]
  rfl

theorem SameButConditionalNames.blinded {d e : Diagram} (h : SameButConditionalNames d e) : blinded e = blinded d := by
  obtain ⟨⟨h1, h2, h3, h4⟩, h5, h6, h7, h8⟩ := h
  obtain ⟨⟨n, es⟩, s, p, a, b, c, f, co⟩ := d
  obtain ⟨⟨n', es'⟩, s', p', a', b', c', f', co'⟩ := e
  simp only at h1 h2 h3 h4 h5 h6 h7 h8
  subst h1 h2 h3 h4 h5 h6 h7
  simp only [Props.blinded]
  rw [h8]

/-- **C78.** Both exports are blind for the names of conditional flows (and for the table of flows): two diagrams that differ only in these
are written as the same document, or fail in the same way. -/
theorem C78_names_not_written (d e : Diagram) (h : SameButConditionalNames d e) (fuel : Nat) :
    exportXmlFile fuel d = exportXmlFile fuel e ∧ exportXmlFileNoDi fuel d = exportXmlFileNoDi fuel e := by
  unfold exportXmlFile exportXmlFileNoDi
  rw [← definitions_blinded fuel d, ← definitions_blinded fuel e, ← definitionsNoDi_blinded fuel d, ← definitionsNoDi_blinded fuel e, h.blinded]
  exact ⟨rfl, rfl⟩

/-- **C78.** What comes back instead of the names of conditional flows: if a diagram would be complete with each conditional flow named
after its condition (`e`), then saving and loading the diagram gives `e`. -/
theorem C78_names_replaced (d e : Diagram) (h : SameButConditionalNames d e) (he : Exportable e) :
    ∃ t N, (∀ fuel ≥ N, Export.exportXmlFile fuel d = .ok t) ∧
      ∀ ord : List String → List String, (∀ l, (ord l).Perm l) → ∃ f, Import.load ord t.toDom {} = .ok f ∧ SameDiagram e f := by
  obtain ⟨t, N, h1, h2⟩ := C33_round_trip e he
  exact ⟨t, N, fun fuel hf => (C78_names_not_written d e h fuel).1.trans (h1 fuel hf), h2⟩

/-- The diagram with two pools in which the conditional flow has a name of its own. -/
def renamedPools : Diagram :=
  { poolDiagram with sequenceFlows := [], graph := { poolDiagram.graph with edges := poolDiagram.graph.edges.map fun e => if e.attrs.id == some "f" then { e with attrs := { e.attrs with name := some "yes" } } else e } }

example : SameButConditionalNames renamedPools poolDiagram ∧ Exportable poolDiagram ∧
    renamedPools.graph.edges.map (·.attrs.name) = [some "yes", some "order", some ""] ∧
    poolDiagram.graph.edges.map (·.attrs.name) = [some "go", some "order", some ""] :=
  ⟨⟨⟨rfl, rfl, rfl, rfl⟩, rfl, rfl, rfl, by decide +kernel⟩, pool_exportable, by decide +kernel, by decide +kernel⟩

end Bpmn.Props

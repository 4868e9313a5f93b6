import Verif.Props.XmlDetails
import Verif.Spec.Saved
/-!
Diagrams that become complete when they are saved.
-/
set_option linter.unusedSimpArgs false
set_option linter.unusedVariables false

namespace Bpmn.Props
open Bpmn Bpmn.Spec Bpmn.Export

/-- The node with the list of event definitions removed unless it is an event. -/
def mapNode (n : Node) : Node := (n.1, savedNode n.2)

/-- The diagram with these nodes. -/
def undefined' (d : Diagram) : Diagram := { d with graph := { d.graph with nodes := d.graph.nodes.map mapNode } }

theorem savedNode_eq (a : NodeAttrs) : savedNode a = { a with eventDefinitions := (savedNode a).eventDefinitions } := by
  unfold savedNode
  split <;> rfl

theorem savedNode_fields (a : NodeAttrs) : (savedNode a).type = a.type ∧ (savedNode a).process = a.process ∧ (savedNode a).id = a.id := by
  rw [savedNode_eq]
  exact ⟨rfl, rfl, rfl⟩

theorem pyFilter_map {α β : Type} (g : α → β) (p : β → Py Bool) (q : α → Py Bool) (h : ∀ x, p (g x) = q x) : ∀ l : List α,
    pyFilter p (l.map g) = (do let r ← pyFilter q l; pure (r.map g))
  | [] => rfl
  | x :: l => by
    simp only [List.map_cons, pyFilter, h]
    cases hq : q x with
    | error e => rfl
    | ok b =>
      have ih := pyFilter_map g p q h l
      rw [ih]
      cases hf : pyFilter q l with
      | error e => cases b <;> rfl
      | ok r => cases b <;> rfl

theorem nodesBy_undefined (d : Diagram) (p : String) : (undefined' d).getNodesByProcess p = (do let r ← d.getNodesByProcess p; pure (r.map mapNode)) := by
  unfold Diagram.getNodesByProcess undefined'
  refine pyFilter_map mapNode _ _ ?_ _
  intro n
  simp [mapNode, (savedNode_fields n.2).2.1]

theorem exportNode_savedNode (d : Diagram) (fuel : Nat) (n : Node) : exportNode d fuel (mapNode n) = exportNode d fuel n := by
  cases fuel with
  | zero => rfl
  | succ fuel =>
    obtain ⟨i, a⟩ := n
    by_cases h : a.type ∈ eventTypes
    · simp [mapNode, savedNode, h]
    · have e : mapNode (i, a) = (i, { a with eventDefinitions := none }) := by simp [mapNode, savedNode, h]
      rw [e]
      simp only [exportNode]
      cases hty : a.type with
      | none => rfl
      | some ty =>
        simp only [eventTypes, hty, List.mem_cons, Option.some.injEq, List.not_mem_nil, or_false, not_or] at h
        obtain ⟨h1, h2, h3, h4, h5⟩ := h
        simp only [need, bind, Except.bind, h1, h2, h3, h4, h5, if_false, or_false, defaultAttr]

theorem flows_undefined (d : Diagram) : (undefined' d).getFlows = d.getFlows := by
  unfold Diagram.getFlows Graph.flows undefined'
  simp only [Dict.keys, List.map_map]
  rfl

theorem flowsBy_undefined (d : Diagram) (p : String) : (undefined' d).getFlowsByProcess p = d.getFlowsByProcess p := by
  have := flows_undefined d
  unfold Diagram.getFlows at this
  unfold Diagram.getFlowsByProcess
  rw [this]

theorem flowById_undefined (d : Diagram) (i : String) : (undefined' d).getFlowById i = d.getFlowById i := by
  have := flows_undefined d
  unfold Diagram.getFlows at this
  unfold Diagram.getFlowById
  rw [this]

theorem exportNode_undefined (d : Diagram) : ∀ (fuel : Nat), exportNode (undefined' d) fuel = exportNode d fuel
  | 0 => by funext n; rfl
  | fuel + 1 => by
    funext ⟨i, p⟩
    have ih : ∀ l : List Node, forEach (exportNode (undefined' d) fuel) (l.map mapNode) = forEach (exportNode d fuel) l := by
      intro l
      rw [exportNode_undefined d fuel, forEach_map]
      congr 1
      funext n
      exact exportNode_savedNode d fuel n
    simp only [exportNode, nodesBy_undefined, flowsBy_undefined, bind_assoc, pure_bind, ih]

theorem exportProcess_undefined (d : Diagram) (fuel : Nat) (pid : String) (a : ProcAttrs) : exportProcess (undefined' d) fuel pid a = exportProcess d fuel pid a := by
  have ih : ∀ l : List Node, forEach (exportNode d fuel) (l.map mapNode) = forEach (exportNode d fuel) l := by
    intro l
    rw [forEach_map]
    congr 1
    funext n
    exact exportNode_savedNode d fuel n
  simp only [exportProcess, nodesBy_undefined, flowsBy_undefined, exportNode_undefined, bind_assoc, pure_bind, ih]

theorem exportProcesses_undefined (d : Diagram) (fuel : Nat) : ∀ l, exportProcesses (undefined' d) fuel l = exportProcesses d fuel l
  | [] => rfl
  | (pid, a) :: r => by simp only [exportProcesses, exportProcess_undefined, exportProcesses_undefined d fuel r]

theorem exportMessageFlows_undefined (d : Diagram) : ∀ l, exportMessageFlows (undefined' d) l = exportMessageFlows d l
  | [] => rfl
  | (id, m) :: r => by simp only [exportMessageFlows, flowById_undefined, exportMessageFlows_undefined d r]

theorem exportNodeDi_savedNode (n : Node) : exportNodeDi (mapNode n) = exportNodeDi n := by
  unfold exportNodeDi mapNode
  simp only
  rw [savedNode_eq]

theorem definitions_undefined (fuel : Nat) (d : Diagram) : definitions fuel (undefined' d) = definitions fuel d := by
  have hn : (undefined' d).getNodes = d.getNodes.map mapNode := rfl
  have hc : exportCollaboration (undefined' d) = exportCollaboration d := by
    unfold exportCollaboration
    simp only [exportMessageFlows_undefined]
    rfl
  unfold definitions
  simp only [hc, exportProcesses_undefined, flows_undefined, hn, forEach_map, exportNodeDi_savedNode]
  rfl

/-- The edge with the name that is written. -/
def savedEdge (e : Edge) : Edge := { e with attrs := savedFlow e.attrs }

/-- The line of the table for a flow. -/
def tableEntry (a : EdgeAttrs) : Option (String × SeqFlow) :=
  if a.process.isSome then
    match a.id, (savedFlow a).name, a.sourceRef, a.targetRef with
    | some i, some n, some s, some t => some (i, ⟨n, s, t⟩)
    | _, _, _, _ => none
  else none

/-- The diagram that is expected after saving and loading. -/
def saved (d : Diagram) : Diagram :=
  { d with
    sequenceFlows := d.graph.edges.filterMap fun e => tableEntry e.attrs
    graph := { nodes := d.graph.nodes.map mapNode, edges := d.graph.edges.map savedEdge } }

theorem unnamed_savedEdge {e : Edge} (h : e.attrs.name.isSome) : unnamed (savedEdge e) = unnamed e := by
  obtain ⟨u, v, ⟨i, n, p, s, t, c, w⟩⟩ := e
  cases c with
  | none => rfl
  | some c =>
    cases n with
    | none => cases h
    | some n => rfl

theorem saved_same (d : Diagram) (h : ∀ e ∈ d.graph.edges, e.attrs.name.isSome) : SameButConditionalNames (undefined' d) (saved d) := by
  refine ⟨⟨rfl, rfl, rfl, rfl⟩, rfl, rfl, rfl, ?_⟩
  show (d.graph.edges.map savedEdge).map unnamed = d.graph.edges.map unnamed
  rw [List.map_map]
  apply List.map_congr_left
  intro e he
  exact unnamed_savedEdge (h e he)

theorem export_saved (d : Diagram) (h : ∀ e ∈ d.graph.edges, e.attrs.name.isSome) (fuel : Nat) : exportXmlFile fuel d = exportXmlFile fuel (saved d) := by
  rw [← (C78_names_not_written (undefined' d) (saved d) (saved_same d h) fuel).1]
  unfold exportXmlFile
  rw [definitions_undefined]

theorem savedFlow_fields (a : EdgeAttrs) : (savedFlow a).id = a.id ∧ (savedFlow a).process = a.process ∧ (savedFlow a).sourceRef = a.sourceRef ∧
    (savedFlow a).targetRef = a.targetRef ∧ (savedFlow a).waypoints = a.waypoints ∧ (savedFlow a).conditionExpression = a.conditionExpression := by
  unfold savedFlow
  split <;> exact ⟨rfl, rfl, rfl, rfl, rfl, by simp_all⟩

/-- Saving and loading a diagram that is complete apart from superfluous event definitions and the names of conditional flows. -/
theorem savedAs_of_exportable (d : Diagram) (hw : Sane d) (he : Exportable (saved d)) :
    ∃ t N, (∀ fuel ≥ N, exportXmlFile fuel d = .ok t) ∧
      ∀ ord : List String → List String, (∀ l, (ord l).Perm l) → ∃ e, Import.load ord t.toDom {} = .ok e ∧ SavedAs d e := by
  have hname : ∀ e ∈ d.graph.edges, e.attrs.name.isSome := fun e h => (hw.described e h).2.1
  obtain ⟨t, N, h1, h2⟩ := C33_round_trip (saved d) he
  refine ⟨t, N, fun fuel hf => (export_saved d hname fuel).trans (h1 fuel hf), fun ord ho => ?_⟩
  obtain ⟨e, h3, h4⟩ := h2 ord ho
  have p1 : ((saved d).getFlows.map (·.2.2)).Perm ((saved d).graph.edges.map (·.attrs)) := Graph.flows_attrs_perm he.sane.wf
  have p2 : (d.getFlows.map (·.2.2)).Perm (d.graph.edges.map (·.attrs)) := Graph.flows_attrs_perm hw.wf
  have p3 : ((saved d).getFlows.map (·.2.2)).Perm (d.getFlows.map fun f => savedFlow f.2.2) := by
    refine p1.trans ?_
    have := (p2.map savedFlow).symm
    simpa [List.map_map, Function.comp_def, saved, savedEdge] using this
  refine ⟨e, h3, ⟨h4.header, h4.processes, h4.collaboration, ?_, ?_, h4.flows.trans p3, ?_⟩⟩
  · have := h4.nodeIds
    simpa [Diagram.getNodes, saved, List.map_map, Function.comp_def, mapNode] using this
  · intro n a ha
    exact h4.nodes n (savedNode a) (List.mem_map.2 ⟨(n, a), ha, rfl⟩)
  · intro i v
    rw [h4.table, he.table]
    constructor
    · rintro ⟨e, hem, k1, k2, k3, k4, k5⟩
      obtain ⟨e0, he0, rfl⟩ := List.mem_map.1 hem
      obtain ⟨f, hf, e2⟩ := List.mem_map.1 (p2.mem_iff.2 (List.mem_map_of_mem he0))
      obtain ⟨q1, q2, q3, q4, -, -⟩ := savedFlow_fields e0.attrs
      simp only [savedEdge, q1, q2, q3, q4] at k1 k2 k3 k4 k5
      exact ⟨f, hf, by rw [e2]; exact k1, by rw [e2]; exact k2, by rw [e2]; exact k3, by rw [e2]; exact k4, by rw [e2]; exact k5⟩
    · rintro ⟨f, hf, k1, k2, k3, k4, k5⟩
      obtain ⟨e0, he0, e2⟩ := List.mem_map.1 (p2.mem_iff.1 (List.mem_map_of_mem hf))
      obtain ⟨q1, q2, q3, q4, -, -⟩ := savedFlow_fields e0.attrs
      refine ⟨savedEdge e0, List.mem_map_of_mem he0, ?_⟩
      simp only [savedEdge, q1, q2, q3, q4]
      rw [← e2] at k1 k2 k3 k4 k5
      exact ⟨k1, k2, k3, k4, k5⟩

end Bpmn.Props

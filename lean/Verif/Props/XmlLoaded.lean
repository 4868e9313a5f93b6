import Verif.Lemmas.ImportFlows
import Verif.Props.XmlAccept
set_option linter.unusedSimpArgs false
set_option linter.unusedVariables false
/-!
# Properties C79–C81: what loaded diagrams say
-/
namespace Bpmn.Props
open Bpmn Spec Import

/-- **C79.** In a diagram loaded into a new object from a document whose nodes have different ids, every element for a node (also inside
sub-processes) has become a node that says exactly what the element says: id, type, name (empty if missing), the process or sub-process it
is in, the attributes of its kind with the defaults of BPMN if missing, the event definitions, the referenced flows followed by further flows
that begin or end there, the ids of the nodes inside if it is a sub-process, and place and size of its last shape in the plane.  `ord` is the
order in which Python iterates over a set of names. -/
theorem C79_what_nodes_say (ord : List String → List String) (hord : ∀ l, (ord l).Perm l) (root diagram plane : Xml) (d : Diagram)
    (h : Import.load ord root {} = .ok d) (hd : (Xml.byNameIn "BPMNDiagram" [root]).head? = some diagram)
    (hp : (diagram.byName "BPMNPlane").head? = some plane) (nd : (describedNodes root).Nodup) :
    ∀ p ∈ allNodeElements root, ∃ a, (p.2.getAttr "id", a) ∈ d.getNodes ∧ NodeSays root plane p.1 p.2 a := by
  intro p hp'
  obtain ⟨a, h1, h2⟩ := load_nodes hord h hd hp nd p hp'
  exact ⟨a, Dict.mem_of_get? h1, h2⟩

/-- The remaining nodes, those that are only mentioned by flows, have nothing but lists of flows. -/
theorem C79_mentioned_nodes_say_nothing (ord : List String → List String) (root : Xml) (d : Diagram) (h : Import.load ord root {} = .ok d)
    (i : String) (a : NodeAttrs) (hi : (i, a) ∈ d.getNodes) (hn : i ∉ describedNodes root) :
    a = { incoming := a.incoming, outgoing := a.outgoing } := by
  have k := load_known h
  have hk : i ∈ d.graph.nodes.keys := List.mem_map.2 ⟨(i, a), hi, rfl⟩
  have hf : i ∈ flowEnds root := ((k.keys i).1 hk).resolve_left hn
  obtain ⟨x, y, e⟩ := load_mentioned h hf hn
  rw [Dict.get?_of_mem k.nodup hi] at e
  cases e
  rfl

/-- The processes of a loaded diagram, if their ids are different, are those of the document in document order, and the entry of each says
exactly what the element says: id, name, the three attributes with the defaults of BPMN, the ids of the nodes directly in it in document
order, and the lanes of its first lane set with their child lanes. -/
theorem C79_what_processes_say (ord : List String → List String) (root diagram plane : Xml) (d : Diagram)
    (h : Import.load ord root {} = .ok d) (hd : (Xml.byNameIn "BPMNDiagram" [root]).head? = some diagram)
    (hp : (diagram.byName "BPMNPlane").head? = some plane) (nd : ((Xml.byNameIn "process" [root]).map fun p => p.getAttr "id").Nodup) :
    List.Forall₂ (fun p q => q.1 = p.getAttr "id" ∧ ProcSays plane p q.2) (Xml.byNameIn "process" [root]) d.processElements :=
  (load_processes h hd hp nd).imp fun _ _ h => h.says

set_option maxRecDepth 8000 in
/-- The document has different ids; a task in the process, a sub-process and a task inside become nodes. -/
example : (∃ d, Import.load id (partnersDoc "pb" [] []) {} = .ok d ∧
      (d.processElements.map (fun p => (p.1, p.2.processType, p.2.nodeIds)) == [("P", some "None", some ["t", "s"])]) = true) ∧
    (describedNodes (partnersDoc "pb" [] [])).Nodup ∧
    ((allNodeElements (partnersDoc "pb" [] [])).map fun p => (p.1, p.2.getAttr "id", localTag p.2)) =
      [("P", "t", "task"), ("P", "s", "subProcess"), ("s", "u", "task")] ∧
    ((Xml.byNameIn "process" [partnersDoc "pb" [] []]).map fun p => p.getAttr "id") = ["P"] :=
  ⟨ok_of_check _ (by decide +kernel), by decide +kernel, by decide +kernel, by decide +kernel⟩

set_option maxRecDepth 8000 in
/-- The task inside the sub-process is in the sub-process; the sub-process lists it. -/
example : ∃ d, Import.load id (partnersDoc "pb" [] []) {} = .ok d ∧
    (d.getNodes.map (fun p => (p.1, p.2.process, p.2.nodeIds, p.2.x)) ==
      [("t", some "P", none, some "2"), ("s", some "P", some ["u"], some "3"), ("u", some "s", none, some "3"), ("pb", some "pb", none, some "1")]) = true :=
  ok_of_check _ (by decide +kernel)

/-! ## C80 -/

/-- The flows of the document have different ids, no two of them join the same two nodes, and the pools have different ids. -/
structure DistinctFlows (root : Xml) : Prop where
  ends : (flowElementsOf root).Pairwise fun f g => ¬ SameEnds f.2 g.2
  ids : ((flowElementsOf root).map (·.2.getAttr "id")).Nodup
  pools : ((namedIn "participant" (collabKids root)).map (·.getAttr "id")).Nodup

/-- **C80.** In a diagram loaded into a new object from a document with distinct flows, the flows are exactly the sequence flows of the
processes and sub-processes and the message flows of the collaboration, each once, and each says exactly what its element says: id, name
(empty if missing), process or sub-process, source, target, condition, and the way points of its last edge in the plane.  Each joins its
source and its target.  The table of sequence flows has their names and ends in document order. -/
theorem C80_what_flows_say (ord : List String → List String) (root diagram plane : Xml) (d : Diagram)
    (h : Import.load ord root {} = .ok d) (hd : (Xml.byNameIn "BPMNDiagram" [root]).head? = some diagram)
    (hp : (diagram.byName "BPMNPlane").head? = some plane) (hf : DistinctFlows root) :
    (d.getFlows.map (·.2.2)).Perm ((flowElementsOf root).map fun f => flowSays plane f.1 f.2) ∧
    (∀ f ∈ d.getFlows, (f.2.2.sourceRef = some f.1 ∧ f.2.2.targetRef = some f.2.1) ∨ (f.2.2.sourceRef = some f.2.1 ∧ f.2.2.targetRef = some f.1)) ∧
    d.sequenceFlows = (sequenceFlowElements root).map fun f =>
      (f.2.getAttr "id", ⟨f.2.attrOr "name" "", f.2.getAttr "sourceRef", f.2.getAttr "targetRef"⟩) := by
  have st := load_state h hd hp hf.ends hf.ids hf.pools
  have he : d.graph.edges = (flowElementsOf root).map (edgeAfter plane.children) := st.edges
  have k := load_known h
  have arcs := load_arcs h
  have hwf : d.graph.WF := by
    refine ⟨k.nodup, fun e hm => ?_⟩
    have hj : d.graph.hasEdge e.u e.v = true := by
      rw [Graph.hasEdge_iff]
      exact ⟨e, hm, by simp [Edge.joins]⟩
    have hends : ∀ a b, (a, b) ∈ flowPairs root → a ∈ flowEnds root ∧ b ∈ flowEnds root := by
      intro a b hab
      exact ⟨List.mem_flatMap.2 ⟨_, hab, by simp⟩, List.mem_flatMap.2 ⟨_, hab, by simp⟩⟩
    rcases (arcs _ _).1 hj with hh | hh
    · exact ⟨(k.keys _).2 (.inr (hends _ _ hh).1), (k.keys _).2 (.inr (hends _ _ hh).2)⟩
    · exact ⟨(k.keys _).2 (.inr (hends _ _ hh).2), (k.keys _).2 (.inr (hends _ _ hh).1)⟩
  refine ⟨?_, ?_, st.rows⟩
  · have := Graph.flows_attrs_perm hwf
    rw [he, List.map_map] at this
    exact this
  · rintro ⟨a, b, c⟩ hm
    obtain ⟨e, he', rfl, hj⟩ := Graph.mem_flows hm
    rw [he] at he'
    obtain ⟨f, hf', rfl⟩ := List.mem_map.1 he'
    rcases hj with ⟨h1, h2⟩ | ⟨h1, h2⟩
    · exact .inl ⟨congrArg some h1, congrArg some h2⟩
    · exact .inr ⟨congrArg some h1, congrArg some h2⟩

set_option maxRecDepth 8000 in
/-- A conditional flow, and a message flow. -/
example : DistinctFlows (partnersDoc "pb" [] []) ∧
    (flowElementsOf (partnersDoc "pb" [] [])).map (fun f => (f.1, conditionOf f.2)) = [(some "P", some ⟨"", "x"⟩), (none, none)] ∧
    ∃ d, Import.load id (partnersDoc "pb" [] []) {} = .ok d ∧
      (d.getFlows.map (fun f => (f.1, f.2.1, f.2.2.id)) == [("t", "s", some "f"), ("t", "pb", some "m")]) = true :=
  ⟨⟨by unfold SameEnds; decide +kernel, by decide +kernel, by decide +kernel⟩, by decide +kernel, ok_of_check _ (by decide +kernel)⟩

/-! ## C81 -/

/-- **C81.** A loaded diagram has the id and name of the first diagram element and the id and element of its first plane.  It has a
collaboration exactly if the document has one; then (for distinct flows) it says exactly what the first one says: id, pools with name,
process and the place and orientation of their last shape, and the message flows, in document order. -/
theorem C81_what_collaborations_say (ord : List String → List String) (root diagram plane : Xml) (d : Diagram)
    (h : Import.load ord root {} = .ok d) (hd : (Xml.byNameIn "BPMNDiagram" [root]).head? = some diagram)
    (hp : (diagram.byName "BPMNPlane").head? = some plane) (hf : DistinctFlows root) :
    d.diagramId = some (diagram.getAttr "id") ∧ d.diagramName = some (diagram.attrOr "name" "") ∧
    d.planeId = some (plane.getAttr "id") ∧ d.planeElement = some (plane.getAttr "bpmnElement") ∧
    match (Xml.byNameIn "collaboration" [root]).head? with
    | none => d.collaboration = none
    | some x => ∃ c, d.collaboration = some c ∧ CollabSays plane x c := by
  have hh := load_head h hd hp
  simp only [headOf, Prod.mk.injEq] at hh
  refine ⟨hh.1, hh.2.1, hh.2.2.1, hh.2.2.2, ?_⟩
  have st := (load_state h hd hp hf.ends hf.ids hf.pools).collab
  obtain ⟨diagram', plane', hacc⟩ := (load_okIff ord root).1 ⟨d, h⟩
  have e1 := hacc.firstDiagram
  rw [hd] at e1
  cases e1
  have e2 := hacc.firstPlane
  rw [hp] at e2
  cases e2
  cases hx : (Xml.byNameIn "collaboration" [root]).head? with
  | none => rw [hx] at st; exact st
  | some x =>
    rw [hx] at st
    refine ⟨_, st, rfl, ?_, rfl⟩
    show List.Forall₂ _ _ ((namedIn "participant" x.children).map (poolAfter plane.children))
    rw [List.forall₂_map_right_iff, List.forall₂_same]
    intro y hy
    refine ⟨rfl, rfl, rfl, ?_⟩
    show BoxSays (shapeFor plane (y.getAttr "id")) (Option.map _ (shapeFor plane (y.getAttr "id")))
    cases hs : shapeFor plane (y.getAttr "id") with
    | none => rfl
    | some s =>
      have hm := List.mem_of_getLast? hs
      rw [List.mem_filter, Bool.and_eq_true, beq_iff_eq] at hm
      have hb := (hacc.shapes s hm.1 (localTag_isNamed (by decide) hm.2.1)).1
      cases hl : s.byName "Bounds" with
      | nil => exact absurd hl hb
      | cons b r => exact ⟨b, by simp [hl], by simp [hl, boxOf]⟩

set_option maxRecDepth 8000 in
/-- The document with two pools, one of them without process. -/
example : DistinctFlows (partnersDoc "pb" [] []) ∧ ((Xml.byNameIn "collaboration" [partnersDoc "pb" [] []]).head?.map (·.getAttr "id")) = some "co" ∧
    ∃ d, Import.load id (partnersDoc "pb" [] []) {} = .ok d ∧ (d.collaboration.map (fun c => c.participants.map fun p => (p.1, p.2.name, p.2.processRef,
      p.2.di.map (·.x))) == some [("pa", "A", "P", some "0"), ("pb", "B", "", some "1")]) = true :=
  ⟨⟨by unfold SameEnds; decide +kernel, by decide +kernel, by decide +kernel⟩, by decide +kernel, ok_of_check _ (by decide +kernel)⟩

end Bpmn.Props

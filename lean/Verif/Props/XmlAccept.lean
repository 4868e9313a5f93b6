import Verif.Lemmas.ImportAccept
import Verif.Props.XmlLosses
set_option linter.unusedSimpArgs false
set_option linter.unusedVariables false
/-!
# Properties C74 (second part) and C75–C77: what the XML import accepts and what it makes of it
-/
namespace Bpmn.Props
open Bpmn Spec Import

/-! ## C75 -/

/-- **C75.** A document is loaded into a new object exactly if it is acceptable; the conditions (`Spec.Acceptable`) are about the document
alone.  In all other cases an exception is raised. -/
theorem C75_exactly_which_documents (ord : List String → List String) (root : Xml) :
    (∃ d, Import.load ord root {} = .ok d) ↔ ∃ diagram plane, Acceptable root diagram plane := load_okIff ord root

/-- A document with two processes in pools, a pool without process, and message flows; `partner` is the other end of one of them, `extra`
are more elements of the plane and `inside` is in the first process. -/
def partnersDoc (partner : String) (inside extra : List Xml) : Xml :=
  .elem "definitions" []
    [.elem "collaboration" [("id", "co")]
       [.elem "participant" [("id", "pa"), ("name", "A"), ("processRef", "P")] [],
        .elem "participant" [("id", "pb"), ("name", "B")] [],
        .elem "messageFlow" [("id", "m"), ("sourceRef", "t"), ("targetRef", partner)] []],
     .elem "process" [("id", "P")]
       ([.elem "laneSet" [("id", "ls")] [.elem "lane" [("id", "l")] [.elem "flowNodeRef" [] [.text "t"]]],
        .elem "task" [("id", "t")] [.elem "outgoing" [] [.text "f"]], .elem "subProcess" [("id", "s")] [.elem "task" [("id", "u")] []],
        .elem "sequenceFlow" [("id", "f"), ("sourceRef", "t"), ("targetRef", "s")] [.elem "conditionExpression" [] [.text "x"]]] ++ inside),
     .elem "bpmndi:BPMNDiagram" [("id", "D")] [.elem "bpmndi:BPMNPlane" [("id", "PL"), ("bpmnElement", "co")]
       ([.elem "bpmndi:BPMNShape" [("bpmnElement", "pa"), ("isHorizontal", "true")] [.elem "omgdc:Bounds" [("x", "0")] []],
         .elem "bpmndi:BPMNShape" [("bpmnElement", "pb"), ("isHorizontal", "true")] [.elem "omgdc:Bounds" [("x", "1")] []],
         .elem "bpmndi:BPMNShape" [("bpmnElement", "t")] [.elem "omgdc:Bounds" [("x", "2")] []],
         .elem "bpmndi:BPMNShape" [("bpmnElement", "s")] [.elem "omgdc:Bounds" [("x", "3")] []],
         .elem "bpmndi:BPMNShape" [("bpmnElement", "u")] [.elem "omgdc:Bounds" [("x", "3")] []],
         .elem "bpmndi:BPMNEdge" [("bpmnElement", "f")] [], .elem "bpmndi:BPMNEdge" [("bpmnElement", "m")] []] ++ extra)]]

set_option maxRecDepth 8000 in
/-- Acceptable documents, among them one with a lane set, a sub-process, pools and a message flow. -/
example : (∃ diagram plane, Acceptable (partnersDoc "pb" [] []) diagram plane) ∧ (∃ diagram plane, Acceptable goodDocument diagram plane) := by
  constructor
  · obtain ⟨d, h, _⟩ := ok_of_check (x := Import.load id (partnersDoc "pb" [] []) {}) (fun _ => true) (by decide +kernel)
    exact (C75_exactly_which_documents id _).1 ⟨d, h⟩
  · obtain ⟨d, h, _⟩ := ok_of_check (x := Import.load id goodDocument {}) (fun _ => true) (by decide +kernel)
    exact (C75_exactly_which_documents id _).1 ⟨d, h⟩

/-- Documents that are not acceptable, each for a different reason: a shape without bounds, an empty condition, an empty reference in a
sub-process, a comment in a task, a comment in the plane, a lane drawn without bounds. -/
example : ∀ root ∈ [partnersDoc "pb" [] [.elem "bpmndi:BPMNShape" [("bpmnElement", "x")] []],
      partnersDoc "pb" [.elem "sequenceFlow" [("id", "g")] [.elem "conditionExpression" [] []]] [],
      partnersDoc "pb" [.elem "subProcess" [("id", "v")] [.elem "task" [("id", "w")] [.elem "incoming" [] []]]] [],
      partnersDoc "pb" [.elem "task" [("id", "w")] [.other "comment"]] [], partnersDoc "pb" [] [.other "comment"],
      partnersDoc "pb" [] [.elem "bpmndi:BPMNEdge" [("bpmnElement", "l")] []]],
    ¬∃ diagram plane, Acceptable root diagram plane := by
  intro root hr hn
  have hn' := (C75_exactly_which_documents id root).2 hn
  obtain ⟨d, hd⟩ := hn'
  have : ∀ root ∈ [partnersDoc "pb" [] [.elem "bpmndi:BPMNShape" [("bpmnElement", "x")] []],
      partnersDoc "pb" [.elem "sequenceFlow" [("id", "g")] [.elem "conditionExpression" [] []]] [],
      partnersDoc "pb" [.elem "subProcess" [("id", "v")] [.elem "task" [("id", "w")] [.elem "incoming" [] []]]] [],
      partnersDoc "pb" [.elem "task" [("id", "w")] [.other "comment"]] [], partnersDoc "pb" [] [.other "comment"],
      partnersDoc "pb" [] [.elem "bpmndi:BPMNEdge" [("bpmnElement", "l")] []]], (Import.load id root {}).isOk = false := by
    decide +kernel
  have := this root hr
  rw [hd] at this
  cases this

/-! ## C76 -/

/-- **C76.** The nodes of a diagram loaded into a new object are exactly the described ones (elements for nodes in processes and in
sub-processes, pools without process) and the ends of flows, each once; exactly the described ones have a type.  Two nodes are joined by an
edge exactly if a sequence flow or message flow of the document joins them, in one direction or the other. -/
theorem C76_exact_nodes_and_arcs (ord : List String → List String) (root : Xml) (d : Diagram) (h : Import.load ord root {} = .ok d) :
    (d.getNodes.map (·.1)).Nodup ∧ (∀ i, i ∈ d.getNodes.map (·.1) ↔ i ∈ describedNodes root ∨ i ∈ flowEnds root) ∧
    (∀ i a, (i, a) ∈ d.getNodes → (a.type.isSome = true ↔ i ∈ describedNodes root)) ∧
    (∀ u v, d.graph.hasEdge u v = true ↔ (u, v) ∈ flowPairs root ∨ (v, u) ∈ flowPairs root) :=
  have k := load_known h
  ⟨k.nodup, k.keys, fun i a ha => k.typed i a (Dict.get?_of_mem k.nodup ha), load_arcs h⟩

set_option maxRecDepth 8000 in
example : (∃ d, Import.load id (partnersDoc "pb" [] []) {} = .ok d ∧ (d.getNodes.map (·.1) == ["t", "s", "u", "pb"]) = true) ∧
    describedNodes (partnersDoc "pb" [] []) = ["t", "s", "u", "pb"] ∧ flowPairs (partnersDoc "pb" [] []) = [("t", "s"), ("t", "pb")] :=
  ⟨ok_of_check _ (by decide +kernel), by decide +kernel, by decide +kernel⟩

/-! ## C77 -/

/-- **C77.** A document in which a flow has an end that is no described node (for example a message flow to a pool that has a process) cannot
be loaded if the plane has a shape for this end. -/
theorem C77_flow_to_pool_with_process (ord : List String → List String) (root diagram plane x : Xml) (i : String)
    (hd : (Xml.byNameIn "BPMNDiagram" [root]).head? = some diagram) (hp : (diagram.byName "BPMNPlane").head? = some plane)
    (hx : x ∈ plane.children) (hs : IsNamed "BPMNShape" x) (hi : x.getAttr "bpmnElement" = i) (he : i ∈ flowEnds root)
    (hn : i ∉ describedNodes root) (d : Diagram) : Import.load ord root {} ≠ .ok d := by
  intro h
  obtain ⟨diagram', plane', a⟩ := (C75_exactly_which_documents ord root).1 ⟨d, h⟩
  have e1 := a.firstDiagram
  rw [hd] at e1
  cases e1
  have e2 := a.firstPlane
  rw [hp] at e2
  cases e2
  subst hi
  exact hn ((a.shapes x hx hs).2 he)

/-- The message flow of the document leads to the pool with the process: valid BPMN, but it is not loaded. -/
example : ∀ ord d, Import.load ord (partnersDoc "pa" [] []) {} ≠ .ok d := by
  intro ord d
  refine C77_flow_to_pool_with_process ord (partnersDoc "pa" [] []) _ _
    (.elem "bpmndi:BPMNShape" [("bpmnElement", "pa"), ("isHorizontal", "true")] [.elem "omgdc:Bounds" [("x", "0")] []]) "pa" rfl rfl
    (List.mem_cons_self ..) ⟨_, _, _, rfl, by decide⟩ rfl (by decide +kernel) (by decide +kernel) d

/-! ## C74: pools without process -/

/-- Pools without process are nodes. -/
def BoxNodes (d : Diagram) (c : Collab) : Prop := ∀ i p, Dict.get? c.participants i = some p → p.processRef = "" → i ∈ d.graph.nodes.keys

theorem boxNodes_kids : ∀ {l : List Xml} {D : Diagram} {c : Collab} {v : Diagram × Collab}, importCollabKids l D c = .ok v → BoxNodes D c → BoxNodes v.1 v.2
  | [], D, c, v, h, hb => by rw [importCollabKids] at h; rw [← Except.ok.inj h]; exact hb
  | x :: r, D, c, v, h, hb => by
    rw [importCollabKids] at h
    split at h
    · exact boxNodes_kids h hb
    · obtain ⟨t, _, h⟩ := except_bind_eq_ok h
      split at h
      · refine boxNodes_kids h ?_
        intro i p hp hr
        have hp' : Dict.get? (c.participants.set (x.getAttr "id") { name := x.getAttr "name", processRef := x.getAttr "processRef" }) i = some p := hp
        rw [Dict.get?_set] at hp'
        by_cases e : x.getAttr "processRef" = ""
        · simp only [importParticipant, e, if_true, Diagram.updNode, Graph.modifyNode, Dict.keys_modify, Graph.mem_keys_addNode]
          split at hp'
          · rename_i e1; exact .inl e1.symm
          · exact .inr (hb i p hp' hr)
        · simp only [importParticipant, e, if_false]
          split at hp'
          · cases hp'; exact absurd hr e
          · exact hb i p hp' hr
      · split at h
        · refine boxNodes_kids h ?_
          intro i p hp hr
          have := hb i p hp hr
          simp only [importMessageFlow, keys_linkEnds, Graph.modifyEdge_nodes, Graph.addEdge_nodes, Graph.mem_keys_addNode]
          exact .inr (.inr this)
        · exact boxNodes_kids h hb

theorem boxNodes_plane : ∀ {l : List Xml} {D D' : Diagram}, importPlane l D = .ok D' → (∀ c, D.collaboration = some c → BoxNodes D c) →
    ∀ c, D'.collaboration = some c → BoxNodes D' c
  | [], D, D', h, hb => by rw [importPlane] at h; rw [← Except.ok.inj h]; exact hb
  | x :: r, D, D', h, hb => by
    rw [importPlane] at h
    split at h
    · exact boxNodes_plane h hb
    · obtain ⟨t, _, h⟩ := except_bind_eq_ok h
      split at h
      · obtain ⟨D1, h1, h⟩ := except_bind_eq_ok h
        refine boxNodes_plane h ?_
        simp only [importShape] at h1
        obtain ⟨b, _, h1⟩ := except_bind_eq_ok h1
        obtain ⟨D2, h2, h1⟩ := except_bind_eq_ok h1
        have e2 : D2.graph.nodes.keys = D.graph.nodes.keys ∧ D2.collaboration = D.collaboration := by
          unfold importNodeShape at h2
          split at h2
          · cases h2; exact ⟨rfl, rfl⟩
          · obtain ⟨ty, _, h2⟩ := except_bind_eq_ok h2
            cases h2; exact ⟨by simp [Diagram.updNode], rfl⟩
        rw [e2.2] at h1
        split at h1
        · rename_i hc
          cases h1
          intro c hc'
          rw [e2.2, hc] at hc'
          cases hc'
        · rename_i c hc
          cases h1
          intro c' hc'
          cases hc'
          intro i p hp hr
          show i ∈ D2.graph.nodes.keys
          rw [e2.1]
          simp only [Dict.get?_modify] at hp
          split at hp
          · obtain ⟨q, hq, rfl⟩ := Option.map_eq_some_iff.1 hp
            exact hb c hc i q hq hr
          · exact hb c hc i p hp hr
      · split at h
        · obtain ⟨D1, h1, h⟩ := except_bind_eq_ok h
          refine boxNodes_plane h ?_
          simp only [importFlowDi] at h1
          split at h1
          · cases h1; exact hb
          · split at h1
            · cases h1; exact hb
            · cases h1
        · exact boxNodes_plane h hb

theorem boxNodes_load {ord : List String → List String} {root : Xml} {D : Diagram} (h : Import.load ord root {} = .ok D) (c : Collab)
    (hc : D.collaboration = some c) : BoxNodes D c := by
  simp only [Import.load] at h
  obtain ⟨diagram, h1, h⟩ := except_bind_eq_ok h
  obtain ⟨plane, h2, h⟩ := except_bind_eq_ok h
  obtain ⟨D1, h3, h⟩ := except_bind_eq_ok h
  obtain ⟨D2, h4, h⟩ := except_bind_eq_ok h
  refine boxNodes_plane h ?_ c hc
  intro c' hc'
  cases hx : Xml.byNameIn "collaboration" [root] with
  | nil =>
    rw [hx, importFirstCollaboration] at h4
    cases h4
    rw [importProcesses_collab h3] at hc'
    cases hc'
  | cons x r =>
    rw [hx, importFirstCollaboration, importCollaboration] at h4
    obtain ⟨⟨D3, c1⟩, h5, h4⟩ := except_bind_eq_ok h4
    cases h4
    cases hc'
    exact boxNodes_kids h5 (by intro i p hp; cases hp)

/-- **C74.** Load any document, export it and load the result: a pool that had no process has lost its orientation, whatever it was. -/
theorem C74_pools_without_process (ord : List String → List String) (root : Xml) (d e : Diagram) (fuel : Nat) (t : ETree)
    (hd : Import.load ord root {} = .ok d) (ht : Export.exportXmlFile fuel d = .ok t) (he : Import.load ord t.toDom {} = .ok e)
    (c c' : Collab) (hc : d.collaboration = some c) (hc' : e.collaboration = some c') (i : String) (p p' : Participant)
    (hp : Dict.get? c.participants i = some p) (hr : p.processRef = "") (hp' : Dict.get? c'.participants i = some p') :
    ∃ b, p'.di = some b ∧ b.isHorizontal = "" :=
  C74_orientation_lost d e fuel t ord ht he c' hc' i p' hp' (boxNodes_load hd c hc i p hp hr)

/-- A shape for the lane. -/
def laneShapeOfL : List Xml := [.elem "bpmndi:BPMNShape" [("bpmnElement", "l"), ("isHorizontal", "true")] [.elem "omgdc:Bounds" [("x", "0")] []]]

set_option maxRecDepth 8000 in
/-- The pool `pb` of the document is drawn horizontally; after one export and import the attribute is gone. -/
example : ∃ d t e, Import.load id (partnersDoc "pb" [] laneShapeOfL) {} = .ok d ∧ Export.exportXmlFile 5 d = .ok t ∧ Import.load id t.toDom {} = .ok e ∧
    (d.collaboration.bind fun c => (Dict.get? c.participants "pb").bind fun p => p.di.map (·.isHorizontal)) = some "true" ∧
    (e.collaboration.bind fun c => (Dict.get? c.participants "pb").bind fun p => p.di.map (·.isHorizontal)) = some "" := by
  obtain ⟨⟨d, t, e⟩, h, hp⟩ := ok_of_check (x := do
      let d ← Import.load id (partnersDoc "pb" [] laneShapeOfL) {}
      let t ← Export.exportXmlFile 5 d
      let e ← Import.load id t.toDom {}
      pure (d, t, e))
    (fun v => (v.1.collaboration.bind fun c => (Dict.get? c.participants "pb").bind fun p => p.di.map (·.isHorizontal)) == some "true" &&
      (v.2.2.collaboration.bind fun c => (Dict.get? c.participants "pb").bind fun p => p.di.map (·.isHorizontal)) == some "") (by decide +kernel)
  obtain ⟨d', h1, h⟩ := except_bind_eq_ok h
  obtain ⟨t', h2, h⟩ := except_bind_eq_ok h
  obtain ⟨e', h3, h⟩ := except_bind_eq_ok h
  cases h
  simp only [Bool.and_eq_true, beq_iff_eq] at hp
  exact ⟨d, t, e, h1, h2, h3, hp.1, hp.2⟩

end Bpmn.Props

import Verif.Lemmas.Labels
import Verif.Lemmas.ImportLists
import Verif.Props.Xml
/-!
# Properties C34 - C37: what is exported, and what an import keeps in step

`kidsOf`, `kidsTagged`, `label`, `labelsAll` describe the written tree (`Verif/Spec/Xml.lean`).
-/
set_option linter.unusedSimpArgs false
set_option linter.unusedVariables false

namespace Bpmn.Props
open Bpmn Bpmn.Spec

/-! ## C34 -/

/-- No node type and no type of an event definition has the local name `name`. -/
def NotNamed (d : Diagram) (name : String) : Prop :=
  ∀ n ∈ d.getNodes, (∀ ty, n.2.type = some ty → removeNamespace ty ≠ name) ∧
    ∀ l, n.2.eventDefinitions = some l → ∀ e ∈ l, removeNamespace e.defType ≠ name

/-- **C34.** Whatever the diagram, if it can be exported and loaded into a new object, then all processes of the new object have an empty
name, and none of their lanes has lanes inside. -/
theorem C34_names_and_nested_lanes_lost (d e : Diagram) (fuel : Nat) (t : ETree) (ord : List String → List String) (hd : NotNamed d "process")
    (ht : Export.exportXmlFile fuel d = .ok t) (he : Import.load ord t.toDom {} = .ok e) :
    ∀ p ∈ e.processElements, p.2.name = some "" ∧
      ∀ setId lanes, p.2.laneSet = some (setId, lanes) → ∀ id name childId children refs di, Lane.mk id name childId children refs di ∈ lanes →
        children = [] := by
  unfold Export.exportXmlFile at ht
  obtain ⟨t', h1, h2⟩ := except_bind_eq_ok ht
  simp only [except_pure, Except.ok.injEq] at h2
  subst h2
  have c : CoversAll Plain d :=
    { basic := by
        have h : ∀ t ∈ basicTags, removeNamespace t ≠ "process" ∧ removeNamespace t ≠ "lane" := by decide
        intro t ht as ks
        exact ⟨fun e => absurd e (h t ht).1, fun e => absurd e (h t ht).2⟩
      process := by
        intro i c e t ks
        exact ⟨fun _ => by simp [Dict.get?_cons], fun e => absurd e (by decide)⟩
      node := by
        intro n hn ty hty as ks hk
        refine ⟨fun e => absurd e ((hd n hn).1 ty hty), ?_⟩
        intro e k hkk
        have hs : ty ∉ ["subProcess", "startEvent", "intermediateCatchEvent", "endEvent", "intermediateThrowEvent", "boundaryEvent"] := by
          intro hm
          have : ∀ x ∈ ["subProcess", "startEvent", "intermediateCatchEvent", "endEvent", "intermediateThrowEvent", "boundaryEvent"],
            removeNamespace x ≠ "lane" := by decide
          exact this ty hm e
        rcases hk hs k hkk with rfl | rfl <;> decide
      defs := by
        intro n hn l hl e he as
        exact ⟨fun h => absurd h ((hd n hn).2 l hl e he), fun _ k hk => by cases hk⟩
      other := by
        have h : ∀ t ∈ otherTags, removeNamespace t ≠ "process" ∧ removeNamespace t ≠ "lane" := by decide
        intro t ht as ks
        exact ⟨fun e => absurd e (h t ht).1, fun e => absurd e (h t ht).2⟩
      lane := by
        intro as ks hk
        refine ⟨fun e => absurd e (by decide), ?_⟩
        intro _ k hkk
        rcases hk k hkk with rfl | rfl <;> decide }
  have hp := load_plainly ((allT_definitions c h1).indent 0).toDom (by intro p hp; cases hp) he
  intro p hp'
  refine ⟨(hp p hp').1, ?_⟩
  intro si ls hs id name ci ch rf di hl
  exact (hp p hp').2 _ hs _ hl _ _ _ _ _ _ rfl

/-- A diagram with a named process and a lane inside a lane. -/
def laneDiagram : Diagram :=
  let box : BoxDi := ⟨"true", "10", "10", "0", "0"⟩
  let inner : Lane := .mk "l2" "inner" none [] ["a"] (some box)
  let a : NodeAttrs := { id := some "a", type := some "task", nodeName := some "A", incoming := some [], outgoing := some [], process := some "p",
                         width := some "1", height := some "1", x := some "1", y := some "1" }
  { graph := ⟨[("a", a)], []⟩, diagramId := some "d", diagramName := some "D", planeId := some "pl", planeElement := some "p",
    processElements := [("p", { id := some "p", name := some "Order", isClosed := some "false", isExecutable := some "true",
                                processType := some "None", laneSet := some ("ls", [.mk "l1" "outer" (some "c") [inner] [] (some box)]) })] }

set_option maxRecDepth 4000 in
/-- The hypotheses of the theorem are met; the outer lane is there after loading, without its inner lane. -/
example : NotNamed laneDiagram "process" ∧ ∃ t e a, Export.exportXmlFile 5 laneDiagram = .ok t ∧ Import.load id t.toDom {} = .ok e ∧
    e.processElements = [("p", a)] ∧ (a.laneSet.map fun s => s.2.map fun l => match l with | .mk i n _ c r _ => (i, n, c.length, r)) =
      some [("l1", "outer", 0, [])] := by
  refine ⟨?_, _, _, ?_, rfl, rfl, ?_, ?_⟩
  rotate_left
  · exact { id := some "p", name := some "", isClosed := some "false", isExecutable := some "true", processType := some "None",
            nodeIds := some ["a"], laneSet := some ("", [.mk "l1" "outer" none [] [] (some ⟨"true", "10", "10", "0", "0"⟩)]) }
  · rfl
  · rfl
  intro n hn
  simp only [laneDiagram, Diagram.getNodes, List.mem_singleton] at hn
  subst hn
  simp
  decide

/-! ## C35 -/

/-- The types of nodes. -/
def isNodeType (ty : String) : Bool := (nodeKinds.map (·.1)).contains ty

theorem planes_doc (d : Diagram) (f : Nat) :
    (kidsTagged "bpmndi:BPMNDiagram" (docTree d f)).flatMap (kidsTagged "bpmndi:BPMNPlane") = [planeTree d] := by
  have h : (d.processElements.map (procTree d f)).filter (fun k => tagOf k == "bpmndi:BPMNDiagram") = [] := by
    rw [List.filter_eq_nil_iff]
    intro t ht
    obtain ⟨p, -, rfl⟩ := List.mem_map.1 ht
    simp [procTree, Export.el, tagOf]
  simp only [docTree, Export.el, kidsTagged, kidsOf]
  have h' : (collabTrees d).filter (fun k => tagOf k == "bpmndi:BPMNDiagram") = [] := by
    unfold collabTrees
    cases d.collaboration <;> simp [Export.el, tagOf]
  rw [List.filter_cons_of_pos (by simp [tagOf]), List.filter_append, h, h']
  simp [kidsTagged, kidsOf, planeTree, Export.el, tagOf]

theorem indented_plane (d : Diagram) (f : Nat) :
    (kidsTagged "bpmndi:BPMNDiagram" (Export.indent 0 (docTree d f))).flatMap (kidsTagged "bpmndi:BPMNPlane") =
      [Export.indent 2 (planeTree d)] := by
  rw [kidsTagged_indent, List.flatMap_map]
  simp only [kidsTagged_indent]
  rw [← List.map_flatMap, planes_doc]
  rfl

theorem filter_map_all {α : Type} {l : List α} {g : α → ETree} {q : ETree → Bool} (h : ∀ x, q (g x) = true) : (l.map g).filter q = l.map g := by
  rw [List.filter_eq_self]
  intro t ht
  obtain ⟨p, -, rfl⟩ := List.mem_map.1 ht
  exact h p

theorem filter_map_none {α : Type} {l : List α} {g : α → ETree} {q : ETree → Bool} (h : ∀ x, q (g x) = false) : (l.map g).filter q = [] := by
  rw [List.filter_eq_nil_iff]
  intro t ht
  obtain ⟨p, -, rfl⟩ := List.mem_map.1 ht
  simp [h p]

theorem shapes_plane (d : Diagram) : kidsTagged "bpmndi:BPMNShape" (planeTree d) =
    (poolsOf d).map poolShapeTree ++ ((allLanes d).map laneShapeTree ++ d.graph.nodes.map shapeTree) := by
  simp only [planeTree, planeKids, Export.el, kidsTagged, kidsOf, List.filter_append]
  rw [filter_map_none (g := fun m : String × MsgFlow => edgeTree (msgAttrs d m.1)), filter_map_all (g := poolShapeTree), filter_map_all (g := laneShapeTree),
    filter_map_all (g := shapeTree), filter_map_none, List.nil_append, List.append_nil]
  · intro x; simp [edgeTree, Export.edgeDi, Export.el, tagOf]
  · intro x; simp [shapeTree, Export.shape, Export.el, tagOf]
  · rintro ⟨_, _, _, _, _, _⟩; simp [laneShapeTree, boxTree, Export.shape, Export.el, tagOf]
  · intro x; simp [poolShapeTree, boxTree, Export.shape, Export.el, tagOf]
  · intro x; simp [edgeTree, Export.edgeDi, Export.el, tagOf]

theorem edges_plane (d : Diagram) : kidsTagged "bpmndi:BPMNEdge" (planeTree d) =
    (messagesOf d).map (fun m => edgeTree (msgAttrs d m.1)) ++ d.getFlows.map fun f => edgeTree f.2.2 := by
  simp only [planeTree, planeKids, Export.el, kidsTagged, kidsOf, List.filter_append]
  rw [filter_map_all (g := fun m : String × MsgFlow => edgeTree (msgAttrs d m.1)), filter_map_none (g := poolShapeTree), filter_map_none (g := laneShapeTree),
    filter_map_none (g := shapeTree), filter_map_all, List.nil_append, List.nil_append, List.nil_append]
  · intro x; simp [edgeTree, Export.edgeDi, Export.el, tagOf]
  · intro x; simp [shapeTree, Export.shape, Export.el, tagOf]
  · rintro ⟨_, _, _, _, _, _⟩; simp [laneShapeTree, boxTree, Export.shape, Export.el, tagOf]
  · intro x; simp [poolShapeTree, boxTree, Export.shape, Export.el, tagOf]
  · intro x; simp [edgeTree, Export.edgeDi, Export.el, tagOf]

theorem collab_doc (d : Diagram) (f : Nat) : kidsTagged "collaboration" (docTree d f) = collabTrees d := by
  have h : (d.processElements.map (procTree d f)).filter (fun k => tagOf k == "collaboration") = [] := by
    apply filter_map_none
    intro p
    simp [procTree, Export.el, tagOf]
  have h' : (collabTrees d).filter (fun k => tagOf k == "collaboration") = collabTrees d := by
    unfold collabTrees
    cases d.collaboration <;> simp [Export.el, tagOf]
  simp only [docTree, Export.el, kidsTagged, kidsOf]
  rw [List.filter_cons_of_neg (by simp [tagOf]), List.filter_append, h, h', List.append_nil]

theorem collab_labels (d : Diagram) : labelsAll (collabTrees d) = ((d.collaboration.map (·.id)).toList.map fun i => ("collaboration", i)) ++
    ((messageIds d).map fun i => ("messageFlow", i)) ++ ((poolIds d).map fun i => ("participant", i)) := by
  unfold collabTrees messageIds poolIds
  cases d.collaboration with
  | none => simp [labelsAll]
  | some c =>
    rw [labelsAll_eq]
    simp only [List.flatMap_cons, List.flatMap_nil, List.append_nil, treeLabels_el, List.flatMap_append, List.flatMap_map]
    simp [messageTree, poolTree, treeLabels_el, Dict.get?_cons, ← List.map_eq_flatMap, Function.comp_def]

/-- **C35.** Exporting a writable diagram succeeds.  Below the process elements, each node that belongs to a process, directly or through
sub-processes, has exactly one element, with its type as tag, and no other node has one; likewise for the flows of processes and of such
sub-processes.  The collaboration has one element for each message flow and for each pool.  The plane has one shape for each pool, each
lane and each node; it has one edge for each message flow and then one for each flow, message flows included. -/
theorem C35_exported_once (d : Diagram) (hd : Writable d) : ∃ t N, (∀ fuel ≥ N, Export.exportXmlFile fuel d = .ok t) ∧
    let inside := labelsAll (kidsTagged "process" t)
    let nodesOut := inside.filter fun l => isNodeType l.1
    let flowsOut := inside.filter fun l => l.1 == "sequenceFlow"
    let plane := (kidsTagged "bpmndi:BPMNDiagram" t).flatMap (kidsTagged "bpmndi:BPMNPlane")
    (nodesOut.map (·.2)).Nodup ∧
    (∀ ty i, (ty, i) ∈ nodesOut ↔ ∃ a, (i, a) ∈ d.getNodes ∧ a.type = some ty ∧ InProcess d i) ∧
    flowsOut.Nodup ∧
    (∀ i, ("sequenceFlow", i) ∈ flowsOut ↔ ∃ f ∈ d.getFlows, f.2.2.id = some i ∧ ∃ p, f.2.2.process = some p ∧
      (p ∈ d.processElements.map (·.1) ∨ ∃ a, (p, a) ∈ d.getNodes ∧ a.type = some "subProcess" ∧ InProcess d p)) ∧
    labelsAll (kidsTagged "collaboration" t) = ((d.collaboration.map (·.id)).toList.map fun i => ("collaboration", i)) ++
      ((messageIds d).map fun i => ("messageFlow", i)) ++ ((poolIds d).map fun i => ("participant", i)) ∧
    (plane.flatMap (kidsTagged "bpmndi:BPMNShape")).map (attrOf "bpmnElement") = poolIds d ++ laneIds d ++ d.getNodes.map (·.1) ∧
    (plane.flatMap (kidsTagged "bpmndi:BPMNEdge")).map (fun t => some (attrOf "bpmnElement" t)) =
      (messageIds d).map some ++ d.getFlows.map (·.2.2.id) := by
  obtain ⟨height, N, hN, hh⟩ := hd.height
  have hu : d.graph.nodes.keys.Nodup := hd.sane.nodesUnique
  refine ⟨Export.indent 0 (docTree d N), N, ?_, ?_⟩
  · intro fuel hf
    have hf' : ∀ n ∈ d.graph.nodes, height n.1 < fuel := fun n hn => Nat.lt_of_lt_of_le (hN n hn) hf
    simp [Export.exportXmlFile, definitions_ok hd hh hf', docTree_fuel hh hN hf']
  · have hin : labelsAll (kidsTagged "process" (Export.indent 0 (docTree d N))) = labelsAll (kidsTagged "process" (docTree d N)) := by
      rw [kidsTagged_indent, labelsAll_eq, labelsAll_eq, List.flatMap_map]
      exact flatMap_congr' fun t _ => treeLabels_indent _ _
    have hn : (labelsAll (kidsTagged "process" (docTree d N))).filter (fun l => isNodeType l.1) = (insideNodes d N).map nodeLabel := by
      rw [← nodeLabels_doc hd N]
      apply List.filter_congr
      intro x _
      simp only [isNodeType, kindNames, List.contains_eq_mem]
      congr
    have hfl := flowLabels_doc hd N
    simp only [flowLabels] at hfl
    have hid : ∀ f ∈ d.getFlows, f.2.2.id.isSome := by
      intro f hf
      obtain ⟨e, he, h'⟩ := Export.mem_getFlows hd.sane hf
      rw [← h']
      exact (hd.flows e he).id
    dsimp only
    rw [hin, hn]
    refine ⟨?_, ?_, ?_, ?_, ?_, ?_, ?_⟩
    · rw [List.map_map]
      exact nodup_insideNodes hd hN hh N
    · intro ty i
      rw [List.mem_map]
      constructor
      · rintro ⟨m, hm, e⟩
        obtain ⟨h1, h2⟩ := (mem_insideNodes hu hN hh m).1 hm
        obtain ⟨k, hk, hty, -⟩ := (hd.nodes m h1).kind
        obtain ⟨m1, m2⟩ := m
        simp only [nodeLabel, Prod.mk.injEq] at e hty
        obtain ⟨rfl, rfl⟩ := e
        exact ⟨m2, h1, by simp [hty], h2⟩
      · rintro ⟨a, h1, h2, h3⟩
        exact ⟨(i, a), (mem_insideNodes hu hN hh (i, a)).2 ⟨h1, h3⟩, by simp [nodeLabel, h2]⟩
    · exact hfl.nodup_iff.2 (nodup_flowLabels hd (nodup_containers hd hN hh N))
    · intro i
      rw [hfl.mem_iff, List.mem_flatMap]
      constructor
      · rintro ⟨p, hp, hx⟩
        obtain ⟨f, hf, e⟩ := List.mem_map.1 hx
        obtain ⟨h1, h2⟩ := List.mem_filter.1 hf
        simp only [beq_iff_eq] at h2
        obtain ⟨j, hj⟩ := Option.isSome_iff_exists.1 (hid f h1)
        rw [hj] at e
        simp only [Option.getD_some, Prod.mk.injEq, true_and] at e
        subst e
        exact ⟨f, h1, hj, p, h2, (mem_containers hu hN hh p).1 hp⟩
      · rintro ⟨f, h1, h2, p, h3, h4⟩
        exact ⟨p, (mem_containers hu hN hh p).2 h4, List.mem_map.2 ⟨f, List.mem_filter.2 ⟨h1, by simpa using h3⟩, by simp [h2]⟩⟩
    · rw [kidsTagged_indent, collab_doc, labelsAll_eq, List.flatMap_map, ← collab_labels, labelsAll_eq]
      exact flatMap_congr' fun t _ => treeLabels_indent _ _
    · rw [indented_plane]
      simp only [List.flatMap_cons, List.flatMap_nil, List.append_nil, kidsTagged_indent, shapes_plane, List.map_append, List.map_map,
        Function.comp_def, attrOf_indent]
      rw [poolIds_eq, laneIds_eq, List.append_assoc]
      congr 1
      congr 1
      · apply List.map_congr_left
        rintro ⟨_, _, _, _, _, _⟩ _
        simp [laneShapeTree, boxTree, laneId, Export.shape, Export.el, attrOf, Dict.get?_cons]
    · rw [indented_plane]
      simp only [List.flatMap_cons, List.flatMap_nil, List.append_nil, kidsTagged_indent, edges_plane, List.map_append, List.map_map,
        Function.comp_def, attrOf_indent]
      congr 1
      · rw [messageIds_eq, List.map_map]
        apply List.map_congr_left
        intro m hm
        simp [edgeTree, (msgAttrs_spec (messages_edges hd m hm)).2, Export.edgeDi, Export.el, attrOf, Dict.get?_cons]
      apply List.map_congr_left
      intro f hf
      obtain ⟨j, hj⟩ := Option.isSome_iff_exists.1 (hid f hf)
      simp [edgeTree, Export.edgeDi, Export.el, attrOf, Dict.get?_cons, hj]

/-- A diagram with a process, a sub-process inside, and an orphan: a task whose process does not exist, and a flow leading to it. -/
def orphanDiagram : Diagram :=
  let base : NodeAttrs := { incoming := some [], outgoing := some [], width := some "1", height := some "1", x := some "1", y := some "1" }
  let a : NodeAttrs := { base with id := some "a", type := some "task", nodeName := some "A", outgoing := some ["f"], process := some "p" }
  let s : NodeAttrs := { base with id := some "s", type := some "subProcess", nodeName := some "S", process := some "p", isExpanded := some "false",
                                   triggeredByEvent := some "false" }
  let b : NodeAttrs := { base with id := some "b", type := some "task", nodeName := some "B", process := some "s" }
  let o : NodeAttrs := { base with id := some "o", type := some "task", nodeName := some "O", incoming := some ["f"], process := some "gone" }
  let f : EdgeAttrs := { id := some "f", name := some "", process := some "p", sourceRef := some "a", targetRef := some "o", waypoints := some [("1", "1")] }
  { graph := ⟨[("a", a), ("s", s), ("b", b), ("o", o)], [⟨"a", "o", f⟩]⟩, diagramId := some "d", diagramName := some "D", planeId := some "pl",
    planeElement := some "p",
    processElements := [("p", { id := some "p", isClosed := some "false", isExecutable := some "true", processType := some "None" })] }

theorem orphan_writable : Writable orphanDiagram where
  header := by decide
  pools := by simp [orphanDiagram]
  lanes := by simp [orphanDiagram, lanesOf]
  sane := by
    constructor
    · decide
    · decide
    · simp [orphanDiagram]
    · simp [orphanDiagram, SamePair]
  nodes := by
    intro n hn
    simp only [orphanDiagram, List.mem_cons, List.not_mem_nil, or_false] at hn
    rcases hn with rfl | rfl | rfl | rfl
    all_goals
      refine ⟨rfl, rfl, rfl, rfl, rfl, rfl, rfl, ?_, ⟨_, rfl, by decide⟩, ⟨_, rfl, by decide⟩⟩
    · exact ⟨_, List.mem_cons_self .., rfl, rfl, by simp, by simp⟩
    · exact ⟨("subProcess", ["isExpanded", "triggeredByEvent"], true, []), by decide, rfl, rfl, by simp, by simp⟩
    · exact ⟨_, List.mem_cons_self .., rfl, rfl, by simp, by simp⟩
    · exact ⟨_, List.mem_cons_self .., rfl, rfl, by simp, by simp⟩
  flows := by
    intro e he
    simp only [orphanDiagram, List.mem_singleton] at he
    subst he
    constructor <;> simp
  procIds := by decide
  procs := by decide
  apart := by decide
  noCircles := ⟨fun n => if n = "b" then 1 else 0, by decide⟩
  flowIds := by decide

/-- The orphan is a node of the diagram that belongs to no process. -/
example : Writable orphanDiagram ∧ "o" ∈ orphanDiagram.getNodes.map (·.1) ∧ ¬InProcess orphanDiagram "o" ∧ InProcess orphanDiagram "b" := by
  refine ⟨orphan_writable, by decide, ?_, ?_⟩
  · intro h
    cases h with
    | direct hn hp hm =>
      simp [orphanDiagram] at hn
      subst hn
      simp at hp
      subst hp
      exact absurd hm (by decide)
    | nested hn hp hm ht _ =>
      simp [orphanDiagram] at hn hm
      subst hn
      simp at hp
      subst hp
      simp at hm
  · exact .nested (m := "s") (List.mem_of_getElem? (i := 2) rfl) rfl (List.mem_of_getElem? (i := 1) rfl) rfl
      (.direct (p := "p") (List.mem_of_getElem? (i := 1) rfl) rfl (by decide))

/-! ## C36 -/

theorem forall₂_map_eq {α β γ : Type} {R : α → β → Prop} {f : α → γ} {g : β → γ} : ∀ {l : List α} {m : List β}, List.Forall₂ R l m →
    (∀ x y, R x y → f x = g y) → m.map g = l.map f
  | _, _, .nil, _ => rfl
  | _, _, .cons h1 h2, h => by rw [List.map_cons, List.map_cons, h _ _ h1, forall₂_map_eq h2 h]

theorem label_exportFlow {a : EdgeAttrs} {t : ETree} (h : Export.exportFlow a = .ok t) : label t = ("sequenceFlow", a.id.getD "") := by
  unfold Export.exportFlow at h
  obtain ⟨i, hi, h⟩ := except_bind_eq_ok h
  obtain ⟨n, -, h⟩ := except_bind_eq_ok h
  obtain ⟨s, -, h⟩ := except_bind_eq_ok h
  obtain ⟨g, -, h⟩ := except_bind_eq_ok h
  rw [need_eq_ok hi]
  split at h
  all_goals
    simp only [except_pure, Except.ok.injEq] at h
    subst h
    simp [label, tagOf, attrOf, Export.el, Dict.get?_cons]

theorem label_exportNode {d : Diagram} {fuel : Nat} {n : Node} {t : ETree} (h : Export.exportNode d fuel n = .ok t) :
    label t = (n.2.type.getD "", n.1) := by
  cases fuel with
  | zero => simp [Export.exportNode] at h
  | succ f =>
    obtain ⟨ty, name, attrs, inc, out, more, hty, rfl, -⟩ := exportNode_shape h
    simp [label, tagOf, attrOf, Export.el, Dict.get?_cons, hty]

/-- **C36.** In the output of `export_xml_file_no_di` there is one element per process, and each of them contains an element for every node
and every flow of the diagram, whatever their process. -/
theorem C36_every_process_has_everything (d : Diagram) (fuel : Nat) (t : ETree) (h : Export.exportXmlFileNoDi fuel d = .ok t) :
    (kidsOf t).map label = d.processElements.map (fun p => ("process", p.1)) ∧
    ∀ p ∈ kidsOf t, (kidsOf p).map label =
      d.getNodes.map (fun n => (n.2.type.getD "", n.1)) ++ d.getFlows.map (fun f => ("sequenceFlow", f.2.2.id.getD "")) := by
  unfold Export.exportXmlFileNoDi Export.definitionsNoDi at h
  obtain ⟨t', h1, h2⟩ := except_bind_eq_ok h
  simp only [except_pure, Except.ok.injEq] at h2
  subst h2
  clear h
  obtain ⟨ps, hps, h⟩ := except_bind_eq_ok h1
  simp only [except_pure, Except.ok.injEq] at h
  subst h
  have key : ∀ (p : String × ProcAttrs) (t : ETree), Export.exportProcessNoDi d fuel p.1 p.2 = .ok t → label t = ("process", p.1) ∧
      (kidsOf t).map label =
        d.getNodes.map (fun n => (n.2.type.getD "", n.1)) ++ d.getFlows.map (fun f => ("sequenceFlow", f.2.2.id.getD "")) := by
    intro p t ht
    unfold Export.exportProcessNoDi at ht
    obtain ⟨as, has, ht⟩ := except_bind_eq_ok ht
    obtain ⟨ns, hns, ht⟩ := except_bind_eq_ok ht
    obtain ⟨fs, hfs, ht⟩ := except_bind_eq_ok ht
    simp only [except_pure, Except.ok.injEq] at ht
    subst ht
    unfold Export.processAttrs at has
    obtain ⟨c1, -, has⟩ := except_bind_eq_ok has
    obtain ⟨c2, -, has⟩ := except_bind_eq_ok has
    obtain ⟨c3, -, has⟩ := except_bind_eq_ok has
    simp only [except_pure, Except.ok.injEq] at has
    subst has
    constructor
    · simp [label, tagOf, attrOf, Export.el, Dict.get?_cons]
    · simp only [Export.el, kidsOf, List.map_append]
      rw [forall₂_map_eq (forEach_eq_ok hns) (f := fun n => (n.2.type.getD "", n.1)) fun x y h => (label_exportNode h).symm,
        forall₂_map_eq (forEach_eq_ok hfs) (f := fun f : Flow => ("sequenceFlow", f.2.2.id.getD "")) fun x y h => (label_exportFlow h).symm]
  have hk : kidsOf (Export.indent 0 (Export.el "definitions" Export.definitionsAttrs ps)) = ps.map (Export.indent 1) := by
    rw [kidsOf_indent]
    rfl
  rw [hk]
  constructor
  · rw [List.map_map]
    have : (label ∘ Export.indent 1) = label := by funext t; simp
    rw [this]
    exact forall₂_map_eq (forEach_eq_ok hps) fun x y h => (key x y h).1.symm
  · intro p hp
    obtain ⟨q, hq, rfl⟩ := List.mem_map.1 hp
    have : (label ∘ Export.indent 2) = label := by funext t; simp
    simp only [kidsOf_indent, List.map_map]
    rw [this]
    exact forall₂_right (forEach_eq_ok hps) (fun x _ y h => (key x y h).2) q hq

/-- **C36.** With `n` processes each node has `n` elements. -/
theorem C36_repeated (d : Diagram) (fuel : Nat) (t : ETree) (h : Export.exportXmlFileNoDi fuel d = .ok t) (hd : Sane d)
    (n : String) (a : NodeAttrs) (hn : (n, a) ∈ d.getNodes) (ty : String) (hty : a.type = some ty) (hs : ty ≠ "sequenceFlow") :
    (((kidsOf t).flatMap kidsOf).map label).count (ty, n) = d.processElements.length := by
  obtain ⟨h1, h2⟩ := C36_every_process_has_everything d fuel t h
  have hlen : (kidsOf t).length = d.processElements.length := by simpa using congrArg List.length h1
  have hone : ∀ p ∈ kidsOf t, ((kidsOf p).map label).count (ty, n) = 1 := by
    intro p hp
    rw [h2 p hp, List.count_append]
    have hf : (d.getFlows.map fun f : Flow => ("sequenceFlow", f.2.2.id.getD "")).count (ty, n) = 0 := by
      rw [List.count_eq_zero]
      intro hm
      obtain ⟨f, -, e⟩ := List.mem_map.1 hm
      exact hs (congrArg Prod.fst e).symm
    have hnd : (d.getNodes.map fun n : Node => (n.2.type.getD "", n.1)).Nodup := by
      have := hd.nodesUnique
      apply List.Nodup.of_map Prod.snd
      rw [List.map_map]
      exact this
    rw [hf, List.count_eq_one_of_mem hnd (List.mem_map.2 ⟨(n, a), hn, by simp [hty]⟩)]
  rw [← hlen, List.map_flatMap]
  generalize kidsOf t = l at hone ⊢
  induction l with
  | nil => rfl
  | cons p r ih =>
    rw [List.flatMap_cons, List.count_append, hone p (List.mem_cons_self ..), ih fun q hq => hone q (List.mem_cons_of_mem _ hq), List.length_cons]
    omega

theorem byNameIn_eq_nil {root : Xml} {name : String} (h : AllX (fun t _ _ => removeNamespace t ≠ name) root) : Xml.byNameIn name [root] = [] := by
  rw [List.eq_nil_iff_forall_not_mem]
  intro y hy
  obtain ⟨h1, t, as, ks, rfl, e⟩ := allXs_byNameIn name (l := [root]) (by exact ⟨h, trivial⟩) y hy
  exact h1.1 e

/-- **C36.** The output of `export_xml_file_no_di` cannot be loaded. -/
theorem C36_not_loadable (d : Diagram) (fuel : Nat) (t : ETree) (h : Export.exportXmlFileNoDi fuel d = .ok t) (hd : NotNamed d "BPMNDiagram")
    (ord : List String → List String) (e : Diagram) : Import.load ord t.toDom e = .error .indexError := by
  unfold Export.exportXmlFileNoDi at h
  obtain ⟨t', h1, h2⟩ := except_bind_eq_ok h
  simp only [except_pure, Except.ok.injEq] at h2
  subst h2
  have c : Covers (fun t _ _ => removeNamespace t ≠ "BPMNDiagram") d :=
    { basic := by
        have h : ∀ t ∈ basicTags, removeNamespace t ≠ "BPMNDiagram" := by decide
        exact fun t ht _ _ => h t ht
      process := fun _ _ _ _ _ => by decide
      node := fun n hn ty hty _ _ _ => (hd n hn).1 ty hty
      defs := fun n hn l hl e he _ => (hd n hn).2 l hl e he }
  rw [Import.load, byNameIn_eq_nil ((allT_noDi c h1).indent 0).toDom]
  rfl

set_option maxRecDepth 4000 in
/-- The export of the diagram above, with a second process, succeeds. -/
example : NotNamed orphanDiagram "BPMNDiagram" ∧ Sane orphanDiagram ∧ ∃ t,
    Export.exportXmlFileNoDi 5 { orphanDiagram with processElements := orphanDiagram.processElements ++
      [("q", { id := some "q", isClosed := some "false", isExecutable := some "true", processType := some "None" })] } = .ok t := by
  refine ⟨?_, orphan_writable.sane, _, rfl⟩
  intro n hn
  simp only [orphanDiagram, Diagram.getNodes, List.mem_cons, List.not_mem_nil, or_false] at hn
  rcases hn with rfl | rfl | rfl | rfl
  all_goals
    simp
    decide

/-! ## C37 -/

/-- **C37.** Loading a document in which node ids are distinct and flows join nodes of their own process or sub-process: afterwards each
entry of the flow table is listed by its source and by its target, and these are joined by an edge.  This also holds when loading into an
object that has these properties already and none of the node ids. -/
theorem C37_lists_in_step (ord : List String → List String) (root : Xml) (hr : WellPlaced root) (d e : Diagram) (hd : InStep d)
    (hn : ∀ p ∈ Xml.byNameIn "process" [root], ∀ i ∈ nodeIdsAll p.children, i ∉ d.getNodes.map (·.1))
    (he : Import.load ord root d = .ok e) : InStep e :=
  load_inStep he hr hn hd

/-- **C37.** In particular when loading into a new object. -/
theorem C37_new_object (ord : List String → List String) (root : Xml) (hr : WellPlaced root) (e : Diagram)
    (he : Import.load ord root {} = .ok e) : InStep e :=
  load_inStep he hr (by intro p _ i _ h; cases h) (by intro i f h; cases h)

/-- A document with a process, in which a sub-process comes first; `inner` is in the sub-process, `outer` follows it. -/
def document (inner outer : List Xml) : Xml :=
  .elem "definitions" []
    [.elem "process" [("id", "p")] (.elem "subProcess" [("id", "s")] inner :: outer),
     .elem "bpmndi:BPMNDiagram" [("id", "d")] [.elem "bpmndi:BPMNPlane" [("id", "pl"), ("bpmnElement", "p")] []]]

/-- A task. -/
def taskElement (i : String) : Xml := .elem "task" [("id", i)] []
/-- A sequence flow. -/
def flowElement (i s t : String) : Xml := .elem "sequenceFlow" [("id", i), ("sourceRef", s), ("targetRef", t)] []

/-- A document that meets the conditions, with a flow inside the sub-process and one outside. -/
def goodDocument : Xml :=
  document [taskElement "a", flowElement "f" "a" "b", taskElement "b"] [taskElement "c", flowElement "g" "c" "s"]

theorem ok_of_check {α : Type} {x : Py α} (p : α → Bool) (h : (match x with | .ok a => p a | .error _ => false) = true) :
    ∃ a, x = .ok a ∧ p a = true := by
  cases x with
  | ok a => exact ⟨a, rfl, h⟩
  | error e => cases h

set_option maxRecDepth 4000 in
example : WellPlaced goodDocument ∧ ∃ e, Import.load id goodDocument {} = .ok e ∧ (e.sequenceFlows.keys == ["f", "g"]) = true := by
  refine ⟨⟨by decide, ?_⟩, ok_of_check _ (by decide +kernel)⟩
  intro p hp
  have : Xml.byNameIn "process" [goodDocument] = [.elem "process" [("id", "p")]
    [.elem "subProcess" [("id", "s")] [taskElement "a", flowElement "f" "a" "b", taskElement "b"], taskElement "c", flowElement "g" "c" "s"]] := rfl
  rw [this, List.mem_singleton] at hp
  subst hp
  have e1 : removeNamespace "task" = "task" := by decide
  have e2 : removeNamespace "sequenceFlow" = "sequenceFlow" := by decide
  have e3 : removeNamespace "subProcess" = "subProcess" := by decide
  constructor
  · intro x hx hs
    simp only [Xml.children, List.mem_cons, List.not_mem_nil, or_false] at hx
    rcases hx with rfl | rfl | rfl
    · obtain ⟨t, as, ks, h1, h2⟩ := hs
      cases h1
      exact absurd h2 (by decide)
    · obtain ⟨t, as, ks, h1, h2⟩ := hs
      cases h1
      exact absurd h2 (by decide)
    · decide
  · simp only [Xml.children, LocalAll, LocalIn, taskElement, flowElement, e1, e2, e3]
    simp
    intro x hx hs
    simp only [Xml.children, List.mem_cons, List.not_mem_nil, or_false] at hx
    rcases hx with rfl | rfl | rfl
    · obtain ⟨t, as, ks, h1, h2⟩ := hs
      cases h1
      exact absurd h2 (by decide)
    · decide
    · obtain ⟨t, as, ks, h1, h2⟩ := hs
      cases h1
      exact absurd h2 (by decide)

set_option maxRecDepth 4000 in
/-- **C37.** Without the conditions it fails: a flow in a sub-process between two tasks that follow the sub-process is in the table, but
not in the lists of the tasks. -/
theorem C37_lists_lost : ∃ root e, (∀ ord, Import.load ord root {} = .ok e) ∧ e.sequenceFlows.get? "f" = some ⟨"", "a", "b"⟩ ∧
    outgoingOf e "a" = [] ∧ incomingOf e "b" = [] ∧ ¬InStep e := by
  refine ⟨document [flowElement "f" "a" "b"] [taskElement "a", taskElement "b"], _, fun _ => rfl, rfl, rfl, rfl, ?_⟩
  intro h
  exact absurd (h "f" _ rfl).1 (by decide)

end Bpmn.Props

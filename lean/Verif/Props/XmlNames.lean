import Verif.Lemmas.XmlNames
import Verif.Props.XmlPools
/-!
# C95: names and ids in written files
-/
set_option linter.unusedSimpArgs false
set_option linter.unusedVariables false

namespace Bpmn.Props
open Bpmn Bpmn.Spec Bpmn.Export

theorem standsFor_default {tag : String} (h : NoColon tag) : StandsFor definitionsAttrs tag modelUri tag :=
  .default h (by decide)

theorem drawing_names {tag : String} (h : tag ∈ ["bpmndi:BPMNDiagram", "bpmndi:BPMNPlane", "bpmndi:BPMNShape", "bpmndi:BPMNEdge", "omgdc:Bounds",
    "omgdi:waypoint"]) (as : List (String × String)) : DrawingElement definitionsAttrs (tag, as) := by
  simp only [List.mem_cons, List.not_mem_nil, or_false] at h
  rcases h with rfl | rfl | rfl | rfl | rfl | rfl
  · exact ⟨diUri, "BPMNDiagram", .prefixed (p := "bpmndi") (l := "BPMNDiagram") (by decide) (by decide) (by decide), by simp⟩
  · exact ⟨diUri, "BPMNPlane", .prefixed (p := "bpmndi") (l := "BPMNPlane") (by decide) (by decide) (by decide), by simp⟩
  · exact ⟨diUri, "BPMNShape", .prefixed (p := "bpmndi") (l := "BPMNShape") (by decide) (by decide) (by decide), by simp⟩
  · exact ⟨diUri, "BPMNEdge", .prefixed (p := "bpmndi") (l := "BPMNEdge") (by decide) (by decide) (by decide), by simp⟩
  · exact ⟨dcUri, "Bounds", .prefixed (p := "omgdc") (l := "Bounds") (by decide) (by decide) (by decide), by simp⟩
  · exact ⟨ddUri, "waypoint", .prefixed (p := "omgdi") (l := "waypoint") (by decide) (by decide) (by decide), by simp⟩

/-- **C95, namespaces.** Whatever the diagram, if it can be exported (and types have no colon), the root of the file is the `definitions` of a BPMN
model with different attribute names; its first child and everything below are elements of drawings under their official names; everything else are
elements of BPMN models; only the root declares namespaces; attribute names are different in each element and have no prefix. -/
theorem C95_namespaces (d : Diagram) (hd : PlainTypes d) (fuel : Nat) (t : ETree) (h : exportXmlFile fuel d = .ok t) :
    let root := attrsOf t
    StandsFor root (tagOf t) modelUri "definitions" ∧ (root.map (·.1)).Nodup ∧ ∃ dia rest, kidsOf t = dia :: rest ∧
      (∀ e ∈ elementsOf dia, DrawingElement root e ∧ PlainAttrs e) ∧ ∀ e ∈ elementsOfAll rest, ModelElement root e ∧ PlainAttrs e := by
  unfold exportXmlFile at h
  obtain ⟨t', h1, h2⟩ := except_bind_eq_ok h
  simp only [except_pure, Except.ok.injEq] at h2
  subst h2
  obtain ⟨dia, rest, rfl, k1, k2⟩ := named_definitions hd h1
  have hroot : attrsOf (indent 0 (el "definitions" definitionsAttrs (dia :: rest))) = definitionsAttrs := by rw [attrsOf_indent]; rfl
  dsimp only
  rw [hroot, tagOf_indent, kidsOf_indent]
  refine ⟨standsFor_default (tag := "definitions") (by decide), by decide, indent 1 dia, rest.map (indent 1), rfl, ?_, ?_⟩
  · rw [elementsOf_indent]
    intro e he
    have := k1 e (by simpa using he)
    exact ⟨drawing_names this.1 e.2, this.2⟩
  · rw [elementsOfAll_eq, List.flatMap_map]
    simp only [elementsOf_indent]
    intro e he
    have := k2 e he
    exact ⟨⟨e.1, standsFor_default this.1⟩, this.2⟩

/-- **C95, namespaces without drawing.** In a file written by `export_xml_file_no_di` all elements are elements of BPMN models. -/
theorem C95_namespaces_no_di (d : Diagram) (hd : PlainTypes d) (fuel : Nat) (t : ETree) (h : exportXmlFileNoDi fuel d = .ok t) :
    let root := attrsOf t
    StandsFor root (tagOf t) modelUri "definitions" ∧ (root.map (·.1)).Nodup ∧
      ∀ e ∈ elementsOfAll (kidsOf t), ModelElement root e ∧ PlainAttrs e := by
  unfold exportXmlFileNoDi at h
  obtain ⟨t', h1, h2⟩ := except_bind_eq_ok h
  simp only [except_pure, Except.ok.injEq] at h2
  subst h2
  obtain ⟨rest, rfl, k2⟩ := named_definitionsNoDi hd h1
  have hroot : attrsOf (indent 0 (el "definitions" definitionsAttrs rest)) = definitionsAttrs := by rw [attrsOf_indent]; rfl
  dsimp only
  rw [hroot, tagOf_indent, kidsOf_indent]
  refine ⟨standsFor_default (tag := "definitions") (by decide), by decide, ?_⟩
  rw [elementsOfAll_eq, List.flatMap_map]
  simp only [elementsOf_indent]
  intro e he
  have := k2 e he
  exact ⟨⟨e.1, standsFor_default this.1⟩, this.2⟩

/-- A tag means one thing only, if the attribute names of the root are different. -/
theorem C95_meaning (root : List (String × String)) (hr : (root.map (·.1)).Nodup) (tag u u' l l' : String) (h : StandsFor root tag u l)
    (h' : StandsFor root tag u' l') : u = u' ∧ l = l' := by
  have colon : ∀ {p l : String}, NoColon (p ++ ":" ++ l) → False := by
    intro p l h
    apply h
    simp
  have split : ∀ {p q l m : List Char}, ':' ∉ p → ':' ∉ q → p ++ ':' :: l = q ++ ':' :: m → p = q ∧ l = m := by
    intro p
    induction p with
    | nil =>
      intro q l m _ hq e
      cases q with
      | nil => simpa using e
      | cons c q =>
        simp only [List.nil_append, List.cons_append, List.cons.injEq] at e
        rw [← e.1] at hq
        exact absurd List.mem_cons_self hq
    | cons c p ih =>
      intro q l m hp hq e
      cases q with
      | nil =>
        simp only [List.nil_append, List.cons_append, List.cons.injEq] at e
        rw [e.1] at hp
        exact absurd List.mem_cons_self hp
      | cons c' q =>
        simp only [List.cons_append, List.cons.injEq] at e
        obtain ⟨rfl, e⟩ := e
        obtain ⟨rfl, rfl⟩ := ih (fun h => hp (List.mem_cons_of_mem _ h)) (fun h => hq (List.mem_cons_of_mem _ h)) e
        exact ⟨rfl, rfl⟩
  have uniq : ∀ {k v w : String}, (k, v) ∈ root → (k, w) ∈ root → v = w := by
    intro k v w h1 h2
    have := eq_of_nodup_map hr h1 h2 rfl
    simpa using this
  cases h with
  | default ht hd =>
    generalize hg : tag = tag' at h'
    cases h' with
    | default _ hd' => exact ⟨uniq hd hd', rfl⟩
    | prefixed => exact absurd (hg ▸ ht) colon
  | @prefixed p l u hp hl hd =>
    generalize hg : p ++ ":" ++ l = tag' at h'
    cases h' with
    | default ht => exact absurd (hg ▸ ht) colon
    | @prefixed q _ _ hq hm hd' =>
      have e := congrArg String.toList hg
      simp only [String.toList_append] at e
      have e' : p.toList ++ ':' :: l.toList = q.toList ++ ':' :: l'.toList := by simpa using e
      obtain ⟨h1, h2⟩ := split hp hq e'
      have h1 := String.ext_iff.2 h1
      have h2 := String.ext_iff.2 h2
      subst h1 h2
      exact ⟨uniq hd hd', rfl⟩

/-- **C95, ids.** The ids in the file of a complete diagram are, each as often as listed: the ids of diagram and plane, the ids of collaboration,
message flows, pools, processes, lanes, nodes, event definitions, flows and conditions, and for everything drawn its id with `_gui` behind it. -/
theorem C95_ids (d : Diagram) (hd : Exportable d) : ∃ t N, (∀ fuel ≥ N, exportXmlFile fuel d = .ok t) ∧
    (treeIds t).Perm ([d.diagramId.getD "", d.planeId.getD ""] ++ modelIds d ++ (drawnIds d).map (· ++ "_gui")) := by
  obtain ⟨height, N, hN, hh⟩ := hd.height
  refine ⟨indent 0 (docTree d N), N, ?_, ?_⟩
  · intro fuel hf
    have hf' : ∀ n ∈ d.graph.nodes, height n.1 < fuel := fun n hn => Nat.lt_of_lt_of_le (hN n hn) hf
    simp [exportXmlFile, definitions_ok hd.toWritable hh hf', docTree_fuel hh hN hf']
  · rw [treeIds_indent]
    exact ids_doc hd hN hh

/-- **C95, different ids.** The ids in the file of a complete diagram are different from each other if and only if there are no message flows, the
ids of the diagram are different from each other, and none of them is the id of something drawn with `_gui` behind it. -/
theorem C95_distinct (d : Diagram) (hd : Exportable d) : ∃ t N, (∀ fuel ≥ N, exportXmlFile fuel d = .ok t) ∧
    ((treeIds t).Nodup ↔ messageIds d = [] ∧ ([d.diagramId.getD "", d.planeId.getD ""] ++ modelIds d).Nodup ∧
      ∀ i ∈ [d.diagramId.getD "", d.planeId.getD ""] ++ modelIds d, ∀ x ∈ drawnIds d, i ≠ x ++ "_gui") := by
  obtain ⟨t, N, h1, h2⟩ := C95_ids d hd
  refine ⟨t, N, h1, ?_⟩
  rw [h2.nodup_iff, List.nodup_append]
  have hinj : Function.Injective (fun x : String => x ++ "_gui") := by
    intro a b e
    have e := congrArg String.toList e
    simp only [String.toList_append] at e
    exact String.ext_iff.2 (List.append_cancel_right e)
  rw [List.nodup_map_iff hinj]
  have hdis : (∀ a ∈ [d.diagramId.getD "", d.planeId.getD ""] ++ modelIds d, ∀ b ∈ (drawnIds d).map (· ++ "_gui"), a ≠ b) ↔
      ∀ i ∈ [d.diagramId.getD "", d.planeId.getD ""] ++ modelIds d, ∀ x ∈ drawnIds d, i ≠ x ++ "_gui" := by
    constructor
    · intro h i hi x hx
      exact h i hi _ (List.mem_map.2 ⟨x, hx, rfl⟩)
    · intro h i hi b hb
      obtain ⟨x, hx, rfl⟩ := List.mem_map.1 hb
      exact h i hi x hx
  rw [hdis]
  have hmsg : (drawnIds d).Nodup → messageIds d = [] := by
    intro hn
    cases hm : messageIds d with
    | nil => rfl
    | cons i r =>
      exfalso
      have hi : i ∈ messageIds d := by rw [hm]; exact List.mem_cons_self
      have hflow : i ∈ d.getFlows.filterMap (·.2.2.id) := by
        unfold messageIds at hi
        cases hc : d.collaboration with
        | none => simp [hc] at hi
        | some c =>
          simp only [hc, Option.map_some, Option.getD_some] at hi
          obtain ⟨m, hm', rfl⟩ := List.mem_map.1 hi
          obtain ⟨e, he, hid⟩ := (hd.pools c hc).2 m hm'
          have := (Graph.flows_attrs_perm hd.sane.wf).mem_iff.2 (List.mem_map.2 ⟨e, he, rfl⟩)
          obtain ⟨f, hf, hfe⟩ := List.mem_map.1 this
          exact List.mem_filterMap.2 ⟨f, hf, by rw [hfe]; exact hid⟩
      unfold drawnIds at hn
      rw [List.append_assoc, List.append_assoc, List.append_assoc, List.nodup_append] at hn
      exact hn.2.2 i hi i (by simp only [List.mem_append]; exact .inr (.inr (.inr hflow))) rfl
  have hsub : messageIds d = [] → (drawnIds d).Sublist (modelIds d) := by
    intro hm
    have hfl : d.getFlows.filterMap (·.2.2.id) = (placedFlows d).filterMap (·.id) := by
      rw [placedFlows, List.filter_eq_self.2, List.filterMap_map]
      · rfl
      · intro a ha
        obtain ⟨f, hf, rfl⟩ := List.mem_map.1 ha
        obtain ⟨e, he, h'⟩ := mem_getFlows hd.sane hf
        rcases hd.flowProcess e he with ⟨q, hq, -⟩ | ⟨i, hi, -⟩
        · rw [← h', hq]
          rfl
        · rw [hm] at hi
          cases hi
    unfold drawnIds modelIds
    rw [hm, hfl]
    simp only [List.append_assoc, List.nil_append]
    refine (List.Sublist.append (List.Sublist.refl (poolIds d)) ?_).trans (List.sublist_append_right _ _)
    refine List.Sublist.trans ?_ (List.sublist_append_right _ _)
    refine List.Sublist.append (List.Sublist.refl (laneIds d)) ?_
    refine List.Sublist.append (List.Sublist.refl (d.getNodes.map (·.1))) ?_
    refine List.Sublist.trans ?_ (List.sublist_append_right _ _)
    exact List.sublist_append_left _ _
  constructor
  · rintro ⟨a, b, c⟩
    exact ⟨hmsg b, a, c⟩
  · rintro ⟨a, b, c⟩
    exact ⟨b, ((List.nodup_append.1 b).2.1).sublist (hsub a), c⟩

/-- The pool example: types have no colon, and since there is a message flow, two elements of the file have the id `m_gui`. -/
example : PlainTypes poolDiagram ∧ Exportable poolDiagram ∧ (∃ t, exportXmlFile 3 poolDiagram = .ok t) ∧ (∃ t, exportXmlFileNoDi 3 poolDiagram = .ok t) ∧
    modelIds poolDiagram = ["co", "m", "pa", "pb", "p", "q", "l1", "l2", "s", "b", "a", "e", "d1", "d2", "f", "g", "c"] ∧
    drawnIds poolDiagram = ["m", "pa", "pb", "l1", "l2", "s", "b", "a", "e", "f", "m", "g"] := by
  refine ⟨?_, pool_exportable, ⟨_, rfl⟩, ⟨_, rfl⟩, by decide +kernel, by decide +kernel⟩
  have : ∀ n ∈ poolDiagram.graph.nodes, (':' ∉ (n.2.type.getD "").toList) ∧ ∀ e ∈ n.2.eventDefinitions.getD [], ':' ∉ e.defType.toList := by
    decide +kernel
  intro n hn
  refine ⟨?_, (this n hn).2⟩
  intro t ht
  have h := (this n hn).1
  rw [ht] at h
  exact h

/-- Two histories with the same shape; in the second one a task has the id of the other one's shape. -/
def guiOps (b : String) : List Op :=
  [.createNew "d" "D", .addProcess "p" false true "None" "pl" "P", .addTask "P" "A" (some "a") "u1", .addTask "P" "B" (some b) "u2",
   .addSequenceFlow "P" "a" b "" "f"]

set_option maxRecDepth 4000 in
theorem gui_exportable (b : String) (h : b ∈ ["b", "a_gui"]) : Exportable (Op.run {} (guiOps b)) := by
  have ho : OrderlyHistory {} (guiOps b) := by
    simp only [guiOps, OrderlyHistory]
    simp only [List.mem_cons, List.not_mem_nil, or_false] at h
    rcases h with rfl | rfl
    all_goals
      refine ⟨⟨?_, ?_⟩, ⟨?_, ?_⟩, ⟨?_, ?_⟩, ⟨?_, ?_⟩, ⟨?_, ?_⟩, trivial⟩
    all_goals first
      | (constructor <;> simp [Allowed, step, declaredNode, declaredFlow, directionArg, directions, chosen, usable, Placed, baseNode])
      | simp [Allowed, step, declaredNode, declaredFlow, directionArg, directions, chosen]
  exact exportable_of_orderly ho rfl rfl

/-- The first one is written with different ids, the second one is not: the task and the shape of the other task have the same id. -/
example : (∃ t N, (∀ fuel ≥ N, exportXmlFile fuel (Op.run {} (guiOps "b")) = .ok t) ∧ (treeIds t).Nodup) ∧
    (∃ t N, (∀ fuel ≥ N, exportXmlFile fuel (Op.run {} (guiOps "a_gui")) = .ok t) ∧ ¬ (treeIds t).Nodup) := by
  constructor
  · obtain ⟨t, N, h1, h2⟩ := C95_distinct _ (gui_exportable "b" (by simp))
    exact ⟨t, N, h1, h2.2 (by decide +kernel)⟩
  · obtain ⟨t, N, h1, h2⟩ := C95_distinct _ (gui_exportable "a_gui" (by simp))
    exact ⟨t, N, h1, fun h => absurd (h2.1 h) (by decide +kernel)⟩

end Bpmn.Props

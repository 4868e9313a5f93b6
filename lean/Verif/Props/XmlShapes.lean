import Verif.Props.XmlContent
/-!
# C35: the plane of an exported file, whatever the diagram
-/
set_option linter.unusedSimpArgs false
set_option linter.unusedVariables false

namespace Bpmn.Spec

mutual
/-- The ids of a lane and of all lanes inside, inner lanes first. -/
def lanesIn : Lane → List String
  | .mk id _ none _ _ _ => [id]
  | .mk id _ (some _) children _ _ => lanesInAll children ++ [id]
/-- The same for all lanes of a list. -/
def lanesInAll : List Lane → List String
  | [] => []
  | l :: r => lanesIn l ++ lanesInAll r
end

/-- The ids of all lanes of a diagram, nested lanes included. -/
def allLaneIds (d : Diagram) : List String := d.processElements.flatMap fun p => lanesInAll (lanesOf p.2)

end Bpmn.Spec

namespace Bpmn.Props
open Bpmn Bpmn.Spec Bpmn.Export

/-- All trees are shapes, for these elements. -/
def ShapesFor (s : List ETree) (ids : List String) : Prop := (∀ t ∈ s, tagOf t = "bpmndi:BPMNShape") ∧ s.map (attrOf "bpmnElement") = ids

/-- All trees are edges, for these elements. -/
def EdgesFor (s : List ETree) (ids : List String) : Prop := (∀ t ∈ s, tagOf t = "bpmndi:BPMNEdge") ∧ s.map (attrOf "bpmnElement") = ids

theorem ShapesFor.append {a b : List ETree} {x y : List String} (h : ShapesFor a x) (k : ShapesFor b y) : ShapesFor (a ++ b) (x ++ y) :=
  ⟨fun t ht => (List.mem_append.1 ht).elim (h.1 t) (k.1 t), by rw [List.map_append, h.2, k.2]⟩

theorem EdgesFor.append {a b : List ETree} {x y : List String} (h : EdgesFor a x) (k : EdgesFor b y) : EdgesFor (a ++ b) (x ++ y) :=
  ⟨fun t ht => (List.mem_append.1 ht).elim (h.1 t) (k.1 t), by rw [List.map_append, h.2, k.2]⟩

theorem ShapesFor.nil : ShapesFor [] [] := ⟨by simp, rfl⟩
theorem EdgesFor.nil : EdgesFor [] [] := ⟨by simp, rfl⟩

theorem shapesFor_shape (id : String) (extra) (w h x y : String) : ShapesFor [shape id extra w h x y] [id] := by
  constructor
  · simp [shape, el, tagOf]
  · simp [shape, el, attrOf, Dict.get?_cons]

theorem edgesFor_edge (id : String) (ws) : EdgesFor [edgeDi id ws] [id] := by
  constructor
  · simp [edgeDi, el, tagOf]
  · simp [edgeDi, el, attrOf, Dict.get?_cons]

mutual
theorem exportLane_shapes : ∀ {l : Lane} {t : ETree} {s : List ETree}, exportLane l = .ok (t, s) → ShapesFor s (lanesIn l)
  | .mk id name none children refs di, t, s, h => by
    unfold exportLane at h
    simp only [bind, Except.bind] at h
    cases di with
    | none => cases h
    | some b =>
      simp only [except_pure, Except.ok.injEq, Prod.mk.injEq] at h
      obtain ⟨-, rfl⟩ := h
      exact shapesFor_shape _ _ _ _ _ _
  | .mk id name (some c) children refs di, t, s, h => by
    unfold exportLane at h
    simp only [bind, Except.bind] at h
    cases hc : exportLanes children with
    | error e => rw [hc] at h; cases h
    | ok p =>
      obtain ⟨ls, shapes⟩ := p
      rw [hc] at h
      cases di with
      | none => cases h
      | some b =>
        simp only [except_pure, Except.ok.injEq, Prod.mk.injEq] at h
        obtain ⟨-, rfl⟩ := h
        exact (exportLanes_shapes hc).append (shapesFor_shape _ _ _ _ _ _)
theorem exportLanes_shapes : ∀ {l : List Lane} {ts s : List ETree}, exportLanes l = .ok (ts, s) → ShapesFor s (lanesInAll l)
  | [], ts, s, h => by
    unfold exportLanes at h
    simp only [Except.ok.injEq, Prod.mk.injEq] at h
    obtain ⟨-, rfl⟩ := h
    exact ShapesFor.nil
  | l :: r, ts, s, h => by
    unfold exportLanes at h
    obtain ⟨⟨t, s1⟩, h1, h⟩ := except_bind_eq_ok h
    obtain ⟨⟨ts, s2⟩, h2, h⟩ := except_bind_eq_ok h
    simp only [except_pure, Except.ok.injEq, Prod.mk.injEq] at h
    obtain ⟨-, rfl⟩ := h
    exact (exportLane_shapes h1).append (exportLanes_shapes h2)
end

theorem exportProcesses_shapes (d : Diagram) (fuel : Nat) : ∀ {l : List (String × ProcAttrs)} {ts s : List ETree}, exportProcesses d fuel l = .ok (ts, s) →
    ShapesFor s (l.flatMap fun p => lanesInAll (lanesOf p.2)) ∧ ∀ t ∈ ts, tagOf t = "process"
  | [], ts, s, h => by
    simp only [exportProcesses, Except.ok.injEq, Prod.mk.injEq] at h
    obtain ⟨rfl, rfl⟩ := h
    exact ⟨ShapesFor.nil, by simp⟩
  | (pid, a) :: r, ts, s, h => by
    simp only [exportProcesses] at h
    obtain ⟨⟨t, s1⟩, h1, h⟩ := except_bind_eq_ok h
    obtain ⟨⟨ts, s2⟩, h2, h⟩ := except_bind_eq_ok h
    simp only [except_pure, Except.ok.injEq, Prod.mk.injEq] at h
    obtain ⟨rfl, rfl⟩ := h
    obtain ⟨i1, i2⟩ := exportProcesses_shapes d fuel h2
    have key : ShapesFor s1 (lanesInAll (lanesOf a)) ∧ tagOf t = "process" := by
      unfold exportProcess at h1
      obtain ⟨attrs, -, h1⟩ := except_bind_eq_ok h1
      have rest : ∀ (lanes shapes : List ETree), (do
          let nodes ← d.getNodesByProcess pid
          let ns ← forEach (exportNode d fuel) nodes
          let fs ← forEach (fun f => exportFlow f.2.2) (d.getFlowsByProcess pid)
          pure (el "process" attrs (lanes ++ ns ++ fs), shapes) : Py (ETree × List ETree)) = .ok (t, s1) → shapes = s1 ∧ tagOf t = "process" := by
        intro lanes shapes h1
        obtain ⟨nodes, -, h1⟩ := except_bind_eq_ok h1
        obtain ⟨ns, -, h1⟩ := except_bind_eq_ok h1
        obtain ⟨fs, -, h1⟩ := except_bind_eq_ok h1
        simp only [except_pure, Except.ok.injEq, Prod.mk.injEq] at h1
        obtain ⟨rfl, rfl⟩ := h1
        exact ⟨rfl, rfl⟩
      unfold lanesOf
      cases hl : a.laneSet with
      | none =>
        rw [hl] at h1
        obtain ⟨rfl, e2⟩ := rest _ _ h1
        simp only [Option.map_none, Option.getD_none, lanesInAll]
        exact ⟨ShapesFor.nil, e2⟩
      | some q =>
        obtain ⟨si, ls⟩ := q
        rw [hl] at h1
        obtain ⟨⟨ts', s'⟩, h4, h3⟩ := except_bind_eq_ok h1
        obtain ⟨rfl, e2⟩ := rest _ _ h3
        exact ⟨exportLanes_shapes h4, e2⟩
    refine ⟨key.1.append i1, ?_⟩
    intro x hx
    rcases List.mem_cons.1 hx with rfl | hx
    · exact key.2
    · exact i2 x hx

theorem exportMessageFlows_drawn (d : Diagram) : ∀ {l : List (String × MsgFlow)} {ts s : List ETree}, exportMessageFlows d l = .ok (ts, s) → EdgesFor s (l.map (·.1))
  | [], ts, s, h => by
    simp only [exportMessageFlows, Except.ok.injEq, Prod.mk.injEq] at h
    obtain ⟨-, rfl⟩ := h
    exact EdgesFor.nil
  | (id, m) :: r, ts, s, h => by
    simp only [exportMessageFlows] at h
    obtain ⟨f, h1, h⟩ := except_bind_eq_ok h
    cases f with
    | none => cases h
    | some f =>
      obtain ⟨ws, -, h⟩ := except_bind_eq_ok h
      obtain ⟨⟨ts', s'⟩, h2, h⟩ := except_bind_eq_ok h
      simp only [except_pure, Except.ok.injEq, Prod.mk.injEq] at h
      obtain ⟨-, rfl⟩ := h
      exact (edgesFor_edge id ws).append (exportMessageFlows_drawn d h2)

theorem exportParticipants_shapes : ∀ {l : List (String × Participant)} {ts s : List ETree}, exportParticipants l = .ok (ts, s) → ShapesFor s (l.map (·.1))
  | [], ts, s, h => by
    simp only [exportParticipants, Except.ok.injEq, Prod.mk.injEq] at h
    obtain ⟨-, rfl⟩ := h
    exact ShapesFor.nil
  | (id, m) :: r, ts, s, h => by
    simp only [exportParticipants] at h
    cases hd : m.di with
    | none => rw [hd] at h; cases h
    | some b =>
      rw [hd] at h
      obtain ⟨⟨ts', s'⟩, h2, h⟩ := except_bind_eq_ok h
      simp only [except_pure, Except.ok.injEq, Prod.mk.injEq] at h
      obtain ⟨-, rfl⟩ := h
      exact (shapesFor_shape _ _ _ _ _ _).append (exportParticipants_shapes h2)

theorem exportCollaboration_shapes {d : Diagram} {ts s : List ETree} (h : exportCollaboration d = .ok (ts, s)) :
    ∃ es ss, s = es ++ ss ∧ EdgesFor es (messageIds d) ∧ ShapesFor ss (poolIds d) ∧ ∀ t ∈ ts, tagOf t = "collaboration" := by
  unfold exportCollaboration at h
  unfold messageIds poolIds
  cases hc : d.collaboration with
  | none =>
    rw [hc] at h
    simp only [Except.ok.injEq, Prod.mk.injEq] at h
    obtain ⟨rfl, rfl⟩ := h
    exact ⟨[], [], rfl, EdgesFor.nil, ShapesFor.nil, by simp⟩
  | some c =>
    rw [hc] at h
    obtain ⟨⟨ms, es⟩, h1, h⟩ := except_bind_eq_ok h
    obtain ⟨⟨ps, ss⟩, h2, h⟩ := except_bind_eq_ok h
    simp only [except_pure, Except.ok.injEq, Prod.mk.injEq] at h
    obtain ⟨rfl, rfl⟩ := h
    exact ⟨es, ss, rfl, exportMessageFlows_drawn d h1, exportParticipants_shapes h2, by simp [el, tagOf]⟩

theorem forEach_shapes : ∀ {l : List Node} {s : List ETree}, forEach exportNodeDi l = .ok s → ShapesFor s (l.map (·.1))
  | [], s, h => by
    simp only [forEach, Except.ok.injEq] at h
    subst h
    exact ShapesFor.nil
  | n :: l, s, h => by
    simp only [forEach] at h
    obtain ⟨t, h1, h⟩ := except_bind_eq_ok h
    obtain ⟨ts, h2, h⟩ := except_bind_eq_ok h
    simp only [except_pure, Except.ok.injEq] at h
    subst h
    refine ShapesFor.append (a := [t]) (x := [n.1]) ?_ (forEach_shapes h2)
    unfold exportNodeDi at h1
    obtain ⟨w, -, h1⟩ := except_bind_eq_ok h1
    obtain ⟨h', -, h1⟩ := except_bind_eq_ok h1
    obtain ⟨x, -, h1⟩ := except_bind_eq_ok h1
    obtain ⟨y, -, h1⟩ := except_bind_eq_ok h1
    obtain ⟨ty, -, h1⟩ := except_bind_eq_ok h1
    split at h1
    · obtain ⟨e, -, h1⟩ := except_bind_eq_ok h1
      simp only [except_pure, Except.ok.injEq] at h1
      subst h1
      exact shapesFor_shape _ _ _ _ _ _
    · simp only [except_pure, Except.ok.injEq] at h1
      subst h1
      exact shapesFor_shape _ _ _ _ _ _

theorem forEach_edges : ∀ {l : List Flow} {s : List ETree}, forEach (fun f : Flow => exportFlowDi f.2.2) l = .ok s →
    ∃ ids, EdgesFor s ids ∧ l.map (·.2.2.id) = ids.map some
  | [], s, h => by
    simp only [forEach, Except.ok.injEq] at h
    subst h
    exact ⟨[], EdgesFor.nil, rfl⟩
  | f :: l, s, h => by
    simp only [forEach] at h
    obtain ⟨t, h1, h⟩ := except_bind_eq_ok h
    obtain ⟨ts, h2, h⟩ := except_bind_eq_ok h
    simp only [except_pure, Except.ok.injEq] at h
    subst h
    obtain ⟨ids, i1, i2⟩ := forEach_edges h2
    unfold exportFlowDi at h1
    cases hi : f.2.2.id with
    | none => rw [hi] at h1; cases h1
    | some i =>
      rw [hi] at h1
      obtain ⟨j, hj, h1⟩ := except_bind_eq_ok h1
      cases hj
      obtain ⟨ws, -, h1⟩ := except_bind_eq_ok h1
      simp only [except_pure, Except.ok.injEq] at h1
      subst h1
      exact ⟨i :: ids, (edgesFor_edge i ws).append i1, by simp [hi, i2]⟩

theorem filter_all {s : List ETree} {p : ETree → Bool} (h : ∀ t ∈ s, p t = true) : s.filter p = s := List.filter_eq_self.2 h
theorem filter_none {s : List ETree} {p : ETree → Bool} (h : ∀ t ∈ s, p t = false) : s.filter p = [] := List.filter_eq_nil_iff.2 fun t ht => by simp [h t ht]

/-- **C35, the plane.** Whatever the diagram, if it can be exported, the plane has exactly one shape for each pool, each lane (also for lanes inside
lanes) and each node, and one edge for each message flow and then one for each flow. -/
theorem C35_plane (d : Diagram) (fuel : Nat) (t : ETree) (h : exportXmlFile fuel d = .ok t) :
    let plane := (kidsTagged "bpmndi:BPMNDiagram" t).flatMap (kidsTagged "bpmndi:BPMNPlane")
    (plane.flatMap (kidsTagged "bpmndi:BPMNShape")).map (attrOf "bpmnElement") = poolIds d ++ allLaneIds d ++ d.getNodes.map (·.1) ∧
    (plane.flatMap (kidsTagged "bpmndi:BPMNEdge")).map (fun t => some (attrOf "bpmnElement" t)) = (messageIds d).map some ++ d.getFlows.map (·.2.2.id) := by
  unfold exportXmlFile at h
  obtain ⟨t', h1, h2⟩ := except_bind_eq_ok h
  simp only [except_pure, Except.ok.injEq] at h2
  subst h2
  unfold definitions at h1
  obtain ⟨did, -, h1⟩ := except_bind_eq_ok h1
  obtain ⟨dname, -, h1⟩ := except_bind_eq_ok h1
  obtain ⟨pid, -, h1⟩ := except_bind_eq_ok h1
  obtain ⟨pel, -, h1⟩ := except_bind_eq_ok h1
  obtain ⟨⟨coll, s1⟩, c1, h1⟩ := except_bind_eq_ok h1
  obtain ⟨⟨procs, s2⟩, c2, h1⟩ := except_bind_eq_ok h1
  obtain ⟨s3, c3, h1⟩ := except_bind_eq_ok h1
  obtain ⟨s4, c4, h1⟩ := except_bind_eq_ok h1
  simp only [except_pure, Except.ok.injEq] at h1
  subst h1
  obtain ⟨es, ss, rfl, k1, k2, k3⟩ := exportCollaboration_shapes c1
  obtain ⟨k4, k5⟩ := exportProcesses_shapes d fuel c2
  have k6 := forEach_shapes c3
  obtain ⟨ids, k7, k8⟩ := forEach_edges c4
  have hp : (kidsTagged "bpmndi:BPMNDiagram" (indent 0 (el "definitions" definitionsAttrs (el "bpmndi:BPMNDiagram" [("id", did), ("name", dname)]
      [el "bpmndi:BPMNPlane" [("id", pid), ("bpmnElement", pel)] (es ++ ss ++ s2 ++ s3 ++ s4)] :: (coll ++ procs))))).flatMap (kidsTagged "bpmndi:BPMNPlane") =
      [indent 2 (el "bpmndi:BPMNPlane" [("id", pid), ("bpmnElement", pel)] (es ++ ss ++ s2 ++ s3 ++ s4))] := by
    have e1 : (coll ++ procs).filter (fun k => tagOf k == "bpmndi:BPMNDiagram") = [] := by
      apply filter_none
      intro t ht
      rcases List.mem_append.1 ht with ht | ht
      · rw [k3 t ht]; decide
      · rw [k5 t ht]; decide
    rw [kidsTagged_indent, List.flatMap_map]
    simp only [kidsTagged_indent]
    rw [← List.map_flatMap]
    simp only [el, kidsTagged, kidsOf]
    rw [List.filter_cons_of_pos (by simp [tagOf]), e1]
    simp [kidsTagged, kidsOf, el, tagOf]
  have sh : ∀ {s ids}, ShapesFor s ids → s.filter (fun k => tagOf k == "bpmndi:BPMNShape") = s ∧ s.filter (fun k => tagOf k == "bpmndi:BPMNEdge") = [] := by
    intro s ids h
    exact ⟨filter_all fun t ht => by rw [h.1 t ht]; decide, filter_none fun t ht => by rw [h.1 t ht]; decide⟩
  have ed : ∀ {s ids}, EdgesFor s ids → s.filter (fun k => tagOf k == "bpmndi:BPMNShape") = [] ∧ s.filter (fun k => tagOf k == "bpmndi:BPMNEdge") = s := by
    intro s ids h
    exact ⟨filter_none fun t ht => by rw [h.1 t ht]; decide, filter_all fun t ht => by rw [h.1 t ht]; decide⟩
  dsimp only
  rw [hp]
  simp only [List.flatMap_cons, List.flatMap_nil, List.append_nil, kidsTagged_indent, List.map_map, Function.comp_def, attrOf_indent]
  simp only [el, kidsTagged, kidsOf, List.filter_append, (sh k2).1, (sh k2).2, (sh k4).1, (sh k4).2, (sh k6).1, (sh k6).2, (ed k1).1, (ed k1).2,
    (ed k7).1, (ed k7).2, List.nil_append, List.append_nil]
  constructor
  · have := ((k2.append k4).append k6).2
    exact this
  · have := congrArg (List.map some) (k1.append k7).2
    rw [List.map_map] at this
    rw [k8, ← List.map_append]
    exact this

/-- The lane inside the lane has its shape, before that of the outer lane. -/
example : (∃ t, exportXmlFile 5 laneDiagram = .ok t) ∧ poolIds laneDiagram ++ allLaneIds laneDiagram ++ laneDiagram.getNodes.map (·.1) = ["l2", "l1", "a"] :=
  ⟨⟨_, rfl⟩, by simp [laneDiagram, poolIds, allLaneIds, lanesOf, lanesInAll, lanesIn, Diagram.getNodes]⟩

end Bpmn.Props

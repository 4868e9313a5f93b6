import Verif.Lemmas.SameMetrics
import Verif.Props.Workflow
import Verif.Props.CsvExport
/-!
# C91: what the library says about a diagram after it was saved and loaded
-/
set_option linter.unusedSimpArgs false
set_option linter.unusedVariables false

namespace Bpmn.Props
open Bpmn Bpmn.Spec Bpmn.Csv Bpmn.Metrics Bpmn.LayoutMetrics Bpmn.Layouter Bpmn.Spec.Csv

theorem Exportable.complete' {d : Diagram} (h : Exportable d) : Complete d := by
  intro n hn
  have := h.nodes n hn
  obtain ⟨k, -, ht, -⟩ := this.kind
  obtain ⟨l, hi, -⟩ := this.incoming
  obtain ⟨l', ho, -⟩ := this.outgoing
  simp [ht, hi, ho]

theorem SameNode.alike {a b : NodeAttrs} (h : SameNode a b) : Alike a b := by
  have hr := h.rest
  refine ⟨?_, ?_, ?_, ?_, h.default.symm⟩
  · exact (congrArg NodeAttrs.type hr).symm
  · exact (congrArg NodeAttrs.nodeName hr).symm
  · exact (congrArg NodeAttrs.incoming hr).symm
  · exact (congrArg NodeAttrs.outgoing hr).symm

theorem Exportable.flowsSome {d : Diagram} (h : Exportable d) : (∀ f ∈ d.getFlows, f.2.2.id.isSome) ∧ (d.getFlows.map (·.2.2.id)).Nodup := by
  have hp := Graph.flows_attrs_perm h.sane.wf
  constructor
  · intro f hf
    obtain ⟨e, he, e1⟩ := List.mem_map.1 (hp.mem_iff.1 (List.mem_map_of_mem (f := fun f : Flow => f.2.2) hf))
    rw [← e1]; exact (h.flows e he).id
  · have := (hp.map (·.id)).nodup_iff.2 (by rw [List.map_map]; exact h.flowIds)
    rw [List.map_map] at this
    exact this

/-- The nodes and flows of a diagram and of the diagram that is loaded correspond. -/
theorem twin_of_same {d e : Diagram} (h : Exportable d) (hs : SameDiagram d e) :
    ∃ φ, Twin d e φ ∧ SameNames d e ∧ (OneTrigger d → SameDefs d φ) := by
  obtain ⟨h1, h2⟩ := Exportable.flowsSome h
  have hf : ∀ g : EdgeAttrs → Option String,
      (e.getFlows.map fun f => (f.2.2.id, g f.2.2)).Perm (d.getFlows.map fun f => (f.2.2.id, g f.2.2)) := by
    intro g
    have := hs.flows.map fun a => (a.id, g a)
    rw [List.map_map, List.map_map] at this
    exact this
  obtain ⟨φ, t, hφ⟩ := twin_of h.sane.nodesUnique (Exportable.complete' h) hs.nodeIds
    (fun n hn => (hs.nodes n.1 n.2 hn).imp fun b hb => ⟨hb.1, SameNode.alike hb.2⟩) h1 h2 (hf (·.targetRef))
  refine ⟨φ, t, flowView_same (·.name) h1 h2 (hf (·.name)), fun ho n hn _ => ?_⟩
  obtain ⟨b, e1, e2⟩ := hφ n hn
  obtain ⟨b', e3, e4⟩ := hs.nodes n.1 n.2 hn
  have : b' = b := by
    have g1 := Dict.get?_of_mem t.ids' e2
    rw [Dict.get?_of_mem t.ids' e3] at g1
    exact Option.some.inj g1
  subst this
  rw [e1]
  have hp := e4.defs.2
  have hl := ho n hn
  generalize n.2.eventDefinitions.getD [] = l at hp hl
  match l, hl with
  | [], _ => exact hp.symm.eq_nil
  | [a], _ => exact List.perm_singleton.1 hp.symm

theorem metrics_of_same {d e : Diagram} (h : Exportable d) (h' : Sane e) (hs : SameDiagram d e) : SameMetrics d e ∧ ∀ num, SameDrawing num d e := by
  obtain ⟨φ, t, -, -⟩ := twin_of_same h hs
  refine ⟨sameMetrics_of t ?_ (degree_same h.sane h' hs.flows), fun num => sameDrawing_of t ?_ num⟩
  · simpa using hs.flows.length_eq
  · have := hs.flows.map (·.waypoints)
    rw [List.map_map, List.map_map] at this
    exact this

/-- The document, and what it is loaded to. -/
theorem round_trip_sane (d : Diagram) (hd : Exportable d) : ∃ t N, (∀ fuel ≥ N, Export.exportXmlFile fuel d = .ok t) ∧
    ∀ ord : List String → List String, (∀ l, (ord l).Perm l) → ∃ e, Import.load ord t.toDom {} = .ok e ∧ SameDiagram d e ∧ Sane e := by
  obtain ⟨height, N, hN, hh⟩ := hd.height
  refine ⟨Export.indent 0 (docTree d N), N, ?_, ?_⟩
  · intro fuel hf
    have hf' : ∀ n ∈ d.graph.nodes, height n.1 < fuel := fun n hn => Nat.lt_of_lt_of_le (hN n hn) hf
    simp [Export.exportXmlFile, definitions_ok hd.toWritable hh hf', docTree_fuel hh hN hf']
  · intro ord ho
    obtain ⟨e, h1, h2, -, h3⟩ := load_docTree hd ho hh hN
    refine ⟨e, ?_, h2, h3⟩
    rw [← Import.load_squeeze, Export.squeeze_indent 0 _ (clean_docTree hd.toWritable N)]
    exact h1

/-- **C91, tables.** Saving a complete diagram (whose events have one definition at most) to a file and loading the file changes nothing in
what the CSV export writes: it gives the same rows and the same text for both, or raises the same exception. -/
theorem C91_csv (d : Diagram) (hd : Exportable d) (ho : OneTrigger d) : ∃ t N, (∀ fuel ≥ N, Export.exportXmlFile fuel d = .ok t) ∧
    ∀ ord : List String → List String, (∀ l, (ord l).Perm l) →
      ∃ e, Import.load ord t.toDom {} = .ok e ∧ ∀ fuel, exportRows e fuel = exportRows d fuel ∧ exportText e fuel = exportText d fuel := by
  obtain ⟨t, N, h1, h2⟩ := C33_round_trip d hd
  refine ⟨t, N, h1, fun ord hord => ?_⟩
  obtain ⟨e, h3, h4⟩ := h2 ord hord
  obtain ⟨φ, tw, hm, hdf⟩ := twin_of_same hd h4
  have := exportRows_twin tw hm (hdf ho)
  exact ⟨e, h3, fun fuel => ⟨this fuel, by unfold exportText; rw [this fuel]⟩⟩

/-- **C91, metrics.** Nor does it change the metrics: the complexity metrics are the same for both diagrams, and so are the layout metrics. -/
theorem C91_metrics (d : Diagram) (hd : Exportable d) : ∃ t N, (∀ fuel ≥ N, Export.exportXmlFile fuel d = .ok t) ∧
    ∀ ord : List String → List String, (∀ l, (ord l).Perm l) →
      ∃ e, Import.load ord t.toDom {} = .ok e ∧ SameMetrics d e ∧ ∀ num, SameDrawing num d e := by
  obtain ⟨t, N, h1, h2⟩ := round_trip_sane d hd
  refine ⟨t, N, h1, fun ord hord => ?_⟩
  obtain ⟨e, h3, h4, h5⟩ := h2 ord hord
  exact ⟨e, h3, metrics_of_same hd h5 h4⟩

set_option maxRecDepth 4000 in
theorem tree_orderly : OrderlyHistory {} treeOps := by
  simp only [treeOps, OrderlyHistory]
  refine ⟨⟨?_, ?_⟩, ⟨?_, ?_⟩, ⟨?_, ?_⟩, ⟨?_, ?_⟩, ⟨?_, ?_⟩, ⟨?_, ?_⟩, ⟨?_, ?_⟩, ⟨?_, ?_⟩, ⟨?_, ?_⟩, ⟨?_, ?_⟩, ⟨?_, ?_⟩, ⟨?_, ?_⟩, ⟨?_, ?_⟩, trivial⟩
  all_goals first
    | (constructor <;> simp [Allowed, step, declaredNode, declaredFlow, directionArg, directions, chosen, usable, Placed, baseNode])
    | simp [Allowed, step, declaredNode, declaredFlow, directionArg, directions, chosen]

theorem definitionsOf_length (i : String) (short : Option String) : (definitionsOf startKinds short i).length ≤ 1 ∧ (definitionsOf endKinds short i).length ≤ 1 := by
  rcases short with _ | s
  · constructor <;> simp [definitionsOf, startKinds, endKinds]
  · simp only [definitionsOf, List.length_map]
    have key : ∀ l : List (String × String), (l.map (·.1)).Nodup → (l.filter fun p => some p.1 == some s).length ≤ 1 := by
      intro l hl
      induction l with
      | nil => simp
      | cons x l ih =>
        simp only [List.map_cons, List.nodup_cons] at hl
        rw [List.filter_cons]
        split
        · rename_i hx
          have : l.filter (fun p => some p.1 == some s) = [] := by
            rw [List.filter_eq_nil_iff]
            intro p hp hps
            simp only [beq_iff_eq, Option.some.injEq] at hps hx
            exact hl.1 (List.mem_map.2 ⟨p, hp, hps.trans hx.symm⟩)
          rw [List.length_cons, this]; simp
        · exact ih hl.2
    exact ⟨key _ (by decide), key _ (by decide)⟩

theorem runAbs_oneTrigger : ∀ (ops : List Op) (A : ADiagram), (∀ n ∈ A.nodes, (n.attrs.eventDefinitions.getD []).length ≤ 1) →
    ∀ n ∈ (runAbs A ops).nodes, (n.attrs.eventDefinitions.getD []).length ≤ 1
  | [], _, h => h
  | op :: ops, A, h => by
    refine runAbs_oneTrigger ops _ ?_
    have key : ∀ n, declaredNode op = some n → (n.attrs.eventDefinitions.getD []).length ≤ 1 := by
      intro n hn
      cases op <;> simp only [declaredNode, Option.some.injEq, reduceCtorEq] at hn <;> subst hn
      case addStartEvent => exact (definitionsOf_length _ _).1
      case addEndEvent => exact (definitionsOf_length _ _).2
      all_goals simp [baseNode]
    intro n hn
    cases op
    case createNew => simp [Spec.step] at hn
    case addProcess => exact h n hn
    all_goals
      rcases List.mem_append.1 hn with hn | hn
      · exact h n hn
      · exact key n (by simpa using hn)

theorem oneTrigger_built (ops : List Op) (h : AllowedHistory {} ops) : OneTrigger (Op.run {} ops) := by
  obtain ⟨e, -⟩ := run_empty ops h
  rw [e]
  intro n hn
  obtain ⟨m, hm, rfl⟩ := List.mem_map.1 hn
  exact runAbs_oneTrigger ops {} (by simp) m hm

/-- **C91, built diagrams.** Both hold for every diagram that an orderly sequence of calls builds. -/
theorem C91_built (ops : List Op) (h : OrderlyHistory {} ops) (hh : (runAbs {} ops).header.isSome) (hp : (runAbs {} ops).plane.isSome) :
    ∃ t N, (∀ fuel ≥ N, Export.exportXmlFile fuel (Op.run {} ops) = .ok t) ∧
    ∀ ord : List String → List String, (∀ l, (ord l).Perm l) → ∃ e, Import.load ord t.toDom {} = .ok e ∧
      (∀ fuel, exportRows e fuel = exportRows (Op.run {} ops) fuel) ∧ SameMetrics (Op.run {} ops) e ∧ ∀ num, SameDrawing num (Op.run {} ops) e := by
  have hd := exportable_of_orderly h hh hp
  have ho := oneTrigger_built ops h.allowed
  obtain ⟨t, N, h1, h2⟩ := round_trip_sane _ hd
  refine ⟨t, N, h1, fun ord hord => ?_⟩
  obtain ⟨e, h3, h4, h5⟩ := h2 ord hord
  obtain ⟨φ, tw, hm, hdf⟩ := twin_of_same hd h4
  exact ⟨e, h3, exportRows_twin tw hm (hdf ho), metrics_of_same hd h5 h4⟩

set_option maxRecDepth 8000 in
/-- A tree with a timer, a subprocess and a message is such a diagram; its table has five rows. -/
example : OrderlyHistory {} treeOps ∧ (runAbs {} treeOps).header.isSome ∧ (runAbs {} treeOps).plane.isSome ∧
    Exportable (Op.run {} treeOps) ∧ OneTrigger (Op.run {} treeOps) ∧ ∃ rows, exportRows (Op.run {} treeOps) 8 = .ok rows ∧ rows.length = 5 := by
  refine ⟨tree_orderly, rfl, rfl, exportable_of_orderly tree_orderly rfl rfl, oneTrigger_built _ tree_allowed, ?_⟩
  obtain ⟨rows, e, h⟩ := ok_of_check (x := exportRows (Op.run {} treeOps) 8) (fun rows => rows.length == 5) (by decide +kernel)
  exact ⟨rows, e, by simpa using h⟩

theorem _root_.Bpmn.Spec.SameMetrics.trans {a b c : Diagram} (h : SameMetrics a b) (k : SameMetrics b c) : SameMetrics a c := by
  obtain ⟨h1, h2, h3, h4, h5, h6, h7, h8, h9, h10, h11, h12, h13, h14, h15, h16, h17, h18, h19, h20, h21⟩ := h
  obtain ⟨k1, k2, k3, k4, k5, k6, k7, k8, k9, k10, k11, k12, k13, k14, k15, k16, k17, k18, k19, k20, k21⟩ := k
  exact ⟨fun ty => (k1 ty).trans (h1 ty), k2.trans h2, k3.trans h3, k4.trans h4, k5.trans h5, k6.trans h6, k7.trans h7, k8.trans h8, k9.trans h9,
    k10.trans h10, k11.trans h11, k12.trans h12, k13.trans h13, k14.trans h14, k15.trans h15, k16.trans h16, k17.trans h17, k18.trans h18,
    k19.trans h19, k20.trans h20, k21.trans h21⟩

theorem _root_.Bpmn.Spec.SameDrawing.trans {num : String → Py Rat} {a b c : Diagram} (h : SameDrawing num a b) (k : SameDrawing num b c) : SameDrawing num a c where
  crossings := fun n hn => k.crossings n (h.crossings n hn)
  segments := fun n hn => k.segments n (h.segments n hn)
  longest := fun fuel p n hn => by
    obtain ⟨q, hq⟩ := h.longest fuel p n hn
    exact k.longest fuel q n hq
  longestTasks := fun fuel p n hn => by
    obtain ⟨q, hq⟩ := h.longestTasks fuel p n hn
    exact k.longestTasks fuel q n hq

theorem degree_of_edges {d e : Diagram} (h : e.graph.edges.map (fun x => (x.u, x.v)) = d.graph.edges.map fun x => (x.u, x.v)) (n : String) :
    e.graph.degree n = d.graph.degree n := by
  have key : ∀ (p : String × String → Bool) (l : List Edge), (l.filter fun x => p (x.u, x.v)).length = ((l.map fun x => (x.u, x.v)).filter p).length := by
    intro p l
    rw [List.filter_map, List.length_map]
    rfl
  unfold Graph.degree
  rw [key fun q => q.1 == n || q.2 == n, key fun q => q.1 == n && q.2 == n, key fun q => q.1 == n || q.2 == n, key fun q => q.1 == n && q.2 == n, h]

/-- A diagram and its layout correspond. -/
theorem layout_twin {d d' : Diagram} (hids : (d.getNodes.map (·.1)).Nodup) (hc : Complete d) (h : SameBut d d') :
    ∃ φ, Twin d d' φ ∧ SameNames d d' ∧ SameDefs d φ := by
  have view : ∀ g : EdgeAttrs → Option String, (∀ a, g (bareAttrs a) = g a) → ∀ i, flowView g (d'.getFlowById i) = flowView g (d.getFlowById i) := by
    intro g hg i
    have := congrArg (Except.map (Option.map fun f : Flow => g f.2.2)) (flowAttrs_pyFind d.getFlows d'.getFlows h.flows i)
    have key : ∀ x : Py (Option Flow), flowView g x = (x.map (Option.map bareFlow)).map (Option.map fun f : Flow => g f.2.2) := by
      rintro (e | _ | f)
      · rfl
      · rfl
      · simp [flowView, Except.map, bareFlow, hg]
    unfold Diagram.getFlowById
    rw [key, key]
    exact this
  have hn : ∀ n ∈ d.getNodes, ∃ b, (n.1, b) ∈ d'.getNodes ∧ Alike n.2 b ∧ b.eventDefinitions = n.2.eventDefinitions := by
    intro n hn
    have : bareNode n ∈ d'.getNodes.map bareNode := by
      show bareNode n ∈ d'.graph.nodes.map bareNode
      rw [h.nodes]; exact List.mem_map_of_mem hn
    obtain ⟨m, hm, e1⟩ := List.mem_map.1 this
    have e2 : m.1 = n.1 := by have := congrArg (fun x : Node => x.1) e1; exact this
    refine ⟨m.2, by rw [← e2]; exact hm, ⟨?_, ?_, ?_, ?_, ?_⟩, ?_⟩
    · have := congrArg (fun x : Node => x.2.type) e1; exact this
    · have := congrArg (fun x : Node => x.2.nodeName) e1; exact this
    · have := congrArg (fun x : Node => x.2.incoming) e1; exact this
    · have := congrArg (fun x : Node => x.2.outgoing) e1; exact this
    · have := congrArg (fun x : Node => x.2.default.join) e1; exact this
    · have := congrArg (fun x : Node => x.2.eventDefinitions) e1; exact this
  have hp : d'.getNodes.map (·.1) = d.getNodes.map (·.1) := by
    have := congrArg (List.map Prod.fst) h.nodes
    rw [List.map_map, List.map_map] at this
    exact this
  obtain ⟨φ, t, hφ⟩ := twin_of_views hids hc (List.Perm.of_eq hp) (fun n h' => (hn n h').imp fun b hb => ⟨hb.1, hb.2.1⟩) (view (·.targetRef) fun _ => rfl)
  refine ⟨φ, t, view (·.name) fun _ => rfl, fun n h' _ => ?_⟩
  obtain ⟨b, e1, e2⟩ := hφ n h'
  obtain ⟨b', e3, -, e4⟩ := hn n h'
  have : b' = b := by
    have g1 := Dict.get?_of_mem t.ids' e2
    rw [Dict.get?_of_mem t.ids' e3] at g1
    exact Option.some.inj g1
  rw [e1, ← this, e4]

theorem layout_metrics {d d' : Diagram} (hids : (d.getNodes.map (·.1)).Nodup) (hc : Complete d) (h : SameBut d d') : SameMetrics d d' := by
  obtain ⟨φ, t, -, -⟩ := layout_twin hids hc h
  refine sameMetrics_of t ?_ (degree_of_edges ?_)
  · simpa using congrArg List.length h.flows
  · have := congrArg (List.map fun x : Edge => (x.u, x.v)) h.edges
    rw [List.map_map, List.map_map] at this
    exact this

/-! ## C92 -/

/-- **C92.** Laying a diagram out changes nothing in what the CSV export writes, in the complexity metrics, or in the lengths of the longest
paths. -/
theorem C92_layout_silent (d d' : Diagram) (hids : (d.getNodes.map (·.1)).Nodup) (hc : Complete d) {n : Nat} (hl : generateLayout n d = .ok d') :
    (∀ fuel, exportRows d' fuel = exportRows d fuel ∧ exportText d' fuel = exportText d fuel) ∧ SameMetrics d d' ∧
    (∀ fuel p k, computeLongestPath fuel d = .ok (p, k) → ∃ q, computeLongestPath fuel d' = .ok (q, k)) ∧
    ∀ fuel p k, computeLongestPathTasks fuel d = .ok (p, k) → ∃ q, computeLongestPathTasks fuel d' = .ok (q, k) := by
  have hb := layout_sameBut hl
  obtain ⟨φ, t, hm, hd⟩ := layout_twin hids hc hb
  have := exportRows_twin t hm hd
  exact ⟨fun fuel => ⟨this fuel, by unfold exportText; rw [this fuel]⟩, layout_metrics hids hc hb, fun fuel p k hk => computeLongestPath_twin t hk,
    fun fuel p k hk => computeLongestPathTasks_twin t hk⟩

/-- A diagram imported from a table with two branches is such a diagram. -/
example : ∃ d d', (d.getNodes.map (·.1)).Nodup ∧ Complete d ∧ generateLayout 40 d = .ok d' := by
  obtain ⟨-, d, d', h, hl⟩ := sample_drawn
  obtain ⟨F, m⟩ := flat_made sample_good h
  exact ⟨d, d', m.consistent.ids, Spec.Consistent.complete m.consistent, hl⟩

/-! ## C91, imported tables -/

theorem saved_twin {d : Diagram} (hw : Sane d) (h : Exportable (saved d)) : ∃ φ, Twin d (saved d) φ := by
  obtain ⟨h1, h2⟩ := Exportable.flowsSome h
  have p1 : ((saved d).getFlows.map (·.2.2)).Perm ((saved d).graph.edges.map (·.attrs)) := Graph.flows_attrs_perm h.sane.wf
  have p2 : (d.getFlows.map (·.2.2)).Perm (d.graph.edges.map (·.attrs)) := Graph.flows_attrs_perm hw.wf
  have p3 : ((saved d).getFlows.map (·.2.2)).Perm (d.getFlows.map fun f => savedFlow f.2.2) := by
    refine p1.trans ?_
    have := (p2.map savedFlow).symm
    simpa [List.map_map, Function.comp_def, saved, savedEdge] using this
  have pid : ((saved d).getFlows.map (·.2.2.id)).Perm (d.getFlows.map (·.2.2.id)) := by
    have := p3.map (·.id)
    rw [List.map_map, List.map_map] at this
    refine this.trans (List.Perm.of_eq ?_)
    exact List.map_congr_left fun f hf => (savedFlow_fields f.2.2).1
  have pt : ((saved d).getFlows.map fun f => (f.2.2.id, f.2.2.targetRef)).Perm (d.getFlows.map fun f => (f.2.2.id, f.2.2.targetRef)) := by
    have := p3.map fun a => (a.id, a.targetRef)
    rw [List.map_map, List.map_map] at this
    refine this.trans (List.Perm.of_eq ?_)
    refine List.map_congr_left fun f hf => ?_
    simp [(savedFlow_fields f.2.2).1, (savedFlow_fields f.2.2).2.2.2.1]
  have hnodes : (saved d).getNodes = d.getNodes.map mapNode := rfl
  have hcs := Exportable.complete' h
  have hc : Complete d := by
    intro n hn
    have := hcs (mapNode n) (hnodes ▸ List.mem_map_of_mem hn)
    simp only [mapNode] at this
    rw [savedNode_eq] at this
    exact this
  refine (twin_of hw.nodesUnique hc (e := saved d) ?_ ?_ ?_ (pid.nodup_iff.1 h2) pt).imp fun φ h => h.1
  · exact List.Perm.of_eq (by rw [hnodes, List.map_map]; rfl)
  · intro n hn
    refine ⟨savedNode n.2, hnodes ▸ List.mem_map_of_mem (f := mapNode) hn, ?_⟩
    rw [savedNode_eq]
    exact ⟨rfl, rfl, rfl, rfl, rfl⟩
  · intro f hf
    obtain ⟨g, hg, e1⟩ := List.mem_map.1 (pid.mem_iff.2 (List.mem_map_of_mem hf))
    rw [← e1]; exact h1 g hg

theorem saved_metrics {d : Diagram} (hw : Sane d) (h : Exportable (saved d)) : SameMetrics d (saved d) ∧ ∀ num, SameDrawing num d (saved d) := by
  obtain ⟨φ, t⟩ := saved_twin hw h
  have p1 : ((saved d).getFlows.map (·.2.2)).Perm ((saved d).graph.edges.map (·.attrs)) := Graph.flows_attrs_perm h.sane.wf
  have p2 : (d.getFlows.map (·.2.2)).Perm (d.graph.edges.map (·.attrs)) := Graph.flows_attrs_perm hw.wf
  have p3 : ((saved d).getFlows.map (·.2.2.waypoints)).Perm (d.getFlows.map (·.2.2.waypoints)) := by
    have q1 := p1.map (·.waypoints)
    have q2 := p2.map (·.waypoints)
    rw [List.map_map, List.map_map] at q1 q2
    refine q1.trans (List.Perm.trans (List.Perm.of_eq ?_) q2.symm)
    rw [show (saved d).graph.edges = d.graph.edges.map savedEdge from rfl, List.map_map]
    exact List.map_congr_left fun e _ => (savedFlow_fields e.attrs).2.2.2.2.1
  refine ⟨sameMetrics_of t ?_ (degree_of_edges ?_), fun num => sameDrawing_of t p3 num⟩
  · simpa using p3.length_eq
  · rw [show (saved d).graph.edges = d.graph.edges.map savedEdge from rfl, List.map_map]
    rfl

/-- **C91, imported diagrams.** A diagram imported from a table and laid out has the complexity metrics of the imported one, and saving and
loading it changes neither these nor the layout metrics. -/
theorem C91_imported (rows : List Row) (t : Table rows) (d d' : Diagram) (h : loadCsv rows {} = .ok d) {fuel : Nat} (hl : generateLayout fuel d = .ok d') :
    ∃ x N, (∀ n ≥ N, Export.exportXmlFile n d' = .ok x) ∧ ∀ ord : List String → List String, (∀ l, (ord l).Perm l) →
      ∃ e, Import.load ord x.toDom {} = .ok e ∧ SameMetrics d e ∧ SameMetrics d' e ∧ ∀ num, SameDrawing num d' e := by
  obtain ⟨h1, h2⟩ := csv_layout_exportable rows t d d' h hl
  obtain ⟨x, N, h3, h4⟩ := round_trip_sane (saved d') h2
  have hname : ∀ e ∈ d'.graph.edges, e.attrs.name.isSome := fun e he => (h1.described e he).2.1
  refine ⟨x, N, fun n hn => (export_saved d' hname n).trans (h3 n hn), fun ord ho => ?_⟩
  obtain ⟨e, h5, h6, h7⟩ := h4 ord ho
  obtain ⟨m1, m2⟩ := metrics_of_same h2 h7 h6
  obtain ⟨s1, s2⟩ := saved_metrics h1 h2
  have m3 := s1.trans m1
  have sb := layout_sameBut hl
  obtain ⟨d0, F, d1, d2, s⟩ := stages t h
  have hc : Complete d := by
    intro n hn
    obtain ⟨ty, nm, hsay⟩ := C82_nodes_say rows t d h n hn
    rw [hsay]
    exact ⟨rfl, rfl, rfl⟩
  exact ⟨e, h5, (layout_metrics s.keep.inv.sane.nodesUnique hc sb).trans m3, m3, fun num => (s2 num).trans (m2 num)⟩

example : Table sample.rows ∧ ∃ d d', loadCsv sample.rows {} = .ok d ∧ generateLayout 40 d = .ok d' := sample_drawn

end Bpmn.Props

import Verif.Spec.Sane
import Verif.Lemmas.Construct
/-!
Lemmas about the query methods and about `Sane` diagrams.
-/
set_option linter.unusedSimpArgs false
set_option linter.unusedVariables false

namespace Bpmn
open Spec

namespace Graph

theorem incident_filter (es : List Edge) (seen : List String) (n : String) (q : EdgeAttrs → Bool) :
    (incident es seen n).filter (fun f => q f.2.2) = incident (es.filter fun e => q e.attrs) seen n := by
  induction es with
  | nil => rfl
  | cons e es ih =>
    simp only [incident, List.filterMap_cons] at ih ⊢
    by_cases hq : q e.attrs = true
    · simp only [List.filter_cons, hq, if_true, List.filterMap_cons]
      split
      · simp_all
      · rename_i b hb
        have : b.2.2 = e.attrs := by
          split at hb
          · split at hb <;> simp at hb; simp [← hb]
          · split at hb
            · split at hb <;> simp at hb; simp [← hb]
            · simp at hb
        simp [List.filter_cons, this, hq, ih]
    · simp only [List.filter_cons, hq, Bool.false_eq_true, if_false]
      split
      · simp_all
      · rename_i b hb
        have : b.2.2 = e.attrs := by
          split at hb
          · split at hb <;> simp at hb; simp [← hb]
          · split at hb
            · split at hb <;> simp at hb; simp [← hb]
            · simp at hb
        simp [List.filter_cons, this, hq, ih]

theorem iterFrom_filter (es : List Edge) (seen ns : List String) (q : EdgeAttrs → Bool) :
    (iterFrom es seen ns).filter (fun f => q f.2.2) = iterFrom (es.filter fun e => q e.attrs) seen ns := by
  induction ns generalizing seen with
  | nil => rfl
  | cons n ns ih => simp [iterFrom, incident_filter, ih]

/-- Nodes that are no ends of edges contribute nothing to the iteration. -/
theorem iterFrom_isolated (es : List Edge) (seen ns : List String) (h : ∀ e ∈ es, e.u ∉ ns ∧ e.v ∉ ns) :
    iterFrom es seen ns = [] := by
  induction ns generalizing seen with
  | nil => rfl
  | cons n ns ih =>
    rw [iterFrom, ih _ (fun e he => by have := h e he; simp at this; exact ⟨this.1.2, this.2.2⟩), List.append_nil]
    simp only [incident, List.filterMap_eq_nil_iff]
    intro e he
    have := h e he
    simp at this
    simp [this.1.1, this.2.1]

theorem iterFrom_append (es : List Edge) (seen ns ms : List String) (h : ∀ e ∈ es, e.u ∉ ms ∧ e.v ∉ ms) :
    iterFrom es seen (ns ++ ms) = iterFrom es seen ns := by
  induction ns generalizing seen with
  | nil => simpa [iterFrom] using iterFrom_isolated es seen ms h
  | cons n ns ih => simp [iterFrom, ih]

end Graph

/-- Lookup of a flow, computed from the edges carrying the id. -/
theorem getFlowById_eq {d : Diagram} (h : ∀ e ∈ d.graph.edges, e.attrs.id.isSome) (i : String) :
    d.getFlowById i =
      .ok (Graph.iterFrom (d.graph.edges.filter fun e => e.attrs.id == some i) [] d.graph.nodes.keys).head? := by
  unfold Diagram.getFlowById
  rw [pyFind_eq_find? (q := fun f => f.2.2.id == some i)]
  · rw [← List.head?_filter]
    simp only [Graph.flows]
    rw [Graph.iterFrom_filter _ _ _ (fun a => a.id == some i)]
  · rintro ⟨a, b, c⟩ hx
    obtain ⟨e, he, rfl, -⟩ := Graph.mem_flows hx
    have := h e he
    cases hi : e.attrs.id with
    | none => simp [hi] at this
    | some j => simp [hi]

theorem Spec.Sane.wf {d : Diagram} (h : Sane d) : d.graph.WF := ⟨h.nodesUnique, h.endsKnown⟩

theorem Spec.Sane.ids {d : Diagram} (h : Sane d) : ∀ e ∈ d.graph.edges, e.attrs.id.isSome := fun e he => (h.described e he).1

/-- What a flow lookup returns in terms of the edges. -/
theorem getFlowById_some {d : Diagram} (h : Sane d) {i : String} {f : Flow} (hf : d.getFlowById i = .ok (some f)) :
    ∃ e ∈ d.graph.edges, e.attrs = f.2.2 ∧ e.attrs.id = some i ∧ SamePair e.u e.v f.1 f.2.1 := by
  obtain ⟨a, b, c⟩ := f
  rw [getFlowById_eq h.ids] at hf
  simp only [Except.ok.injEq] at hf
  obtain ⟨e, he, h1, h2⟩ := Graph.mem_iterFrom (List.mem_of_mem_head? hf)
  simp at he
  exact ⟨e, he.1, h1, he.2, h2⟩

theorem iterFrom_wf_ne_nil {g : Graph} (w : g.WF) {es : List Edge} (hs : ∀ e ∈ es, e ∈ g.edges) (hne : es ≠ []) :
    Graph.iterFrom es [] g.nodes.keys ≠ [] := by
  have w' : ({ g with edges := es } : Graph).WF := ⟨w.nodup, fun e he => w.ends e (hs e he)⟩
  have := Graph.length_flows w'
  simp only [Graph.flows] at this
  intro e
  rw [e] at this
  simp at this
  exact hne (List.length_eq_zero_iff.1 this.symm)

theorem getFlowById_none_iff {d : Diagram} (h : Sane d) (i : String) :
    d.getFlowById i = .ok none ↔ ∀ e ∈ d.graph.edges, e.attrs.id ≠ some i := by
  rw [getFlowById_eq h.ids]
  simp only [Except.ok.injEq, List.head?_eq_none_iff]
  constructor
  · intro h0 e he hi
    exact iterFrom_wf_ne_nil h.wf (es := d.graph.edges.filter fun e => e.attrs.id == some i)
      (fun e he => (List.mem_filter.1 he).1)
      (List.ne_nil_of_mem (List.mem_filter.2 ⟨he, by simp [hi]⟩)) h0
  · intro h0
    have : (d.graph.edges.filter fun e => e.attrs.id == some i) = [] := by
      simp only [List.filter_eq_nil_iff]
      intro e he; simpa using h0 e he
    rw [this]
    exact Graph.iterFrom_isolated _ _ _ (by simp)

theorem getFlowById_ok {d : Diagram} (h : Sane d) (i : String) : ∃ r, d.getFlowById i = .ok r := by
  rw [getFlowById_eq h.ids]; exact ⟨_, rfl⟩

theorem getNodeById_eq (d : Diagram) (n : String) :
    d.getNodeById n = (d.graph.nodes.get? n).map fun a => (n, a) := Dict.find?_eq_get? _ _

/-! ### Sanity is kept by every call -/

theorem Spec.Sane.empty : Sane {} := by constructor <;> simp

theorem Spec.Sane.of_graph {d d' : Diagram} (h : Sane d) (e : d'.graph = d.graph) : Sane d' := by
  obtain ⟨h1, h2, h3, h4⟩ := h
  constructor <;> (rw [e]; assumption)

theorem Spec.Sane.updNode {d : Diagram} (h : Sane d) (n : String) (f) : Sane (d.updNode n f) := by
  have k : (d.updNode n f).graph.nodes.map Prod.fst = d.graph.nodes.map Prod.fst := Dict.keys_modify d.graph.nodes n f
  refine ⟨?_, ?_, h.onePerPair, h.described⟩
  · rw [k]; exact h.nodesUnique
  · rw [k]; exact h.endsKnown

theorem Spec.Sane.addNode {d : Diagram} (h : Sane d) (n : String) : Sane { d with graph := d.graph.addNode n } := by
  have := h.wf.addNode n
  refine ⟨this.nodup, this.ends, ?_, ?_⟩
  · simpa using h.onePerPair
  · simpa using h.described

theorem addFlowNode_eq (d : Diagram) (p ty nm n : String) :
    d.addFlowNode p ty nm n =
      ({ d with graph := d.graph.addNode n } : Diagram).updNode n (Diagram.flowNodeAttrs p ty nm n) := rfl

theorem Spec.Sane.addFlowNode {d : Diagram} (h : Sane d) (p ty nm n : String) : Sane (d.addFlowNode p ty nm n) := by
  rw [addFlowNode_eq]; exact (h.addNode n).updNode _ _

theorem Spec.Sane.addGateway {d : Diagram} (h : Sane d) (p ty nm dir n uid) : Sane (d.addGateway p ty nm dir n uid).1 := by
  unfold Diagram.addGateway
  simp only
  split
  · exact (h.addFlowNode _ _ _ _).updNode _ _
  · exact h.addFlowNode _ _ _ _

theorem Spec.Sane.addDefaultGateway {d : Diagram} (h : Sane d) (ty p nm dir df n uid) :
    Sane (d.addDefaultGateway ty p nm dir df n uid).1 := by
  unfold Diagram.addDefaultGateway
  have := h.addGateway p ty nm dir n uid
  split
  · rename_i e; rw [e] at this; exact this.updNode _ _
  · rename_i e; rw [e] at this; exact this

theorem SamePair.joins {e : Edge} {a b : String} : e.joins a b = true ↔ SamePair e.u e.v a b := Edge.joins_iff e a b

/-- Edges after `add_edge` followed by an update of the attributes of that edge. -/
theorem edges_addEdge_modify (g : Graph) (s t : String) (f : EdgeAttrs → EdgeAttrs) :
    ((g.addEdge s t).modifyEdge s t f).edges =
      (g.edges.map fun e => if e.joins s t then { e with attrs := f e.attrs } else e) ++
        (if g.hasEdge s t then [] else [⟨s, t, f {}⟩]) := by
  simp only [Graph.modifyEdge, Graph.addEdge_edges]
  split <;> simp [Edge.joins]

theorem Spec.Sane.addEdge {d : Diagram} (h : Sane d) (s t : String) (f : EdgeAttrs → EdgeAttrs)
    (hf : ∀ a, (f a).id.isSome ∧ (f a).name.isSome ∧ (f a).sourceRef = some s ∧ (f a).targetRef = some t) :
    Sane { d with graph := (d.graph.addEdge s t).modifyEdge s t f } := by
  have w := (h.wf.addEdge s t).modifyEdge s t f
  have hmap : ∀ e : Edge, (if e.joins s t then { e with attrs := f e.attrs } else e).u = e.u ∧
      (if e.joins s t then { e with attrs := f e.attrs } else e).v = e.v := by
    intro e; split <;> simp
  refine ⟨w.nodup, w.ends, ?_, ?_⟩
  · simp only [edges_addEdge_modify]
    rw [List.pairwise_append]
    refine ⟨?_, ?_, ?_⟩
    · rw [List.pairwise_map]
      apply h.onePerPair.imp
      intro a b hab
      rw [(hmap a).1, (hmap a).2, (hmap b).1, (hmap b).2]
      exact hab
    · split <;> simp
    · intro a ha b hb
      split at hb
      · simp at hb
      · rename_i hne
        simp at hb
        subst hb
        obtain ⟨c, hc, rfl⟩ := List.mem_map.1 ha
        rw [(hmap c).1, (hmap c).2]
        intro hp
        apply hne
        rw [Graph.hasEdge_iff]
        exact ⟨c, hc, SamePair.joins.2 hp⟩
  · simp only [edges_addEdge_modify]
    intro e he
    simp only [List.mem_append, List.mem_map] at he
    rcases he with ⟨c, hc, rfl⟩ | he
    · split
      · rename_i hj
        obtain ⟨h1, h2, h3, h4⟩ := hf c.attrs
        exact ⟨h1, h2, s, t, h3, h4, SamePair.joins.1 hj⟩
      · exact h.described c hc
    · split at he
      · simp at he
      · simp at he
        subst he
        obtain ⟨h1, h2, h3, h4⟩ := hf {}
        exact ⟨h1, h2, s, t, h3, h4, Or.inl ⟨rfl, rfl⟩⟩

theorem Spec.Sane.modifyEdgeWaypoints {d : Diagram} (h : Sane d) (s t : String) (w) :
    Sane { d with graph := d.graph.modifyEdge s t fun a => { a with waypoints := some w } } := by
  have hmap : ∀ e : Edge, (if e.joins s t then { e with attrs := { e.attrs with waypoints := some w } } else e).u = e.u ∧
      (if e.joins s t then { e with attrs := { e.attrs with waypoints := some w } } else e).v = e.v := by
    intro e; split <;> simp
  have w' := h.wf.modifyEdge s t fun a => { a with waypoints := some w }
  refine ⟨w'.nodup, w'.ends, ?_, ?_⟩
  · simp only [Graph.modifyEdge]
    rw [List.pairwise_map]
    apply h.onePerPair.imp
    intro a b hab
    rw [(hmap a).1, (hmap a).2, (hmap b).1, (hmap b).2]
    exact hab
  · simp only [Graph.modifyEdge]
    intro e he
    obtain ⟨c, hc, rfl⟩ := List.mem_map.1 he
    have := h.described c hc
    split <;> exact this

theorem Spec.Sane.addSequenceFlow {d : Diagram} (h : Sane d) (p s t nm uid : String) :
    Sane (d.addSequenceFlow p s t nm uid).1 := by
  have h1 : Sane { d with
      sequenceFlows := d.sequenceFlows.set uid ⟨nm, s, t⟩,
      graph := (d.graph.addEdge s t).modifyEdge s t fun a =>
        { a with id := some uid, name := some nm, process := some p, sourceRef := some s, targetRef := some t } } :=
    (h.addEdge s t _ (by intro a; simp)).of_graph rfl
  unfold Diagram.addSequenceFlow
  simp only
  split
  · split
    · exact h1
    · rename_i w _
      have h2 := h1.modifyEdgeWaypoints s t w
      split
      · exact h2
      · rename_i out _
        have h3 := h2.updNode s fun a => { a with outgoing := some out }
        split
        · exact h3
        · split
          · exact h3
          · exact h3.updNode _ _
  · exact h1
  · exact h1

theorem Spec.Sane.exec {d : Diagram} (h : Sane d) (op : Op) : Sane (op.exec d).1 := by
  cases op with
  | createNew name uid => exact Sane.empty.of_graph rfl
  | addProcess name c e ty pl pr => exact h.of_graph rfl
  | addFlowNode p ty nm n uid => exact h.addFlowNode _ _ _ _
  | addTask p nm n uid => exact h.addFlowNode _ _ _ _
  | addSubprocess p nm ex tr n uid => exact (h.addFlowNode _ _ _ _).updNode _ _
  | addStartEvent p nm df pm ii n uid du => exact (h.addFlowNode _ _ _ _).updNode _ _
  | addEndEvent p nm df n uid du => exact (h.addFlowNode _ _ _ _).updNode _ _
  | addGateway p ty nm dir n uid => exact h.addGateway _ _ _ _ _ _
  | addExclusiveGateway p nm dir df n uid => exact h.addDefaultGateway _ _ _ _ _ _ _
  | addInclusiveGateway p nm dir df n uid => exact h.addDefaultGateway _ _ _ _ _ _ _
  | addParallelGateway p nm dir n uid => exact h.addGateway _ _ _ _ _ _
  | addSequenceFlow p s t nm uid => exact h.addSequenceFlow _ _ _ _ _

theorem Spec.Sane.run {d : Diagram} (h : Sane d) (ops : List Op) : Sane (Op.run d ops) := by
  induction ops generalizing d with
  | nil => exact h
  | cons op ops ih => exact ih (h.exec op)

end Bpmn

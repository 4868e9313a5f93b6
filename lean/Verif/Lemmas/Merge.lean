import Verif.Lemmas.ImportRel
set_option linter.unusedSimpArgs false
set_option linter.unusedVariables false
/-!
# Loading a document into a diagram that is already in use
-/
namespace Bpmn.Import
open Bpmn Bpmn.Spec

/-- The old content followed by the new content. -/
def merge (c D : Diagram) : Diagram :=
  { D with
    graph := ⟨c.graph.nodes ++ D.graph.nodes, c.graph.edges ++ D.graph.edges⟩
    sequenceFlows := c.sequenceFlows ++ D.sequenceFlows
    processElements := c.processElements ++ D.processElements
    collaboration := D.collaboration.or c.collaboration }

theorem Dict.set_append {κ α : Type} [DecidableEq κ] (d e : Dict κ α) {k : κ} (v : α) (h : k ∉ d.keys) : Dict.set (d ++ e) k v = d ++ Dict.set e k v := by
  induction d with
  | nil => rfl
  | cons p r ih =>
    obtain ⟨x, a⟩ := p
    simp only [Dict.keys_cons, List.mem_cons, not_or] at h
    simp only [List.cons_append, Dict.set, if_neg (Ne.symm h.1), ih h.2]

/-- All names in the diagram are in `M`. -/
structure Named (M : String → Prop) (D : Diagram) : Prop where
  nodes : ∀ k ∈ D.graph.nodes.keys, M k
  edges : ∀ e ∈ D.graph.edges, M e.u ∧ M e.v
  table : ∀ p ∈ D.sequenceFlows, M p.1 ∧ M p.2.sourceRef ∧ M p.2.targetRef
  procs : ∀ p ∈ D.processElements, M p.1 ∧ ∀ l ∈ lanesOf p.2, M (laneId l)
  collab : ∀ k, D.collaboration = some k → CollabNames M k

theorem not_uses {c : Diagram} {k : String} (h : ¬ Uses c k) : k ∉ c.graph.nodes.keys ∧ (∀ e ∈ c.graph.edges, e.u ≠ k ∧ e.v ≠ k) ∧
    k ∉ c.sequenceFlows.keys ∧ k ∉ c.processElements.keys ∧
    ∀ x, c.collaboration = some x → k ∉ x.participants.keys ∧ k ∉ x.messageFlows.keys := by
  refine ⟨fun g => h (.inl g), fun e he => ⟨fun g => h (.inr (.inl ⟨e, he, .inl g⟩)), fun g => h (.inr (.inl ⟨e, he, .inr g⟩))⟩,
    fun g => h (.inr (.inr (.inl g))), fun g => h (.inr (.inr (.inr (.inl g)))), fun x hx => ⟨fun g => h (.inr (.inr (.inr (.inr ⟨x, hx, .inl g⟩)))),
      fun g => h (.inr (.inr (.inr (.inr ⟨x, hx, .inr g⟩))))⟩⟩

theorem no_join {c : Diagram} {s t : String} (h : ¬ Uses c s) : ∀ e ∈ c.graph.edges, e.joins s t = false := by
  intro e he
  obtain ⟨h1, h2⟩ := (not_uses h).2.1 e he
  simp [Edge.joins, h1, h2]

theorem merge_upd (c D : Diagram) {k : String} (h : ¬ Uses c k) (f : NodeAttrs → NodeAttrs) : (merge c D).updNode k f = merge c (D.updNode k f) := by
  simp [merge, Diagram.updNode, Graph.modifyNode, Dict.modify_append _ _ f (not_uses h).1]

theorem merge_hasEdge (c D : Diagram) {s t : String} (h : ¬ Uses c s) : (merge c D).graph.hasEdge s t = D.graph.hasEdge s t := by
  simp only [merge, Graph.hasEdge, List.any_append]
  rw [List.any_eq_false.2 fun e he => by rw [no_join h e he]; simp, Bool.false_or]

theorem merge_has (c D : Diagram) {k : String} (h : ¬ Uses c k) : (merge c D).graph.nodes.has k = D.graph.nodes.has k := by
  simp only [merge, Dict.has, Dict.get?_append]
  rw [(Dict.get?_eq_none_iff _ _).2 (not_uses h).1, Option.none_or]

theorem merge_addNode (c D : Diagram) {k : String} (h : ¬ Uses c k) :
    { merge c D with graph := (merge c D).graph.addNode k } = merge c { D with graph := D.graph.addNode k } := by
  unfold Graph.addNode
  rw [merge_has c D h]
  split <;> simp [merge]

theorem merge_addNode_graph (c D : Diagram) {k : String} (h : ¬ Uses c k) :
    (merge c D).graph.addNode k = (merge c { D with graph := D.graph.addNode k }).graph := by
  rw [← merge_addNode c D h]

theorem merge_modifyEdge (c D : Diagram) {s t : String} (h : ¬ Uses c s) (f : EdgeAttrs → EdgeAttrs) :
    { merge c D with graph := (merge c D).graph.modifyEdge s t f } = merge c { D with graph := D.graph.modifyEdge s t f } := by
  simp only [Graph.modifyEdge, merge, List.map_append]
  have : c.graph.edges.map (fun e => if e.joins s t then { e with attrs := f e.attrs } else e) = c.graph.edges := by
    conv => rhs; rw [← List.map_id c.graph.edges]
    apply List.map_congr_left
    intro e he
    rw [no_join h e he]
    simp
  rw [this]

theorem merge_addEdge (c D : Diagram) {s t : String} (h : ¬ Uses c s) (h' : ¬ Uses c t) :
    { merge c D with graph := (merge c D).graph.addEdge s t } = merge c { D with graph := D.graph.addEdge s t } := by
  unfold Graph.addEdge
  rw [merge_addNode_graph c D h, merge_addNode_graph c { D with graph := D.graph.addNode s } h']
  simp only
  rw [merge_hasEdge c _ h]
  split
  · simp [merge]
  · simp [merge]

theorem Named.addNode {M : String → Prop} {D : Diagram} (q : Named M D) {k : String} (h : M k) : Named M { D with graph := D.graph.addNode k } := by
  refine ⟨?_, ?_, q.table, q.procs, q.collab⟩
  · intro x hx
    simp only [Graph.addNode] at hx
    split at hx
    · exact q.nodes x hx
    · simp only [Dict.keys_append, Dict.keys_cons, Dict.keys_nil, List.mem_append, List.mem_singleton] at hx
      rcases hx with hx | hx
      · exact q.nodes x hx
      · rw [hx]; exact h
  · intro e he
    simp only [Graph.addNode] at he
    split at he <;> exact q.edges e he

theorem Named.addEdge {M : String → Prop} {D : Diagram} (q : Named M D) {s t : String} (h : M s) (h' : M t) :
    Named M { D with graph := D.graph.addEdge s t } := by
  have q' := (q.addNode h).addNode h'
  simp only [Graph.addEdge]
  split
  · exact q'
  · refine ⟨q'.nodes, ?_, q'.table, q'.procs, q'.collab⟩
    intro e he
    simp only [List.mem_append, List.mem_singleton] at he
    rcases he with he | he
    · exact q'.edges e he
    · rw [he]; exact ⟨h, h'⟩

theorem Named.modifyEdge {M : String → Prop} {D : Diagram} (q : Named M D) (s t : String) (f : EdgeAttrs → EdgeAttrs) :
    Named M { D with graph := D.graph.modifyEdge s t f } := by
  refine ⟨q.nodes, ?_, q.table, q.procs, q.collab⟩
  intro e he
  simp only [Graph.modifyEdge, List.mem_map] at he
  obtain ⟨e', h1, h2⟩ := he
  have := q.edges e' h1
  rw [← h2]
  split <;> exact this

theorem Named.upd {M : String → Prop} {D : Diagram} (q : Named M D) (k : String) (f : NodeAttrs → NodeAttrs) : Named M (D.updNode k f) := by
  refine ⟨?_, q.edges, q.table, q.procs, q.collab⟩
  intro x hx
  exact q.nodes x (by simpa [Diagram.updNode, Graph.modifyNode] using hx)

theorem mem_modify {κ α : Type} [DecidableEq κ] {d : Dict κ α} {k : κ} {f : α → α} {p : κ × α} (h : p ∈ d.modify k f) :
    p ∈ d ∨ ∃ a, (k, a) ∈ d ∧ p = (k, f a) := by
  induction d with
  | nil => simp [Dict.modify] at h
  | cons x r ih =>
    obtain ⟨i, a⟩ := x
    unfold Dict.modify at h
    split at h
    · rename_i e
      subst e
      rcases List.mem_cons.1 h with h | h
      · exact .inr ⟨a, by simp, h⟩
      · exact .inl (List.mem_cons_of_mem _ h)
    · rcases List.mem_cons.1 h with h | h
      · exact .inl (by rw [h]; simp)
      · rcases ih h with h | ⟨b, h1, h2⟩
        · exact .inl (List.mem_cons_of_mem _ h)
        · exact .inr ⟨b, List.mem_cons_of_mem _ h1, h2⟩

theorem merge_nodeShape (c D : Diagram) (e b : Xml) {i : String} (h : ¬ Uses c i) :
    importNodeShape e b i (merge c D) = merge c <$> importNodeShape e b i D := by
  unfold importNodeShape
  have : (merge c D).graph.nodes.get? i = D.graph.nodes.get? i := by
    simp only [merge, Dict.get?_append]
    rw [(Dict.get?_eq_none_iff _ _).2 (not_uses h).1, Option.none_or]
  rw [this]
  cases D.graph.nodes.get? i with
  | none => rfl
  | some a =>
    cases ht : a.type with
    | none => simp only [ht]; rfl
    | some ty =>
      simp only [ht, need_some, except_bind_ok, except_pure, except_map_ok]
      rw [merge_upd c D h]

theorem Named.nodeShape {M : String → Prop} {D D' : Diagram} (q : Named M D) (e b : Xml) (i : String) (h : importNodeShape e b i D = .ok D') : Named M D' := by
  unfold importNodeShape at h
  split at h
  · rw [← Except.ok.inj h]; exact q
  · obtain ⟨ty, _, h⟩ := except_bind_eq_ok h
    rw [← Except.ok.inj h]
    exact q.upd _ _

theorem kept_merge (c : Diagram) (M : String → Prop) (hM : ∀ v, M v → ¬ Uses c v) : Steady M (fun D E => E = merge c D ∧ Named M D) where
  upd := by
    rintro D E ⟨rfl, q⟩ k hk f
    exact ⟨merge_upd c D (hM _ hk) f, q.upd k f⟩
  node := by
    rintro D E ⟨rfl, q⟩ k hk
    exact ⟨merge_addNode c D (hM _ hk), q.addNode hk⟩
  process := by
    rintro D E ⟨rfl, q⟩ k hk f hf
    refine ⟨?_, q.nodes, q.edges, q.table, ?_, q.collab⟩
    · simp [merge, Dict.modify_append _ _ f (not_uses (hM _ hk)).2.2.2.1]
    · intro p hp
      rcases mem_modify hp with h | ⟨a, h1, h2⟩
      · exact q.procs p h
      · rw [h2]
        refine ⟨hk, fun l hl => ?_⟩
        rcases hf a l hl with h | h
        · exact (q.procs _ h1).2 l h
        · exact h
  newProcess := by
    rintro D E ⟨rfl, q⟩ k hk a ha
    refine ⟨?_, q.nodes, q.edges, q.table, ?_, q.collab⟩
    · simp [merge, Dict.set_append _ _ a (not_uses (hM _ hk)).2.2.2.1]
    · intro p hp
      rcases mem_set hp with h | h
      · rw [h]; exact ⟨hk, by simp [lanesOf, ha]⟩
      · exact q.procs p h
  entry := by
    rintro D E ⟨rfl, q⟩ k hk f h1 h2
    refine ⟨?_, q.nodes, q.edges, ?_, q.procs, q.collab⟩
    · simp [merge, Dict.set_append _ _ f (not_uses (hM _ hk)).2.2.1]
    · intro p hp
      rcases mem_set hp with h | h
      · rw [h]; exact ⟨hk, h1, h2⟩
      · exact q.table p h
  edge := by
    rintro D E ⟨rfl, q⟩ s t hs ht f
    have h1 := merge_addEdge c D (hM _ hs) (hM _ ht)
    have h2 := merge_modifyEdge c { D with graph := D.graph.addEdge s t } (t := t) (hM _ hs) f
    rw [← h1] at h2
    exact ⟨h2, (q.addEdge hs ht).modifyEdge s t f⟩
  collab := by
    rintro D E ⟨rfl, q⟩ k hk
    refine ⟨by simp [merge], q.nodes, q.edges, q.table, q.procs, ?_⟩
    intro k' e
    rw [← Option.some.inj e]
    exact hk
  shape := by
    rintro D E ⟨rfl, q⟩ x hx
    unfold importShape
    refine Rel.same fun b _ => ?_
    rw [merge_nodeShape c D x b (hM _ (hx.attr _))]
    cases e : importNodeShape x b (x.getAttr "bpmnElement") D with
    | error er => exact .error er
    | ok D' =>
      have q' := q.nodeShape _ _ _ e
      simp only [except_map_ok, except_bind_ok]
      cases hc : D'.collaboration with
      | none =>
        cases hc' : c.collaboration with
        | none =>
          have : (merge c D').collaboration = none := by simp [merge, hc, hc']
          rw [this]
          exact .ok ⟨rfl, q'⟩
        | some k =>
          have : (merge c D').collaboration = some k := by simp [merge, hc, hc']
          rw [this]
          refine .ok ⟨?_, q'⟩
          have h1 := ((not_uses (hM _ (hx.attr "bpmnElement"))).2.2.2.2 k hc').1
          simp only [Dict.modify_of_not_mem _ _ h1]
          rw [← this]
      | some k =>
        have : (merge c D').collaboration = some k := by simp [merge, hc]
        rw [this]
        refine .ok ⟨by simp [merge], q'.nodes, q'.edges, q'.table, q'.procs, ?_⟩
        intro k' e
        rw [← Option.some.inj e]
        exact ⟨by simpa using (q'.collab k hc).pools, by rw [Dict.keys_modify]; exact (q'.collab k hc).once, (q'.collab k hc).messages⟩
  flowDi := by
    rintro D E ⟨rfl, q⟩ x hx
    unfold importFlowDi
    have hi := not_uses (hM _ (hx.attr "bpmnElement"))
    have e1 : (merge c D).sequenceFlows.get? (x.getAttr "bpmnElement") = D.sequenceFlows.get? (x.getAttr "bpmnElement") := by
      simp only [merge, Dict.get?_append]
      rw [(Dict.get?_eq_none_iff _ _).2 hi.2.2.1, Option.none_or]
    simp only [e1]
    have fin : ∀ name src tgt : String, M src → Rel (fun D E => E = merge c D ∧ Named M D)
        (if D.graph.hasEdge src tgt then
          .ok { D with graph := D.graph.modifyEdge src tgt fun a => { a with waypoints := some ((x.byName "waypoint").map fun w => (w.getAttr "x", w.getAttr "y")), name := some name } }
          else .error .keyError)
        (if (merge c D).graph.hasEdge src tgt then
          .ok { merge c D with graph := (merge c D).graph.modifyEdge src tgt fun a => { a with waypoints := some ((x.byName "waypoint").map fun w => (w.getAttr "x", w.getAttr "y")), name := some name } }
          else .error .keyError) := by
      intro name src tgt hs'
      have hs := hM _ hs'
      rw [merge_hasEdge c D hs]
      refine .ite (.ok ⟨merge_modifyEdge c D hs _, q.modifyEdge _ _ _⟩) (.error _)
    cases hf : D.sequenceFlows.get? (x.getAttr "bpmnElement") with
    | some f =>
      exact fin _ _ _ (q.table _ (Dict.mem_of_get? hf)).2.1
    | none =>
      cases hc : D.collaboration with
      | some k =>
        have : (merge c D).collaboration = some k := by simp [merge, hc]
        rw [this]
        simp only
        cases hm : k.messageFlows.get? (x.getAttr "bpmnElement") with
        | none => exact .ok ⟨rfl, q⟩
        | some m =>
          have F := fin m.name m.sourceRef m.targetRef ((q.collab k hc).messages _ (Dict.mem_of_get? hm)).2.1
          simp only [hc, this] at F
          exact F
      | none =>
        cases hc' : c.collaboration with
        | none =>
          have : (merge c D).collaboration = none := by simp [merge, hc, hc']
          rw [this]
          exact .ok ⟨rfl, q⟩
        | some k =>
          have : (merge c D).collaboration = some k := by simp [merge, hc, hc']
          rw [this]
          simp only [(Dict.get?_eq_none_iff _ _).2 (hi.2.2.2.2 k hc').2]
          exact .ok ⟨rfl, q⟩

theorem names_mentioned (root : Xml) : Names (Mentioned root) root := by
  intro y hy k
  cases y with
  | text s => exact .inl rfl
  | other s => exact .inl rfl
  | elem t as ks =>
    simp only [Xml.getAttr]
    cases h : Dict.get? as k with
    | none => exact .inl rfl
    | some v => exact .inr ⟨t, as, ks, k, hy, Dict.mem_of_get? h⟩

theorem Names.imp {M N : String → Prop} {x : Xml} (h : Names M x) (i : ∀ v, M v → N v) : Names N x := fun y hy k => i _ (h y hy k)

/-- Loading into an object in use. -/
theorem load_merge (ord : List String → List String) (root : Xml) (d : Diagram) (h : ∀ v, Mentioned root v → ¬ Uses d v) :
    Rel (fun D E => E = merge d D ∧ Named (Mentioned root) D) (load ord root {}) (load ord root d) := by
  refine (kept_merge d _ h).load ord root (names_mentioned root) ?_
  intro a b c e
  refine ⟨by simp [merge], ?_, ?_, ?_, ?_, ?_⟩ <;> simp [Dict.keys]

theorem incident_append (a b : List Edge) (seen : List String) (n : String) :
    Graph.incident (a ++ b) seen n = Graph.incident a seen n ++ Graph.incident b seen n := by
  simp [Graph.incident]

theorem incident_none (es : List Edge) (seen : List String) (n : String) (h : ∀ e ∈ es, e.u ≠ n ∧ e.v ≠ n) : Graph.incident es seen n = [] := by
  rw [Graph.incident, List.filterMap_eq_nil_iff]
  intro e he
  simp [h e he]

theorem iterFrom_left (a b : List Edge) : ∀ (ns seen : List String), (∀ e ∈ b, e.u ∉ ns ∧ e.v ∉ ns) →
    Graph.iterFrom (a ++ b) seen ns = Graph.iterFrom a seen ns
  | [], seen, h => rfl
  | n :: ns, seen, h => by
    rw [Graph.iterFrom, Graph.iterFrom, incident_append, incident_none b seen n, List.append_nil, iterFrom_left a b ns]
    · intro e he
      have := h e he
      simp only [List.mem_cons, not_or] at this
      exact ⟨this.1.2, this.2.2⟩
    · intro e he
      have := h e he
      simp only [List.mem_cons, not_or] at this
      exact ⟨this.1.1, this.2.1⟩

theorem incident_seen (es : List Edge) (seen seen' : List String) (n : String) (h : ∀ e ∈ es, (e.u ∈ seen ↔ e.u ∈ seen') ∧ (e.v ∈ seen ↔ e.v ∈ seen')) :
    Graph.incident es seen n = Graph.incident es seen' n := by
  unfold Graph.incident
  apply List.filterMap_congr
  intro e he
  simp [(h e he).1, (h e he).2]

theorem iterFrom_right (a b : List Edge) : ∀ (ns seen seen' : List String), (∀ e ∈ a, e.u ∉ ns ∧ e.v ∉ ns) →
    (∀ e ∈ b, (e.u ∈ seen ↔ e.u ∈ seen') ∧ (e.v ∈ seen ↔ e.v ∈ seen')) → Graph.iterFrom (a ++ b) seen ns = Graph.iterFrom b seen' ns
  | [], seen, seen', h, h' => rfl
  | n :: ns, seen, seen', h, h' => by
    rw [Graph.iterFrom, Graph.iterFrom, incident_append, incident_none a seen n, List.nil_append, incident_seen b seen seen' n h',
      iterFrom_right a b ns (n :: seen) (n :: seen')]
    · intro e he
      have := h e he
      simp only [List.mem_cons, not_or] at this
      exact ⟨this.1.2, this.2.2⟩
    · intro e he
      simp [(h' e he).1, (h' e he).2]
    · intro e he
      have := h e he
      simp only [List.mem_cons, not_or] at this
      exact ⟨this.1.1, this.2.1⟩

theorem iterFrom_concat (es : List Edge) : ∀ (ns ms seen : List String),
    Graph.iterFrom es seen (ns ++ ms) = Graph.iterFrom es seen ns ++ Graph.iterFrom es (ns.reverse ++ seen) ms
  | [], ms, seen => rfl
  | n :: ns, ms, seen => by
    rw [List.cons_append, Graph.iterFrom, Graph.iterFrom, iterFrom_concat es ns ms (n :: seen)]
    simp

theorem merge_flows {c D : Diagram} {M : String → Prop} (hM : ∀ v, M v → ¬ Uses c v) (q : Named M D) : (merge c D).graph.flows = c.graph.flows ++ D.graph.flows := by
  simp only [merge, Graph.flows, Dict.keys_append]
  rw [iterFrom_concat, iterFrom_left, iterFrom_right _ _ _ _ []]
  · intro e he
    exact ⟨fun hm => (not_uses (hM _ (q.nodes _ hm))).2.1 e he |>.1 rfl, fun hm => (not_uses (hM _ (q.nodes _ hm))).2.1 e he |>.2 rfl⟩
  · intro e he
    have := q.edges e he
    simp only [List.append_nil, List.mem_reverse, List.not_mem_nil, iff_false]
    exact ⟨(not_uses (hM _ this.1)).1, (not_uses (hM _ this.2)).1⟩
  · intro e he
    have := q.edges e he
    exact ⟨(not_uses (hM _ this.1)).1, (not_uses (hM _ this.2)).1⟩

theorem together_merge {c D : Diagram} {M : String → Prop} (hM : ∀ v, M v → ¬ Uses c v) (q : Named M D) : Together c D (merge c D) where
  nodes := rfl
  flows := merge_flows hM q
  table := rfl
  processes := rfl
  diagramId := rfl
  diagramName := rfl
  planeId := rfl
  planeElement := rfl
  replaced := by
    intro h
    cases e : D.collaboration with
    | none => exact absurd e h
    | some k => simp [merge, e]
  kept := by
    intro h
    simp [merge, h]

end Bpmn.Import

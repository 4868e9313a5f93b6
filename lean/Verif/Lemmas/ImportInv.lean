import Verif.Lemmas.ImportNode
set_option linter.unusedSimpArgs false
set_option linter.unusedVariables false
/-!
# What is known while the elements of an exported document are imported
-/
namespace Bpmn
open Spec Export Import

/-- The edge made by the import of a flow, before the graphics are read. -/
def coreEdge (a : EdgeAttrs) : Edge := ⟨a.sourceRef.getD "", a.targetRef.getD "", { a with waypoints := none }⟩

/-- The table entry of a flow. -/
def flowEntry (a : EdgeAttrs) : SeqFlow := ⟨a.name.getD "", a.sourceRef.getD "", a.targetRef.getD ""⟩

/-- The flows of a diagram. -/
def flowAttrs (d : Diagram) : List EdgeAttrs := d.graph.edges.map (·.attrs)

/-- What the import of flows relies on. -/
structure FlowFacts (d : Diagram) : Prop where
  ready : ∀ a ∈ flowAttrs d, FlowReady a
  ids : ∀ a ∈ flowAttrs d, ∀ b ∈ flowAttrs d, a.id = b.id → a = b
  pairs : ∀ a ∈ flowAttrs d, ∀ b ∈ flowAttrs d, (coreEdge b).joins (a.sourceRef.getD "") (a.targetRef.getD "") = true → a = b
  source : ∀ a ∈ flowAttrs d, ∃ b l, d.graph.nodes.get? (a.sourceRef.getD "") = some b ∧ b.outgoing = some l ∧ a.id.getD "" ∈ l
  target : ∀ a ∈ flowAttrs d, ∃ b l, d.graph.nodes.get? (a.targetRef.getD "") = some b ∧ b.incoming = some l ∧ a.id.getD "" ∈ l

/-- The state of one node: imported, or possibly made by a flow. -/
def NodeState (d : Diagram) (done : Prop) (m : String) (o : Option NodeAttrs) : Prop :=
  (done → ∃ a b, d.graph.nodes.get? m = some a ∧ o = some b ∧ Core a b) ∧
  (¬done → ∀ b, o = some b → Fresh b ∧ m ∈ d.graph.nodes.keys)

/-- While elements are imported: the nodes `S` and the flows `F` of `d` were read. -/
structure Inv (d : Diagram) (P : Dict String ProcAttrs)
    (H : Option String × Option String × Option String × Option String × Option Collab)
    (S : String → Prop) (F : EdgeAttrs → Prop) (D : Diagram) : Prop where
  procs : noProcIds D.processElements = P
  head : (D.diagramId, D.diagramName, D.planeId, D.planeElement, D.collaboration) = H
  nodup : D.graph.nodes.keys.Nodup
  nodes : ∀ m, NodeState d (S m) m (D.graph.nodes.get? m)
  edges : ∀ e, e ∈ D.graph.edges ↔ ∃ a ∈ flowAttrs d, F a ∧ e = coreEdge a
  edgesNodup : D.graph.edges.Nodup
  table : ∀ i v, D.sequenceFlows.get? i = some v ↔ ∃ a ∈ flowAttrs d, F a ∧ a.process.isSome ∧ a.id = some i ∧ v = flowEntry a

theorem nodup_addNode {g : Graph} (h : g.nodes.keys.Nodup) (n : String) : (g.addNode n).nodes.keys.Nodup := by
  by_cases hn : n ∈ g.nodes.keys
  · rw [Graph.addNode_of_mem hn]; exact h
  · rw [Graph.addNode_of_not_mem hn]
    simp only [Dict.keys_append, Dict.keys_cons, Dict.keys_nil]
    rw [List.nodup_append]
    exact ⟨h, by simp, by intro x hx y hy; simp only [List.mem_singleton] at hy; subst hy; rintro rfl; exact hn hx⟩

/-- Importing a node. -/
theorem Inv.node {d : Diagram} {P H S F D D'} {n : String} {a : NodeAttrs} {G} (h : Inv d P H S F D) (ha : d.graph.nodes.get? n = some a)
    (u : Upd D D' n G) (hG : ∀ b, (Fresh b ∨ Core a b) → Core a (G b)) : Inv d P H (fun m => S m ∨ m = n) F D' where
  procs := u.procs.trans h.procs
  head := u.head.trans h.head
  nodup := by rw [u.keys]; exact nodup_addNode h.nodup n
  nodes := by
    intro m
    by_cases hm : m = n
    · subst hm
      refine ⟨fun _ => ?_, fun hn => absurd (Or.inr rfl) hn⟩
      have hs := u.self
      cases hx : D'.graph.nodes.get? m with
      | none => simp [hx] at hs
      | some b =>
        simp only [hx, Option.map_some, Option.some.injEq] at hs
        refine ⟨a, b, ha, rfl, (hG _ ?_).noIds hs.symm⟩
        obtain ⟨h1, h2⟩ := h.nodes m
        by_cases hS : S m
        · obtain ⟨a', b', ha', hb', hc⟩ := h1 hS
          rw [ha] at ha'
          cases ha'
          simp only [hb', Option.getD_some]
          exact .inr hc
        · cases hy : D.graph.nodes.get? m with
          | none => exact .inl rfl
          | some b' => exact .inl (h2 hS _ hy).1
    · have ho := u.other m hm
      obtain ⟨h1, h2⟩ := h.nodes m
      refine ⟨fun hS => ?_, fun hS b hb => ?_⟩
      · obtain ⟨a', b', ha', hb', hc⟩ := h1 (hS.resolve_right hm)
        cases hx : D'.graph.nodes.get? m with
        | none => simp [hx, hb'] at ho
        | some b =>
          simp only [hx, hb', Option.map_some, Option.some.injEq] at ho
          exact ⟨a', b, ha', rfl, hc.noIds ho.symm⟩
      · cases hx : D.graph.nodes.get? m with
        | none => simp [hx, hb] at ho
        | some b' =>
          obtain ⟨f1, f2⟩ := h2 (fun c => hS (.inl c)) b' hx
          simp only [hx, hb, Option.map_some, Option.some.injEq] at ho
          exact ⟨f1.noIds ho.symm, f2⟩
  edges := by rw [u.edges]; exact h.edges
  edgesNodup := by rw [u.edges]; exact h.edgesNodup
  table := by rw [u.table]; exact h.table

theorem Inv.mono {d : Diagram} {P H S F D} {S' : String → Prop} (h : Inv d P H S F D) (hs : ∀ m, S m ↔ S' m) : Inv d P H S' F D := by
  have : S = S' := funext fun m => propext (hs m)
  exact this ▸ h

/-! ## Flows -/

/-- Writing the list entry of a flow changes nothing in an imported node, and leaves other nodes without attributes. -/
theorem NodeState.out {d : Diagram} {S : Prop} {m : String} {o : Option NodeAttrs} {i : String} (h : NodeState d S m o)
    (hl : ∃ b l, d.graph.nodes.get? m = some b ∧ b.outgoing = some l ∧ i ∈ l) :
    NodeState d S m (o.map fun a => { a with outgoing := some (addOnce a.outgoing i) }) := by
  refine ⟨fun hS => ?_, fun hS b hb => ?_⟩
  · obtain ⟨a, b, ha, hb, hc⟩ := h.1 hS
    obtain ⟨b', l, hb', hl, hi⟩ := hl
    rw [ha] at hb'
    cases hb'
    refine ⟨a, b, ha, ?_, hc⟩
    have : b.outgoing = a.outgoing := by
      have := congrArg NodeAttrs.outgoing hc.rest
      simpa using this
    rw [hb, Option.map_some, Option.some.injEq]
    have ho : addOnce b.outgoing i = l := by simp [addOnce, this, hl, hi]
    rw [ho, ← hl, ← this]
  · cases ho : o with
    | none => simp [ho] at hb
    | some c =>
      simp only [ho, Option.map_some, Option.some.injEq] at hb
      obtain ⟨f1, f2⟩ := h.2 hS c ho
      refine ⟨?_, f2⟩
      subst hb
      exact f1

theorem NodeState.inc {d : Diagram} {S : Prop} {m : String} {o : Option NodeAttrs} {i : String} (h : NodeState d S m o)
    (hl : ∃ b l, d.graph.nodes.get? m = some b ∧ b.incoming = some l ∧ i ∈ l) :
    NodeState d S m (o.map fun a => { a with incoming := some (addOnce a.incoming i) }) := by
  refine ⟨fun hS => ?_, fun hS b hb => ?_⟩
  · obtain ⟨a, b, ha, hb, hc⟩ := h.1 hS
    obtain ⟨b', l, hb', hl, hi⟩ := hl
    rw [ha] at hb'
    cases hb'
    refine ⟨a, b, ha, ?_, hc⟩
    have : b.incoming = a.incoming := by
      have := congrArg NodeAttrs.incoming hc.rest
      simpa using this
    rw [hb, Option.map_some, Option.some.injEq]
    have ho : addOnce b.incoming i = l := by simp [addOnce, this, hl, hi]
    rw [ho, ← hl, ← this]
  · cases ho : o with
    | none => simp [ho] at hb
    | some c =>
      simp only [ho, Option.map_some, Option.some.injEq] at hb
      obtain ⟨f1, f2⟩ := h.2 hS c ho
      refine ⟨?_, f2⟩
      subst hb
      exact f1

theorem NodeState.added {d : Diagram} {S : String → Prop} {g : Graph} {n : String} (hn : n ∈ d.graph.nodes.keys)
    (h : ∀ m, NodeState d (S m) m (g.nodes.get? m)) : ∀ m, NodeState d (S m) m ((g.addNode n).nodes.get? m) := by
  intro m
  by_cases hm : m = n
  · subst hm
    rw [get?_addNode_self]
    refine ⟨fun hS => ?_, fun hS b hb => ?_⟩
    · obtain ⟨a, b, ha, hb, hc⟩ := (h m).1 hS
      exact ⟨a, b, ha, by simp [hb], hc⟩
    · cases hg : g.nodes.get? m with
      | none => 
        simp only [hg, Option.getD_none, Option.some.injEq] at hb
        subst hb
        exact ⟨rfl, hn⟩
      | some c =>
        simp only [hg, Option.getD_some, Option.some.injEq] at hb
        subst hb
        exact (h m).2 hS _ hg
  · rw [get?_addNode_ne _ hm]
    exact h m

theorem joins_coreEdge (a : EdgeAttrs) : (coreEdge a).joins (a.sourceRef.getD "") (a.targetRef.getD "") = true := Edge.joins_self (coreEdge a)

/-- What the import of a flow writes into the attributes of the edge. -/
def writeFlow (i pid n s t : String) (c : Option CondExpr) (b : EdgeAttrs) : EdgeAttrs :=
  { b with id := some i, process := some pid, name := some n, sourceRef := some s, targetRef := some t,
           conditionExpression := (match c with | none => b.conditionExpression | some c => some c) }

theorem importSequenceFlow_tree {a : EdgeAttrs} (hr : FlowReady a) {i n s t : String} (hi : a.id = some i) (hn : a.name = some n)
    (hs : a.sourceRef = some s) (ht : a.targetRef = some t) (pid : String) (D : Diagram) :
    importSequenceFlow pid (flowTree a).toDom D = .ok (linkEnds i s t { D with
      sequenceFlows := D.sequenceFlows.set i ⟨n, s, t⟩,
      graph := (D.graph.addEdge s t).modifyEdge s t (writeFlow i pid n s t a.conditionExpression) }) := by
  rw [toDom_flowTree hr]
  cases hc : a.conditionExpression with
  | none =>
    simp only [importSequenceFlow, Xml.children, conditions, except_bind_ok, getAttr_elem, attrOr_elem, Dict.get?_cons, hi, hn, hs, ht,
      Option.getD_some, String.reduceEq, if_true, if_false]
    rfl
  | some c =>
    simp only [importSequenceFlow, Xml.children, conditions, except_bind_ok, getAttr_elem, attrOr_elem, Dict.get?_cons, hi, hn, hs, ht,
      Option.getD_some, String.reduceEq, if_true, if_false, Xml.isText, Bool.false_eq_true, Xml.tagName, Xml.firstValue,
      show removeNamespace "conditionExpression" = "conditionExpression" by decide]
    rfl

/-- Importing a flow. -/
theorem Inv.flow {d : Diagram} {P H S F D} (hf : FlowFacts d) (h : Inv d P H S F D) {a : EdgeAttrs} (ha : a ∈ flowAttrs d) {pid : String}
    (hp : a.process = some pid) :
    ∃ D', importSequenceFlow pid (flowTree a).toDom D = .ok D' ∧ Inv d P H S (fun b => F b ∨ b = a) D' := by
  have hr := hf.ready a ha
  obtain ⟨i, hi⟩ := Option.isSome_iff_exists.1 hr.id
  obtain ⟨n, hn⟩ := Option.isSome_iff_exists.1 hr.name
  obtain ⟨s, hs⟩ := Option.isSome_iff_exists.1 hr.source
  obtain ⟨t, ht⟩ := Option.isSome_iff_exists.1 hr.target
  have hsrc := hf.source a ha
  have htgt := hf.target a ha
  have hjoin : ∀ e ∈ D.graph.edges, e.joins s t = true → e = coreEdge a ∧ F a := by
    intro e he hj
    obtain ⟨b, hb, hF, rfl⟩ := (h.edges e).1 he
    have := hf.pairs a ha b hb (by simpa [hs, ht] using hj)
    subst this
    exact ⟨rfl, hF⟩
  refine ⟨_, importSequenceFlow_tree hr hi hn hs ht pid D, ?_⟩
  simp only [hs, ht, hi, Option.getD_some] at hsrc htgt
  have hedges : ((D.graph.addEdge s t).modifyEdge s t (writeFlow i pid n s t a.conditionExpression)).edges =
      if D.graph.hasEdge s t then D.graph.edges else D.graph.edges ++ [coreEdge a] := by
    have key : ∀ c : Option CondExpr, c = none ∨ c = a.conditionExpression →
        writeFlow i pid n s t a.conditionExpression { id := some i, name := some n, process := some pid, sourceRef := some s, targetRef := some t, conditionExpression := c } = (coreEdge a).attrs ∧ writeFlow i pid n s t a.conditionExpression { conditionExpression := c } = (coreEdge a).attrs := by
      intro c hc
      obtain ⟨ai, an, ap, as, at', ac, aw⟩ := a
      simp only at hi hn hp hs ht hc
      subst hi hn hp hs ht
      cases ac with
      | none =>
        have : c = none := by rcases hc with h | h <;> exact h
        subst this
        simp [coreEdge, writeFlow]
      | some x => simp [coreEdge, writeFlow]
    simp only [Graph.modifyEdge, Graph.addEdge_edges]
    have hold : D.graph.edges.map (fun e => if e.joins s t = true then { e with attrs := writeFlow i pid n s t a.conditionExpression e.attrs } else e)
        = D.graph.edges := by
      conv => rhs; rw [← List.map_id D.graph.edges]
      apply List.map_congr_left
      intro e he
      split
      · rename_i hj
        obtain ⟨rfl, -⟩ := hjoin e he hj
        have := (key a.conditionExpression (.inr rfl)).1
        rw [id_eq]
        have h' : (coreEdge a).attrs = { id := some i, name := some n, process := some pid, sourceRef := some s, targetRef := some t, conditionExpression := a.conditionExpression } := by
          obtain ⟨ai, an, ap, as, at', ac, aw⟩ := a
          simp only at hi hn hp hs ht
          subst hi hn hp hs ht
          rfl
        rw [h', this]
      · rfl
    split
    · exact hold
    · rw [List.map_append, hold]
      simp only [List.map_cons, List.map_nil, Edge.joins, beq_self_eq_true, Bool.and_self, Bool.true_or, if_true]
      rw [(key none (.inl rfl)).2]
      simp [coreEdge, hs, ht]
  have hgraphNodes : ∀ m, NodeState d (S m) m (((D.graph.addNode s).addNode t).nodes.get? m) := by
    apply NodeState.added
    · obtain ⟨b, l, hb, -⟩ := htgt
      exact Dict.mem_keys_of_get? hb
    · apply NodeState.added
      · obtain ⟨b, l, hb, -⟩ := hsrc
        exact Dict.mem_keys_of_get? hb
      · exact h.nodes
  constructor
  · exact h.procs
  · exact h.head
  · simp only [linkEnds, Diagram.updNode, Graph.modifyNode_keys, Graph.modifyEdge_nodes, Graph.addEdge_nodes]
    exact nodup_addNode (nodup_addNode h.nodup _) _
  · intro m
    simp only [linkEnds, Diagram.updNode, Graph.modifyNode, Graph.modifyEdge_nodes, Graph.addEdge_nodes, Dict.get?_modify]
    have h0 := hgraphNodes m
    split
    · rename_i hm
      subst hm
      apply NodeState.inc _ htgt
      split
      · rename_i hm'
        subst hm'
        exact h0.out hsrc
      · exact h0
    · split
      · rename_i hm'
        subst hm'
        exact h0.out hsrc
      · exact h0
  · intro e
    simp only [linkEnds, Diagram.updNode, Graph.modifyNode_edges]
    rw [hedges]
    split
    · rename_i hh
      obtain ⟨e', he', hj⟩ := (Graph.hasEdge_iff _ _ _).1 hh
      obtain ⟨-, hF⟩ := hjoin e' he' hj
      rw [h.edges]
      constructor
      · rintro ⟨b, hb, hFb, rfl⟩; exact ⟨b, hb, .inl hFb, rfl⟩
      · rintro ⟨b, hb, hFb | rfl, rfl⟩
        · exact ⟨b, hb, hFb, rfl⟩
        · exact ⟨b, hb, hF, rfl⟩
    · rw [List.mem_append, h.edges, List.mem_singleton]
      constructor
      · rintro (⟨b, hb, hFb, rfl⟩ | rfl)
        · exact ⟨b, hb, .inl hFb, rfl⟩
        · exact ⟨a, ha, .inr rfl, rfl⟩
      · rintro ⟨b, hb, hFb | rfl, rfl⟩
        · exact .inl ⟨b, hb, hFb, rfl⟩
        · exact .inr rfl
  · simp only [linkEnds, Diagram.updNode, Graph.modifyNode_edges]
    rw [hedges]
    split
    · exact h.edgesNodup
    · rename_i hh
      rw [List.nodup_append]
      refine ⟨h.edgesNodup, by simp, ?_⟩
      intro x hx y hy
      simp only [List.mem_singleton] at hy
      subst hy
      rintro rfl
      apply hh
      rw [Graph.hasEdge_iff]
      exact ⟨_, hx, by simpa [hs, ht] using joins_coreEdge a⟩
  · intro j v
    simp only [linkEnds, Diagram.updNode, Dict.get?_set]
    split
    · rename_i hij
      subst hij
      constructor
      · intro hv
        simp only [Option.some.injEq] at hv
        subst hv
        exact ⟨a, ha, .inr rfl, by simp [hp], hi, by simp [flowEntry, hn, hs, ht]⟩
      · rintro ⟨b, hb, -, -, hbi, rfl⟩
        have := hf.ids a ha b hb (by rw [hi, hbi])
        subst this
        simp [flowEntry, hn, hs, ht]
    · rename_i hij
      rw [h.table]
      constructor
      · rintro ⟨b, hb, hFb, hbp, hbi, rfl⟩; exact ⟨b, hb, .inl hFb, hbp, hbi, rfl⟩
      · rintro ⟨b, hb, hFb | rfl, hbp, hbi, rfl⟩
        · exact ⟨b, hb, hFb, hbp, hbi, rfl⟩
        · rw [hi, Option.some.injEq] at hbi
          exact absurd hbi hij

theorem Inv.congr {d : Diagram} {P H S F G D} (h : Inv d P H S F D) (e : ∀ a ∈ flowAttrs d, F a ↔ G a) : Inv d P H S G D := by
  refine ⟨h.procs, h.head, h.nodup, h.nodes, fun x => ?_, h.edgesNodup, fun i v => ?_⟩
  · rw [h.edges]
    exact exists_congr fun a => and_congr_right fun ha => and_congr_left fun _ => e a ha
  · rw [h.table]
    exact exists_congr fun a => and_congr_right fun ha => and_congr_left fun _ => e a ha

/-- What the import of a message flow writes into the attributes of the edge. -/
def writeMessage (i n s t : String) (b : EdgeAttrs) : EdgeAttrs :=
  { b with id := some i, name := some n, sourceRef := some s, targetRef := some t }

/-- Importing a message flow. -/
theorem Inv.message {d : Diagram} {P H S F D} (hf : FlowFacts d) (h : Inv d P H S F D) {a : EdgeAttrs} (ha : a ∈ flowAttrs d)
    {i n s t : String} (hi : a.id = some i) (hn : a.name = some n) (hs : a.sourceRef = some s) (ht : a.targetRef = some t)
    (hp : a.process = none) (hc : a.conditionExpression = none) :
    Inv d P H S (fun b => F b ∨ b = a)
      (linkEnds i s t { D with graph := (D.graph.addEdge s t).modifyEdge s t (writeMessage i n s t) }) := by
  have hsrc := hf.source a ha
  have htgt := hf.target a ha
  have hjoin : ∀ e ∈ D.graph.edges, e.joins s t = true → e = coreEdge a ∧ F a := by
    intro e he hj
    obtain ⟨b, hb, hF, rfl⟩ := (h.edges e).1 he
    have := hf.pairs a ha b hb (by simpa [hs, ht] using hj)
    subst this
    exact ⟨rfl, hF⟩
  simp only [hs, ht, hi, Option.getD_some] at hsrc htgt
  have hcore : (coreEdge a).attrs = writeMessage i n s t {} := by
    obtain ⟨ai, an, ap, as, at', ac, aw⟩ := a
    simp only at hi hn hp hs ht hc
    subst hi hn hp hs ht hc
    rfl
  have hedges : ((D.graph.addEdge s t).modifyEdge s t (writeMessage i n s t)).edges =
      if D.graph.hasEdge s t then D.graph.edges else D.graph.edges ++ [coreEdge a] := by
    simp only [Graph.modifyEdge, Graph.addEdge_edges]
    have hold : D.graph.edges.map (fun e => if e.joins s t = true then { e with attrs := writeMessage i n s t e.attrs } else e)
        = D.graph.edges := by
      conv => rhs; rw [← List.map_id D.graph.edges]
      apply List.map_congr_left
      intro e he
      split
      · rename_i hj
        obtain ⟨rfl, -⟩ := hjoin e he hj
        rw [id_eq, hcore]
        show Edge.mk _ _ (writeMessage i n s t {}) = _
        rw [← hcore]
      · rfl
    split
    · exact hold
    · rw [List.map_append, hold]
      simp only [List.map_cons, List.map_nil, Edge.joins, beq_self_eq_true, Bool.and_self, Bool.true_or, if_true]
      rw [← hcore]
      simp [coreEdge, hs, ht]
  have hgraphNodes : ∀ m, NodeState d (S m) m (((D.graph.addNode s).addNode t).nodes.get? m) := by
    apply NodeState.added
    · obtain ⟨b, l, hb, -⟩ := htgt
      exact Dict.mem_keys_of_get? hb
    · apply NodeState.added
      · obtain ⟨b, l, hb, -⟩ := hsrc
        exact Dict.mem_keys_of_get? hb
      · exact h.nodes
  constructor
  · exact h.procs
  · exact h.head
  · simp only [linkEnds, Diagram.updNode, Graph.modifyNode_keys, Graph.modifyEdge_nodes, Graph.addEdge_nodes]
    exact nodup_addNode (nodup_addNode h.nodup _) _
  · intro m
    simp only [linkEnds, Diagram.updNode, Graph.modifyNode, Graph.modifyEdge_nodes, Graph.addEdge_nodes, Dict.get?_modify]
    have h0 := hgraphNodes m
    split
    · rename_i hm
      subst hm
      apply NodeState.inc _ htgt
      split
      · rename_i hm'
        subst hm'
        exact h0.out hsrc
      · exact h0
    · split
      · rename_i hm'
        subst hm'
        exact h0.out hsrc
      · exact h0
  · intro e
    simp only [linkEnds, Diagram.updNode, Graph.modifyNode_edges]
    rw [hedges]
    split
    · rename_i hh
      obtain ⟨e', he', hj⟩ := (Graph.hasEdge_iff _ _ _).1 hh
      obtain ⟨-, hF⟩ := hjoin e' he' hj
      rw [h.edges]
      constructor
      · rintro ⟨b, hb, hFb, rfl⟩; exact ⟨b, hb, .inl hFb, rfl⟩
      · rintro ⟨b, hb, hFb | rfl, rfl⟩
        · exact ⟨b, hb, hFb, rfl⟩
        · exact ⟨b, hb, hF, rfl⟩
    · rw [List.mem_append, h.edges, List.mem_singleton]
      constructor
      · rintro (⟨b, hb, hFb, rfl⟩ | rfl)
        · exact ⟨b, hb, .inl hFb, rfl⟩
        · exact ⟨a, ha, .inr rfl, rfl⟩
      · rintro ⟨b, hb, hFb | rfl, rfl⟩
        · exact .inl ⟨b, hb, hFb, rfl⟩
        · exact .inr rfl
  · simp only [linkEnds, Diagram.updNode, Graph.modifyNode_edges]
    rw [hedges]
    split
    · exact h.edgesNodup
    · rename_i hh
      rw [List.nodup_append]
      refine ⟨h.edgesNodup, by simp, ?_⟩
      intro x hx y hy
      simp only [List.mem_singleton] at hy
      subst hy
      rintro rfl
      apply hh
      rw [Graph.hasEdge_iff]
      exact ⟨_, hx, by simpa [hs, ht] using joins_coreEdge a⟩
  · intro j v
    simp only [linkEnds, Diagram.updNode]
    rw [h.table]
    constructor
    · rintro ⟨b, hb, hFb, hbp, hbi, rfl⟩; exact ⟨b, hb, .inl hFb, hbp, hbi, rfl⟩
    · rintro ⟨b, hb, hFb | rfl, hbp, hbi, rfl⟩
      · exact ⟨b, hb, hFb, hbp, hbi, rfl⟩
      · simp [hp] at hbp

end Bpmn

import Verif.Lemmas.NodeOps
import Mathlib.Data.List.Nodup
import Mathlib.Data.List.Induction
/-!
# Properties C01 - C10: construction and queries

Statements are about `Op.run` / `Op.exec` (the public construction methods) and the query methods.  The declared content of a history
is `Spec.runAbs` (two plain lists), the caller's obligations are `Spec.AllowedHistory`.
-/
set_option linter.unusedSimpArgs false
set_option linter.unusedVariables false

namespace Bpmn.Props
open Bpmn Bpmn.Spec

/-- A history used as a concrete case below: two tasks behind a start event and a gateway, four flows. -/
def demoOps : List Op :=
  [.createNew "d" "D", .addProcess "p" false true "None" "PL" "P",
   .addStartEvent "P" "s" (some "timer") false true (some "s") "u1" "u2",
   .addExclusiveGateway "P" "g" "Diverging" none none "g",
   .addTask "P" "t1" (some "t1") "u4", .addTask "P" "t2" (some "t2") "u5",
   .addSequenceFlow "P" "s" "g" "" "f1", .addSequenceFlow "P" "g" "t1" "yes" "f2",
   .addSequenceFlow "P" "g" "t2" "no" "f3", .addSequenceFlow "P" "t2" "t1" "" "f4"]

theorem demo_allowed : AllowedHistory {} demoOps := by
  simp [demoOps, AllowedHistory, Allowed, step, declaredNode, declaredFlow, directionArg, directions, chosen]

/-! ## C01 -/

/-- **C01 (refinement).** After any allowed history the whole object is determined by the declared nodes and flows: the nodes are the
declared ones in order of declaration with the declared attributes, the `outgoing` (`incoming`) list of a node holds the ids of the
declared flows leaving (entering) it in order of creation, the edges are the declared flows, and `sequence_flows` has one entry per
declared flow. -/
theorem C01_refinement (ops : List Op) (h : AllowedHistory {} ops) :
    let d := Op.run {} ops
    let A := runAbs {} ops
    d.getNodes = A.nodes.map (fun n => (n.id, { n.attrs with
      incoming := some ((A.flows.filter fun f => f.tgt = n.id).map (·.id)),
      outgoing := some ((A.flows.filter fun f => f.src = n.id).map (·.id)) })) ∧
    d.graph.edges.map (fun e => (e.u, e.v, e.attrs.id, e.attrs.name, e.attrs.process, e.attrs.sourceRef, e.attrs.targetRef)) =
      A.flows.map (fun f => (f.src, f.tgt, some f.id, some f.name, some f.process, some f.src, some f.tgt)) ∧
    d.sequenceFlows = A.flows.map (fun f => (f.id, ⟨f.name, f.src, f.tgt⟩)) := by
  obtain ⟨e, w⟩ := run_empty ops h
  intro d A
  simp only [d, A, e, Diagram.getNodes, concretize]
  refine ⟨?_, ?_, trivial⟩
  · apply List.map_congr_left
    intro n _
    simp [nodeOf, inIds, outIds, Bool.beq_eq_decide_eq]
  · simp [edgeOf]

/-- Unique ids: the flow declared with an id is the only one. -/
theorem count_one {A : ADiagram} (w : AWF A) {f : AFlow} (hf : f ∈ A.flows) (p : AFlow → Bool) (hp : p f = true) :
    ((A.flows.filter p).map (·.id)).count f.id = 1 := by
  have nd : ((A.flows.filter p).map (·.id)).Nodup := w.flowsNodup.sublist (List.filter_sublist.map _)
  exact List.count_eq_one_of_mem nd (List.mem_map.2 ⟨f, List.mem_filter.2 ⟨hf, hp⟩, rfl⟩)

/-- **C01.** After any allowed history, every declared flow is found by `get_flow_by_id` with the source, target, name and process it
was created with, its id is exactly once in the source's outgoing and exactly once in the target's incoming list; and every id in a
node's outgoing (incoming) list is the id of a declared flow leaving (entering) that node. -/
theorem C01_flow_bookkeeping (ops : List Op) (h : AllowedHistory {} ops) :
    let d := Op.run {} ops
    let A := runAbs {} ops
    (∀ f ∈ A.flows,
      (∃ a b e, d.getFlowById f.id = .ok (some (a, b, e)) ∧ SamePair a b f.src f.tgt ∧ e.id = some f.id ∧
        e.sourceRef = some f.src ∧ e.targetRef = some f.tgt ∧ e.name = some f.name ∧ e.process = some f.process) ∧
      (∃ sa out, d.getNodeById f.src = some (f.src, sa) ∧ sa.outgoing = some out ∧ out.count f.id = 1) ∧
      (∃ ta inc, d.getNodeById f.tgt = some (f.tgt, ta) ∧ ta.incoming = some inc ∧ inc.count f.id = 1)) ∧
    (∀ n a, d.getNodeById n = some (n, a) → ∃ inc out, a.incoming = some inc ∧ a.outgoing = some out ∧
      (∀ i ∈ out, ∃ f ∈ A.flows, f.id = i ∧ f.src = n) ∧ (∀ i ∈ inc, ∃ f ∈ A.flows, f.id = i ∧ f.tgt = n)) := by
  obtain ⟨e, w⟩ := run_empty ops h
  have sane : Sane (Op.run {} ops) := Sane.empty.run ops
  intro d A
  have hd : d = concretize A := e
  have hnode : ∀ n ∈ A.nodes, d.getNodeById n.id = some (n.id, nodeOf A.flows n) := by
    intro n hn
    rw [getNodeById_eq, hd]
    have := get?_map A.nodes (·.id) (nodeOf A.flows) w.nodesNodup hn
    simp only [concretize, this, Option.map_some]
  refine ⟨?_, ?_⟩
  · intro f hf
    refine ⟨?_, ?_, ?_⟩
    · obtain ⟨r, hr⟩ := getFlowById_ok sane f.id
      cases r with
      | none =>
        have := (getFlowById_none_iff sane f.id).1 hr (edgeOf f) (by rw [e]; exact List.mem_map_of_mem hf)
        simp [edgeOf] at this
      | some x =>
        obtain ⟨a, b, c⟩ := x
        obtain ⟨ed, hed, h1, h2, h3⟩ := getFlowById_some sane hr
        rw [e] at hed
        obtain ⟨g, hg, rfl⟩ := List.mem_map.1 hed
        have hgf : g = f := by
          simp [edgeOf] at h2
          exact List.inj_on_of_nodup_map w.flowsNodup hg hf h2
        subst hgf
        refine ⟨a, b, c, hr, ?_, ?_⟩
        · simp [edgeOf, SamePair] at h3 ⊢
          rcases h3 with ⟨h3, h4⟩ | ⟨h3, h4⟩ <;> simp [h3, h4]
        · simp only at h1
          subst h1
          simp [edgeOf]
    · obtain ⟨n, hn, hid⟩ := List.mem_map.1 (w.ends f hf).1
      refine ⟨_, _, by rw [← hid]; exact hnode n hn, rfl, ?_⟩
      exact count_one w hf _ (by simp [hid])
    · obtain ⟨n, hn, hid⟩ := List.mem_map.1 (w.ends f hf).2
      refine ⟨_, _, by rw [← hid]; exact hnode n hn, rfl, ?_⟩
      exact count_one w hf _ (by simp [hid])
  · intro n a ha
    have hk : n ∈ A.nodes.map (·.id) := by
      rw [getNodeById_eq] at ha
      have : n ∈ d.graph.nodes.keys := by
        rw [← Dict.get?_isSome_iff]
        cases hx : d.graph.nodes.get? n with
        | none => rw [hx] at ha; simp at ha
        | some _ => simp
      rwa [hd, keys_concretize] at this
    obtain ⟨m, hm, rfl⟩ := List.mem_map.1 hk
    rw [hnode m hm] at ha
    simp at ha
    subst ha
    refine ⟨_, _, rfl, rfl, ?_, ?_⟩
    · intro i hi
      simp only [outIds, List.mem_map, List.mem_filter] at hi
      obtain ⟨f, ⟨hf, hs⟩, hi⟩ := hi
      exact ⟨f, hf, hi, by simpa using hs⟩
    · intro i hi
      simp only [inIds, List.mem_map, List.mem_filter] at hi
      obtain ⟨f, ⟨hf, hs⟩, hi⟩ := hi
      exact ⟨f, hf, hi, by simpa using hs⟩

/-- **C01.** In an allowed history no call raises. -/
theorem C01_no_call_raises (ops : List Op) (op : Op) (h : AllowedHistory {} (ops ++ [op])) :
    ∃ id, (op.exec (Op.run {} ops)).2 = .ok id := by
  have split : ∀ (l : List Op) (A : ADiagram), AllowedHistory A (l ++ [op]) → AllowedHistory A l ∧ Allowed (runAbs A l) op := by
    intro l
    induction l with
    | nil => intro A h; exact ⟨trivial, h.1⟩
    | cons x l ih => intro A h; exact ⟨⟨h.1, (ih _ h.2).1⟩, (ih _ h.2).2⟩
  obtain ⟨h1, h2⟩ := split ops {} h
  obtain ⟨e, w⟩ := run_empty ops h1
  rw [e]
  exact (exec_concretize w h2).2

/-- The hypothesis is met by a history with branching; its conclusion is not trivial there (four flows, shared lists). -/
example : AllowedHistory {} demoOps ∧ (runAbs {} demoOps).flows.length = 4 ∧
    (Op.run {} demoOps).getNodeById "t1" = some ("t1", { baseNode "task" "t1" "P" "t1" with
      incoming := some ["f2", "f4"], outgoing := some [] }) :=
  ⟨demo_allowed, by decide, by decide⟩

/-! ## C02 -/

/-- **C02 (frame).** In any sane diagram, whatever the outcome of the call, a flow that does not join the two ends of the new flow and
does not have its id is looked up as before. -/
theorem C02_other_flows_unchanged (d : Diagram) (hs : Sane d) (p s t nm uid g : String) (hg : g ≠ uid)
    (hpair : ∀ a b e, (a, b, e) ∈ d.getFlows → e.id = some g → ¬SamePair a b s t) :
    (d.addSequenceFlow p s t nm uid).1.getFlowById g = d.getFlowById g := by
  obtain ⟨f, hf, he, hk, -⟩ := addSequenceFlow_effect d p s t nm uid
  apply getFlowById_congr hs (hs.addSequenceFlow p s t nm uid)
  · rw [he, edges_addEdge_modify, List.filter_append]
    have : ((if d.graph.hasEdge s t = true then [] else [(⟨s, t, f {}⟩ : Edge)]).filter
        fun e => e.attrs.id == some g) = [] := by
      split
      · rfl
      · simp [hf, Ne.symm hg]
    rw [this, List.append_nil]
    have key : ∀ es : List Edge, (∀ e ∈ es, e ∈ d.graph.edges) →
        (es.map fun e => if e.joins s t then { e with attrs := f e.attrs } else e).filter (fun e => e.attrs.id == some g) =
          es.filter fun e => e.attrs.id == some g := by
      intro es
      induction es with
      | nil => intro _; rfl
      | cons e es ih =>
        intro hsub
        have ih := ih (fun x hx => hsub x (List.mem_cons_of_mem _ hx))
        have hmem := hsub e List.mem_cons_self
        rw [List.map_cons, List.filter_cons, List.filter_cons, ih]
        by_cases hj : e.joins s t = true
        · have hne : e.attrs.id ≠ some g := by
            intro hi
            obtain ⟨a, b, hab⟩ := Graph.exists_flow_of_attrs hs.wf hmem
            obtain ⟨e', he', h1, h2⟩ := Graph.mem_flows hab
            have hj' := SamePair.joins.1 hj
            -- the listed pair of `e` is the pair of an edge with the same attributes, hence with the same ends
            obtain ⟨-, -, s1, t1, q1, q2, q3⟩ := hs.described e hmem
            obtain ⟨-, -, s2, t2, r1, r2, r3⟩ := hs.described e' he'
            rw [h1] at r1 r2
            rw [q1] at r1; rw [q2] at r2
            simp at r1 r2
            subst r1; subst r2
            refine hpair a b e.attrs hab hi ?_
            simp only [SamePair] at *
            rcases hj' with ⟨u1, u2⟩ | ⟨u1, u2⟩ <;> rcases q3 with ⟨u3, u4⟩ | ⟨u3, u4⟩ <;>
              rcases r3 with ⟨u5, u6⟩ | ⟨u5, u6⟩ <;> rcases h2 with ⟨u7, u8⟩ | ⟨u7, u8⟩ <;> simp_all
          simp [hj, hf, hne, Ne.symm hg]
        · simp [hj]
    exact key _ (fun _ h => h)
  · rw [hk]
    obtain ⟨m1, h1, h1'⟩ := addNode_keys d.graph s
    obtain ⟨m2, h2, h2'⟩ := addNode_keys (d.graph.addNode s) t
    refine ⟨m1 ++ m2, by rw [h2, h1, List.append_assoc], ?_⟩
    intro m hm
    rcases List.mem_append.1 hm with hm | hm
    · exact h1' m hm
    · intro hc
      refine h2' m hm ?_
      rw [h1]; exact List.mem_append_left _ hc

/-- **C02 (loss).** In any sane diagram with unique flow ids: if the nodes `s` and `t` are already joined by flow `g`, in either
direction, then after connecting them again `get_flow_by_id(g)` is `None`, although `g` is still in `sequence_flows` and in every flow
list that contained it. -/
theorem C02_reconnecting_loses_flow (d : Diagram) (hs : Sane d) (hu : (d.getFlows.map (·.2.2.id)).Nodup)
    (p s t nm uid g : String) (hg : g ≠ uid) (a b : String) (e : EdgeAttrs)
    (hfind : d.getFlowById g = .ok (some (a, b, e))) (hpair : SamePair a b s t) :
    let d' := (d.addSequenceFlow p s t nm uid).1
    d'.getFlowById g = .ok none ∧
    d'.sequenceFlows.get? g = d.sequenceFlows.get? g ∧
    (∀ n at', d.getNodeById n = some (n, at') → ∃ at2, d'.getNodeById n = some (n, at2) ∧
      (∀ l, at'.outgoing = some l → g ∈ l → ∃ l', at2.outgoing = some l' ∧ g ∈ l') ∧
      (∀ l, at'.incoming = some l → g ∈ l → ∃ l', at2.incoming = some l' ∧ g ∈ l')) := by
  obtain ⟨f, hf, he, hk, hseq, -⟩ := addSequenceFlow_effect d p s t nm uid
  intro d'
  have sane' : Sane d' := hs.addSequenceFlow p s t nm uid
  refine ⟨?_, ?_, ?_⟩
  · rw [getFlowById_none_iff sane']
    intro x hx hid
    have hx : x ∈ ((d.graph.addEdge s t).modifyEdge s t f).edges := he ▸ hx
    rw [edges_addEdge_modify, List.mem_append] at hx
    rcases hx with hx | hx
    · obtain ⟨y, hy, rfl⟩ := List.mem_map.1 hx
      split at hid
      · simp [hf] at hid; exact hg hid.symm
      · rename_i hj
        obtain ⟨e0, he0, h1, h2, h3⟩ := getFlowById_some hs hfind
        have nd : (d.graph.edges.map fun x => x.attrs.id).Nodup := by
          have := (Graph.flows_attrs_perm hs.wf).map (·.id)
          simp only [List.map_map] at this
          exact this.nodup_iff.1 hu
        have : y = e0 := List.inj_on_of_nodup_map nd hy he0 (by rw [hid, h2])
        subst this
        apply hj
        rw [SamePair.joins]
        simp only [SamePair] at *
        rcases h3 with ⟨u1, u2⟩ | ⟨u1, u2⟩ <;> rcases hpair with ⟨u3, u4⟩ | ⟨u3, u4⟩ <;> simp_all
    · split at hx
      · simp at hx
      · simp at hx; subst hx; simp [hf] at hid; exact hg hid.symm
  · show d'.sequenceFlows.get? g = _
    rw [hseq, Dict.get?_set_ne _ _ (Ne.symm hg)]
  · intro n at' hn
    rw [getNodeById_eq] at hn
    cases hx : d.graph.nodes.get? n with
    | none => rw [hx] at hn; simp at hn
    | some a0 =>
      rw [hx] at hn; simp at hn; subst hn
      obtain ⟨a2, h1, h2, h3⟩ := addSequenceFlow_lists d p s t nm uid n hx
      refine ⟨a2, by rw [getNodeById_eq, h1]; rfl, ?_, ?_⟩
      · intro l hl hm
        obtain ⟨l', hl'⟩ := h2 l hl
        exact ⟨_, hl', List.mem_append_left _ hm⟩
      · intro l hl hm
        obtain ⟨l', hl'⟩ := h3 l hl
        exact ⟨_, hl', List.mem_append_left _ hm⟩

/-- Concrete case: in the demo diagram flow `f4` (t2 → t1) is lost by adding t1 → t2; the hypotheses of both theorems hold. -/
example :
    let d := Op.run {} demoOps
    Sane d ∧ (d.getFlows.map (·.2.2.id)).Nodup ∧
    (∃ a b e, d.getFlowById "f4" = .ok (some (a, b, e)) ∧ SamePair a b "t1" "t2") ∧
    (d.addSequenceFlow "P" "t1" "t2" "" "f5").1.getFlowById "f4" = .ok none ∧
    ((d.addSequenceFlow "P" "t1" "t2" "" "f5").1.getFlowById "f3" ≠ .ok none) :=
  ⟨Sane.empty.run _, by decide, ⟨"t1", "t2", _, by rfl, by decide⟩, by decide, by decide⟩

/-! ## C03 -/

/-- **C03.** When every node has a type, `get_nodes(t)` (for a non-empty type) is the sublist of the nodes with that type, in order;
`get_nodes_id_list_by_type` returns their ids. -/
theorem C03_nodes_by_type (d : Diagram) (h : ∀ n ∈ d.getNodes, n.2.type.isSome) (t : String) (ht : t ≠ "") :
    d.getNodesOfType (some t) = .ok (d.getNodes.filter fun n => n.2.type = some t) ∧
    d.getNodesIdListByType t = .ok ((d.getNodes.filter fun n => n.2.type = some t).map (·.1)) := by
  constructor
  · unfold Diagram.getNodesOfType
    rw [if_neg (by simpa using ht)]
    apply pyFilter_eq_filter
    intro n hn
    obtain ⟨ty, hty⟩ := Option.isSome_iff_exists.1 (h n hn)
    simp [hty, Bool.beq_eq_decide_eq]
  · unfold Diagram.getNodesIdListByType
    rw [pyFilter_eq_filter (q := fun n => decide (n.2.type = some t))]
    · rfl
    · intro n hn
      obtain ⟨ty, hty⟩ := Option.isSome_iff_exists.1 (h n hn)
      simp [hty, Bool.beq_eq_decide_eq]

/-- **C03.** The default call `get_nodes()` / `get_nodes("")` returns all nodes. -/
theorem C03_all_nodes (d : Diagram) : d.getNodesOfType (some "") = .ok d.getNodes := rfl

/-- **C03.** `get_nodes_list_by_process_id` filters by process. -/
theorem C03_nodes_by_process (d : Diagram) (h : ∀ n ∈ d.getNodes, n.2.process.isSome) (p : String) :
    d.getNodesByProcess p = .ok (d.getNodes.filter fun n => n.2.process = some p) := by
  apply pyFilter_eq_filter
  intro n hn
  obtain ⟨q, hq⟩ := Option.isSome_iff_exists.1 (h n hn)
  simp [hq, Bool.beq_eq_decide_eq]

/-- **C03.** One node without a type makes `get_nodes(t)` raise `KeyError` for every non-empty type. -/
theorem C03_untyped_node_raises (d : Diagram) (h : ∃ n ∈ d.getNodes, n.2.type = none) (t : String) (ht : t ≠ "") :
    d.getNodesOfType (some t) = .error .keyError := by
  unfold Diagram.getNodesOfType
  rw [if_neg (by simpa using ht)]
  apply pyFilter_error
  · intro n _
    cases hn : n.2.type <;> simp
  · obtain ⟨n, hn, hty⟩ := h
    exact ⟨n, hn, by simp [hty]⟩

/-- **C03.** Diagrams built by allowed histories meet the hypotheses of the two filter theorems. -/
theorem C03_built_diagrams_typed (ops : List Op) (h : AllowedHistory {} ops) :
    ∀ n ∈ (Op.run {} ops).getNodes, n.2.type.isSome ∧ n.2.process.isSome := by
  obtain ⟨e, w⟩ := run_empty ops h
  rw [e]
  intro n hn
  obtain ⟨m, hm, rfl⟩ := List.mem_map.1 hn
  exact ⟨(w.geom m hm).2.2.2.1, (w.geom m hm).2.2.2.2.2.1⟩

example : (Op.run {} demoOps).getNodesIdListByType "task" = .ok ["t1", "t2"] ∧
    (∀ n ∈ (Op.run {} demoOps).getNodes, n.2.type.isSome ∧ n.2.process.isSome) :=
  ⟨by decide, C03_built_diagrams_typed _ demo_allowed⟩

/-! ## C04 -/

/-- **C04 (adding a node).** From any sane diagram: a node constructor with a new id (and, for gateways, a valid direction) returns
the id; afterwards the node is found with the declared attributes, empty flow lists; all other nodes and all flows are looked up as
before, and the list of flows is the same. -/
theorem C04_add_node (d : Diagram) (hs : Sane d) (op : Op) (n : ANode) (hn : declaredNode op = some n)
    (hdir : ∀ dir, directionArg op = some dir → dir ∈ directions) (hnew : d.getNodeById n.id = none) :
    (op.exec d).2 = .ok n.id ∧
    (op.exec d).1.getNodeById n.id = some (n.id, { n.attrs with incoming := some [], outgoing := some [] }) ∧
    (∀ m, m ≠ n.id → (op.exec d).1.getNodeById m = d.getNodeById m) ∧
    (op.exec d).1.getFlows = d.getFlows ∧
    (∀ i, (op.exec d).1.getFlowById i = d.getFlowById i) := by
  obtain ⟨f, he, -, hv, -⟩ := nodeOp_effect d hn
  obtain ⟨hv1, hv2⟩ := hv hdir
  have hnone : d.graph.nodes.get? n.id = none := by
    rw [getNodeById_eq] at hnew; simpa using hnew
  have hk : n.id ∉ d.graph.nodes.keys := (Dict.get?_eq_none_iff _ _).1 hnone
  have hfl : (op.exec d).1.getFlows = d.getFlows := by
    rw [he]
    simp only [Diagram.getFlows, Graph.flows, Graph.modifyNode_edges, Graph.addNode_edges, Graph.modifyNode_keys,
      Graph.addNode_of_not_mem hk]
    rw [Dict.keys_append, Graph.iterFrom_append]
    intro e hemem
    have := hs.endsKnown e hemem
    simp only [Dict.keys_cons, Dict.keys_nil, List.mem_singleton]
    exact ⟨fun e1 => hk (e1 ▸ this.1), fun e1 => hk (e1 ▸ this.2)⟩
  refine ⟨hv2, ?_, ?_, hfl, ?_⟩
  · rw [getNodeById_eq, he, get?_addNode_modify]
    simp [hnone, hv1, stored]
  · intro m hm
    rw [getNodeById_eq, getNodeById_eq, he, get?_addNode_modify]
    simp [hm]
  · intro i
    unfold Diagram.getFlowById
    have : (op.exec d).1.graph.flows = d.graph.flows := hfl
    rw [this]

/-- **C04 (adding a flow).** From any diagram, whatever the outcome: nodes other than the two ends are unchanged. -/
theorem C04_add_flow_frame (d : Diagram) (p s t nm uid n : String) (h1 : n ≠ s) (h2 : n ≠ t) :
    (d.addSequenceFlow p s t nm uid).1.getNodeById n = d.getNodeById n := by
  rw [getNodeById_eq, getNodeById_eq, addSequenceFlow_frame d p s t nm uid n h1 h2]

/-- **C04 (adding a flow).** Between two different nodes with coordinates and flow lists the call returns the new id, appends it to the
source's outgoing and the target's incoming list, and changes nothing else of the two nodes. -/
theorem C04_add_flow_ends (d : Diagram) (p s t nm uid : String) (hne : s ≠ t) (sa ta : NodeAttrs) (out inc : List String)
    (hs : d.getNodeById s = some (s, sa)) (ht : d.getNodeById t = some (t, ta))
    (hgeo : sa.x.isSome ∧ sa.y.isSome ∧ ta.x.isSome ∧ ta.y.isSome)
    (ho : sa.outgoing = some out) (hi : ta.incoming = some inc) :
    (d.addSequenceFlow p s t nm uid).2 = .ok uid ∧
    (d.addSequenceFlow p s t nm uid).1.getNodeById s = some (s, { sa with outgoing := some (out ++ [uid]) }) ∧
    (d.addSequenceFlow p s t nm uid).1.getNodeById t = some (t, { ta with incoming := some (inc ++ [uid]) }) := by
  have g : ∀ n a, d.getNodeById n = some (n, a) → d.graph.nodes.get? n = some a := by
    intro n a h; rw [getNodeById_eq] at h
    cases hx : d.graph.nodes.get? n <;> rw [hx] at h <;> simp at h
    rw [h]
  have hs' := g s sa hs
  have ht' := g t ta ht
  obtain ⟨h1, h2⟩ := addSequenceFlow_ok d p s t nm uid hs' ht' hgeo.1 hgeo.2.1 hgeo.2.2.1 hgeo.2.2.2 ho hi
  refine ⟨h1, ?_, ?_⟩
  · rw [getNodeById_eq, h2, Dict.get?_modify_ne _ _ (Ne.symm hne), Dict.get?_modify_self, hs']; rfl
  · rw [getNodeById_eq, h2, Dict.get?_modify_self, Dict.get?_modify_ne _ _ hne, ht']; rfl

/-- **C04 (the new flow).** After the call one edge joins the two nodes (if at most one did before); it carries the arguments and leads
straight from the position of the source to the position of the target.  All other edges are as before. -/
theorem C04_add_flow_edge (d : Diagram) (p s t nm uid : String) (sa ta : NodeAttrs) (out inc : List String) (x1 y1 x2 y2 : String)
    (hs : d.getNodeById s = some (s, sa)) (ht : d.getNodeById t = some (t, ta))
    (hx1 : sa.x = some x1) (hy1 : sa.y = some y1) (hx2 : ta.x = some x2) (hy2 : ta.y = some y2)
    (ho : sa.outgoing = some out) (hi : ta.incoming = some inc) :
    let after := (d.addSequenceFlow p s t nm uid).1.graph.edges
    (∃ e ∈ after, SamePair e.u e.v s t) ∧
    (∀ e ∈ after, SamePair e.u e.v s t → e.attrs.id = some uid ∧ e.attrs.name = some nm ∧ e.attrs.process = some p ∧
      e.attrs.sourceRef = some s ∧ e.attrs.targetRef = some t ∧ e.attrs.waypoints = some [(x1, y1), (x2, y2)]) ∧
    (after.filter fun e => ¬SamePair e.u e.v s t) = d.graph.edges.filter fun e => ¬SamePair e.u e.v s t := by
  have g : ∀ n a, d.getNodeById n = some (n, a) → d.graph.nodes.get? n = some a := by
    intro n a h; rw [getNodeById_eq] at h
    cases hx : d.graph.nodes.get? n <;> rw [hx] at h <;> simp at h
    rw [h]
  have hj : ∀ e : Edge, e.joins s t = true ↔ SamePair e.u e.v s t := by
    intro e; simp [Edge.joins, SamePair]
  have he := addSequenceFlow_edges d p s t nm uid (g s sa hs) (g t ta ht) hx1 hy1 hx2 hy2 ho hi
  intro after
  simp only [after, he, Graph.modifyEdge, List.map_map, Graph.addEdge_edges]
  generalize hE : (if d.graph.hasEdge s t = true then d.graph.edges else d.graph.edges ++ [⟨s, t, {}⟩]) = es
  have hin : ∃ e ∈ es, SamePair e.u e.v s t := by
    rw [← hE]
    split
    · rename_i h
      obtain ⟨e, h1, h2⟩ := (Graph.hasEdge_iff _ _ _).1 h
      exact ⟨e, h1, (hj e).1 h2⟩
    · exact ⟨⟨s, t, {}⟩, by simp, .inl ⟨rfl, rfl⟩⟩
  have hout : (es.filter fun e => ¬SamePair e.u e.v s t) = d.graph.edges.filter fun e => ¬SamePair e.u e.v s t := by
    rw [← hE]
    split
    · rfl
    · simp [List.filter_append, SamePair]
  refine ⟨?_, ?_, ?_⟩
  · obtain ⟨e, h1, h2⟩ := hin
    refine ⟨_, List.mem_map_of_mem h1, ?_⟩
    have := (hj e).2 h2
    have h3 : Edge.joins ⟨e.u, e.v, { e.attrs with id := some uid, name := some nm, process := some p, sourceRef := some s, targetRef := some t }⟩ s t = true := this
    simpa [this, h3] using h2
  · intro e h1 h2
    obtain ⟨e', h3, rfl⟩ := List.mem_map.1 h1
    by_cases hc : e'.joins s t = true
    · have h4 : Edge.joins ⟨e'.u, e'.v, { e'.attrs with id := some uid, name := some nm, process := some p, sourceRef := some s, targetRef := some t }⟩ s t = true := hc
      simp [hc, h4]
    · simp [hc] at h2
      exact absurd ((hj e').2 h2) hc
  · rw [← hout, List.filter_map]
    have : ∀ e ∈ es.filter (fun e => ¬SamePair e.u e.v s t), e.joins s t = false := by
      intro e h
      simp only [List.mem_filter, decide_eq_true_eq] at h
      cases hc : e.joins s t
      · rfl
      · exact absurd ((hj e).1 hc) h.2
    rw [show (es.filter ((fun e => decide ¬SamePair e.u e.v s t) ∘ ((fun e => if e.joins s t = true then { e with attrs := { e.attrs with waypoints := some [(x1, y1), (x2, y2)] } } else e) ∘ fun e => if e.joins s t = true then { e with attrs := { e.attrs with id := some uid, name := some nm, process := some p, sourceRef := some s, targetRef := some t } } else e))) = es.filter (fun e => decide ¬SamePair e.u e.v s t) from by
      apply List.filter_congr
      intro e _
      simp only [Function.comp]
      repeat' split
      all_goals rfl]
    conv_rhs => rw [← List.map_id (es.filter fun e => decide ¬SamePair e.u e.v s t)]
    apply List.map_congr_left
    intro e h
    simp [this e h]

/-- **C04 (self-loop).** A flow from a node to itself appends its id to both lists of that node. -/
theorem C04_add_self_loop (d : Diagram) (p s nm uid : String) (sa : NodeAttrs) (out inc : List String)
    (hs : d.getNodeById s = some (s, sa)) (hgeo : sa.x.isSome ∧ sa.y.isSome)
    (ho : sa.outgoing = some out) (hi : sa.incoming = some inc) :
    (d.addSequenceFlow p s s nm uid).2 = .ok uid ∧
    (d.addSequenceFlow p s s nm uid).1.getNodeById s =
      some (s, { sa with outgoing := some (out ++ [uid]), incoming := some (inc ++ [uid]) }) := by
  have hs' : d.graph.nodes.get? s = some sa := by
    rw [getNodeById_eq] at hs
    cases hx : d.graph.nodes.get? s <;> rw [hx] at hs <;> simp at hs
    rw [hs]
  obtain ⟨h1, h2⟩ := addSequenceFlow_ok d p s s nm uid hs' hs' hgeo.1 hgeo.2 hgeo.1 hgeo.2 ho hi
  refine ⟨h1, ?_⟩
  rw [getNodeById_eq, h2, Dict.get?_modify_self, Dict.get?_modify_self, hs']; rfl

/-- **C04 (lookup).** After an allowed history `get_node_by_id` returns `None` exactly for ids that were not declared. -/
theorem C04_lookup_none_iff (ops : List Op) (h : AllowedHistory {} ops) (i : String) :
    (Op.run {} ops).getNodeById i = none ↔ ∀ n ∈ (runAbs {} ops).nodes, n.id ≠ i := by
  obtain ⟨e, w⟩ := run_empty ops h
  rw [getNodeById_eq, Option.map_eq_none_iff, Dict.get?_eq_none_iff, e, keys_concretize]
  simp

example :
    let d := Op.run {} demoOps
    Sane d ∧ declaredNode (.addTask "P" "x" none "x") = some ⟨"x", baseNode "task" "x" "P" "x"⟩ ∧
    d.getNodeById "x" = none ∧ d.getNodeById "g" ≠ none ∧
    (∃ sa ta, d.getNodeById "s" = some ("s", sa) ∧ d.getNodeById "t2" = some ("t2", ta) ∧ sa.outgoing = some ["f1"] ∧
      ta.incoming = some ["f3"] ∧ sa.x.isSome ∧ sa.y.isSome ∧ ta.x.isSome ∧ ta.y.isSome) :=
  ⟨Sane.empty.run _, rfl, by decide, by decide, ⟨_, _, rfl, rfl, rfl, rfl, rfl, rfl, rfl, rfl⟩⟩

/-! ## C05 -/

/-- **C05.** From any diagram: a node constructor called with the id of an existing node (and, for gateways, a valid direction) does
not raise; the number of nodes, all other nodes and all flows stay the same; the node's flow lists are empty. -/
theorem C05_readding_empties_lists (d : Diagram) (op : Op) (n : ANode) (hn : declaredNode op = some n)
    (hdir : ∀ dir, directionArg op = some dir → dir ∈ directions) (hold : d.getNodeById n.id ≠ none) :
    (op.exec d).2 = .ok n.id ∧
    (op.exec d).1.getNodes.map (·.1) = d.getNodes.map (·.1) ∧
    (op.exec d).1.getFlows = d.getFlows ∧
    (∀ m, m ≠ n.id → (op.exec d).1.getNodeById m = d.getNodeById m) ∧
    ∃ a, (op.exec d).1.getNodeById n.id = some (n.id, a) ∧ a.incoming = some [] ∧ a.outgoing = some [] := by
  obtain ⟨f, he, hf, hv, -⟩ := nodeOp_effect d hn
  have hk : n.id ∈ d.graph.nodes.keys := by
    rw [getNodeById_eq] at hold
    rw [← Dict.get?_isSome_iff]
    cases hx : d.graph.nodes.get? n.id <;> simp [hx] at hold ⊢
  have hkeys : (op.exec d).1.graph.nodes.keys = d.graph.nodes.keys := by
    rw [he]; simp [Graph.addNode_of_mem hk]
  refine ⟨(hv hdir).2, hkeys, ?_, ?_, ?_⟩
  · show (op.exec d).1.graph.flows = d.graph.flows
    simp only [Graph.flows, hkeys]
    rw [he]; simp
  · intro m hm
    rw [getNodeById_eq, getNodeById_eq, he, get?_addNode_modify]
    simp [hm]
  · rw [getNodeById_eq, he, get?_addNode_modify]
    simp only [if_true, Option.map_some]
    exact ⟨_, rfl, (hf _).1, (hf _).2.1⟩

/-- Concrete case: re-adding gateway `g` of the demo diagram leaves flow `f1` retrievable but no longer in `g`'s incoming list. -/
example :
    let d := Op.run {} demoOps
    let d' := (Op.exec d (.addParallelGateway "P" "again" "Mixed" (some "g") "u")).1
    (∃ a, d.getNodeById "g" = some ("g", a) ∧ a.incoming = some ["f1"]) ∧
    (∃ a, d'.getNodeById "g" = some ("g", a) ∧ a.incoming = some []) ∧
    (∃ f, d'.getFlowById "f1" = .ok (some f) ∧ f.2.2.targetRef = some "g") :=
  ⟨⟨_, rfl, rfl⟩, ⟨_, rfl, rfl⟩, ⟨_, rfl, rfl⟩⟩

/-! ## C06 -/

/-- Every call with a direction argument declares a node. -/
theorem direction_declares {op : Op} {dir : String} (h : directionArg op = some dir) : ∃ n, declaredNode op = some n := by
  cases op <;> simp [directionArg] at h <;> exact ⟨_, rfl⟩

/-- **C06 (rejection).** From any diagram: a gateway constructor with a direction outside the four documented ones raises
`BpmnPythonError`; afterwards the diagram nevertheless contains the node, without a direction if it is new. -/
theorem C06_rejected_gateway_stays (d : Diagram) (op : Op) (dir : String) (hdir : directionArg op = some dir)
    (hbad : dir ∉ ["Unspecified", "Converging", "Diverging", "Mixed"]) :
    (op.exec d).2 = .error .bpmnError ∧
    ∃ n a, declaredNode op = some n ∧ (op.exec d).1.getNodeById n.id = some (n.id, a) ∧ a.type = n.attrs.type ∧
      (d.getNodeById n.id = none → a.gatewayDirection = none) := by
  obtain ⟨n, hn⟩ := direction_declares hdir
  obtain ⟨f, he, hf, -, hv⟩ := nodeOp_effect d hn
  have hnv : ¬valid op := fun h => hbad (h dir hdir)
  obtain ⟨h1, h2⟩ := hv hnv
  refine ⟨h2, n, f ((d.graph.nodes.get? n.id).getD {}), hn, ?_, (hf _).2.2.1, ?_⟩
  · rw [getNodeById_eq, he, get?_addNode_modify]; simp
  · intro hnew
    have : d.graph.nodes.get? n.id = none := by rw [getNodeById_eq] at hnew; simpa using hnew
    simp [this, h1]

/-- **C06 (acceptance).** With one of the four directions the constructor does not raise and a new node has that direction. -/
theorem C06_accepted_gateway (d : Diagram) (op : Op) (dir : String) (hdir : directionArg op = some dir)
    (hok : dir ∈ ["Unspecified", "Converging", "Diverging", "Mixed"]) :
    ∃ n, declaredNode op = some n ∧ (op.exec d).2 = .ok n.id ∧
      (d.getNodeById n.id = none → ∃ a, (op.exec d).1.getNodeById n.id = some (n.id, a) ∧ a.gatewayDirection = some dir) := by
  obtain ⟨n, hn⟩ := direction_declares hdir
  obtain ⟨f, he, hf, hv, -⟩ := nodeOp_effect d hn
  obtain ⟨h1, h2⟩ := hv (by intro dir' h; rw [hdir] at h; simp at h; subst h; exact hok)
  refine ⟨n, hn, h2, fun hnew => ⟨stored n, ?_, ?_⟩⟩
  · have : d.graph.nodes.get? n.id = none := by rw [getNodeById_eq] at hnew; simpa using hnew
    rw [getNodeById_eq, he, get?_addNode_modify]; simp [this, h1]
  · cases op <;> simp [directionArg] at hdir <;> simp [declaredNode] at hn <;> subst hn <;> subst hdir <;> rfl

example :
    let r := Op.exec (Op.run {} demoOps) (.addInclusiveGateway "P" "bad" "diverging" none (some "k") "u")
    directionArg (.addInclusiveGateway "P" "bad" "diverging" none (some "k") "u") = some "diverging" ∧
    "diverging" ∉ ["Unspecified", "Converging", "Diverging", "Mixed"] ∧
    r.2 = .error .bpmnError ∧ r.1.getNodeById "k" ≠ none := by decide

/-! ## C07 -/

/-- **C07.** From any sane diagram: if an end of the new flow is not a node, the call raises `KeyError`; afterwards the flow is in
`sequence_flows` and in `get_flows()`, every unknown end has become a node without any attribute, and `get_nodes(t)` raises `KeyError`
for every non-empty type. -/
theorem C07_unknown_end (d : Diagram) (hs : Sane d) (p s t nm uid : String)
    (hunknown : d.getNodeById s = none ∨ d.getNodeById t = none) :
    let d' := (d.addSequenceFlow p s t nm uid).1
    (d.addSequenceFlow p s t nm uid).2 = .error .keyError ∧
    d'.sequenceFlows.get? uid = some ⟨nm, s, t⟩ ∧
    (∃ a b e, (a, b, e) ∈ d'.getFlows ∧ e.id = some uid ∧ e.sourceRef = some s ∧ e.targetRef = some t) ∧
    (∀ n, (n = s ∨ n = t) → d.getNodeById n = none → d'.getNodeById n = some (n, {})) ∧
    (∀ ty, ty ≠ "" → d'.getNodesOfType (some ty) = .error .keyError) := by
  have gn : ∀ n, d.getNodeById n = none ↔ n ∉ d.graph.nodes.keys := by
    intro n; rw [getNodeById_eq, Option.map_eq_none_iff, Dict.get?_eq_none_iff]
  have hex : ∃ n, (n = s ∨ n = t) ∧ n ∉ d.graph.nodes.keys := by
    rcases hunknown with h | h
    · exact ⟨s, Or.inl rfl, (gn s).1 h⟩
    · exact ⟨t, Or.inr rfl, (gn t).1 h⟩
  obtain ⟨herr, hnodes⟩ := addSequenceFlow_missing d p s t nm uid hex
  obtain ⟨f, hf, he, hk, hseq, -⟩ := addSequenceFlow_effect d p s t nm uid
  have sane' := hs.addSequenceFlow p s t nm uid
  intro d'
  have bare : ∀ n, (n = s ∨ n = t) → d.getNodeById n = none → d'.getNodeById n = some (n, {}) := by
    intro n hn hnone
    have hk' := (gn n).1 hnone
    rw [getNodeById_eq]
    show ((d.addSequenceFlow p s t nm uid).1.graph.nodes.get? n).map _ = _
    rw [hnodes, Graph.get?_addNode]
    by_cases hns : n = s
    · subst hns; simp [Graph.mem_keys_addNode, Graph.get?_addNode, hk']
    · have hnt : n = t := hn.resolve_left hns
      subst hnt
      simp [Graph.mem_keys_addNode, hk', hns]
  refine ⟨herr, ?_, ?_, bare, ?_⟩
  · show (d.addSequenceFlow p s t nm uid).1.sequenceFlows.get? uid = _
    rw [hseq]; simp
  · have hnoedge : ¬d.graph.hasEdge s t = true := by
      intro hh
      obtain ⟨e, hemem, hj⟩ := (Graph.hasEdge_iff _ _ _).1 hh
      have hends := hs.endsKnown e hemem
      obtain ⟨n, hn, hnk⟩ := hex
      apply hnk
      rw [Edge.joins_iff] at hj
      rcases hj with ⟨h1, h2⟩ | ⟨h1, h2⟩ <;> rcases hn with rfl | rfl
      · exact h1 ▸ hends.1
      · exact h2 ▸ hends.2
      · exact h2 ▸ hends.2
      · exact h1 ▸ hends.1
    have hmem : (⟨s, t, f {}⟩ : Edge) ∈ d'.graph.edges := by
      show _ ∈ (d.addSequenceFlow p s t nm uid).1.graph.edges
      rw [he, edges_addEdge_modify]; simp [hnoedge]
    obtain ⟨a, b, hab⟩ := Graph.exists_flow_of_attrs sane'.wf hmem
    exact ⟨a, b, _, hab, (hf {}).1, (hf {}).2.2.2.1, (hf {}).2.2.2.2⟩
  · intro ty hty
    apply C03_untyped_node_raises d' _ ty hty
    obtain ⟨n, hn, hnk⟩ := hex
    have := bare n hn ((gn n).2 hnk)
    refine ⟨(n, {}), List.mem_of_find?_eq_some this, rfl⟩

example :
    let d := Op.run {} demoOps
    Sane d ∧ d.getNodeById "nowhere" = none ∧
    (d.addSequenceFlow "P" "t1" "nowhere" "" "f9").1.getNodesOfType (some "task") = .error .keyError ∧
    d.getNodesOfType (some "task") ≠ .error .keyError :=
  ⟨Sane.empty.run _, by decide, by decide, by decide⟩

/-! ## C08 -/

/-- The calls after the last `create_new_diagram_graph`. -/
def sinceNew (ops : List Op) : List Op :=
  (ops.reverse.takeWhile fun op => match op with | .createNew .. => false | _ => true).reverse

/-- The `add_process_to_diagram` calls: generated id and the attributes passed. -/
def processCalls (ops : List Op) : List (String × String × String × Bool × Bool × String) :=
  ops.filterMap fun op => match op with | .addProcess nm c e ty pl pr => some (pr, pl, nm, c, e, ty) | _ => none

theorem sinceNew_snoc (ops : List Op) (op : Op) :
    sinceNew (ops ++ [op]) = match op with | .createNew .. => [] | _ => sinceNew ops ++ [op] := by
  unfold sinceNew
  simp only [List.reverse_append, List.reverse_singleton, List.singleton_append, List.takeWhile_cons]
  cases op <;> simp

theorem exec_table (d : Diagram) (op : Op) : (op.exec d).1.processElements = match op with
    | .createNew .. => []
    | .addProcess nm c e ty _ pr => d.processElements.set pr
        { name := some nm, isClosed := some (flag c), isExecutable := some (flag e), processType := some ty }
    | _ => d.processElements := by
  cases op
  case createNew => rfl
  case addProcess => simp [Op.exec, Diagram.addProcess]
  all_goals exact (exec_procs d _ (by simp) (by simp)).1

theorem exec_plane (d : Diagram) (op : Op) : ((op.exec d).1.planeElement, (op.exec d).1.planeId) = match op with
    | .createNew .. => (none, none)
    | .addProcess _ _ _ _ pl pr => (some pr, some pl)
    | _ => (d.planeElement, d.planeId) := by
  cases op
  case createNew => rfl
  case addProcess => rfl
  all_goals
    exact Prod.ext (exec_procs d _ (by simp) (by simp)).2.1 (exec_procs d _ (by simp) (by simp)).2.2

/-- **C08 (plane).** After any history (failing calls included) on a fresh object, the plane shows the process added last since the
last `create_new_diagram_graph`, and has no attributes if there is none. -/
theorem C08_plane_shows_last_process (ops : List Op) :
    (Op.run {} ops).planeElement = ((processCalls (sinceNew ops)).getLast?).map (·.1) ∧
    (Op.run {} ops).planeId = ((processCalls (sinceNew ops)).getLast?).map (·.2.1) := by
  induction ops using List.reverseRecOn with
  | nil => exact ⟨rfl, rfl⟩
  | append_singleton ops op ih =>
    rw [run_append, sinceNew_snoc]
    have := exec_plane (Op.run {} ops) op
    simp only [Op.run]
    cases op <;> simp_all [processCalls, List.filterMap_append]

/-- **C08 (processes).** If the generated process ids are distinct, `process_elements` has exactly one entry, with the attributes
passed, for every process added since the last `create_new_diagram_graph`, in order. -/
theorem C08_process_table (ops : List Op) (hfresh : ((processCalls (sinceNew ops)).map (·.1)).Nodup) :
    (Op.run {} ops).processElements = (processCalls (sinceNew ops)).map fun c =>
      (c.1, { name := some c.2.2.1, isClosed := some (flag c.2.2.2.1), isExecutable := some (flag c.2.2.2.2.1),
              processType := some c.2.2.2.2.2 }) := by
  induction ops using List.reverseRecOn with
  | nil => rfl
  | append_singleton ops op ih =>
    rw [run_append, sinceNew_snoc] at *
    have ht := exec_table (Op.run {} ops) op
    simp only [Op.run] at *
    rw [ht]
    cases op
    case createNew => rfl
    case addProcess nm c e ty pl pr =>
      simp only [processCalls, List.filterMap_append, List.filterMap_cons, List.filterMap_nil, List.map_append,
        List.map_cons, List.map_nil] at *
      rw [List.nodup_append] at hfresh
      rw [ih hfresh.1, Dict.set_of_not_mem]
      intro hm
      refine hfresh.2.2 pr ?_ pr (by simp) rfl
      simpa [Dict.keys, Function.comp_def] using hm
    all_goals
      simp only [processCalls, List.filterMap_append, List.filterMap_cons, List.filterMap_nil, List.append_nil] at *
      exact ih hfresh

/-- **C08 (new diagram).** `create_new_diagram_graph` empties any object. -/
theorem C08_create_new_empties (d : Diagram) (name uid : String) :
    let d' := (Op.exec d (.createNew name uid)).1
    d'.getNodes = [] ∧ d'.getFlows = [] ∧ d'.sequenceFlows = [] ∧ d'.processElements = [] ∧ d'.planeElement = none ∧
    d'.planeId = none ∧ d'.collaboration = none ∧ d'.diagramId = some uid ∧ d'.diagramName = some name :=
  ⟨rfl, rfl, rfl, rfl, rfl, rfl, rfl, rfl, rfl⟩

example : (processCalls (sinceNew (.addProcess "old" true true "" "x" "y" :: demoOps ++
    [.addProcess "q" true false "Public" "PL2" "Q"]))).map (·.1) = ["P", "Q"] := by decide

/-! ## C09 -/

/-- **C09 (start events).** From any diagram without the id: the stored event definitions are one definition of the requested kind for
the five documented kinds, none for any other string or `None`; the flags are stored as strings. -/
theorem C09_start_event (d : Diagram) (p nm : String) (df : Option String) (pm ii : Bool) (i uid du : String)
    (hnew : d.getNodeById i = none) :
    ∃ a, (d.addStartEvent p nm df pm ii (some i) uid du).getNodeById i = some (i, a) ∧
      a.eventDefinitions = some (match df.bind fun k => startKinds.lookup k with | some el => [⟨du, el⟩] | none => []) ∧
      a.parallelMultiple = some (flag pm) ∧ a.isInterrupting = some (flag ii) ∧ a.type = some "startEvent" ∧
      a.nodeName = some nm ∧ a.process = some p := by
  obtain ⟨f, he, hf, hv, -⟩ := nodeOp_effect d (op := .addStartEvent p nm df pm ii (some i) uid du) rfl
  obtain ⟨h1, -⟩ := hv (by intro dir h; simp [directionArg] at h)
  have hnone : d.graph.nodes.get? i = none := by rw [getNodeById_eq] at hnew; simpa using hnew
  refine ⟨f {}, ?_, ?_⟩
  · have he : d.addStartEvent p nm df pm ii (some i) uid du = _ := he
    rw [getNodeById_eq, he]
    show (Dict.get? ((d.graph.addNode i).modifyNode i f).nodes i).map _ = _
    rw [get?_addNode_modify]; simp [hnone]
  · rw [h1]
    refine ⟨?_, rfl, rfl, rfl, rfl, rfl⟩
    simp only [stored, startDefs_eq, Diagram.startEventDefs, startKinds]
    cases df with
    | none => rfl
    | some k =>
      by_cases h1 : k = "message"; · subst h1; rfl
      by_cases h2 : k = "timer"; · subst h2; rfl
      by_cases h3 : k = "conditional"; · subst h3; rfl
      by_cases h4 : k = "signal"; · subst h4; rfl
      by_cases h5 : k = "escalation"; · subst h5; rfl
      simp [definitionsOf, List.filter_cons, Ne.symm h1, Ne.symm h2, Ne.symm h3, Ne.symm h4, Ne.symm h5,
        List.lookup, h1, h2, h3, h4, h5, beq_eq_false_iff_ne.2 h1, beq_eq_false_iff_ne.2 h2, beq_eq_false_iff_ne.2 h3,
        beq_eq_false_iff_ne.2 h4, beq_eq_false_iff_ne.2 h5]

/-- **C09 (end events).** The same for the six documented kinds of end events. -/
theorem C09_end_event (d : Diagram) (p nm : String) (df : Option String) (i uid du : String)
    (hnew : d.getNodeById i = none) :
    ∃ a, (d.addEndEvent p nm df (some i) uid du).getNodeById i = some (i, a) ∧
      a.eventDefinitions = some (match df.bind fun k => endKinds.lookup k with | some el => [⟨du, el⟩] | none => []) ∧
      a.type = some "endEvent" ∧ a.nodeName = some nm ∧ a.process = some p := by
  obtain ⟨f, he, hf, hv, -⟩ := nodeOp_effect d (op := .addEndEvent p nm df (some i) uid du) rfl
  obtain ⟨h1, -⟩ := hv (by intro dir h; simp [directionArg] at h)
  have hnone : d.graph.nodes.get? i = none := by rw [getNodeById_eq] at hnew; simpa using hnew
  refine ⟨f {}, ?_, ?_⟩
  · have he : d.addEndEvent p nm df (some i) uid du = _ := he
    rw [getNodeById_eq, he]
    show (Dict.get? ((d.graph.addNode i).modifyNode i f).nodes i).map _ = _
    rw [get?_addNode_modify]; simp [hnone]
  · rw [h1]
    refine ⟨?_, rfl, rfl, rfl⟩
    simp only [stored, endDefs_eq, Diagram.endEventDefs, endKinds]
    cases df with
    | none => rfl
    | some k =>
      by_cases h1 : k = "terminate"; · subst h1; rfl
      by_cases h2 : k = "escalation"; · subst h2; rfl
      by_cases h3 : k = "message"; · subst h3; rfl
      by_cases h4 : k = "compensate"; · subst h4; rfl
      by_cases h5 : k = "signal"; · subst h5; rfl
      by_cases h6 : k = "error"; · subst h6; rfl
      simp [definitionsOf, List.filter_cons, Ne.symm h1, Ne.symm h2, Ne.symm h3, Ne.symm h4, Ne.symm h5,
        Ne.symm h6, List.lookup, h1, h2, h3, h4, h5, h6, beq_eq_false_iff_ne.2 h1, beq_eq_false_iff_ne.2 h2, beq_eq_false_iff_ne.2 h3,
        beq_eq_false_iff_ne.2 h4, beq_eq_false_iff_ne.2 h5, beq_eq_false_iff_ne.2 h6]

/-- **C09 (sub-processes, default flows).** Flags of sub-processes are stored as strings; the default flow of exclusive and inclusive
gateways is stored as passed (`None` included). -/
theorem C09_subprocess_and_default (d : Diagram) (p nm i uid : String) (hnew : d.getNodeById i = none) :
    (∀ ex tr, ∃ a, (d.addSubprocess p nm ex tr (some i) uid).getNodeById i = some (i, a) ∧
      a.isExpanded = some (flag ex) ∧ a.triggeredByEvent = some (flag tr) ∧ a.type = some "subProcess") ∧
    (∀ dir df, dir ∈ directions →
      (∃ a, (d.addExclusiveGateway p nm dir df (some i) uid).1.getNodeById i = some (i, a) ∧ a.default = some df ∧
        a.type = some "exclusiveGateway") ∧
      (∃ a, (d.addInclusiveGateway p nm dir df (some i) uid).1.getNodeById i = some (i, a) ∧ a.default = some df ∧
        a.type = some "inclusiveGateway")) := by
  have hnone : d.graph.nodes.get? i = none := by rw [getNodeById_eq] at hnew; simpa using hnew
  have gen : ∀ (op : Op) (n : ANode), declaredNode op = some n → n.id = i → valid op →
      (op.exec d).1.getNodeById i = some (i, stored n) := by
    intro op n hn hi hval
    obtain ⟨f, he, hf, hv, -⟩ := nodeOp_effect d hn
    obtain ⟨h1, -⟩ := hv hval
    rw [getNodeById_eq, he, hi, get?_addNode_modify]; simp [hnone, h1]
  refine ⟨?_, ?_⟩
  · intro ex tr
    exact ⟨_, gen (.addSubprocess p nm ex tr (some i) uid) _ rfl rfl (by intro dir h; simp [directionArg] at h),
      rfl, rfl, rfl⟩
  · intro dir df hd
    have hval : ∀ dir', some dir = some dir' → dir' ∈ directions := by
      intro dir' h; simp at h; subst h; exact hd
    exact ⟨⟨_, gen (.addExclusiveGateway p nm dir df (some i) uid) _ rfl rfl hval, rfl, rfl⟩,
      ⟨_, gen (.addInclusiveGateway p nm dir df (some i) uid) _ rfl rfl hval, rfl, rfl⟩⟩

example : (Op.run {} demoOps).getNodeById "new" = none ∧
    (((Op.run {} demoOps).addStartEvent "P" "n" (some "signal") true false (some "new") "u" "q").getNodeById "new").map
      (·.2.eventDefinitions) = some (some [⟨"q", "signalEventDefinition"⟩]) ∧
    (((Op.run {} demoOps).addStartEvent "P" "n" (some "error") true false (some "new") "u" "q").getNodeById "new").map
      (·.2.eventDefinitions) = some (some []) := by decide

/-! ## C10 -/

/-- **C10.** After any history whatsoever, failing calls included: node ids are unique, edges join nodes of the diagram, no two edges
join the same unordered pair, every edge has an id, a name, and a source and target that are its two ends. -/
theorem C10_graph_stays_simple (ops : List Op) : Sane (Op.run {} ops) := Sane.empty.run ops

/-- **C10.** From any sane diagram every single call, whatever its outcome, leads to a sane diagram. -/
theorem C10_every_call_keeps_sane (d : Diagram) (hs : Sane d) (op : Op) : Sane (op.exec d).1 := hs.exec op

set_option maxRecDepth 4000 in
/-- A history with failing calls, duplicate ids, reconnections and unknown ends. -/
example :
    let ops : List Op := demoOps ++ [.addSequenceFlow "P" "t1" "t2" "" "f5", .addTask "P" "dup" (some "s") "",
      .addSequenceFlow "P" "q" "r" "" "f6", .addGateway "P" "exclusiveGateway" "" "Bad" (some "z") "",
      .addSequenceFlow "P" "r" "q" "" "f7", .addSequenceFlow "P" "z" "z" "" "f8"]
    (Op.run {} ops).graph.nodes.length = 7 ∧ (Op.run {} ops).graph.edges.length = 6 := by decide

end Bpmn.Props

import Verif.Spec.Savable
import Verif.Lemmas.ExportTree
import Verif.Lemmas.Query
/-!
# Which diagrams can be saved: proofs
-/
set_option linter.unusedSimpArgs false
set_option linter.unusedVariables false
namespace Bpmn.Export
open Bpmn Spec

/-- The call returns. -/
def Ok {α : Type} (p : Py α) : Prop := ∃ x, p = .ok x

theorem ok_bind {α β : Type} {p : Py α} {f : α → Py β} : Ok (p >>= f) ↔ ∃ x, p = .ok x ∧ Ok (f x) := by
  cases p <;> simp [Ok, bind, Except.bind]

theorem ok_need {α β : Type} {o : Option α} {f : α → Py β} : Ok (need o >>= f) ↔ ∃ x, o = some x ∧ Ok (f x) := by
  cases o <;> simp [Ok, need, bind, Except.bind]

theorem ok_getFor {β : Type} {o : Option String} {f : String → Py β} : Ok (getForAttr o >>= f) ↔ ∃ x, o = some x ∧ Ok (f x) := by
  cases o <;> simp [Ok, getForAttr, bind, Except.bind]

theorem ok_pure {α : Type} {x : α} : Ok (pure x : Py α) := ⟨x, rfl⟩

theorem ok_ite {α : Type} {c : Prop} [Decidable c] {p q : Py α} : Ok (if c then p else q) ↔ if c then Ok p else Ok q := by
  split <;> rfl

theorem exists_some_and {α : Type} {o : Option α} {p : Prop} : (∃ x, o = some x ∧ p) ↔ o.isSome ∧ p := by
  cases o <;> simp

theorem exists_some {α : Type} {o : Option α} : (∃ x, o = some x) ↔ o.isSome := by
  cases o <;> simp

theorem ok_forEach {α : Type} {f : α → Py ETree} : ∀ {l : List α}, Ok (forEach f l) ↔ ∀ x ∈ l, Ok (f x)
  | [] => by simp [forEach, Ok]
  | x :: r => by
    rw [forEach, ok_bind, List.forall_mem_cons, ← ok_forEach (l := r)]
    simp only [ok_bind, ok_pure, and_true]
    exact ⟨fun ⟨t, a, b⟩ => ⟨⟨t, a⟩, b⟩, fun ⟨⟨t, a⟩, b⟩ => ⟨t, a, b⟩⟩

theorem ok_flow (a : EdgeAttrs) : Ok (exportFlow a) ↔ FlowComplete a := by
  unfold exportFlow FlowComplete
  cases a.conditionExpression <;> simp only [ok_need, ok_pure, and_true, exists_some_and, exists_some]

theorem ok_nodesOf {d : Diagram} {p : String} : (∃ l, d.getNodesByProcess p = .ok l) ↔ ∀ n ∈ d.getNodes, n.2.process.isSome := by
  constructor
  · rintro ⟨l, h⟩ n hn
    cases hc : n.2.process with
    | some _ => rfl
    | none =>
      exfalso
      unfold Diagram.getNodesByProcess at h
      unfold Diagram.getNodes at hn
      revert l hn
      induction d.graph.nodes with
      | nil => simp
      | cons m r ih =>
        intro l h hn
        rcases List.mem_cons.1 hn with rfl | hn
        · simp [pyFilter, hc, need] at h
        · rw [pyFilter] at h
          obtain ⟨_, -, h⟩ := except_bind_eq_ok h
          obtain ⟨_, h, -⟩ := except_bind_eq_ok h
          exact ih _ h hn
  · exact fun h => ⟨_, getNodesByProcess_ok h p⟩

/-- What the export of a node needs, apart from the nodes inside. -/
theorem ok_complete {a : NodeAttrs} {t : String} : NodeComplete a t ↔
    a.type = some t ∧ a.nodeName.isSome ∧ a.incoming.isSome ∧ a.outgoing.isSome ∧ ∀ k ∈ writtenKeys t, k ∈ presentKeys a :=
  ⟨fun h => ⟨h.type, h.name, h.incoming, h.outgoing, h.keys⟩, fun ⟨a, b, c, d, e⟩ => ⟨a, b, c, d, e⟩⟩

theorem ok_ok {α : Type} {x : α} : Ok (.ok x : Py α) := ⟨x, rfl⟩

theorem not_ok_error {α : Type} {e : PyErr} : ¬ Ok (.error e : Py α) := fun ⟨_, h⟩ => by cases h

theorem ok_inside {α : Type} {d : Diagram} {i : String} {f : Node → Py ETree} (g : List ETree → List ETree → α) :
    Ok (do
      let nodes ← d.getNodesByProcess i
      let ns ← forEach f nodes
      let fs ← forEach (fun f => exportFlow f.2.2) (d.getFlowsByProcess i)
      pure (g ns fs)) ↔
    (∀ m ∈ d.getNodes, m.2.process.isSome) ∧ (∀ m ∈ d.getNodes, m.2.process = some i → Ok (f m)) ∧
      ∀ f ∈ d.getFlows, f.2.2.process = some i → FlowComplete f.2.2 := by
  have key : ∀ nodes, Ok (do
      let ns ← forEach f nodes
      let fs ← forEach (fun f => exportFlow f.2.2) (d.getFlowsByProcess i)
      pure (g ns fs)) ↔ (∀ m ∈ nodes, Ok (f m)) ∧ ∀ f ∈ d.getFlows, f.2.2.process = some i → FlowComplete f.2.2 := by
    intro nodes
    have h2 : Ok (forEach (fun f => exportFlow f.2.2) (d.getFlowsByProcess i)) ↔
        ∀ f ∈ d.getFlows, f.2.2.process = some i → FlowComplete f.2.2 := by
      rw [ok_forEach]
      simp [ok_flow, Diagram.getFlowsByProcess, Diagram.getFlows]
    rw [← h2, ← ok_forEach]
    simp only [ok_bind, ok_pure, and_true]
    exact ⟨fun ⟨x, a, b⟩ => ⟨⟨x, a⟩, b⟩, fun ⟨⟨x, a⟩, b⟩ => ⟨x, a, b⟩⟩
  rw [ok_bind]
  simp only [key]
  constructor
  · rintro ⟨l, hl, a, b⟩
    have hp := ok_nodesOf.1 ⟨l, hl⟩
    rw [getNodesByProcess_ok hp] at hl
    cases hl
    refine ⟨hp, fun m hm h => a m ?_, b⟩
    simp [nodesOf, h]
    exact hm
  · rintro ⟨hp, a, b⟩
    refine ⟨_, getNodesByProcess_ok hp i, fun m hm => ?_, b⟩
    simp only [nodesOf, List.mem_filter, beq_iff_eq] at hm
    exact a m hm.1 hm.2

theorem writtenKeys_other {t : String} (h : ∀ k ∈ nodeKinds, k.1 ≠ t) : writtenKeys t = [] := by
  have : nodeKinds.find? (·.1 == t) = none := by
    rw [List.find?_eq_none]
    intro k hk
    simpa using h k hk
  simp [writtenKeys, this]

theorem ok_bind' {α β : Type} {x : α} {f : α → Py β} : (Except.ok x >>= f) = f x := rfl

/-- The part of `exportNode` behind the common attributes. -/
theorem ok_node {d : Diagram} {fuel : Nat} {n : Node} : Ok (exportNode d (fuel + 1) n) ↔
    (∃ t, NodeComplete n.2 t ∧ t ≠ "subProcess") ∨
    (∃ i, NodeComplete n.2 "subProcess" ∧ n.2.id = some i ∧ (∀ m ∈ d.getNodes, m.2.process.isSome) ∧
      (∀ m ∈ d.getNodes, m.2.process = some i → Ok (exportNode d fuel m)) ∧
      (∀ f ∈ d.getFlows, f.2.2.process = some i → FlowComplete f.2.2)) := by
  obtain ⟨nid, p⟩ := n
  rw [exportNode]
  cases hed : p.eventDefinitions <;> cases hty : p.type <;>
    simp only [hed, hty, ok_need, ok_ite, ok_pure, ok_getFor, ok_inside (fun ns fs => el _ _ (_ ++ ns ++ fs)), not_ok_error, exists_some_and,
      exists_some, and_true, and_false, exists_false, reduceCtorEq, false_and, ok_complete, Option.some.injEq, exists_eq_left', false_or, or_false]
  all_goals
    rename_i ty
    by_cases hk : ∃ k ∈ nodeKinds, k.1 = ty
    · simp only [nodeKinds, List.mem_cons, List.not_mem_nil, or_false, exists_eq_or_imp, exists_eq_left] at hk
      rcases hk with rfl | rfl | rfl | rfl | rfl | rfl | rfl | rfl | rfl | rfl | rfl | rfl | rfl | rfl | rfl | rfl <;>
        simp [isTask, writtenKeys, nodeKinds, List.find?, mem_triggeredByEvent, mem_isCollection, mem_gatewayDirection, mem_instantiate,
          mem_eventGatewayType, mem_parallelMultiple, mem_isInterrupting, mem_cancelActivity, mem_attachedToRef, mem_eventDefinitions, hed, and_assoc]
    · have hw : writtenKeys ty = [] := writtenKeys_other fun k h e => hk ⟨k, h, e⟩
      have hn : ∀ k ∈ nodeKinds, ¬ ty = k.1 := fun k h e => hk ⟨k, h, e.symm⟩
      simp only [nodeKinds, List.forall_mem_cons, List.not_mem_nil, false_imp_iff, implies_true, and_true] at hn
      simp [isTask, hw, hn, and_assoc]

/-- A larger budget gives the same element. -/
theorem exportNode_mono {d : Diagram} : ∀ {F G : Nat} {n : Node} {t : ETree}, F ≤ G → exportNode d F n = .ok t → exportNode d G n = .ok t
  | 0, _, _, _, _, h => by rw [exportNode] at h; cases h
  | F + 1, 0, _, _, hl, _ => by omega
  | F + 1, G + 1, (i, p), t, hl, h => by
    have key : ∀ l ts, forEach (exportNode d F) l = .ok ts → forEach (exportNode d G) l = .ok ts := by
      intro l
      induction l with
      | nil => exact fun _ h => h
      | cons x r ih =>
        intro ts h
        rw [forEach] at h ⊢
        obtain ⟨a, h1, h⟩ := except_bind_eq_ok h
        obtain ⟨b, h2, h⟩ := except_bind_eq_ok h
        rw [exportNode_mono (by omega) h1, ih _ h2]
        exact h
    rw [exportNode] at h ⊢
    obtain ⟨ty, h1, h⟩ := except_bind_eq_ok h
    obtain ⟨name, h2, h⟩ := except_bind_eq_ok h
    obtain ⟨inc, h3, h⟩ := except_bind_eq_ok h
    obtain ⟨out, h4, h⟩ := except_bind_eq_ok h
    simp only [h1, h2, h3, h4, ok_bind'] at h ⊢
    by_cases c : isTask ty = true
    · rw [if_pos c] at h ⊢; exact h
    rw [if_neg c] at h ⊢
    by_cases c : ty = "subProcess"
    · rw [if_pos c] at h ⊢
      obtain ⟨trig, h5, h⟩ := except_bind_eq_ok h
      obtain ⟨sid, h6, h⟩ := except_bind_eq_ok h
      obtain ⟨nodes, h7, h⟩ := except_bind_eq_ok h
      obtain ⟨ns, h8, h⟩ := except_bind_eq_ok h
      simp only [h5, h6, h7, key _ _ h8, ok_bind']
      exact h
    · rw [if_neg c] at h ⊢; exact h

/-- Enough for all elements of a list. -/
theorem common_fuel {d : Diagram} : ∀ (l : List Node), (∀ m ∈ l, ∃ F, Ok (exportNode d F m)) → ∃ F, ∀ m ∈ l, Ok (exportNode d F m)
  | [], _ => ⟨0, by simp⟩
  | x :: r, h => by
    rw [List.forall_mem_cons] at h
    obtain ⟨⟨F, t, hF⟩, h2⟩ := h
    obtain ⟨G, hG⟩ := common_fuel r h2
    refine ⟨max F G, List.forall_mem_cons.2 ⟨⟨t, exportNode_mono (Nat.le_max_left _ _) hF⟩, fun m hm => ?_⟩⟩
    obtain ⟨t, ht⟩ := hG m hm
    exact ⟨t, exportNode_mono (Nat.le_max_right _ _) ht⟩

theorem ok_later {d : Diagram} {F G : Nat} {n : Node} (h : F ≤ G) : Ok (exportNode d F n) → Ok (exportNode d G n) :=
  fun ⟨t, ht⟩ => ⟨t, exportNode_mono h ht⟩

theorem writable_of_ok {d : Diagram} : ∀ {F : Nat} {n : Node}, Ok (exportNode d F n) → NodeWritable d n
  | 0, n, h => by obtain ⟨t, h⟩ := h; rw [exportNode] at h; cases h
  | F + 1, n, h => by
    rcases ok_node.1 h with ⟨t, h1, h2⟩ | ⟨i, h1, h2, h3, h4, h5⟩
    · exact .plain h1 h2
    · exact .sub h1 h2 h3 (fun m hm hp => writable_of_ok (h4 m hm hp)) h5

theorem ok_of_writable {d : Diagram} {n : Node} (h : NodeWritable d n) : ∃ F, Ok (exportNode d F n) := by
  induction h with
  | plain h1 h2 => exact ⟨1, ok_node.2 (.inl ⟨_, h1, h2⟩)⟩
  | @sub n i h1 h2 h3 h4 h5 ih =>
    obtain ⟨F, hF⟩ := common_fuel (nodesOf d i) fun m hm => by
      simp only [nodesOf, List.mem_filter, beq_iff_eq] at hm
      exact ih m hm.1 hm.2
    refine ⟨F + 1, ok_node.2 (.inr ⟨i, h1, h2, h3, fun m hm hp => hF m ?_, h5⟩)⟩
    simp only [nodesOf, List.mem_filter, beq_iff_eq]
    exact ⟨hm, hp⟩

/-! ## Lanes, pools, processes -/

mutual
theorem ok_lane : ∀ l : Lane, Ok (exportLane l) ↔ LaneDrawn l
  | .mk id name ci cs refs di => by
    have key : Ok (exportLane (.mk id name ci cs refs di)) ↔ (ci.isSome → Ok (exportLanes cs)) ∧ di.isSome := by
      rw [exportLane.eq_def]
      cases ci <;> cases di <;> simp only [ok_bind, ok_bind', not_ok_error, ok_pure, and_true, and_false, exists_false]
      · simp
      · simp
      · simp
      · constructor
        · rintro ⟨y, hy, -⟩; exact ⟨fun _ => ⟨y, hy⟩, rfl⟩
        · rintro ⟨h, -⟩
          obtain ⟨y, hy⟩ := h rfl
          exact ⟨y, hy, _, rfl⟩
    rw [key, ok_lanes cs]
    constructor
    · rintro ⟨h1, h2⟩
      obtain ⟨b, rfl⟩ := Option.isSome_iff_exists.1 h2
      exact .mk h1
    · rintro ⟨h⟩
      exact ⟨h, rfl⟩
theorem ok_lanes : ∀ ls : List Lane, Ok (exportLanes ls) ↔ ∀ l ∈ ls, LaneDrawn l
  | [] => by simp [exportLanes, Ok]
  | l :: r => by
    rw [List.forall_mem_cons, ← ok_lane l, ← ok_lanes r, exportLanes, ok_bind]
    simp only [ok_bind, ok_pure, and_true]
    exact ⟨fun ⟨t, a, b⟩ => ⟨⟨t, a⟩, b⟩, fun ⟨⟨t, a⟩, b⟩ => ⟨t, a, b⟩⟩
end

theorem ok_node_di (n : Node) : Ok (exportNodeDi n) ↔ NodeDrawn n.2 := by
  unfold exportNodeDi NodeDrawn
  cases hty : n.2.type with
  | none => simp [ok_need, hty, not_ok_error]
  | some ty =>
    simp only [hty, ok_need, ok_ite, ok_pure, exists_some_and, exists_some, and_true, Option.some.injEq, exists_eq_left', Option.isSome_some, true_and]
    by_cases c : ty = "subProcess" <;> simp [c]

theorem ok_flow_di (a : EdgeAttrs) : Ok (exportFlowDi a) ↔ a.id.isSome ∧ a.waypoints.isSome := by
  unfold exportFlowDi
  simp only [ok_need, ok_pure, exists_some_and, exists_some, and_true]

theorem ok_participants : ∀ l : List (String × Participant), Ok (exportParticipants l) ↔ ∀ p ∈ l, p.2.di.isSome
  | [] => by simp [exportParticipants, Ok]
  | (i, p) :: r => by
    rw [List.forall_mem_cons, ← ok_participants r, exportParticipants.eq_def]
    cases hd : p.di with
    | none => simp [hd, not_ok_error]
    | some b =>
      simp only [hd, ok_bind, ok_pure, and_true, Option.isSome_some, true_and]
      rfl

theorem ok_messages {d : Diagram} (h : ∀ f ∈ d.getFlows, f.2.2.id.isSome ∧ f.2.2.waypoints.isSome) : ∀ l : List (String × MsgFlow),
    Ok (exportMessageFlows d l) ↔ ∀ m ∈ l, ∃ f ∈ d.getFlows, f.2.2.id = some m.1
  | [] => by simp [exportMessageFlows, Ok]
  | (i, m) :: r => by
    have hf : d.getFlowById i = .ok (d.getFlows.find? fun f => f.2.2.id == some i) := by
      unfold Diagram.getFlowById
      apply pyFind_eq_find?
      intro f hf
      obtain ⟨j, hj⟩ := Option.isSome_iff_exists.1 (h f hf).1
      simp [hj]
    rw [List.forall_mem_cons, ← ok_messages h r, exportMessageFlows, hf, ok_bind']
    cases hc : d.getFlows.find? fun f => f.2.2.id == some i with
    | none =>
      simp only [not_ok_error, false_iff]
      rintro ⟨⟨f, hf, e⟩, -⟩
      have := List.find?_eq_none.1 hc f hf
      simp [e] at this
    | some f =>
      obtain ⟨w, hw⟩ := Option.isSome_iff_exists.1 (h f (List.mem_of_find?_eq_some hc)).2
      have := List.find?_some hc
      simp only [hw, ok_need, ok_bind, ok_pure, and_true, Option.some.injEq, exists_eq_left']
      exact ⟨fun ⟨_, _, h⟩ => ⟨⟨f, List.mem_of_find?_eq_some hc, by simpa using this⟩, h⟩, fun h => ⟨w, rfl, h.2⟩⟩

theorem ok_procAttrs (i : String) (a : ProcAttrs) : Ok (processAttrs i a) ↔ ProcComplete a := by
  unfold processAttrs ProcComplete
  simp only [ok_need, ok_pure, exists_some_and, exists_some, and_true]

theorem ok_exportProcess {d : Diagram} {F : Nat} {p : String} {a : ProcAttrs} : Ok (exportProcess d F p a) ↔
    ProcComplete a ∧ (∀ l ∈ lanesOf a, LaneDrawn l) ∧ (∀ m ∈ d.getNodes, m.2.process.isSome) ∧
      (∀ m ∈ d.getNodes, m.2.process = some p → Ok (exportNode d F m)) ∧ ∀ f ∈ d.getFlows, f.2.2.process = some p → FlowComplete f.2.2 := by
  unfold exportProcess
  rw [ok_bind, ← ok_procAttrs p a]
  constructor
  · rintro ⟨x, hx, h⟩
    refine ⟨⟨x, hx⟩, ?_⟩
    cases hl : a.laneSet with
    | none =>
      rw [hl] at h
      simp only [ok_bind'] at h
      exact ⟨by simp [lanesOf, hl], (ok_inside (fun ns fs => (el "process" x ([] ++ ns ++ fs), []))).1 h⟩
    | some q =>
      obtain ⟨j, ls⟩ := q
      rw [hl] at h
      obtain ⟨z, hz, h⟩ := ok_bind.1 h
      exact ⟨by simpa [lanesOf, hl] using (ok_lanes ls).1 ⟨z, hz⟩,
        (ok_inside (fun ns fs => (el "process" x ([el "laneSet" [] z.1] ++ ns ++ fs), z.2))).1 h⟩
  · rintro ⟨⟨x, hx⟩, hls, h⟩
    refine ⟨x, hx, ?_⟩
    cases hl : a.laneSet with
    | none => exact (ok_inside (fun ns fs => (el "process" x ([] ++ ns ++ fs), []))).2 h
    | some q =>
      obtain ⟨j, ls⟩ := q
      obtain ⟨z, hz⟩ := (ok_lanes ls).2 (by simpa [lanesOf, hl] using hls)
      exact ok_bind.2 ⟨z, hz, (ok_inside (fun ns fs => (el "process" x ([el "laneSet" [] z.1] ++ ns ++ fs), z.2))).2 h⟩

theorem ok_processes {d : Diagram} {F : Nat} : ∀ l : List (String × ProcAttrs), Ok (exportProcesses d F l) ↔ ∀ p ∈ l, Ok (exportProcess d F p.1 p.2)
  | [] => by simp [exportProcesses, Ok]
  | (i, a) :: r => by
    rw [List.forall_mem_cons, ← ok_processes r, exportProcesses, ok_bind]
    simp only [ok_bind, ok_pure, and_true]
    exact ⟨fun ⟨t, a, b⟩ => ⟨⟨t, a⟩, b⟩, fun ⟨⟨t, a⟩, b⟩ => ⟨t, a, b⟩⟩

theorem ok_collab {d : Diagram} (h : ∀ f ∈ d.getFlows, f.2.2.id.isSome ∧ f.2.2.waypoints.isSome) : Ok (exportCollaboration d) ↔
    ∀ c, d.collaboration = some c → (∀ p ∈ c.participants, p.2.di.isSome) ∧ ∀ m ∈ c.messageFlows, ∃ f ∈ d.getFlows, f.2.2.id = some m.1 := by
  unfold exportCollaboration
  cases d.collaboration with
  | none => simp [Ok]
  | some c =>
    simp only [ok_bind, ok_pure, and_true, Option.some.injEq, forall_eq', ← ok_messages h, ← ok_participants]
    exact ⟨fun ⟨t, a, b⟩ => ⟨b, ⟨t, a⟩⟩, fun ⟨b, ⟨t, a⟩⟩ => ⟨t, a, b⟩⟩

/-- Exactly what the export with a budget needs. -/
theorem ok_definitions {d : Diagram} {F : Nat} : Ok (exportXmlFile F d) ↔
    (d.diagramId.isSome ∧ d.diagramName.isSome ∧ d.planeId.isSome ∧ d.planeElement.isSome) ∧
    (∀ c, d.collaboration = some c → (∀ p ∈ c.participants, p.2.di.isSome) ∧ ∀ m ∈ c.messageFlows, ∃ f ∈ d.getFlows, f.2.2.id = some m.1) ∧
    (∀ p ∈ d.processElements, Ok (exportProcess d F p.1 p.2)) ∧ (∀ n ∈ d.getNodes, NodeDrawn n.2) ∧
    ∀ f ∈ d.getFlows, f.2.2.id.isSome ∧ f.2.2.waypoints.isSome := by
  have key : Ok (exportXmlFile F d) ↔
      (d.diagramId.isSome ∧ d.diagramName.isSome ∧ d.planeId.isSome ∧ d.planeElement.isSome) ∧ Ok (exportCollaboration d) ∧
      Ok (exportProcesses d F d.processElements) ∧ Ok (forEach exportNodeDi d.getNodes) ∧ Ok (forEach (fun f => exportFlowDi f.2.2) d.getFlows) := by
    have h1 : Ok (exportXmlFile F d) ↔ Ok (definitions F d) := by
      unfold exportXmlFile
      simp only [ok_bind, ok_pure, and_true]
      rfl
    rw [h1]
    unfold definitions
    have h2 : ∀ (g : _ → _ → _ → _ → ETree), Ok (do
        let c ← exportCollaboration d
        let p ← exportProcesses d F d.processElements
        let s3 ← forEach exportNodeDi d.getNodes
        let s4 ← forEach (fun f => exportFlowDi f.2.2) d.getFlows
        pure (g c p s3 s4)) ↔ Ok (exportCollaboration d) ∧
      Ok (exportProcesses d F d.processElements) ∧ Ok (forEach exportNodeDi d.getNodes) ∧ Ok (forEach (fun f => exportFlowDi f.2.2) d.getFlows) := by
      intro g
      simp only [ok_bind, ok_pure, and_true]
      constructor
      · rintro ⟨a, ha, b, hb, c, hc, h⟩
        exact ⟨⟨a, ha⟩, ⟨b, hb⟩, ⟨c, hc⟩, h⟩
      · rintro ⟨⟨a, ha⟩, ⟨b, hb⟩, ⟨c, hc⟩, h⟩
        exact ⟨a, ha, b, hb, c, hc, h⟩
    rw [← h2 fun c p s3 s4 => el "definitions" definitionsAttrs (el "bpmndi:BPMNDiagram" [("id", d.diagramId.getD ""), ("name", d.diagramName.getD "")]
      [el "bpmndi:BPMNPlane" [("id", d.planeId.getD ""), ("bpmnElement", d.planeElement.getD "")] (c.2 ++ p.2 ++ s3 ++ s4)] :: (c.1 ++ p.1))]
    cases d.diagramId <;> cases d.diagramName <;> cases d.planeId <;> cases d.planeElement <;>
      simp [need, not_ok_error, bind, Except.bind] <;> rfl
  rw [key, ok_processes, ok_forEach, ok_forEach]
  simp only [ok_node_di, ok_flow_di]
  constructor
  · rintro ⟨a, b, c, e, f⟩
    exact ⟨a, (ok_collab f).1 b, c, e, f⟩
  · rintro ⟨a, b, c, e, f⟩
    exact ⟨a, (ok_collab f).2 b, c, e, f⟩

theorem savable_iff {d : Diagram} : (∃ F, Ok (exportXmlFile F d)) ↔ Savable d := by
  simp only [ok_definitions, ok_exportProcess]
  constructor
  · rintro ⟨F, a, b, c, e, f⟩
    exact ⟨a, b, fun p hp => ⟨(c p hp).1, (c p hp).2.1⟩, fun p hp => (c p hp).2.2.1,
      fun p hp n hn h => writable_of_ok ((c p hp).2.2.2.1 n hn h), fun p hp => (c p hp).2.2.2.2, e, f⟩
  · intro h
    obtain ⟨F, hF⟩ := common_fuel (d.getNodes.filter fun n => n.2.process ∈ d.processElements.map fun p => some p.1) fun m hm => by
      simp only [List.mem_filter, decide_eq_true_eq, List.mem_map] at hm
      obtain ⟨hm, p, hp, e⟩ := hm
      exact ok_of_writable (h.nodes p hp m hm e.symm)
    refine ⟨F, h.header, h.pools, fun p hp => ⟨(h.processes p hp).1, (h.processes p hp).2, h.placed p hp, fun m hm e => hF m ?_, h.flows p hp⟩,
      h.shapes, h.edges⟩
    simp only [List.mem_filter, decide_eq_true_eq, List.mem_map]
    exact ⟨hm, p, hp, e.symm⟩

/-! ## Budgets -/

theorem forEach_later {α : Type} {f g : α → Py ETree} (h : ∀ x t, f x = .ok t → g x = .ok t) : ∀ {l : List α} {ts : List ETree},
    forEach f l = .ok ts → forEach g l = .ok ts
  | [], _, e => e
  | x :: r, ts, e => by
    rw [forEach] at e ⊢
    obtain ⟨a, h1, e⟩ := except_bind_eq_ok e
    obtain ⟨b, h2, e⟩ := except_bind_eq_ok e
    rw [h _ _ h1, forEach_later h h2]
    exact e

theorem exportProcess_later {d : Diagram} {F G : Nat} (hl : F ≤ G) {i : String} {a : ProcAttrs} {r : ETree × List ETree}
    (h : exportProcess d F i a = .ok r) : exportProcess d G i a = .ok r := by
  unfold exportProcess at h ⊢
  obtain ⟨x, h1, h⟩ := except_bind_eq_ok h
  simp only [h1, ok_bind']
  cases hs : a.laneSet with
  | none =>
    rw [hs] at h
    simp only [ok_bind'] at h ⊢
    obtain ⟨ns, h2, h⟩ := except_bind_eq_ok h
    obtain ⟨ts, h3, h⟩ := except_bind_eq_ok h
    simp only [h2, ok_bind', forEach_later (fun _ _ => exportNode_mono hl) h3]
    exact h
  | some q =>
    obtain ⟨j, ls⟩ := q
    rw [hs] at h
    obtain ⟨z, h0, h⟩ := except_bind_eq_ok h
    obtain ⟨y, hy, h⟩ := except_bind_eq_ok h
    obtain ⟨ns, h2, h⟩ := except_bind_eq_ok h
    obtain ⟨ts, h3, h⟩ := except_bind_eq_ok h
    simp only [h0, hy, h2, ok_bind', forEach_later (fun _ _ => exportNode_mono hl) h3]
    exact h

theorem exportProcesses_later {d : Diagram} {F G : Nat} (hl : F ≤ G) : ∀ {l : List (String × ProcAttrs)} {r : List ETree × List ETree},
    exportProcesses d F l = .ok r → exportProcesses d G l = .ok r
  | [], _, h => h
  | (i, a) :: l, r, h => by
    rw [exportProcesses] at h ⊢
    obtain ⟨x, h1, h⟩ := except_bind_eq_ok h
    obtain ⟨y, h2, h⟩ := except_bind_eq_ok h
    simp only [exportProcess_later hl h1, exportProcesses_later hl h2, ok_bind']
    exact h

/-- A larger budget gives the same file. -/
theorem exportXmlFile_later {d : Diagram} {F G : Nat} (hl : F ≤ G) {t : ETree} (h : exportXmlFile F d = .ok t) : exportXmlFile G d = .ok t := by
  unfold exportXmlFile definitions at h ⊢
  obtain ⟨u, h, hu⟩ := except_bind_eq_ok h
  obtain ⟨a1, e1, h⟩ := except_bind_eq_ok h
  obtain ⟨a2, e2, h⟩ := except_bind_eq_ok h
  obtain ⟨a3, e3, h⟩ := except_bind_eq_ok h
  obtain ⟨a4, e4, h⟩ := except_bind_eq_ok h
  obtain ⟨a5, e5, h⟩ := except_bind_eq_ok h
  obtain ⟨a6, e6, h⟩ := except_bind_eq_ok h
  simp only [e1, e2, e3, e4, e5, exportProcesses_later hl e6, ok_bind']
  simp only [h, ok_bind']
  exact hu

theorem exportXmlFileNoDi_later {d : Diagram} {F G : Nat} (hl : F ≤ G) {t : ETree} (h : exportXmlFileNoDi F d = .ok t) :
    exportXmlFileNoDi G d = .ok t := by
  unfold exportXmlFileNoDi definitionsNoDi at h ⊢
  obtain ⟨u, h, hu⟩ := except_bind_eq_ok h
  obtain ⟨ts, h1, h⟩ := except_bind_eq_ok h
  have : forEach (fun p => exportProcessNoDi d G p.1 p.2) d.processElements = .ok ts := by
    refine forEach_later (fun p t h => ?_) h1
    unfold exportProcessNoDi at h ⊢
    obtain ⟨x, h2, h⟩ := except_bind_eq_ok h
    obtain ⟨ns, h3, h⟩ := except_bind_eq_ok h
    simp only [h2, ok_bind', forEach_later (fun _ _ => exportNode_mono hl) h3]
    exact h
  simp only [this, ok_bind']
  simp only [pure, Except.pure, Except.ok.injEq] at h
  subst h
  exact hu

theorem savable_iff_no_di {d : Diagram} : (∃ F, Ok (exportXmlFileNoDi F d)) ↔ SavableNoDi d := by
  have key : ∀ F, Ok (exportXmlFileNoDi F d) ↔ ∀ p ∈ d.processElements, ProcComplete p.2 ∧
      (∀ n ∈ d.getNodes, Ok (exportNode d F n)) ∧ ∀ f ∈ d.getFlows, FlowComplete f.2.2 := by
    intro F
    have h1 : Ok (exportXmlFileNoDi F d) ↔ Ok (forEach (fun p => exportProcessNoDi d F p.1 p.2) d.processElements) := by
      unfold exportXmlFileNoDi definitionsNoDi
      simp only [ok_bind, ok_pure, and_true]
      constructor
      · rintro ⟨y, hy⟩
        obtain ⟨x, h, -⟩ := except_bind_eq_ok hy
        exact ⟨x, h⟩
      · rintro ⟨x, h⟩
        exact ⟨_, by rw [h]; rfl⟩
    rw [h1, ok_forEach]
    have h2 : ∀ p : String × ProcAttrs, Ok (exportProcessNoDi d F p.1 p.2) ↔ ProcComplete p.2 ∧
      (∀ n ∈ d.getNodes, Ok (exportNode d F n)) ∧ ∀ f ∈ d.getFlows, FlowComplete f.2.2 := by
      intro p
      have h3 : Ok (forEach (fun f => exportFlow f.2.2) d.getFlows) ↔ ∀ f ∈ d.getFlows, FlowComplete f.2.2 := by
        rw [ok_forEach]; simp only [ok_flow]
      rw [← h3, ← ok_forEach, ← ok_procAttrs p.1]
      unfold exportProcessNoDi
      simp only [ok_bind, ok_pure, and_true]
      constructor
      · rintro ⟨a, ha, b, hb, h⟩
        exact ⟨⟨a, ha⟩, ⟨b, hb⟩, h⟩
      · rintro ⟨⟨a, ha⟩, ⟨b, hb⟩, h⟩
        exact ⟨a, ha, b, hb, h⟩
    simp only [h2]
  simp only [key]
  constructor
  · rintro ⟨F, h⟩ p hp
    obtain ⟨a, b, c⟩ := h p hp
    exact ⟨a, fun n hn => writable_of_ok (b n hn), c⟩
  · intro h
    cases hp : d.processElements with
    | nil => exact ⟨0, by simp⟩
    | cons q r =>
      obtain ⟨F, hF⟩ := common_fuel d.getNodes fun m hm => ok_of_writable ((h q (by simp [hp])).2.1 m hm)
      refine ⟨F, fun p hp' => ?_⟩
      rw [← hp] at hp'
      exact ⟨(h p hp').1, hF, (h p hp').2.2⟩

/-! ## Exceptions -/

/-- Only these exceptions are raised. -/
def Mild {α : Type} (p : Py α) : Prop := ∀ e, p = .error e → e = .keyError ∨ e = .typeError ∨ e = .outOfFuel

theorem Mild.bind {α β : Type} {p : Py α} {f : α → Py β} (h : Mild p) (g : ∀ x, Mild (f x)) : Mild (p >>= f) := by
  intro e he
  cases p with
  | error x => exact h e (by simpa [Bind.bind, Except.bind] using he)
  | ok x => exact g x e he

theorem Mild.pure {α : Type} (x : α) : Mild (Pure.pure x : Py α) := fun _ h => by cases h
theorem Mild.ok {α : Type} (x : α) : Mild (.ok x : Py α) := fun _ h => by cases h
theorem Mild.need {α : Type} (o : Option α) : Mild (need o) := fun _ h => by cases o <;> cases h; exact .inl rfl
theorem Mild.getFor (o : Option String) : Mild (getForAttr o) := fun _ h => by cases o <;> cases h; exact .inr (.inl rfl)
theorem Mild.key {α : Type} : Mild (.error .keyError : Py α) := fun _ h => by cases h; exact .inl rfl
theorem Mild.type {α : Type} : Mild (.error .typeError : Py α) := fun _ h => by cases h; exact .inr (.inl rfl)

theorem Mild.ite {α : Type} {c : Prop} [Decidable c] {p q : Py α} (h : Mild p) (g : Mild q) : Mild (if c then p else q) := by
  split
  · exact h
  · exact g

theorem Mild.forEach {α : Type} {f : α → Py ETree} (h : ∀ x, Mild (f x)) : ∀ l, Mild (forEach f l)
  | [] => Mild.ok _
  | x :: r => (h x).bind fun _ => (Mild.forEach h r).bind fun _ => Mild.pure _

theorem Mild.filter {α : Type} {f : α → Py Bool} (h : ∀ x, Mild (f x)) : ∀ l, Mild (pyFilter f l)
  | [] => Mild.ok _
  | x :: r => (h x).bind fun _ => (Mild.filter h r).bind fun _ => Mild.pure _

theorem Mild.flow (a : EdgeAttrs) : Mild (exportFlow a) := by
  refine (Mild.need _).bind fun _ => (Mild.need _).bind fun _ => (Mild.need _).bind fun _ => (Mild.need _).bind fun _ => ?_
  cases a.conditionExpression <;> exact Mild.pure _

theorem Mild.nodes (d : Diagram) (i : String) : Mild (d.getNodesByProcess i) :=
  Mild.filter (fun _ => (Mild.need _).bind fun _ => Mild.pure _) _

theorem Mild.node (d : Diagram) : ∀ (F : Nat) (n : Node), Mild (exportNode d F n)
  | 0, _ => fun _ h => by rw [exportNode] at h; cases h; exact .inr (.inr rfl)
  | F + 1, (i, p) => by
    rw [exportNode]
    refine (Mild.need _).bind fun ty => (Mild.need _).bind fun _ => (Mild.need _).bind fun _ => (Mild.need _).bind fun _ => ?_
    refine .ite (.pure _) <| .ite ?_ <| .ite ((Mild.need _).bind fun _ => .pure _) <| .ite ((Mild.need _).bind fun _ => .pure _) <|
      .ite ((Mild.need _).bind fun _ => (Mild.need _).bind fun _ => (Mild.need _).bind fun _ => .pure _) <|
      .ite ((Mild.need _).bind fun _ => .pure _) <| .ite ((Mild.need _).bind fun _ => .pure _) <| .ite ?_ <|
      .ite ((Mild.need _).bind fun _ => (Mild.need _).bind fun _ => .pure _) <| .ite ((Mild.need _).bind fun _ => .pure _) <|
      .ite ((Mild.need _).bind fun _ => (Mild.need _).bind fun _ => (Mild.need _).bind fun _ => (Mild.need _).bind fun _ => .pure _) (.pure _)
    · exact (Mild.need _).bind fun _ => (Mild.need _).bind fun _ => (Mild.nodes d _).bind fun _ =>
        (Mild.forEach (Mild.node d F) _).bind fun _ => (Mild.forEach (fun f : Flow => Mild.flow f.2.2) _).bind fun _ => .pure _
    · refine (Mild.getFor _).bind fun _ => (Mild.getFor _).bind fun _ => ?_
      cases p.eventDefinitions
      · exact Mild.type
      · exact .pure _

mutual
theorem Mild.lane : ∀ l, Mild (exportLane l)
  | .mk id name ci cs refs di => by
    rw [exportLane.eq_def]
    cases ci
    · cases di
      · exact Mild.key
      · exact .pure _
    · refine (Mild.lanes cs).bind fun _ => ?_
      cases di
      · exact Mild.key
      · exact .pure _
theorem Mild.lanes : ∀ ls, Mild (exportLanes ls)
  | [] => by rw [exportLanes]; exact .ok _
  | l :: r => by rw [exportLanes]; exact (Mild.lane l).bind fun _ => (Mild.lanes r).bind fun _ => .pure _
end

theorem Mild.process (d : Diagram) (F : Nat) (i : String) (a : ProcAttrs) : Mild (exportProcess d F i a) := by
  unfold exportProcess
  refine Mild.bind ((Mild.need _).bind fun _ => (Mild.need _).bind fun _ => (Mild.need _).bind fun _ => .pure _) fun x => ?_
  have key : ∀ (y : List ETree × List ETree), Mild (do
      let nodes ← d.getNodesByProcess i
      let ns ← Export.forEach (exportNode d F) nodes
      let fs ← Export.forEach (fun f => exportFlow f.2.2) (d.getFlowsByProcess i)
      Pure.pure (el "process" x (y.1 ++ ns ++ fs), y.2)) := fun y =>
    (Mild.nodes d _).bind fun _ => (Mild.forEach (Mild.node d F) _).bind fun _ => (Mild.forEach (fun f : Flow => Mild.flow f.2.2) _).bind fun _ => .pure _
  cases a.laneSet with
  | none => exact key ([], [])
  | some q => exact (Mild.lanes q.2).bind fun z => key ([el "laneSet" [] z.1], z.2)

theorem Mild.processes (d : Diagram) (F : Nat) : ∀ l, Mild (exportProcesses d F l)
  | [] => .ok _
  | (i, a) :: r => (Mild.process d F i a).bind fun _ => (Mild.processes d F r).bind fun _ => .pure _

theorem Mild.find {α : Type} {f : α → Py Bool} (h : ∀ x, Mild (f x)) : ∀ l, Mild (pyFind f l)
  | [] => .ok _
  | x :: r => (h x).bind fun b => by
    cases b
    · exact Mild.find h r
    · exact .pure _

theorem Mild.messages (d : Diagram) : ∀ l, Mild (exportMessageFlows d l)
  | [] => .ok _
  | (i, m) :: r => by
    refine (Mild.find (fun _ => (Mild.need _).bind fun _ => .pure _) _).bind fun o => ?_
    cases o with
    | none => exact Mild.type
    | some f => exact (Mild.need _).bind fun _ => (Mild.messages d r).bind fun _ => .pure _

theorem Mild.participants : ∀ l, Mild (exportParticipants l)
  | [] => .ok _
  | (i, p) :: r => by
    rw [exportParticipants.eq_def]
    cases hd : p.di
    · simp only [hd]; exact Mild.key
    · simp only [hd]; exact (Mild.participants r).bind fun _ => .pure _

theorem Mild.file (d : Diagram) (F : Nat) : Mild (exportXmlFile F d) := by
  refine Mild.bind ?_ fun _ => .pure _
  refine (Mild.need _).bind fun _ => (Mild.need _).bind fun _ => (Mild.need _).bind fun _ => (Mild.need _).bind fun _ => ?_
  refine Mild.bind ?_ fun _ => (Mild.processes d F _).bind fun _ => Mild.bind (.forEach (fun n => ?_) _) fun _ => Mild.bind (.forEach (fun f => ?_) _) fun _ => .pure _
  · unfold exportCollaboration
    cases d.collaboration
    · exact .ok _
    · exact (Mild.messages d _).bind fun _ => (Mild.participants _).bind fun _ => .pure _
  · exact (Mild.need _).bind fun _ => (Mild.need _).bind fun _ => (Mild.need _).bind fun _ => (Mild.need _).bind fun _ => (Mild.need _).bind fun _ =>
      .ite ((Mild.need _).bind fun _ => .pure _) (.pure _)
  · exact (Mild.need _).bind fun _ => (Mild.need _).bind fun _ => .pure _

/-! ## The budget -/

/-- The second result is the first one, unless the budget was too small for the first one. -/
def Later {α : Type} (p q : Py α) : Prop := p = .error .outOfFuel ∨ q = p

theorem Later.refl {α : Type} (p : Py α) : Later p p := .inr rfl

theorem Later.bind {α β : Type} {p q : Py α} {f g : α → Py β} (h : Later p q) (k : ∀ x, Later (f x) (g x)) : Later (p >>= f) (q >>= g) := by
  rcases h with h | h
  · subst h; exact .inl rfl
  · subst h
    cases q with
    | error e => exact .inr rfl
    | ok x => exact k x

theorem Later.ite {α : Type} {c : Prop} [Decidable c] {p q p' q' : Py α} (h : Later p p') (g : Later q q') :
    Later (if c then p else q) (if c then p' else q') := by
  split
  · exact h
  · exact g

theorem Later.forEach {α : Type} {f g : α → Py ETree} (h : ∀ x, Later (f x) (g x)) : ∀ l, Later (forEach f l) (forEach g l)
  | [] => .refl _
  | x :: r => (h x).bind fun _ => (Later.forEach h r).bind fun _ => .refl _

theorem Later.node (d : Diagram) : ∀ {F G : Nat}, F ≤ G → ∀ n : Node, Later (exportNode d F n) (exportNode d G n)
  | 0, _, _, _ => .inl (by rw [exportNode])
  | F + 1, 0, h, _ => by omega
  | F + 1, G + 1, h, (i, p) => by
    rw [exportNode, exportNode]
    refine (Later.refl _).bind fun ty => (Later.refl _).bind fun _ => (Later.refl _).bind fun _ => (Later.refl _).bind fun _ => ?_
    refine .ite (.refl _) <| .ite ?_ (.refl _)
    exact (Later.refl _).bind fun _ => (Later.refl _).bind fun _ => (Later.refl _).bind fun _ =>
      (Later.forEach (Later.node d (by omega)) _).bind fun _ => .refl _

theorem Later.process (d : Diagram) {F G : Nat} (h : F ≤ G) (i : String) (a : ProcAttrs) : Later (exportProcess d F i a) (exportProcess d G i a) := by
  unfold exportProcess
  refine (Later.refl _).bind fun x => ?_
  have key : ∀ (y : List ETree × List ETree), Later (do
      let nodes ← d.getNodesByProcess i
      let ns ← Export.forEach (exportNode d F) nodes
      let fs ← Export.forEach (fun f => exportFlow f.2.2) (d.getFlowsByProcess i)
      Pure.pure (el "process" x (y.1 ++ ns ++ fs), y.2)) (do
      let nodes ← d.getNodesByProcess i
      let ns ← Export.forEach (exportNode d G) nodes
      let fs ← Export.forEach (fun f => exportFlow f.2.2) (d.getFlowsByProcess i)
      Pure.pure (el "process" x (y.1 ++ ns ++ fs), y.2)) := fun y =>
    (Later.refl _).bind fun _ => (Later.forEach (Later.node d h) _).bind fun _ => .refl _
  cases a.laneSet with
  | none => exact key ([], [])
  | some q => exact (Later.refl _).bind fun z => key ([el "laneSet" [] z.1], z.2)

theorem Later.processes (d : Diagram) {F G : Nat} (h : F ≤ G) : ∀ l, Later (exportProcesses d F l) (exportProcesses d G l)
  | [] => .refl _
  | (i, a) :: r => (Later.process d h i a).bind fun _ => (Later.processes d h r).bind fun _ => .refl _

theorem Later.file (d : Diagram) {F G : Nat} (h : F ≤ G) : Later (exportXmlFile F d) (exportXmlFile G d) := by
  refine Later.bind ?_ fun _ => .refl _
  refine (Later.refl _).bind fun _ => (Later.refl _).bind fun _ => (Later.refl _).bind fun _ => (Later.refl _).bind fun _ => ?_
  exact (Later.refl _).bind fun _ => (Later.processes d h _).bind fun _ => .refl _

end Bpmn.Export

import Verif.Lemmas.Again
set_option linter.unusedSimpArgs false
set_option linter.unusedVariables false
/-!
# Loading the same document once more: the plane
-/
namespace Bpmn.Import
open Bpmn Bpmn.Spec

/-- A node without the attributes that come from the plane. -/
def strip (a : NodeAttrs) : NodeAttrs := { a with width := none, height := none, x := none, y := none, isExpanded := none }

/-- A flow without the attributes that come from the plane. -/
def estrip (a : EdgeAttrs) : EdgeAttrs := { a with name := none, waypoints := none }

/-- A participant without its box. -/
def noBox (p : Participant) : Participant := { p with di := none }

/-- The two diagrams differ only in what the plane gives. -/
structure SameCore (D E : Diagram) : Prop where
  keys : E.graph.nodes.keys = D.graph.nodes.keys
  view : ∀ n, strip (Import.view E n) = strip (Import.view D n)
  ends : E.graph.edges.map ends = D.graph.edges.map ends
  eview : ∀ u v, estrip (Import.eview E.graph.edges u v) = estrip (Import.eview D.graph.edges u v)
  table : E.sequenceFlows = D.sequenceFlows
  procs : E.processElements = D.processElements
  header : E.diagramId = D.diagramId ∧ E.diagramName = D.diagramName ∧ E.planeId = D.planeId ∧ E.planeElement = D.planeElement
  frame : E.collaboration.map (fun c => (c.id, c.messageFlows, c.participants.keys)) = D.collaboration.map (fun c => (c.id, c.messageFlows, c.participants.keys))
  pools : ∀ c k, D.collaboration = some c → E.collaboration = some k → ∀ i, (k.participants.get? i).map noBox = (c.participants.get? i).map noBox

theorem SameCore.refl (D : Diagram) : SameCore D D :=
  ⟨rfl, fun _ => rfl, rfl, fun _ _ => rfl, rfl, rfl, ⟨rfl, rfl, rfl, rfl⟩, rfl, fun c k h h' i => by rw [h] at h'; cases h'; rfl⟩

theorem SameCore.symm {D E : Diagram} (h : SameCore D E) : SameCore E D :=
  ⟨h.keys.symm, fun n => (h.view n).symm, h.ends.symm, fun u v => (h.eview u v).symm, h.table.symm, h.procs.symm,
    ⟨h.header.1.symm, h.header.2.1.symm, h.header.2.2.1.symm, h.header.2.2.2.symm⟩, h.frame.symm, fun c k e e' i => (h.pools k c e' e i).symm⟩

theorem SameCore.trans {D E F : Diagram} (h : SameCore D E) (g : SameCore E F) : SameCore D F := by
  refine ⟨g.keys.trans h.keys, fun n => (g.view n).trans (h.view n), g.ends.trans h.ends, fun u v => (g.eview u v).trans (h.eview u v),
    g.table.trans h.table, g.procs.trans h.procs, ⟨g.header.1.trans h.header.1, g.header.2.1.trans h.header.2.1, g.header.2.2.1.trans h.header.2.2.1,
      g.header.2.2.2.trans h.header.2.2.2⟩, g.frame.trans h.frame, fun c k e e' i => ?_⟩
  have := h.frame
  rw [e] at this
  cases hE : E.collaboration with
  | none => rw [hE] at this; cases this
  | some m => exact (g.pools m k hE e' i).trans (h.pools c m e hE i)

theorem SameCore.any {D E : Diagram} (h : SameCore D E) (s t : String) : E.graph.edges.any (·.joins s t) = D.graph.edges.any (·.joins s t) := by
  have key : ∀ (l : List Edge), l.any (·.joins s t) = (l.map Import.ends).any fun p => (⟨p.1, p.2, {}⟩ : Edge).joins s t := by
    intro l
    rw [List.any_map]
    rfl
  rw [key, key, h.ends]

/-- The step of the plane that concerns a node. -/
def boxed (x b : Xml) (ty : String) (a : NodeAttrs) : NodeAttrs :=
  { a with width := some (b.getAttr "width"), height := some (b.getAttr "height"),
           isExpanded := if ty = "subProcess" then some (x.attrOr "isExpanded" "false") else a.isExpanded,
           x := some (b.getAttr "x"), y := some (b.getAttr "y") }

/-- The step of the plane that concerns a pool. -/
def poolBox (x b : Xml) (D : Diagram) : Diagram :=
  { D with collaboration := D.collaboration.map fun c =>
      { c with participants := c.participants.modify (x.getAttr "bpmnElement") fun p => { p with di := some (boxOf x b) } } }

theorem importShape_steps (x : Xml) (D : Diagram) :
    importShape x D = (do let b ← boundsOf x; let D' ← importNodeShape x b (x.getAttr "bpmnElement") D; pure (poolBox x b D')) := by
  unfold importShape
  refine bind_congr fun b => bind_congr fun D' => ?_
  cases h : D'.collaboration with
  | none =>
    simp only [poolBox, h]
    cases D'
    simp_all
  | some c => simp only [poolBox, h, Option.map_some]

theorem sameCore_updNode (D : Diagram) (k : String) (f : NodeAttrs → NodeAttrs) (hf : ∀ a, strip (f a) = strip a) : SameCore D (D.updNode k f) := by
  refine ⟨keys_updNode D k f, fun n => ?_, rfl, fun _ _ => rfl, rfl, rfl, ⟨rfl, rfl, rfl, rfl⟩, rfl, (SameCore.refl D).pools⟩
  by_cases h : k ∈ D.graph.nodes.keys
  · rw [view_updNode _ _ _ _ h]
    split
    · exact hf _
    · rfl
  · have : D.updNode k f = D := by
      simp only [Diagram.updNode, Graph.modifyNode]
      rw [Dict.modify_of_not_mem _ _ h]
    rw [this]

theorem sameCore_poolBox (x b : Xml) (D : Diagram) : SameCore D (poolBox x b D) := by
  refine ⟨rfl, fun _ => rfl, rfl, fun _ _ => rfl, rfl, rfl, ⟨rfl, rfl, rfl, rfl⟩, ?_, ?_⟩
  · simp only [poolBox, Option.map_map]
    congr 1
    funext c
    simp [Function.comp]
  · intro c k h h' i
    simp only [poolBox, h, Option.map_some, Option.some.injEq] at h'
    rw [← h']
    simp only [Dict.get?_modify]
    split
    · rw [Option.map_map]
      rfl
    · rfl

theorem touched_graph (g : Graph) (s t : String) (f : EdgeAttrs → EdgeAttrs) : (g.modifyEdge s t f).edges = touched g.edges s t f := rfl

theorem sameCore_touched (D : Diagram) (s t : String) (f : EdgeAttrs → EdgeAttrs) (hf : ∀ a, estrip (f a) = estrip a) :
    SameCore D { D with graph := D.graph.modifyEdge s t f } := by
  refine ⟨rfl, fun _ => rfl, ends_touched _ _ _ _, fun u v => ?_, rfl, rfl, ⟨rfl, rfl, rfl, rfl⟩, rfl, (SameCore.refl D).pools⟩
  simp only [touched_graph]
  unfold eview
  rw [find?_touched]
  cases D.graph.edges.find? (·.joins u v) with
  | none => rfl
  | some e =>
    simp only [Option.map_some, Option.getD_some]
    split
    · exact hf _
    · rfl

/-- The second pass, while the plane is read. -/
structure Plane2 (e D E : Diagram) : Prop where
  core : SameCore D E
  view : ∀ n, Toward (Import.view e n) (Import.view D n) (Import.view E n)
  once : E.graph.edges.Pairwise fun a b => ¬ SamePair a.u a.v b.u b.v
  eview : ∀ u v, EToward (Import.eview e.graph.edges u v) (Import.eview D.graph.edges u v) (Import.eview E.graph.edges u v)
  pools : ∀ ce cD cE, e.collaboration = some ce → D.collaboration = some cD → E.collaboration = some cE → ∀ i,
    cE.participants.get? i = cD.participants.get? i ∨ cE.participants.get? i = ce.participants.get? i

theorem Rel.ite' {α β : Type} {Q : α → β → Prop} {c : Prop} [Decidable c] {x : Py α} {y : Py β} {r : PyErr} (h : c → Rel Q x y) :
    Rel Q (if c then x else .error r) (if c then y else .error r) := by
  by_cases k : c
  · rw [if_pos k, if_pos k]
    exact h k
  · rw [if_neg k, if_neg k]
    exact .error r

theorem Plane2.node {e D E : Diagram} (q : Plane2 e D E) (x b : Xml) (i : String) :
    Rel (Plane2 e) (importNodeShape x b i D) (importNodeShape x b i E) := by
  unfold importNodeShape
  cases hD : D.graph.nodes.get? i with
  | none =>
    have : E.graph.nodes.get? i = none := by
      rw [Dict.get?_eq_none_iff, q.core.keys, ← Dict.get?_eq_none_iff]
      exact hD
    rw [this]
    exact .ok q
  | some a =>
    have hi : i ∈ D.graph.nodes.keys := Dict.mem_keys_of_get? hD
    have hi' : i ∈ E.graph.nodes.keys := q.core.keys ▸ hi
    obtain ⟨a', hE⟩ := Option.isSome_iff_exists.1 ((Dict.get?_isSome_iff E.graph.nodes i).2 hi')
    rw [hE]
    have ht : a'.type = a.type := by
      have := q.core.view i
      simp only [Import.view, hD, hE, Option.getD_some] at this
      have h2 : (strip a').type = (strip a).type := by rw [this]
      exact h2
    simp only
    rw [ht]
    refine Rel.same fun ty _ => .ok ?_
    have h1 := sameCore_updNode D i (boxed x b ty) fun _ => rfl
    have h2 := sameCore_updNode E i (boxed x b ty) fun _ => rfl
    refine ⟨(h1.symm.trans q.core).trans h2, fun n => ?_, q.once, q.eview, q.pools⟩
    rw [view_updNode _ _ _ _ hi, view_updNode _ _ _ _ hi']
    have h := q.view n
    split
    · constructor
      case isExpanded =>
        by_cases c : ty = "subProcess"
        · left
          simp only [if_pos c]
        · simp only [if_neg c]
          exact h.isExpanded
      all_goals first
        | exact Or.inl rfl | exact h.id | exact h.type | exact h.nodeName | exact h.incoming | exact h.outgoing | exact h.process
        | exact h.triggeredByEvent
        | exact h.parallelMultiple | exact h.isInterrupting | exact h.cancelActivity | exact h.attachedToRef
        | exact h.eventDefinitions | exact h.gatewayDirection | exact h.default | exact h.instantiate | exact h.eventGatewayType
        | exact h.isCollection | exact h.nodeIds
    · exact h

theorem Plane2.pool {e D E : Diagram} (q : Plane2 e D E) (x b : Xml) : Plane2 e (poolBox x b D) (poolBox x b E) := by
  refine ⟨((sameCore_poolBox x b D).symm.trans q.core).trans (sameCore_poolBox x b E), q.view, q.once, q.eview, ?_⟩
  intro ce cD cE he hD hE i
  simp only [poolBox, Option.map_eq_some_iff] at hD hE
  obtain ⟨cD', hD, rfl⟩ := hD
  obtain ⟨cE', hE, rfl⟩ := hE
  simp only [Dict.get?_modify]
  have h1 := q.pools ce cD' cE' he hD hE i
  have h2 := q.core.pools cD' cE' hD hE i
  split
  · left
    cases g : cE'.participants.get? i with
    | none =>
      cases g' : cD'.participants.get? i with
      | none => rfl
      | some p => rw [g, g'] at h2; cases h2
    | some p =>
      cases g' : cD'.participants.get? i with
      | none => rw [g, g'] at h2; cases h2
      | some p' =>
        rw [g, g'] at h2
        simp only [Option.map_some, Option.some.injEq, noBox, Participant.mk.injEq] at h2 ⊢
        exact ⟨h2.1, h2.2.1, trivial⟩
  · exact h1

/-- The name and the ends of the flow that an edge of the plane refers to. -/
def planeData (x : Xml) (D : Diagram) : Option (String × String × String) :=
  match D.sequenceFlows.get? (x.getAttr "bpmnElement") with
  | some f => some (f.name, f.sourceRef, f.targetRef)
  | none => match D.collaboration with
    | none => none
    | some c => (c.messageFlows.get? (x.getAttr "bpmnElement")).map fun m => (m.name, m.sourceRef, m.targetRef)

theorem importFlowDi_data (x : Xml) (D : Diagram) : importFlowDi x D = match planeData x D with
    | none => .ok D
    | some (name, s, t) =>
      if D.graph.hasEdge s t then .ok { D with graph := D.graph.modifyEdge s t fun a =>
        { a with waypoints := some ((x.byName "waypoint").map fun w => (w.getAttr "x", w.getAttr "y")), name := some name } }
      else .error .keyError := rfl

theorem Plane2.kept (e : Diagram) : KeptPlane (fun _ => True) (Plane2 e) where
  shape := by
    intro D E q x _
    rw [importShape_steps, importShape_steps]
    exact Rel.same fun b _ => (q.node x b _).bind fun D' E' q' => .ok (q'.pool x b)
  flowDi := by
    intro D E q x _
    rw [importFlowDi_data, importFlowDi_data]
    have hm : planeData x E = planeData x D := by
      unfold planeData
      rw [q.core.table]
      have := q.core.frame
      cases h1 : E.collaboration <;> cases h2 : D.collaboration <;> rw [h1, h2] at this
      · cases this
      · cases this
      · simp only [Option.map_some, Option.some.injEq, Prod.mk.injEq] at this
        simp only [this.2.1]
    rw [hm]
    cases planeData x D with
    | none => exact .ok q
    | some p =>
      obtain ⟨name, s, t⟩ := p
      simp only
      have ha : E.graph.hasEdge s t = D.graph.hasEdge s t := q.core.any s t
      rw [ha]
      refine Rel.ite' fun c => .ok ?_
      have h1 := sameCore_touched D s t (fun a => { a with waypoints := some ((x.byName "waypoint").map fun w => (w.getAttr "x", w.getAttr "y")), name := some name }) fun _ => rfl
      have h2 := sameCore_touched E s t (fun a => { a with waypoints := some ((x.byName "waypoint").map fun w => (w.getAttr "x", w.getAttr "y")), name := some name }) fun _ => rfl
      refine ⟨(h1.symm.trans q.core).trans h2, q.view, by simp only [touched_graph]; exact once_touched q.once _ _ _, fun u v => ?_, q.pools⟩
      simp only [touched_graph]
      rw [eview_touched _ _ _ c, eview_touched _ _ _ (ha.trans c)]
      have h := q.eview u v
      split
      · exact ⟨h.id, .inl rfl, h.process, h.sourceRef, h.targetRef, h.conditionExpression, .inl rfl⟩
      · exact h

/-! ## The end of the first pass -/

theorem sameCore_shape {x : Xml} {D D' : Diagram} (h : importShape x D = .ok D') : SameCore D D' := by
  rw [importShape_steps] at h
  obtain ⟨b, _, h⟩ := except_bind_eq_ok h
  obtain ⟨D1, h1, h⟩ := except_bind_eq_ok h
  rw [← Except.ok.inj h]
  refine SameCore.trans ?_ (sameCore_poolBox x b D1)
  unfold importNodeShape at h1
  split at h1
  · rw [← Except.ok.inj h1]
    exact .refl D
  · obtain ⟨ty, _, h1⟩ := except_bind_eq_ok h1
    rw [← Except.ok.inj h1]
    exact sameCore_updNode D _ _ fun _ => rfl

theorem sameCore_flowDi {x : Xml} {D D' : Diagram} (h : importFlowDi x D = .ok D') : SameCore D D' := by
  unfold importFlowDi at h
  simp only at h
  split at h
  · rw [← Except.ok.inj h]
    exact .refl D
  · split at h
    · rw [← Except.ok.inj h]
      exact sameCore_touched D _ _ _ fun _ => rfl
    · cases h

theorem sameCore_plane : ∀ {l : List Xml} {D D' : Diagram}, importPlane l D = .ok D' → SameCore D D'
  | [], D, D', h => by
    unfold importPlane at h
    rw [← Except.ok.inj h]
    exact .refl D
  | x :: r, D, D', h => by
    unfold importPlane at h
    split at h
    · exact sameCore_plane h
    · obtain ⟨t, _, h⟩ := except_bind_eq_ok h
      split at h
      · obtain ⟨D1, h1, h⟩ := except_bind_eq_ok h
        exact (sameCore_shape h1).trans (sameCore_plane h)
      · split at h
        · obtain ⟨D1, h1, h⟩ := except_bind_eq_ok h
          exact (sameCore_flowDi h1).trans (sameCore_plane h)
        · exact sameCore_plane h

theorem addOnce_of_mem {l : Option (List String)} {i : String} (h : i ∈ l.getD []) : some (addOnce l i) = l := by
  cases l with
  | none => simp at h
  | some m =>
    unfold addOnce
    simp only [Option.getD_some] at h ⊢
    simp [h]

theorem addAll_of_mem : ∀ (is : List String) (l : Option (List String)), (∀ i ∈ is, i ∈ l.getD []) → addAll is l = l
  | [], l, _ => rfl
  | i :: r, l, h => by
    have h1 : addAll (i :: r) l = addAll r (some (addOnce l i)) := rfl
    rw [h1, addOnce_of_mem (h i (by simp))]
    exact addAll_of_mem r l fun j hj => h j (by simp [hj])

theorem ListToward.done {e a b : Option (List String)} (h : ListToward e a b) (g : a = e) : b = e := by
  rcases h with h | ⟨is, h, k⟩
  · rw [h, g]
  · rw [h]
    exact addAll_of_mem is e fun i hi => g ▸ k i hi

theorem Toward.strip {e a b : NodeAttrs} (h : Toward e a b) (g : strip a = strip e) : Import.strip b = Import.strip e := by
  simp only [Import.strip, NodeAttrs.mk.injEq] at g ⊢
  obtain ⟨g1, g2, g3, g4, g5, g6, _, _, _, _, _, g12, g13, g14, g15, g16, g17, g18, g19, g20, g21, g22, g23⟩ := g
  refine ⟨?_, ?_, ?_, h.incoming.done g4, h.outgoing.done g5, ?_, trivial, trivial, trivial, trivial, trivial, ?_, ?_, ?_, ?_, ?_, ?_, ?_, ?_, ?_, ?_, ?_, ?_⟩
  · exact h.id.elim (·.trans g1) _root_.id
  · exact h.type.elim (·.trans g2) _root_.id
  · exact h.nodeName.elim (·.trans g3) _root_.id
  · exact h.process.elim (·.trans g6) _root_.id
  · exact h.triggeredByEvent.elim (·.trans g12) _root_.id
  · exact h.parallelMultiple.elim (·.trans g13) _root_.id
  · exact h.isInterrupting.elim (·.trans g14) _root_.id
  · exact h.cancelActivity.elim (·.trans g15) _root_.id
  · exact h.attachedToRef.elim (·.trans g16) _root_.id
  · exact h.eventDefinitions.elim (·.trans g17) _root_.id
  · exact h.gatewayDirection.elim (·.trans g18) _root_.id
  · exact h.default.elim (·.trans g19) _root_.id
  · exact h.instantiate.elim (·.trans g20) _root_.id
  · exact h.eventGatewayType.elim (·.trans g21) _root_.id
  · exact h.isCollection.elim (·.trans g22) _root_.id
  · exact h.nodeIds.elim (·.trans g23) _root_.id

theorem Toward.done {e b : NodeAttrs} (h : Toward e e b) : b = e := by
  have h1 := h.strip rfl
  simp only [Import.strip, NodeAttrs.mk.injEq] at h1
  have h7 := h.width.elim _root_.id _root_.id
  have h8 := h.height.elim _root_.id _root_.id
  have h9 := h.x.elim _root_.id _root_.id
  have h10 := h.y.elim _root_.id _root_.id
  have h11 := h.isExpanded.elim _root_.id _root_.id
  cases b; cases e
  simp_all

theorem EToward.strip {e a b : EdgeAttrs} (h : EToward e a b) (g : estrip a = estrip e) : estrip b = estrip e := by
  simp only [estrip, EdgeAttrs.mk.injEq] at g ⊢
  obtain ⟨g1, _, g3, g4, g5, g6, _⟩ := g
  exact ⟨h.id.elim (·.trans g1) _root_.id, trivial, h.process.elim (·.trans g3) _root_.id, h.sourceRef.elim (·.trans g4) _root_.id, h.targetRef.elim (·.trans g5) _root_.id,
    h.conditionExpression.elim (·.trans g6) _root_.id, trivial⟩

theorem EToward.done {e b : EdgeAttrs} (h : EToward e e b) : b = e := by
  have h1 := h.strip rfl
  simp only [estrip, EdgeAttrs.mk.injEq] at h1
  have h2 := h.name.elim _root_.id _root_.id
  have h7 := h.waypoints.elim _root_.id _root_.id
  cases b; cases e
  simp_all

theorem EdgesToward.done {e D E : List Edge} (h : EdgesToward e D E) (he : D.map ends = e.map ends) : E.map ends = e.map ends := by
  obtain ⟨new, h1, h2⟩ := h.grow
  cases new with
  | nil => simpa using h1
  | cons p r =>
    exfalso
    have hp := h2 p (by simp)
    rw [List.any_eq_true] at hp
    obtain ⟨x, hx, hj⟩ := hp
    have : ends x ∈ e.map ends := he ▸ List.mem_map_of_mem hx
    have hpw : (E.map ends).Pairwise fun a b => ¬ SamePair a.1 a.2 b.1 b.2 := by
      rw [List.pairwise_map]
      exact h.once
    rw [h1, List.pairwise_append] at hpw
    refine hpw.2.2 _ this p (by simp) ?_
    rw [joins_samePair] at hj
    exact hj

theorem Again.toPlane {e : Diagram} {A : Fact → Prop} {D E : Diagram} (q : Again e A D E) (h : SameCore D e) : Plane2 e D E := by
  have hk : E.graph.nodes.keys = e.graph.nodes.keys := q.keys.done fun k hk => h.keys ▸ hk
  have ht : E.sequenceFlows = e.sequenceFlows :=
    Dict.ext_get? (q.tableKeys.done fun k hk => h.table ▸ hk) q.tableKeys.once fun k => (q.table k).elim (fun g => g.trans (by rw [h.table])) id
  have hp : E.processElements = e.processElements :=
    Dict.ext_get? (q.procKeys.done fun k hk => h.procs ▸ hk) q.procKeys.once fun k => (q.procs k).elim (fun g => g.trans (by rw [h.procs])) id
  refine ⟨⟨hk.trans h.keys, fun n => ?_, (q.edges.done h.ends.symm).trans h.ends, fun u v => ?_, ht.trans h.table, hp.trans h.procs, q.header, ?_, ?_⟩,
    q.view, q.edges.once, q.edges.view, ?_⟩
  · exact ((q.view n).strip (h.view n).symm).trans (h.view n)
  · exact ((q.edges.view u v).strip (h.eview u v).symm).trans (h.eview u v)
  · rcases q.collab with g | g
    · rw [g]
    · rw [g]; exact h.frame
  · intro c k hc hk i
    rcases q.collab with g | g
    · rw [g, hc] at hk
      cases hk
      rfl
    · exact h.pools c k hc (g ▸ hk) i
  · intro ce cD cE he hD hE i
    rcases q.collab with g | g
    · rw [g, hD] at hE
      cases hE
      exact .inl rfl
    · rw [g, he] at hE
      cases hE
      exact .inr rfl

theorem Plane2.done {e E : Diagram} (q : Plane2 e e E) (he : EachKeyOnce e) : E = e := by
  have hn : E.graph.nodes = e.graph.nodes := by
    have nd : E.graph.nodes.keys.Nodup := q.core.keys ▸ he.nodes
    refine Dict.ext_get? q.core.keys nd fun k => ?_
    by_cases c : k ∈ e.graph.nodes.keys
    · obtain ⟨a, ha⟩ := Option.isSome_iff_exists.1 ((Dict.get?_isSome_iff e.graph.nodes k).2 c)
      obtain ⟨b, hb⟩ := Option.isSome_iff_exists.1 ((Dict.get?_isSome_iff E.graph.nodes k).2 (q.core.keys ▸ c))
      have := (q.view k).done
      simp only [Import.view, ha, hb, Option.getD_some] at this
      rw [ha, hb, this]
    · rw [(Dict.get?_eq_none_iff _ _).2 c, (Dict.get?_eq_none_iff _ _).2 (q.core.keys ▸ c)]
  have hg : E.graph.edges = e.graph.edges := edges_ext q.core.ends q.once fun u v => (q.eview u v).done
  have hc : E.collaboration = e.collaboration := by
    have := q.core.frame
    cases h1 : E.collaboration with
    | none =>
      cases h2 : e.collaboration with
      | none => rfl
      | some c => rw [h1, h2] at this; cases this
    | some k =>
      cases h2 : e.collaboration with
      | none => rw [h1, h2] at this; cases this
      | some c =>
        rw [h1, h2] at this
        simp only [Option.map_some, Option.some.injEq, Prod.mk.injEq] at this
        have hp : k.participants = c.participants := by
          refine Dict.ext_get? this.2.2 (this.2.2 ▸ he.pools c h2) fun i => ?_
          exact (q.pools c c k h2 h2 h1 i).elim id id
        congr 1
        cases k; cases c
        simp_all
  obtain ⟨h1, h2, h3, h4⟩ := q.core.header
  have ht := q.core.table
  have hp := q.core.procs
  obtain ⟨⟨nE, gE⟩, tE, pE, d1, d2, d3, d4, cE⟩ := E
  obtain ⟨⟨nE', gE'⟩, tE', pE', d1', d2', d3', d4', cE'⟩ := e
  simp_all

end Bpmn.Import

import Verif.Spec.Merge
import Verif.Spec.RoundTrip
import Verif.Lemmas.Dict
import Verif.Lemmas.Graph
import Verif.Lemmas.ImportView
set_option linter.unusedSimpArgs false
set_option linter.unusedVariables false
/-!
# Relations between diagrams that loading a document preserves

A relation that is kept by the single changes made by the import is kept by the whole import.
-/
namespace Bpmn.Import
open Bpmn Bpmn.Spec

/-- The two outcomes are the same exception or two related diagrams. -/
inductive Rel {α β : Type} (Q : α → β → Prop) : Py α → Py β → Prop
  | ok {a : α} {b : β} (h : Q a b) : Rel Q (.ok a) (.ok b)
  | error (e : PyErr) : Rel Q (.error e) (.error e)

theorem Rel.bind {α β γ δ : Type} {Q : α → β → Prop} {R : γ → δ → Prop} {x : Py α} {y : Py β} {f : α → Py γ} {g : β → Py δ} (h : Rel Q x y)
    (k : ∀ a b, Q a b → Rel R (f a) (g b)) : Rel R (x >>= f) (y >>= g) := by
  cases h with
  | ok h => exact k _ _ h
  | error e => exact .error e

theorem Rel.same {α γ δ : Type} {R : γ → δ → Prop} {x : Py α} {f : α → Py γ} {g : α → Py δ} (k : ∀ a, x = .ok a → Rel R (f a) (g a)) :
    Rel R (x >>= f) (x >>= g) := by
  cases x with
  | ok a => exact k a rfl
  | error e => exact .error e

theorem Rel.ite {α β : Type} {Q : α → β → Prop} {c : Prop} [Decidable c] {x x' : Py α} {y y' : Py β} (h : Rel Q x y) (h' : Rel Q x' y') :
    Rel Q (if c then x else x') (if c then y else y') := by
  by_cases k : c
  · rw [if_pos k, if_pos k]; exact h
  · rw [if_neg k, if_neg k]; exact h'

theorem pyIndex_mem {α : Type} {l : List α} {i : Nat} {a : α} (h : pyIndex l i = .ok a) : a ∈ l := by
  unfold pyIndex at h
  split at h
  · rename_i b e
    rw [← Except.ok.inj h]
    exact List.mem_of_getElem? e
  · cases h

/-- All attributes of all elements inside `x` are in `M`, and so is the empty string. -/
def Names (M : String → Prop) (x : Xml) : Prop := ∀ y, Inside y x → ∀ k, M (y.getAttr k)

theorem Names.attr {M : String → Prop} {x : Xml} (h : Names M x) (k : String) : M (x.getAttr k) := h x (.self x) k

theorem Names.child {M : String → Prop} {t : String} {as : List (String × String)} {ks : List Xml} (h : Names M (.elem t as ks)) : ∀ x ∈ ks, Names M x :=
  fun x hx y hy k => h y (.child hx hy) k

theorem Names.children {M : String → Prop} {x : Xml} (h : Names M x) : ∀ y ∈ x.children, Names M y := by
  cases x with
  | elem t as ks => exact h.child
  | text s => simp [Xml.children]
  | other s => simp [Xml.children]

mutual
theorem inside_byName (name : String) : ∀ (x y : Xml), y ∈ x.byName name → Inside y x
  | .elem t as ks, y, h => by
    unfold Xml.byName at h
    obtain ⟨k, hk, hi⟩ := inside_byNameIn name ks y h
    exact .child hk hi
  | .text s, y, h => by simp [Xml.byName] at h
  | .other s, y, h => by simp [Xml.byName] at h
theorem inside_byNameIn (name : String) : ∀ (l : List Xml) (y : Xml), y ∈ Xml.byNameIn name l → ∃ k ∈ l, Inside y k
  | [], y, h => by simp [Xml.byNameIn] at h
  | x :: r, y, h => by
    unfold Xml.byNameIn at h
    rw [List.mem_append, List.mem_append] at h
    rcases h with (h | h) | h
    · refine ⟨x, by simp, ?_⟩
      cases x with
      | elem t as ks =>
        simp only at h
        split at h
        · rw [List.mem_singleton] at h
          rw [h]
          exact .self _
        · simp at h
      | text s => simp at h
      | other s => simp at h
    · exact ⟨x, by simp, inside_byName name x y h⟩
    · obtain ⟨k, hk, hi⟩ := inside_byNameIn name r y h
      exact ⟨k, by simp [hk], hi⟩
end

theorem Inside.trans {x y z : Xml} (h : Inside x y) (g : Inside y z) : Inside x z := by
  induction g with
  | self => exact h
  | child hk _ ih => exact .child hk ih

theorem Names.inside {M : String → Prop} {x y : Xml} (h : Names M x) (i : Inside y x) : Names M y := fun z hz k => h z (Inside.trans hz i) k

/-- The names in a collaboration. -/
structure CollabNames (M : String → Prop) (c : Collab) : Prop where
  pools : ∀ k ∈ c.participants.keys, M k
  once : c.participants.keys.Nodup
  messages : ∀ m ∈ c.messageFlows, M m.1 ∧ M m.2.sourceRef ∧ M m.2.targetRef

theorem laneId_setLane (l : Lane) : ∀ (ls : List Lane), ∀ x ∈ setLane ls l, laneId x = laneId l ∨ x ∈ ls
  | [], x, h => by
    cases l
    simp only [setLane, List.mem_singleton] at h
    exact .inl (by rw [h])
  | .mk i n ci c r di :: rest, x, h => by
    cases l with
    | mk i' n' ci' c' r' di' =>
      unfold setLane at h
      split at h
      · rcases List.mem_cons.1 h with h | h
        · exact .inl (by rw [h])
        · exact .inr (List.mem_cons_of_mem _ h)
      · rcases List.mem_cons.1 h with h | h
        · exact .inr (by rw [h]; simp)
        · rcases laneId_setLane _ rest x h with h | h
          · exact .inl h
          · exact .inr (List.mem_cons_of_mem _ h)

theorem importLane_id {plane x : Xml} {l : Lane} (h : importLane plane x = .ok l) : laneId l = x.getAttr "id" := by
  cases x with
  | text s => simp [importLane] at h
  | other s => simp [importLane] at h
  | elem t as ks =>
    unfold importLane at h
    obtain ⟨⟨a, b, c⟩, _, h⟩ := except_bind_eq_ok h
    simp only at h
    obtain ⟨s, _, h⟩ := except_bind_eq_ok h
    cases s with
    | none => rw [← Except.ok.inj h]; rfl
    | some s =>
      obtain ⟨b, _, h⟩ := except_bind_eq_ok h
      rw [← Except.ok.inj h]; rfl

theorem importLanes_names {M : String → Prop} (plane : Xml) : ∀ (l : List Xml) (acc ls : List Lane), (∀ x ∈ l, Names M x) →
    (∀ x ∈ acc, M (laneId x)) → importLanes plane l acc = .ok ls → ∀ x ∈ ls, M (laneId x)
  | [], acc, ls, hl, ha, h => by
    unfold importLanes at h
    rw [← Except.ok.inj h]
    exact ha
  | .text s :: r, acc, ls, hl, ha, h => by
    unfold importLanes at h
    exact importLanes_names plane r acc ls (fun y hy => hl y (by simp [hy])) ha h
  | .other s :: r, acc, ls, hl, ha, h => by
    unfold importLanes at h
    cases h
  | .elem t as ks :: r, acc, ls, hl, ha, h => by
    have hr : ∀ y ∈ r, Names M y := fun y hy => hl y (by simp [hy])
    unfold importLanes at h
    split at h
    · obtain ⟨x, h1, h⟩ := except_bind_eq_ok h
      refine importLanes_names plane r _ ls hr ?_ h
      intro y hy
      rcases laneId_setLane x acc y hy with e | e
      · rw [e, importLane_id h1]
        exact (hl _ (by simp)).attr _
      · exact ha y e
    · exact importLanes_names plane r acc ls hr ha h

/-- What is known about the names at a moment of the import. -/
inductive Fact where
  /-- the node is in both graphs -/
  | here (n : String)
  /-- the lists of node ids of the two nodes agree -/
  | sameNode (n : String)
  /-- the entries of the process agree -/
  | sameProcess (p : String)

/-- One more fact. -/
def also (A : Fact → Prop) (x : Fact) : Fact → Prop := fun f => f = x ∨ A f

/-- The ids added to a list of flow ids, one after the other. -/
def addAll (is : List String) (l : Option (List String)) : Option (List String) := is.foldl (fun l i => some (addOnce l i)) l

/-- A list of flow ids in the second diagram is that of the first one, or that of `e` with ids of the first one added. -/
def ListToward (e a b : Option (List String)) : Prop := b = a ∨ ∃ is, b = addAll is e ∧ ∀ i ∈ is, i ∈ a.getD []

/-- Every attribute of `b` is that of `a` or that of `e`. -/
structure Toward (e a b : NodeAttrs) : Prop where
  id : b.id = a.id ∨ b.id = e.id
  type : b.type = a.type ∨ b.type = e.type
  nodeName : b.nodeName = a.nodeName ∨ b.nodeName = e.nodeName
  incoming : ListToward e.incoming a.incoming b.incoming
  outgoing : ListToward e.outgoing a.outgoing b.outgoing
  process : b.process = a.process ∨ b.process = e.process
  width : b.width = a.width ∨ b.width = e.width
  height : b.height = a.height ∨ b.height = e.height
  x : b.x = a.x ∨ b.x = e.x
  y : b.y = a.y ∨ b.y = e.y
  isExpanded : b.isExpanded = a.isExpanded ∨ b.isExpanded = e.isExpanded
  triggeredByEvent : b.triggeredByEvent = a.triggeredByEvent ∨ b.triggeredByEvent = e.triggeredByEvent
  parallelMultiple : b.parallelMultiple = a.parallelMultiple ∨ b.parallelMultiple = e.parallelMultiple
  isInterrupting : b.isInterrupting = a.isInterrupting ∨ b.isInterrupting = e.isInterrupting
  cancelActivity : b.cancelActivity = a.cancelActivity ∨ b.cancelActivity = e.cancelActivity
  attachedToRef : b.attachedToRef = a.attachedToRef ∨ b.attachedToRef = e.attachedToRef
  eventDefinitions : b.eventDefinitions = a.eventDefinitions ∨ b.eventDefinitions = e.eventDefinitions
  gatewayDirection : b.gatewayDirection = a.gatewayDirection ∨ b.gatewayDirection = e.gatewayDirection
  default : b.default = a.default ∨ b.default = e.default
  instantiate : b.instantiate = a.instantiate ∨ b.instantiate = e.instantiate
  eventGatewayType : b.eventGatewayType = a.eventGatewayType ∨ b.eventGatewayType = e.eventGatewayType
  isCollection : b.isCollection = a.isCollection ∨ b.isCollection = e.isCollection
  nodeIds : b.nodeIds = a.nodeIds ∨ b.nodeIds = e.nodeIds

/-- A change that sets attributes or adds to the lists of flow ids, and does not change the list of node ids. -/
def Tame (f : NodeAttrs → NodeAttrs) : Prop := (∀ e a b, Toward e a b → Toward e (f a) (f b)) ∧ ∀ a, (f a).nodeIds = a.nodeIds

/-- The same for flows. -/
structure EToward (e a b : EdgeAttrs) : Prop where
  id : b.id = a.id ∨ b.id = e.id
  name : b.name = a.name ∨ b.name = e.name
  process : b.process = a.process ∨ b.process = e.process
  sourceRef : b.sourceRef = a.sourceRef ∨ b.sourceRef = e.sourceRef
  targetRef : b.targetRef = a.targetRef ∨ b.targetRef = e.targetRef
  conditionExpression : b.conditionExpression = a.conditionExpression ∨ b.conditionExpression = e.conditionExpression
  waypoints : b.waypoints = a.waypoints ∨ b.waypoints = e.waypoints

/-- A change that sets attributes of flows. -/
def ETame (f : EdgeAttrs → EdgeAttrs) : Prop := ∀ e a b, EToward e a b → EToward e (f a) (f b)

macro "toward_fields" h:ident : tactic => `(tactic|
  (constructor <;> first
    | exact Or.inl rfl | exact ($h).id | exact ($h).type | exact ($h).nodeName | exact ($h).incoming | exact ($h).outgoing | exact ($h).process
    | exact ($h).width | exact ($h).height | exact ($h).x | exact ($h).y | exact ($h).isExpanded | exact ($h).triggeredByEvent
    | exact ($h).parallelMultiple | exact ($h).isInterrupting | exact ($h).cancelActivity | exact ($h).attachedToRef
    | exact ($h).eventDefinitions | exact ($h).gatewayDirection | exact ($h).default | exact ($h).instantiate | exact ($h).eventGatewayType
    | exact ($h).isCollection | exact ($h).nodeIds))

macro "tame" : tactic => `(tactic| exact ⟨fun _ _ _ h => by toward_fields h, fun _ => rfl⟩)

theorem mem_addOnce_new (l : Option (List String)) (i : String) : i ∈ addOnce l i := by
  unfold addOnce
  by_cases c : i ∈ l.getD []
  · simp [c]
  · simp [c]

theorem mem_addOnce_old {l : Option (List String)} {i j : String} (h : j ∈ l.getD []) : j ∈ addOnce l i := by
  unfold addOnce
  by_cases c : i ∈ l.getD []
  · simp [c, h]
  · simp [c, h]

theorem ListToward.add {e a b : Option (List String)} (h : ListToward e a b) (i : String) :
    ListToward e (some (addOnce a i)) (some (addOnce b i)) := by
  rcases h with h | ⟨is, h, k⟩
  · exact .inl (by rw [h])
  · refine .inr ⟨is ++ [i], ?_, ?_⟩
    · rw [h]
      simp [addAll]
    · intro j hj
      rcases List.mem_append.1 hj with hj | hj
      · exact mem_addOnce_old (k j hj)
      · rw [List.mem_singleton] at hj
        rw [hj]
        exact mem_addOnce_new a i

theorem tame_out (i : String) : Tame fun a => { a with outgoing := some (addOnce a.outgoing i) } := by
  refine ⟨fun e a b h => ?_, fun _ => rfl⟩
  have := h.outgoing.add i
  constructor <;> first
    | exact this | exact h.id | exact h.type | exact h.nodeName | exact h.incoming | exact h.process
    | exact h.width | exact h.height | exact h.x | exact h.y | exact h.isExpanded | exact h.triggeredByEvent
    | exact h.parallelMultiple | exact h.isInterrupting | exact h.cancelActivity | exact h.attachedToRef
    | exact h.eventDefinitions | exact h.gatewayDirection | exact h.default | exact h.instantiate | exact h.eventGatewayType
    | exact h.isCollection | exact h.nodeIds

theorem tame_in (i : String) : Tame fun a => { a with incoming := some (addOnce a.incoming i) } := by
  refine ⟨fun e a b h => ?_, fun _ => rfl⟩
  have := h.incoming.add i
  constructor <;> first
    | exact this | exact h.id | exact h.type | exact h.nodeName | exact h.outgoing | exact h.process
    | exact h.width | exact h.height | exact h.x | exact h.y | exact h.isExpanded | exact h.triggeredByEvent
    | exact h.parallelMultiple | exact h.isInterrupting | exact h.cancelActivity | exact h.attachedToRef
    | exact h.eventDefinitions | exact h.gatewayDirection | exact h.default | exact h.instantiate | exact h.eventGatewayType
    | exact h.isCollection | exact h.nodeIds

/-- The relation is kept by the changes that an import makes under names in `M`, up to the plane.  It may depend on facts. -/
structure Kept (M : String → Prop) (Q : (Fact → Prop) → Diagram → Diagram → Prop) : Prop where
  less : ∀ {A B D E}, Q A D E → (∀ f, B f → A f) → Q B D E
  upd : ∀ {A D E}, Q A D E → ∀ k, M k → A (.here k) → ∀ f, Tame f → Q A (D.updNode k f) (E.updNode k f)
  sub : ∀ {A D E}, Q A D E → ∀ k, M k → A (.here k) → ∀ v,
    Q (also A (.sameNode k)) (D.updNode k fun a => { a with triggeredByEvent := v, nodeIds := some [] })
      (E.updNode k fun a => { a with triggeredByEvent := v, nodeIds := some [] })
  node : ∀ {A D E}, Q A D E → ∀ k, M k → Q (also A (.here k)) { D with graph := D.graph.addNode k } { E with graph := E.graph.addNode k }
  recordNode : ∀ {A D E}, Q A D E → ∀ k, M k → A (.here k) → A (.sameNode k) → ∀ i, Q A (record (.node k) i D) (record (.node k) i E)
  recordProcess : ∀ {A D E}, Q A D E → ∀ k, M k → A (.sameProcess k) → ∀ i, Q A (record (.process k) i D) (record (.process k) i E)
  lanes : ∀ {A D E}, Q A D E → ∀ k, M k → A (.sameProcess k) → ∀ i ls, (∀ l ∈ ls, M (laneId l)) →
    Q A { D with processElements := D.processElements.modify k fun a => { a with laneSet := some (i, ls) } }
      { E with processElements := E.processElements.modify k fun a => { a with laneSet := some (i, ls) } }
  newProcess : ∀ {A D E}, Q A D E → ∀ k, M k → ∀ a : ProcAttrs, a.laneSet = none →
    Q (also A (.sameProcess k)) { D with processElements := D.processElements.set k a } { E with processElements := E.processElements.set k a }
  entry : ∀ {A D E}, Q A D E → ∀ k, M k → ∀ f : SeqFlow, M f.sourceRef → M f.targetRef →
    Q A { D with sequenceFlows := D.sequenceFlows.set k f } { E with sequenceFlows := E.sequenceFlows.set k f }
  edge : ∀ {A D E}, Q A D E → ∀ s t, M s → M t → ∀ f, ETame f → Q (also (also A (.here s)) (.here t))
    { D with graph := (D.graph.addEdge s t).modifyEdge s t f } { E with graph := (E.graph.addEdge s t).modifyEdge s t f }
  collab : ∀ {A D E}, Q A D E → ∀ c : Collab, CollabNames M c →
    Q A { D with collaboration := some c } { E with collaboration := some c }

/-- The relation is kept by the changes made while the plane is read. -/
structure KeptPlane (M : String → Prop) (Q : Diagram → Diagram → Prop) : Prop where
  shape : ∀ {D E}, Q D E → ∀ x, Names M x → Rel Q (importShape x D) (importShape x E)
  flowDi : ∀ {D E}, Q D E → ∀ x, Names M x → Rel Q (importFlowDi x D) (importFlowDi x E)

/-- What must be known about the owner of a node. -/
def Owned (M : String → Prop) (A : Fact → Prop) : Owner → Prop
  | .process p => M p ∧ A (.sameProcess p)
  | .node n => M n ∧ A (.here n) ∧ A (.sameNode n)

theorem Owned.more {M : String → Prop} {A B : Fact → Prop} {o : Owner} (h : Owned M A o) (i : ∀ f, A f → B f) : Owned M B o := by
  cases o with
  | process p => exact ⟨h.1, i _ h.2⟩
  | node n => exact ⟨h.1, i _ h.2.1, i _ h.2.2⟩

theorem Rel.imp {α β : Type} {Q R : α → β → Prop} {x : Py α} {y : Py β} (h : Rel Q x y) (i : ∀ a b, Q a b → R a b) : Rel R x y := by
  cases h with
  | ok h => exact .ok (i _ _ h)
  | error e => exact .error e

section
variable {M : String → Prop} {Q : (Fact → Prop) → Diagram → Diagram → Prop} (K : Kept M Q)
include K

theorem Kept.record {A : Fact → Prop} {D E : Diagram} (h : Q A D E) (o : Owner) (ho : Owned M A o) (i : String) :
    Q A (record o i D) (record o i E) := by
  cases o with
  | process p => exact K.recordProcess h p ho.1 ho.2 i
  | node n => exact K.recordNode h n ho.1 ho.2.1 ho.2.2 i

theorem Kept.flowNode {A : Fact → Prop} {D E : Diagram} (h : Q A D E) (pid : String) (o : Owner) (ho : Owned M A o) (x : Xml)
    (hx : Names M x) : Rel (Q (also A (.here (x.getAttr "id")))) (importFlowNode pid o x D) (importFlowNode pid o x E) := by
  unfold importFlowNode
  refine Rel.same fun t _ => Rel.same fun i _ => Rel.same fun u _ => .ok ?_
  refine K.upd (K.record (K.upd (K.node h _ (hx.attr _)) _ (hx.attr _) (.inl rfl) _ ?_) o (ho.more fun f hf => .inr hf) _) _ (hx.attr _) (.inl rfl) _ ?_
  · tame
  · tame

theorem Kept.activity {A : Fact → Prop} {D E : Diagram} (h : Q A D E) (pid : String) (o : Owner) (ho : Owned M A o) (x : Xml)
    (hx : Names M x) : Rel (Q (also A (.here (x.getAttr "id")))) (importActivity pid o x D) (importActivity pid o x E) :=
  (K.flowNode h pid o ho x hx).bind fun a b q => .ok (K.upd q _ (hx.attr _) (.inl rfl) _ (by tame))

theorem Kept.simple {A : Fact → Prop} {D E : Diagram} (h : Q A D E) (ord : List String → List String) (pid : String) (o : Owner)
    (ho : Owned M A o) (x : Xml) (hx : Names M x) (tag : String) :
    Rel (Q A) (importSimple ord pid o x tag D) (importSimple ord pid o x tag E) := by
  have k1 := K.flowNode h pid o ho x hx
  have u : ∀ {a b : Diagram}, Q (also A (.here (x.getAttr "id"))) a b → ∀ f, Tame f →
    Q (also A (.here (x.getAttr "id"))) (a.updNode (x.getAttr "id") f) (b.updNode (x.getAttr "id") f) := fun q f hf => K.upd q _ (hx.attr _) (.inl rfl) f hf
  have m : ∀ {a b : Diagram}, Q (also A (.here (x.getAttr "id"))) a b → Q A a b := fun q => K.less q fun f hf => .inr hf
  have kg : Rel (Q (also A (.here (x.getAttr "id")))) (importGateway pid o x D) (importGateway pid o x E) := k1.bind fun a b q => .ok (u q _ (by tame))
  have e1 : Rel (Q A) (importActivity pid o x D) (importActivity pid o x E) := (K.activity h pid o ho x hx).imp fun _ _ => m
  have e2 : Rel (Q A) (importDataObject pid o x D) (importDataObject pid o x E) := k1.bind fun a b q => .ok (m (u q _ (by tame)))
  have e3 : Rel (Q A) (importDefaultGateway pid o x D) (importDefaultGateway pid o x E) := kg.bind fun a b q => .ok (m (u q _ (by tame)))
  have e4 : Rel (Q A) (importEventBasedGateway pid o x D) (importEventBasedGateway pid o x E) := kg.bind fun a b q => .ok (m (u q _ (by tame)))
  have e5 : Rel (Q A) (importStartEvent ord pid o x D) (importStartEvent ord pid o x E) :=
    k1.bind fun a b q => .ok (m (u (u q _ (by tame)) _ (by tame)))
  have e6 : ∀ ty, Rel (Q A) (importThrowEvent ord ty pid o x D) (importThrowEvent ord ty pid o x E) := fun ty => k1.bind fun a b q => .ok (m (u q _ (by tame)))
  have e7 : Rel (Q A) (importCatchEvent ord pid o x D) (importCatchEvent ord pid o x E) :=
    k1.bind fun a b q => .ok (m (u (u q _ (by tame)) _ (by tame)))
  have e8 : Rel (Q A) (importBoundaryEvent ord pid o x D) (importBoundaryEvent ord pid o x E) :=
    k1.bind fun a b q => .ok (m (u (u q _ (by tame)) _ (by tame)))
  have e9 : Rel (Q A) (importGateway pid o x D) (importGateway pid o x E) := kg.imp fun _ _ => m
  unfold importSimple
  exact .ite e1 (.ite e2 (.ite e3 (.ite e9 (.ite e4 (.ite e3 (.ite e5 (.ite (e6 _) (.ite e7 (.ite (e6 _) (.ite e8 (.ok h)))))))))))

theorem Kept.link {A : Fact → Prop} {D E : Diagram} (h : Q A D E) (i s t : String) (hs : M s) (ht : M t) (as : A (.here s)) (at' : A (.here t)) :
    Q A (linkEnds i s t D) (linkEnds i s t E) :=
  K.upd (K.upd h _ hs as _ (tame_out i)) _ ht at' _ (tame_in i)

theorem Kept.sequenceFlow {A : Fact → Prop} {D E : Diagram} (h : Q A D E) (pid : String) (x : Xml) (hx : Names M x) :
    Rel (Q A) (importSequenceFlow pid x D) (importSequenceFlow pid x E) := by
  unfold importSequenceFlow
  refine Rel.same fun c _ => .ok ?_
  refine K.less (K.link (K.edge (K.entry h _ (hx.attr _) ⟨_, _, _⟩ (hx.attr _) (hx.attr _)) _ _ (hx.attr _) (hx.attr _) _ ?_) _ _ _ (hx.attr _) (hx.attr _)
    (.inr (.inl rfl)) (.inl rfl)) fun f hf => .inr (.inr hf)
  intro e a b q
  constructor
  · exact .inl rfl
  · exact .inl rfl
  · exact .inl rfl
  · exact .inl rfl
  · exact .inl rfl
  · cases c with
    | none => exact q.conditionExpression
    | some c => exact .inl rfl
  · exact q.waypoints

theorem Kept.flows {A : Fact → Prop} (pid : String) : ∀ (l : List Xml) {D E : Diagram}, Q A D E → (∀ x ∈ l, Names M x) →
    Rel (Q A) (importFlows pid l D) (importFlows pid l E)
  | [], D, E, h, _ => .ok h
  | x :: r, D, E, h, hl => by
    unfold importFlows
    have hr : ∀ y ∈ r, Names M y := fun y hy => hl y (by simp [hy])
    split
    · exact Kept.flows pid r h hr
    · refine Rel.same fun t _ => ?_
      split
      · exact (K.sequenceFlow h pid x (hl x (by simp))).bind fun a b q => Kept.flows pid r q hr
      · exact Kept.flows pid r h hr

mutual
theorem Kept.element (ord : List String → List String) : ∀ (x : Xml) (pid : String) (o : Owner) {A : Fact → Prop} {D E : Diagram}, Q A D E →
    Owned M A o → Names M x → Rel (Q A) (importElement ord pid o x D) (importElement ord pid o x E)
  | .elem t as ks, pid, o, A, D, E, h, ho, hx => by
    unfold importElement
    split
    · refine Rel.bind (K.activity h pid o ho _ hx) fun a b q => ?_
      refine (Kept.elements ord ks _ (.node ((Xml.elem t as ks).getAttr "id")) (K.sub q _ (hx.attr "id") (.inl rfl) _) ⟨hx.attr "id", .inr (.inl rfl), .inl rfl⟩ hx.child).bind fun a b q => ?_
      exact (Kept.flows K _ ks q hx.child).imp fun a b q => K.less q fun f hf => .inr (.inr hf)
    · exact K.simple h ord pid o ho _ hx _
  | .text s, pid, o, A, D, E, h, ho, hx => by unfold importElement; exact .ok h
  | .other s, pid, o, A, D, E, h, ho, hx => by unfold importElement; exact .error _
theorem Kept.elements (ord : List String → List String) : ∀ (l : List Xml) (pid : String) (o : Owner) {A : Fact → Prop} {D E : Diagram}, Q A D E →
    Owned M A o → (∀ x ∈ l, Names M x) → Rel (Q A) (importElements ord pid o l D) (importElements ord pid o l E)
  | [], pid, o, A, D, E, h, ho, hl => by unfold importElements; exact .ok h
  | x :: r, pid, o, A, D, E, h, ho, hl => by
    unfold importElements
    exact (Kept.element ord x pid o h ho (hl x (by simp))).bind fun a b q => Kept.elements ord r pid o q ho fun y hy => hl y (by simp [hy])
end

theorem Kept.laneSet {A : Fact → Prop} (plane : Xml) (pid : String) (hp : M pid) (ha : A (.sameProcess pid)) (l : List Xml)
    (hl : ∀ x ∈ l, Names M x) {D E : Diagram} (h : Q A D E) : Rel (Q A) (importLaneSet plane pid l D) (importLaneSet plane pid l E) := by
  cases l with
  | nil => exact .ok h
  | cons x r =>
    refine Rel.same fun ls e => .ok (K.lanes h _ hp ha _ _ ?_)
    exact importLanes_names plane _ _ _ (hl x (by simp)).children (by simp) e

theorem Kept.processes {A : Fact → Prop} (ord : List String → List String) (plane : Xml) : ∀ (l : List Xml) {D E : Diagram}, Q A D E → (∀ x ∈ l, Names M x) →
    Rel (Q A) (importProcesses ord plane l D) (importProcesses ord plane l E)
  | [], D, E, h, _ => .ok h
  | x :: r, D, E, h, hl => by
    unfold importProcesses
    have hx := hl x (by simp)
    refine Rel.bind (Q := Q A) ?_ fun a b q => Kept.processes ord plane r q fun y hy => hl y (by simp [hy])
    unfold importProcess
    refine (K.laneSet plane _ (hx.attr _) (.inl rfl) _ (fun y hy => hx.inside (inside_byName _ _ _ hy)) (K.newProcess h _ (hx.attr _) _ rfl)).bind fun a b q => ?_
    refine (Kept.elements K ord _ _ (.process (x.getAttr "id")) q ⟨hx.attr "id", .inl rfl⟩ hx.children).bind fun a b q => ?_
    exact (Kept.flows K _ _ q hx.children).imp fun a b q => K.less q fun f hf => .inr hf

theorem Kept.collabKids {A : Fact → Prop} : ∀ (l : List Xml) {D E : Diagram} (c : Collab), Q A D E → (∀ x ∈ l, Names M x) →
    CollabNames M c → Rel (fun a b => Q A a.1 b.1 ∧ a.2 = b.2 ∧ CollabNames M a.2) (importCollabKids l D c) (importCollabKids l E c)
  | [], D, E, c, h, _, hc => .ok ⟨h, rfl, hc⟩
  | x :: r, D, E, c, h, hl, hc => by
    unfold importCollabKids
    have hr : ∀ y ∈ r, Names M y := fun y hy => hl y (by simp [hy])
    have hx := hl x (by simp)
    split
    · exact Kept.collabKids r c h hr hc
    · refine Rel.same fun t _ => ?_
      split
      · simp only [importParticipant]
        refine Kept.collabKids r _ ?_ hr ⟨?_, Dict.nodup_keys_set hc.once _ _, hc.messages⟩
        rotate_left
        · intro k hk
          rcases (Dict.mem_keys_set _ _ _ _).1 hk with e | e
          · rw [e]; exact hx.attr _
          · exact hc.pools k e
        split
        · exact K.less (K.upd (K.node h _ (hx.attr _)) _ (hx.attr _) (.inl rfl) _ (by tame)) fun f hf => .inr hf
        · exact h
      · split
        · simp only [importMessageFlow]
          refine Kept.collabKids r _ ?_ hr ⟨hc.pools, hc.once, ?_⟩
          · refine K.less (K.link (K.edge h _ _ (hx.attr _) (hx.attr _) _ ?_) _ _ _ (hx.attr _) (hx.attr _) (.inr (.inl rfl)) (.inl rfl)) fun f hf => .inr (.inr hf)
            intro e a b q
            exact ⟨.inl rfl, .inl rfl, q.process, .inl rfl, .inl rfl, q.conditionExpression, q.waypoints⟩
          · intro m hm
            rcases mem_set hm with h1 | h1
            · rw [h1]
              exact ⟨hx.attr _, hx.attr _, hx.attr _⟩
            · exact hc.messages m h1
        · exact Kept.collabKids r c h hr hc

theorem Kept.firstCollab {A : Fact → Prop} (l : List Xml) {D E : Diagram} (h : Q A D E) (hl : ∀ x ∈ l, Names M x) :
    Rel (Q A) (importFirstCollaboration l D) (importFirstCollaboration l E) := by
  cases l with
  | nil => exact .ok h
  | cons x r =>
    unfold importFirstCollaboration importCollaboration
    refine (Kept.collabKids K x.children _ h (hl x (by simp)).children ⟨by simp, by simp, by simp⟩).bind fun a b q => ?_
    obtain ⟨q1, q2, q3⟩ := q
    have := K.collab q1 a.2 q3
    refine .ok ?_
    rw [← q2]
    exact this
end

theorem KeptPlane.plane {M : String → Prop} {Q : Diagram → Diagram → Prop} (K : KeptPlane M Q) : ∀ (l : List Xml) {D E : Diagram}, Q D E →
    (∀ x ∈ l, Names M x) → Rel Q (importPlane l D) (importPlane l E)
  | [], D, E, h, _ => .ok h
  | x :: r, D, E, h, hl => by
    unfold importPlane
    have hr : ∀ y ∈ r, Names M y := fun y hy => hl y (by simp [hy])
    have hx := hl x (by simp)
    split
    · exact KeptPlane.plane K r h hr
    · refine Rel.same fun t _ => ?_
      split
      · exact (K.shape h x hx).bind fun a b q => KeptPlane.plane K r q hr
      · split
        · exact (K.flowDi h x hx).bind fun a b q => KeptPlane.plane K r q hr
        · exact KeptPlane.plane K r h hr

theorem Names.doc {M : String → Prop} {root : Xml} (hr : Names M root) (name : String) : ∀ y ∈ Xml.byNameIn name [root], Names M y := by
  intro y hy
  obtain ⟨k, hk, hi⟩ := inside_byNameIn name _ y hy
  rw [List.mem_singleton] at hk
  subst hk
  exact hr.inside hi

/-- The whole import, after the header was set. -/
theorem Kept.load {M : String → Prop} {Q : (Fact → Prop) → Diagram → Diagram → Prop} (K : Kept M Q) {A : Fact → Prop} (P : KeptPlane M (Q A))
    (ord : List String → List String) (root : Xml) (hr : Names M root) {D E : Diagram}
    (h : ∀ a b c e, Q A { D with diagramId := a, diagramName := b, planeId := c, planeElement := e }
      { E with diagramId := a, diagramName := b, planeId := c, planeElement := e }) :
    Rel (Q A) (load ord root D) (load ord root E) := by
  unfold Import.load
  refine Rel.same fun diagram h1 => Rel.same fun plane h2 => ?_
  have hd : Names M diagram := hr.doc _ _ (pyIndex_mem h1)
  have hp : Names M plane := hd.inside (inside_byName _ _ _ (pyIndex_mem h2))
  refine (Kept.processes K ord plane _ (h _ _ _ _) (hr.doc _)).bind fun a b q => ?_
  exact (K.firstCollab _ q (hr.doc _)).bind fun a b q => P.plane _ q hp.children

/-- A relation that is kept by any change under names in `M`. -/
structure Steady (M : String → Prop) (Q : Diagram → Diagram → Prop) : Prop where
  upd : ∀ {D E}, Q D E → ∀ k, M k → ∀ f, Q (D.updNode k f) (E.updNode k f)
  node : ∀ {D E}, Q D E → ∀ k, M k → Q { D with graph := D.graph.addNode k } { E with graph := E.graph.addNode k }
  process : ∀ {D E}, Q D E → ∀ k, M k → ∀ f, (∀ a, ∀ l ∈ lanesOf (f a), l ∈ lanesOf a ∨ M (laneId l)) →
    Q { D with processElements := D.processElements.modify k f } { E with processElements := E.processElements.modify k f }
  newProcess : ∀ {D E}, Q D E → ∀ k, M k → ∀ a : ProcAttrs, a.laneSet = none →
    Q { D with processElements := D.processElements.set k a } { E with processElements := E.processElements.set k a }
  entry : ∀ {D E}, Q D E → ∀ k, M k → ∀ f : SeqFlow, M f.sourceRef → M f.targetRef →
    Q { D with sequenceFlows := D.sequenceFlows.set k f } { E with sequenceFlows := E.sequenceFlows.set k f }
  edge : ∀ {D E}, Q D E → ∀ s t, M s → M t → ∀ f,
    Q { D with graph := (D.graph.addEdge s t).modifyEdge s t f } { E with graph := (E.graph.addEdge s t).modifyEdge s t f }
  collab : ∀ {D E}, Q D E → ∀ c : Collab, CollabNames M c →
    Q { D with collaboration := some c } { E with collaboration := some c }
  shape : ∀ {D E}, Q D E → ∀ x, Names M x → Rel Q (importShape x D) (importShape x E)
  flowDi : ∀ {D E}, Q D E → ∀ x, Names M x → Rel Q (importFlowDi x D) (importFlowDi x E)

theorem Steady.kept {M : String → Prop} {Q : Diagram → Diagram → Prop} (K : Steady M Q) : Kept M (fun _ => Q) where
  less := fun q _ => q
  upd := fun q k hk _ f _ => K.upd q k hk f
  sub := fun q k hk _ v => K.upd q k hk _
  node := fun q k hk => K.node q k hk
  recordNode := fun q k hk _ _ i => K.upd q k hk _
  recordProcess := fun q k hk _ i => K.process q k hk _ fun a l hl => .inl hl
  lanes := fun q k hk _ i ls hls => K.process q k hk _ fun a l hl => .inr (hls l (by simpa [lanesOf] using hl))
  newProcess := fun q k hk a ha => K.newProcess q k hk a ha
  entry := fun q k hk f h1 h2 => K.entry q k hk f h1 h2
  edge := fun q s t hs ht f _ => K.edge q s t hs ht f
  collab := fun q c hc => K.collab q c hc

theorem Steady.plane {M : String → Prop} {Q : Diagram → Diagram → Prop} (K : Steady M Q) : KeptPlane M Q := ⟨K.shape, K.flowDi⟩

/-- The whole import, after the header was set. -/
theorem Steady.load {M : String → Prop} {Q : Diagram → Diagram → Prop} (K : Steady M Q) (ord : List String → List String) (root : Xml)
    (hr : Names M root) {D E : Diagram}
    (h : ∀ a b c e, Q { D with diagramId := a, diagramName := b, planeId := c, planeElement := e }
      { E with diagramId := a, diagramName := b, planeId := c, planeElement := e }) :
    Rel Q (load ord root D) (load ord root E) :=
  K.kept.load (A := fun _ => False) K.plane ord root hr h

end Bpmn.Import

import Verif.Model.ImportState
import Verif.Lemmas.AgainLoad
set_option linter.unusedSimpArgs false
set_option linter.unusedVariables false
/-!
# The object left behind by an import
-/
namespace Bpmn.Import
open Bpmn Bpmn.Spec

/-! ## The two models agree -/

/-- The call returns exactly if `y` is a diagram, which is then the object; otherwise both raise the same exception. -/
def Agree (x : Left) (y : Py Diagram) : Prop := y = x.2.map fun _ => x.1

theorem Agree.done (d : Diagram) : Agree (done d) (.ok d) := rfl

theorem Agree.andThen {x : Left} {y : Py Diagram} {f : Diagram → Left} {g : Diagram → Py Diagram} (h : Agree x y) (k : ∀ d, Agree (f d) (g d)) :
    Agree (x.andThen f) (y >>= g) := by
  obtain ⟨d, o⟩ := x
  unfold Agree at h
  subst h
  cases o with
  | ok u => exact k d
  | error e => rfl

theorem Agree.pure {x : Left} {y : Py Diagram} {f : Diagram → Diagram} (h : Agree x y) :
    Agree (x.andThen fun d => Import.done (f d)) (y >>= fun d => Pure.pure (f d)) := h.andThen fun _ => rfl

theorem Agree.reading {α : Type} {y : Py α} {d : Diagram} {f : α → Left} {g : α → Py Diagram} (k : ∀ a, Agree (f a) (g a)) :
    Agree (reading y d f) (y >>= g) := by
  cases y with
  | ok a => exact k a
  | error e => rfl

theorem Agree.ite {c : Prop} [Decidable c] {x x' : Left} {y y' : Py Diagram} (h : Agree x y) (h' : Agree x' y') :
    Agree (if c then x else x') (if c then y else y') := by
  by_cases k : c
  · rw [if_pos k, if_pos k]; exact h
  · rw [if_neg k, if_neg k]; exact h'

theorem updNode_updNode (d : Diagram) (k : String) (f g : NodeAttrs → NodeAttrs) : (d.updNode k f).updNode k g = d.updNode k fun a => g (f a) := by
  simp only [Diagram.updNode, Graph.modifyNode]
  rw [Dict.modify_modify]
  rfl

theorem agree_flowNode (pid : String) (o : Owner) (e : Xml) (d : Diagram) : Agree (flowNodeS pid o e d) (importFlowNode pid o e d) := by
  unfold flowNodeS importFlowNode
  refine .reading fun t => .reading fun inc => .reading fun out => ?_
  simp only [updNode_updNode]
  rfl

theorem agree_activity (pid : String) (o : Owner) (e : Xml) (d : Diagram) : Agree (activityS pid o e d) (importActivity pid o e d) :=
  (agree_flowNode pid o e d).pure

theorem agree_gateway (pid : String) (o : Owner) (e : Xml) (d : Diagram) : Agree (gatewayS pid o e d) (importGateway pid o e d) :=
  (agree_flowNode pid o e d).pure

theorem agree_simple (ord : List String → List String) (pid : String) (o : Owner) (e : Xml) (tag : String) (d : Diagram) :
    Agree (simpleS ord pid o e tag d) (importSimple ord pid o e tag d) := by
  have k := agree_flowNode pid o e d
  have g := agree_gateway pid o e d
  unfold simpleS importSimple
  exact .ite (agree_activity pid o e d) (.ite k.pure (.ite g.pure (.ite g (.ite g.pure (.ite g.pure (.ite k.pure (.ite k.pure (.ite k.pure (.ite k.pure (.ite k.pure rfl))))))))))

theorem conditionsS_eq : ∀ (l : List Xml) (c : Option CondExpr), conditions l c = (conditionsS l c).2.map fun _ => (conditionsS l c).1
  | [], c => rfl
  | x :: r, c => by
    unfold conditions conditionsS
    by_cases h : x.isText = true
    · simp only [h, if_true]
      exact conditionsS_eq r c
    · simp only [h]
      cases x.tagName with
      | error e => rfl
      | ok t =>
        simp only [except_bind_ok]
        by_cases h2 : removeNamespace t = "conditionExpression"
        · simp only [h2, if_true]
          cases x.firstValue with
          | error e => rfl
          | ok v => simpa using conditionsS_eq r _
        · simp only [h2, if_false]
          simpa using conditionsS_eq r c

theorem agree_sequenceFlow (pid : String) (e : Xml) (d : Diagram) : Agree (sequenceFlowS pid e d) (importSequenceFlow pid e d) := by
  unfold sequenceFlowS importSequenceFlow
  rw [conditionsS_eq]
  cases h : (conditionsS e.children none).2 with
  | error x => simp [Agree, Left.andThen, h, Except.map]
  | ok u => simp only [Left.andThen, h]; rfl

theorem agree_flows (pid : String) : ∀ (l : List Xml) (d : Diagram), Agree (flowsS pid l d) (importFlows pid l d)
  | [], d => rfl
  | x :: r, d => by
    unfold flowsS importFlows
    exact .ite (agree_flows pid r d) (.reading fun t => .ite ((agree_sequenceFlow pid x d).andThen (agree_flows pid r)) (agree_flows pid r d))

mutual
theorem agree_element (ord : List String → List String) : ∀ (x : Xml) (pid : String) (o : Owner) (d : Diagram),
    Agree (elementS ord pid o x d) (importElement ord pid o x d)
  | .elem t as ks, pid, o, d => by
    unfold elementS importElement
    exact .ite ((agree_activity pid o _ d).andThen fun d => (agree_elements ord ks _ _ _).andThen (agree_flows _ ks)) (agree_simple ord pid o _ _ d)
  | .text s, pid, o, d => by unfold elementS importElement; rfl
  | .other s, pid, o, d => by unfold elementS importElement; rfl
theorem agree_elements (ord : List String → List String) : ∀ (l : List Xml) (pid : String) (o : Owner) (d : Diagram),
    Agree (elementsS ord pid o l d) (importElements ord pid o l d)
  | [], pid, o, d => by unfold elementsS importElements; rfl
  | x :: r, pid, o, d => by
    unfold elementsS importElements
    exact (agree_element ord x pid o d).andThen (agree_elements ord r pid o)
end

theorem agree_laneSet (plane : Xml) (pid : String) (l : List Xml) (d : Diagram) : Agree (laneSetS plane pid l d) (importLaneSet plane pid l d) := by
  cases l with
  | nil => rfl
  | cons x r => exact .reading fun _ => rfl

theorem agree_processes (ord : List String → List String) (plane : Xml) : ∀ (l : List Xml) (d : Diagram),
    Agree (processesS ord plane l d) (importProcesses ord plane l d)
  | [], d => rfl
  | x :: r, d => by
    unfold processesS importProcesses
    refine Agree.andThen ?_ (agree_processes ord plane r)
    unfold processS importProcess
    exact (agree_laneSet plane _ _ _).andThen fun d => (agree_elements ord _ _ _ d).andThen (agree_flows _ _)

theorem collabKidsS_eq : ∀ (l : List Xml) (d : Diagram) (c : Collab), importCollabKids l d c = (collabKidsS l d c).2.map fun _ => (collabKidsS l d c).1
  | [], d, c => rfl
  | x :: r, d, c => by
    unfold importCollabKids collabKidsS
    by_cases h : x.isText = true
    · simp only [h, if_true]
      exact collabKidsS_eq r d c
    · simp only [h]
      cases x.tagName with
      | error e => rfl
      | ok t =>
        simp only [except_bind_ok]
        by_cases h1 : removeNamespace t = "participant"
        · simp only [h1, if_true]
          simpa using collabKidsS_eq r _ _
        · by_cases h2 : removeNamespace t = "messageFlow"
          · simp only [h2, if_true]
            simpa using collabKidsS_eq r _ _
          · simp only [h1, h2, if_false]
            simpa using collabKidsS_eq r d c

theorem agree_firstCollaboration (l : List Xml) (d : Diagram) : Agree (firstCollaborationS l d) (importFirstCollaboration l d) := by
  cases l with
  | nil => rfl
  | cons x r =>
    change Agree (collaborationS x d) (importCollaboration x d)
    unfold collaborationS importCollaboration
    rw [collabKidsS_eq]
    cases h : (collabKidsS x.children d ⟨x.getAttr "id", [], []⟩).2 with
    | error e => simp [Agree, h, Except.map]
    | ok u => simp [Agree, h, Except.map]

theorem agree_shape (x : Xml) (d : Diagram) : Agree (shapeS x d) (importShape x d) := by
  unfold shapeS importShape
  refine .reading fun b => Agree.andThen ?_ fun d => ?_
  · unfold nodeShapeS importNodeShape
    cases d.graph.nodes.get? (x.getAttr "bpmnElement") with
    | none => rfl
    | some a =>
      refine .reading fun ty => ?_
      simp only [updNode_updNode]
      rfl
  · cases h : d.collaboration <;> simp only <;> rfl

theorem agree_flowDi (x : Xml) (d : Diagram) : Agree (flowDiS x d) (importFlowDi x d) := by
  rw [importFlowDi_data]
  unfold flowDiS
  change Agree (match planeData x d with | none => done d | some (name, src, tgt) => _) _
  cases planeData x d with
  | none => rfl
  | some p =>
    obtain ⟨a, b, c⟩ := p
    exact .ite rfl rfl

theorem agree_plane : ∀ (l : List Xml) (d : Diagram), Agree (planeS l d) (importPlane l d)
  | [], d => rfl
  | x :: r, d => by
    unfold planeS importPlane
    exact .ite (agree_plane r d) (.reading fun t => .ite ((agree_shape x d).andThen (agree_plane r)) (.ite ((agree_flowDi x d).andThen (agree_plane r)) (agree_plane r d)))

/-- The two models of `load_diagram_from_xml` agree. -/
theorem agree_load (ord : List String → List String) (root : Xml) (d : Diagram) : Agree (loadObject ord root d) (load ord root d) := by
  unfold loadObject load
  exact .reading fun diagram => .reading fun plane => (agree_processes ord plane _ _).andThen fun d => (agree_firstCollaboration _ d).andThen (agree_plane _)

/-! ## Relations that are kept, also by an import that raises -/

/-- Both calls return and the objects are related by `Q`, or both raise the same exception and the objects are related by `R`. -/
inductive SRel (Q R : Diagram → Diagram → Prop) : Left → Left → Prop
  | ok {a b : Diagram} (h : Q a b) : SRel Q R (a, .ok ()) (b, .ok ())
  | error {a b : Diagram} (h : R a b) (e : PyErr) : SRel Q R (a, .error e) (b, .error e)

theorem SRel.andThen {Q Q' R : Diagram → Diagram → Prop} {x y : Left} {f g : Diagram → Left} (h : SRel Q R x y)
    (k : ∀ a b, Q a b → SRel Q' R (f a) (g b)) : SRel Q' R (x.andThen f) (y.andThen g) := by
  cases h with
  | ok h => exact k _ _ h
  | error h e => exact .error h e

theorem SRel.reading {α : Type} {Q R : Diagram → Diagram → Prop} {x : Py α} {D E : Diagram} {f g : α → Left} (h : R D E)
    (k : ∀ a, x = .ok a → SRel Q R (f a) (g a)) : SRel Q R (reading x D f) (reading x E g) := by
  cases x with
  | ok a => exact k a rfl
  | error e => exact .error h e

theorem SRel.imp {Q Q' R R' : Diagram → Diagram → Prop} {x y : Left} (h : SRel Q R x y) (i : ∀ a b, Q a b → Q' a b) (j : ∀ a b, R a b → R' a b) : SRel Q' R' x y := by
  cases h with
  | ok h => exact .ok (i _ _ h)
  | error h e => exact .error (j _ _ h) e

theorem SRel.ite {Q R : Diagram → Diagram → Prop} {c : Prop} [Decidable c] {x x' y y' : Left} (h : SRel Q R x y) (h' : SRel Q R x' y') :
    SRel Q R (if c then x else x') (if c then y else y') := by
  by_cases k : c
  · rw [if_pos k, if_pos k]; exact h
  · rw [if_neg k, if_neg k]; exact h'

section
variable {M : String → Prop} {Q : (Fact → Prop) → Diagram → Diagram → Prop} (K : Kept M Q)
include K

theorem Kept.flowNodeS {A : Fact → Prop} {D E : Diagram} (h : Q A D E) (pid : String) (o : Owner) (ho : Owned M A o) (x : Xml)
    (hx : Names M x) : SRel (Q (also A (.here (x.getAttr "id")))) (Q A) (flowNodeS pid o x D) (flowNodeS pid o x E) := by
  unfold Import.flowNodeS
  refine .reading h fun t _ => ?_
  have q1 := K.record (K.upd (K.node h _ (hx.attr _)) (x.getAttr "id") (hx.attr _) (.inl rfl)
    (fun a => { a with id := some (x.getAttr "id"), type := some (removeNamespace t), nodeName := some (x.attrOr "name" ""), process := some pid }) (by tame))
    o (ho.more fun f hf => .inr hf) (x.getAttr "id")
  refine .reading (K.less q1 fun f hf => .inr hf) fun inc _ => ?_
  have q2 := K.upd q1 (x.getAttr "id") (hx.attr _) (.inl rfl) (fun a => { a with incoming := some inc }) (by tame)
  refine .reading (K.less q2 fun f hf => .inr hf) fun out _ => .ok ?_
  exact K.upd q2 (x.getAttr "id") (hx.attr _) (.inl rfl) (fun a => { a with outgoing := some out }) (by tame)

theorem Kept.activityS {A : Fact → Prop} {D E : Diagram} (h : Q A D E) (pid : String) (o : Owner) (ho : Owned M A o) (x : Xml)
    (hx : Names M x) : SRel (Q (also A (.here (x.getAttr "id")))) (Q A) (activityS pid o x D) (activityS pid o x E) :=
  (K.flowNodeS h pid o ho x hx).andThen fun a b q => .ok (K.upd q _ (hx.attr _) (.inl rfl) _ (by tame))

theorem Kept.simpleS {A : Fact → Prop} {D E : Diagram} (h : Q A D E) (ord : List String → List String) (pid : String) (o : Owner)
    (ho : Owned M A o) (x : Xml) (hx : Names M x) (tag : String) :
    SRel (Q A) (Q A) (simpleS ord pid o x tag D) (simpleS ord pid o x tag E) := by
  have k1 := K.flowNodeS h pid o ho x hx
  have u : ∀ {a b : Diagram}, Q (also A (.here (x.getAttr "id"))) a b → ∀ f, Tame f →
    Q (also A (.here (x.getAttr "id"))) (a.updNode (x.getAttr "id") f) (b.updNode (x.getAttr "id") f) := fun q f hf => K.upd q _ (hx.attr _) (.inl rfl) f hf
  have m : ∀ {a b : Diagram}, Q (also A (.here (x.getAttr "id"))) a b → Q A a b := fun q => K.less q fun f hf => .inr hf
  have kg : SRel (Q (also A (.here (x.getAttr "id")))) (Q A) (gatewayS pid o x D) (gatewayS pid o x E) := k1.andThen fun a b q => .ok (u q _ (by tame))
  have e1 : SRel (Q A) (Q A) (Import.activityS pid o x D) (Import.activityS pid o x E) := (K.activityS h pid o ho x hx).imp (fun _ _ => m) fun _ _ => id
  have e2 : SRel (Q A) (Q A) (dataObjectS pid o x D) (dataObjectS pid o x E) := k1.andThen fun a b q => .ok (m (u q _ (by tame)))
  have e3 : SRel (Q A) (Q A) (defaultGatewayS pid o x D) (defaultGatewayS pid o x E) := kg.andThen fun a b q => .ok (m (u q _ (by tame)))
  have e4 : SRel (Q A) (Q A) (eventBasedGatewayS pid o x D) (eventBasedGatewayS pid o x E) := kg.andThen fun a b q => .ok (m (u q _ (by tame)))
  have e5 : SRel (Q A) (Q A) (startEventS ord pid o x D) (startEventS ord pid o x E) :=
    k1.andThen fun a b q => .ok (m (u (u q _ (by tame)) _ (by tame)))
  have e6 : ∀ ty, SRel (Q A) (Q A) (throwEventS ord ty pid o x D) (throwEventS ord ty pid o x E) := fun ty => k1.andThen fun a b q => .ok (m (u q _ (by tame)))
  have e7 : SRel (Q A) (Q A) (catchEventS ord pid o x D) (catchEventS ord pid o x E) :=
    k1.andThen fun a b q => .ok (m (u (u q _ (by tame)) _ (by tame)))
  have e8 : SRel (Q A) (Q A) (boundaryEventS ord pid o x D) (boundaryEventS ord pid o x E) :=
    k1.andThen fun a b q => .ok (m (u (u q _ (by tame)) _ (by tame)))
  have e9 : SRel (Q A) (Q A) (gatewayS pid o x D) (gatewayS pid o x E) := kg.imp (fun _ _ => m) fun _ _ => id
  unfold Import.simpleS
  exact .ite e1 (.ite e2 (.ite e3 (.ite e9 (.ite e4 (.ite e3 (.ite e5 (.ite (e6 _) (.ite e7 (.ite (e6 _) (.ite e8 (.ok h)))))))))))

theorem Kept.sequenceFlowS {A : Fact → Prop} {D E : Diagram} (h : Q A D E) (pid : String) (x : Xml) (hx : Names M x) :
    SRel (Q A) (Q A) (sequenceFlowS pid x D) (sequenceFlowS pid x E) := by
  unfold Import.sequenceFlowS
  generalize conditionsS x.children none = c
  obtain ⟨c, o⟩ := c
  have q := K.edge (K.entry h (x.getAttr "id") (hx.attr _) ⟨x.attrOr "name" "", x.getAttr "sourceRef", x.getAttr "targetRef"⟩ (hx.attr _) (hx.attr _))
    (x.getAttr "sourceRef") (x.getAttr "targetRef") (hx.attr _) (hx.attr _) (fun a =>
    { a with id := some (x.getAttr "id"), process := some pid, name := some (x.attrOr "name" ""), sourceRef := some (x.getAttr "sourceRef"), targetRef := some (x.getAttr "targetRef"),
             conditionExpression := match c with | none => a.conditionExpression | some c => some c }) (by
    intro e a b q
    constructor
    · exact .inl rfl
    · exact .inl rfl
    · exact .inl rfl
    · exact .inl rfl
    · exact .inl rfl
    · cases c with
      | none => exact q.conditionExpression
      | some c => exact .inl rfl
    · exact q.waypoints)
  cases o with
  | error e => exact .error (K.less q fun f hf => .inr (.inr hf)) e
  | ok u =>
    refine .ok (K.less (K.link q _ _ _ (hx.attr _) (hx.attr _) (.inr (.inl rfl)) (.inl rfl)) fun f hf => .inr (.inr hf))

theorem Kept.flowsS {A : Fact → Prop} (pid : String) : ∀ (l : List Xml) {D E : Diagram}, Q A D E → (∀ x ∈ l, Names M x) →
    SRel (Q A) (Q A) (flowsS pid l D) (flowsS pid l E)
  | [], D, E, h, _ => .ok h
  | x :: r, D, E, h, hl => by
    unfold Import.flowsS
    have hr : ∀ y ∈ r, Names M y := fun y hy => hl y (by simp [hy])
    exact .ite (Kept.flowsS pid r h hr) (.reading h fun t _ => .ite ((K.sequenceFlowS h pid x (hl x (by simp))).andThen fun a b q => Kept.flowsS pid r q hr)
      (Kept.flowsS pid r h hr))

mutual
theorem Kept.elementS (ord : List String → List String) : ∀ (x : Xml) (pid : String) (o : Owner) {A : Fact → Prop} {D E : Diagram}, Q A D E →
    Owned M A o → Names M x → SRel (Q A) (Q A) (elementS ord pid o x D) (elementS ord pid o x E)
  | .elem t as ks, pid, o, A, D, E, h, ho, hx => by
    unfold Import.elementS
    refine .ite ?_ (K.simpleS h ord pid o ho _ hx _)
    refine SRel.andThen (K.activityS h pid o ho _ hx) fun a b q => ?_
    have less : ∀ a b, Q (also (also A (.here ((Xml.elem t as ks).getAttr "id"))) (.sameNode ((Xml.elem t as ks).getAttr "id"))) a b → Q A a b :=
      fun a b q => K.less q fun f hf => .inr (.inr hf)
    refine SRel.andThen ((Kept.elementsS ord ks _ (.node ((Xml.elem t as ks).getAttr "id")) (K.sub q _ (hx.attr "id") (.inl rfl) _) ⟨hx.attr "id", .inr (.inl rfl), .inl rfl⟩
      hx.child).imp (fun _ _ => id) less) fun a b q => ?_
    exact (Kept.flowsS K _ ks q hx.child).imp less less
  | .text s, pid, o, A, D, E, h, ho, hx => by unfold Import.elementS; exact .ok h
  | .other s, pid, o, A, D, E, h, ho, hx => by unfold Import.elementS; exact .error h _
theorem Kept.elementsS (ord : List String → List String) : ∀ (l : List Xml) (pid : String) (o : Owner) {A : Fact → Prop} {D E : Diagram}, Q A D E →
    Owned M A o → (∀ x ∈ l, Names M x) → SRel (Q A) (Q A) (elementsS ord pid o l D) (elementsS ord pid o l E)
  | [], pid, o, A, D, E, h, ho, hl => by unfold Import.elementsS; exact .ok h
  | x :: r, pid, o, A, D, E, h, ho, hl => by
    unfold Import.elementsS
    exact (Kept.elementS ord x pid o h ho (hl x (by simp))).andThen fun a b q => Kept.elementsS ord r pid o q ho fun y hy => hl y (by simp [hy])
end

theorem Kept.laneSetS {A : Fact → Prop} (plane : Xml) (pid : String) (hp : M pid) (ha : A (.sameProcess pid)) (l : List Xml)
    (hl : ∀ x ∈ l, Names M x) {D E : Diagram} (h : Q A D E) : SRel (Q A) (Q A) (laneSetS plane pid l D) (laneSetS plane pid l E) := by
  cases l with
  | nil => exact .ok h
  | cons x r =>
    refine .reading h fun ls e => .ok (K.lanes h _ hp ha _ _ ?_)
    exact importLanes_names plane _ _ _ (hl x (by simp)).children (by simp) e

theorem Kept.processesS {A : Fact → Prop} (ord : List String → List String) (plane : Xml) : ∀ (l : List Xml) {D E : Diagram}, Q A D E → (∀ x ∈ l, Names M x) →
    SRel (Q A) (Q A) (processesS ord plane l D) (processesS ord plane l E)
  | [], D, E, h, _ => .ok h
  | x :: r, D, E, h, hl => by
    unfold Import.processesS
    have hx := hl x (by simp)
    refine SRel.andThen (Q := Q A) ?_ fun a b q => Kept.processesS ord plane r q fun y hy => hl y (by simp [hy])
    unfold processS
    have less : ∀ a b, Q (also A (.sameProcess (x.getAttr "id"))) a b → Q A a b := fun a b q => K.less q fun f hf => .inr hf
    refine SRel.andThen ((K.laneSetS plane _ (hx.attr _) (.inl rfl) _ (fun y hy => hx.inside (inside_byName _ _ _ hy)) (K.newProcess h _ (hx.attr _) _ rfl)).imp
      (fun _ _ => id) less) fun a b q => ?_
    refine SRel.andThen ((Kept.elementsS K ord _ _ (.process (x.getAttr "id")) q ⟨hx.attr "id", .inl rfl⟩ hx.children).imp (fun _ _ => id) less) fun a b q => ?_
    exact (Kept.flowsS K _ _ q hx.children).imp less less

theorem Kept.collabKidsS {A : Fact → Prop} : ∀ (l : List Xml) {D E : Diagram} (c : Collab), Q A D E → (∀ x ∈ l, Names M x) →
    CollabNames M c → (collabKidsS l D c).2 = (collabKidsS l E c).2 ∧ (collabKidsS l D c).1.2 = (collabKidsS l E c).1.2 ∧
      CollabNames M (collabKidsS l D c).1.2 ∧ Q A (collabKidsS l D c).1.1 (collabKidsS l E c).1.1
  | [], D, E, c, h, _, hc => ⟨rfl, rfl, hc, h⟩
  | x :: r, D, E, c, h, hl, hc => by
    have hr : ∀ y ∈ r, Names M y := fun y hy => hl y (by simp [hy])
    have hx := hl x (by simp)
    unfold Import.collabKidsS
    by_cases h0 : x.isText = true
    · simp only [h0, if_true]
      exact Kept.collabKidsS r c h hr hc
    · simp only [h0]
      cases x.tagName with
      | error e => exact ⟨rfl, rfl, hc, h⟩
      | ok t =>
        by_cases h1 : removeNamespace t = "participant"
        · simp only [h1, if_true, importParticipant]
          refine Kept.collabKidsS r _ ?_ hr ⟨?_, Dict.nodup_keys_set hc.once _ _, hc.messages⟩
          · split
            · exact K.less (K.upd (K.node h _ (hx.attr _)) _ (hx.attr _) (.inl rfl) _ (by tame)) fun f hf => .inr hf
            · exact h
          · intro k hk
            rcases (Dict.mem_keys_set _ _ _ _).1 hk with e | e
            · rw [e]; exact hx.attr _
            · exact hc.pools k e
        · by_cases h2 : removeNamespace t = "messageFlow"
          · simp only [h2, if_true, importMessageFlow]
            refine Kept.collabKidsS r _ ?_ hr ⟨hc.pools, hc.once, ?_⟩
            · refine K.less (K.link (K.edge h _ _ (hx.attr _) (hx.attr _) _ ?_) _ _ _ (hx.attr _) (hx.attr _) (.inr (.inl rfl)) (.inl rfl)) fun f hf => .inr (.inr hf)
              intro e a b q
              exact ⟨.inl rfl, .inl rfl, q.process, .inl rfl, .inl rfl, q.conditionExpression, q.waypoints⟩
            · intro m hm
              rcases mem_set hm with h1 | h1
              · rw [h1]
                exact ⟨hx.attr _, hx.attr _, hx.attr _⟩
              · exact hc.messages m h1
          · simp only [h1, h2, if_false]
            exact Kept.collabKidsS r c h hr hc

theorem Kept.firstCollabS {A : Fact → Prop} (l : List Xml) {D E : Diagram} (h : Q A D E) (hl : ∀ x ∈ l, Names M x) :
    SRel (Q A) (Q A) (firstCollaborationS l D) (firstCollaborationS l E) := by
  cases l with
  | nil => exact .ok h
  | cons x r =>
    obtain ⟨h1, h2, h3, h4⟩ := Kept.collabKidsS K x.children ⟨x.getAttr "id", [], []⟩ h (hl x (by simp)).children ⟨by simp, by simp, by simp⟩
    have q := K.collab h4 _ h3
    change SRel (Q A) (Q A) (collaborationS x D) (collaborationS x E)
    unfold collaborationS
    simp only
    rw [← h1, ← h2]
    cases (Import.collabKidsS x.children D ⟨x.getAttr "id", [], []⟩).2 with
    | ok u => exact .ok q
    | error e => exact .error q e
end

/-- The relation is kept by the changes made while the plane is read, also by those made before an exception. -/
structure KeptPlaneS (M : String → Prop) (Q : Diagram → Diagram → Prop) : Prop where
  shape : ∀ {D E}, Q D E → ∀ x, Names M x → SRel Q Q (shapeS x D) (shapeS x E)
  flowDi : ∀ {D E}, Q D E → ∀ x, Names M x → SRel Q Q (flowDiS x D) (flowDiS x E)

theorem KeptPlaneS.plane {M : String → Prop} {Q : Diagram → Diagram → Prop} (K : KeptPlaneS M Q) : ∀ (l : List Xml) {D E : Diagram}, Q D E →
    (∀ x ∈ l, Names M x) → SRel Q Q (planeS l D) (planeS l E)
  | [], D, E, h, _ => .ok h
  | x :: r, D, E, h, hl => by
    unfold planeS
    have hr : ∀ y ∈ r, Names M y := fun y hy => hl y (by simp [hy])
    have hx := hl x (by simp)
    exact .ite (KeptPlaneS.plane K r h hr) (.reading h fun t _ => .ite ((K.shape h x hx).andThen fun a b q => KeptPlaneS.plane K r q hr)
      (.ite ((K.flowDi h x hx).andThen fun a b q => KeptPlaneS.plane K r q hr) (KeptPlaneS.plane K r h hr)))

/-- The whole import; `R` is what is known if it raises before the header is set. -/
theorem Kept.loadS {M : String → Prop} {Q : (Fact → Prop) → Diagram → Diagram → Prop} (K : Kept M Q) {A : Fact → Prop} (P : KeptPlaneS M (Q A))
    (ord : List String → List String) (root : Xml) (hr : Names M root) {D E : Diagram}
    (h : ∀ a b c e, Q A { D with diagramId := a, diagramName := b, planeId := c, planeElement := e }
      { E with diagramId := a, diagramName := b, planeId := c, planeElement := e }) :
    SRel (Q A) (fun D' E' => Q A D' E' ∨ (D' = D ∧ E' = E)) (loadObject ord root D) (loadObject ord root E) := by
  unfold loadObject
  refine .reading (.inr ⟨rfl, rfl⟩) fun diagram h1 => .reading (.inr ⟨rfl, rfl⟩) fun plane h2 => ?_
  have hd : Names M diagram := hr.doc _ _ (pyIndex_mem h1)
  have hp : Names M plane := hd.inside (inside_byName _ _ _ (pyIndex_mem h2))
  refine SRel.imp (SRel.andThen (Kept.processesS K ord plane _ (h _ _ _ _) (hr.doc _)) fun a b q => ?_) (fun _ _ => id) fun _ _ => .inl
  exact (K.firstCollabS _ q (hr.doc _)).andThen fun a b q => P.plane _ q hp.children

end Bpmn.Import

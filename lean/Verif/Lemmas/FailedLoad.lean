import Verif.Lemmas.ImportState
import Verif.Lemmas.MergeFrame
set_option linter.unusedSimpArgs false
set_option linter.unusedVariables false
/-!
# What an import that raises leaves behind
-/
namespace Bpmn.Import
open Bpmn Bpmn.Spec

/-- The part of a shape that is set before the type of the node is looked up. -/
def sized (b : Xml) (a : NodeAttrs) : NodeAttrs := { a with width := some (b.getAttr "width"), height := some (b.getAttr "height") }

theorem shapeS_error {x : Xml} {D : Diagram} {e : PyErr} (h : (shapeS x D).2 = .error e) : (boundsOf x = .error e ∧ (shapeS x D).1 = D) ∨
    ∃ b, boundsOf x = .ok b ∧ (shapeS x D).1 = D.updNode (x.getAttr "bpmnElement") (sized b) := by
  cases hb : boundsOf x with
  | error e' =>
    simp only [shapeS, reading, hb] at h ⊢
    exact .inl ⟨congrArg Except.error (Except.error.inj h), trivial⟩
  | ok b =>
    right
    refine ⟨b, rfl, ?_⟩
    simp only [shapeS, reading, hb] at h ⊢
    cases hn : D.graph.nodes.get? (x.getAttr "bpmnElement") with
    | none =>
      simp only [nodeShapeS, hn, Left.andThen, done] at h
      split at h <;> cases h
    | some a =>
      cases ht : a.type with
      | none =>
        simp only [nodeShapeS, hn, ht, reading, need, Left.andThen]
        rfl
      | some ty =>
        simp only [nodeShapeS, hn, ht, reading, need, Left.andThen, done] at h
        split at h <;> cases h

theorem flowDiS_error {x : Xml} {D : Diagram} {e : PyErr} (h : (flowDiS x D).2 = .error e) : (flowDiS x D).1 = D := by
  unfold flowDiS at h ⊢
  change (match planeData x D with | none => done D | some (name, src, tgt) => _).2 = _ at h
  change (match planeData x D with | none => done D | some (name, src, tgt) => _).1 = _
  cases hp : planeData x D with
  | none => rw [hp] at h; cases h
  | some p =>
    obtain ⟨a, s, t⟩ := p
    rw [hp] at h
    simp only at h ⊢
    by_cases c : D.graph.hasEdge s t = true
    · rw [if_pos c] at h; cases h
    · rw [if_neg c]

theorem Agree.of_ok {x : Left} {d : Diagram} (h : Agree x (.ok d)) : x = (d, .ok ()) := by
  obtain ⟨a, o⟩ := x
  cases o with
  | ok u => exact congrArg (·, _) (Except.ok.inj h).symm
  | error e => cases h

theorem Agree.of_error {x : Left} {e : PyErr} (h : Agree x (.error e)) : x.2 = .error e := by
  obtain ⟨a, o⟩ := x
  cases o with
  | ok u => cases h
  | error e' => rw [Except.error.inj h]

theorem keptPlaneS_of {M : String → Prop} {Q : Diagram → Diagram → Prop} (P : KeptPlane M Q)
    (u : ∀ {D E}, Q D E → ∀ k, M k → ∀ b, Q (D.updNode k (sized b)) (E.updNode k (sized b))) : KeptPlaneS M Q where
  shape := by
    intro D E q x hx
    have r := P.shape q x hx
    have aD := agree_shape x D
    have aE := agree_shape x E
    generalize hD : importShape x D = oD at r aD
    generalize hE : importShape x E = oE at r aE
    cases r with
    | ok r =>
      rw [aD.of_ok, aE.of_ok]
      exact .ok r
    | error e =>
      have k : ∀ (l : Left), l.2 = .error e → l = (l.1, .error e) := fun l h => by rw [← h]
      rw [k _ aD.of_error, k _ aE.of_error]
      refine .error ?_ e
      rcases shapeS_error aD.of_error with ⟨h1, h2⟩ | ⟨b, h1, h2⟩
      · rcases shapeS_error aE.of_error with ⟨h3, h4⟩ | ⟨b', h3, h4⟩
        · rw [h2, h4]; exact q
        · rw [h1] at h3; cases h3
      · rcases shapeS_error aE.of_error with ⟨h3, h4⟩ | ⟨b', h3, h4⟩
        · rw [h1] at h3; cases h3
        · rw [h1] at h3
          cases h3
          rw [h2, h4]
          exact u q _ (hx.attr _) b
  flowDi := by
    intro D E q x hx
    have r := P.flowDi q x hx
    have aD := agree_flowDi x D
    have aE := agree_flowDi x E
    generalize hD : importFlowDi x D = oD at r aD
    generalize hE : importFlowDi x E = oE at r aE
    cases r with
    | ok r =>
      rw [aD.of_ok, aE.of_ok]
      exact .ok r
    | error e =>
      have k : ∀ (l : Left), l.2 = .error e → l = (l.1, .error e) := fun l h => by rw [← h]
      rw [k _ aD.of_error, k _ aE.of_error, flowDiS_error aD.of_error, flowDiS_error aE.of_error]
      exact .error q e

theorem Steady.loadS {M : String → Prop} {Q : Diagram → Diagram → Prop} (K : Steady M Q) (ord : List String → List String) (root : Xml)
    (hr : Names M root) {D E : Diagram}
    (h : ∀ a b c e, Q { D with diagramId := a, diagramName := b, planeId := c, planeElement := e }
      { E with diagramId := a, diagramName := b, planeId := c, planeElement := e }) :
    SRel Q (fun D' E' => Q D' E' ∨ (D' = D ∧ E' = E)) (loadObject ord root D) (loadObject ord root E) :=
  K.kept.loadS (A := fun _ => False) (keptPlaneS_of K.plane fun q k hk b => K.upd q k hk _) ord root hr h

theorem SRel.related {Q R : Diagram → Diagram → Prop} {x y : Left} (h : SRel Q R x y) : x.2 = y.2 ∧ (Q x.1 y.1 ∨ R x.1 y.1) := by
  cases h with
  | ok h => exact ⟨rfl, .inl h⟩
  | error h e => exact ⟨rfl, .inr h⟩

theorem Steady.holdsS {M : String → Prop} {P : Diagram → Prop} (K : Steady M (fun D E => D = E ∧ P D)) (ord : List String → List String) (root : Xml)
    (hr : Names M root) {D : Diagram} (h0 : P D) (h : ∀ a b c e, P { D with diagramId := a, diagramName := b, planeId := c, planeElement := e }) :
    P (loadObject ord root D).1 := by
  rcases (K.loadS ord root hr (D := D) (E := D) fun a b c e => ⟨rfl, h a b c e⟩).related.2 with h | h | h
  · exact h.2
  · exact h.2
  · rw [h.1]; exact h0

theorem loadObject_once (ord : List String → List String) (root : Xml) {d : Diagram} (hd : EachKeyOnce d) : EachKeyOnce (loadObject ord root d).1 :=
  steady_once.holdsS ord root (names_any root) hd fun a b c e => ⟨hd.nodes, hd.edges, hd.table, hd.processes, hd.pools⟩

/-! ## Once more -/

theorem Plane2.sized {e D E : Diagram} (q : Plane2 e D E) (k : String) (b : Xml) : Plane2 e (D.updNode k (sized b)) (E.updNode k (Import.sized b)) := by
  refine ⟨((sameCore_updNode D k (Import.sized b) fun _ => rfl).symm.trans q.core).trans (sameCore_updNode E k (Import.sized b) fun _ => rfl), fun n => ?_, q.once, q.eview, q.pools⟩
  by_cases h : k ∈ D.graph.nodes.keys
  · rw [view_updNode _ _ _ _ h, view_updNode _ _ _ _ (q.core.keys ▸ h)]
    have hn := q.view n
    split
    · constructor <;> first
        | exact Or.inl rfl | exact hn.id | exact hn.type | exact hn.nodeName | exact hn.incoming | exact hn.outgoing | exact hn.process
        | exact hn.width | exact hn.height | exact hn.x | exact hn.y | exact hn.isExpanded
        | exact hn.triggeredByEvent
        | exact hn.parallelMultiple | exact hn.isInterrupting | exact hn.cancelActivity | exact hn.attachedToRef
        | exact hn.eventDefinitions | exact hn.gatewayDirection | exact hn.default | exact hn.instantiate | exact hn.eventGatewayType
        | exact hn.isCollection | exact hn.nodeIds
    · exact hn
  · have h1 : ∀ F : Diagram, k ∉ F.graph.nodes.keys → F.updNode k (Import.sized b) = F := by
      intro F hF
      simp only [Diagram.updNode, Graph.modifyNode]
      rw [Dict.modify_of_not_mem _ _ hF]
    rw [h1 D h, h1 E (q.core.keys ▸ h)]
    exact q.view n

theorem sameCore_planeS : ∀ (l : List Xml) (D : Diagram), SameCore D (planeS l D).1
  | [], D => .refl D
  | x :: r, D => by
    have shape : SameCore D (shapeS x D).1 := by
      have a := agree_shape x D
      cases h : importShape x D with
      | ok D' => rw [h] at a; rw [a.of_ok]; exact sameCore_shape h
      | error e =>
        rw [h] at a
        rcases shapeS_error a.of_error with ⟨_, h2⟩ | ⟨b, _, h2⟩
        · rw [h2]; exact .refl D
        · rw [h2]; exact sameCore_updNode D _ _ fun _ => rfl
    have flow : SameCore D (flowDiS x D).1 := by
      have a := agree_flowDi x D
      cases h : importFlowDi x D with
      | ok D' => rw [h] at a; rw [a.of_ok]; exact sameCore_flowDi h
      | error e => rw [h] at a; rw [flowDiS_error a.of_error]; exact .refl D
    have next : ∀ y : Left, SameCore D y.1 → SameCore D (y.andThen (planeS r)).1 := by
      intro y h
      unfold Left.andThen
      split
      · exact h.trans (sameCore_planeS r y.1)
      · exact h
    unfold planeS
    split
    · exact sameCore_planeS r D
    · cases x.tagName with
      | error e => exact .refl D
      | ok t =>
        simp only [reading]
        split
        · exact next _ shape
        · split
          · exact next _ flow
          · exact sameCore_planeS r D

theorem SRel.end {Q : Diagram → Diagram → Prop} {x y : Left} (h : SRel Q Q x y) : x.2 = y.2 ∧ Q x.1 y.1 := by
  cases h with
  | ok h => exact ⟨rfl, h⟩
  | error h e => exact ⟨rfl, h⟩

/-- Loading the document once more ends in the same way and changes nothing. -/
theorem loadObject_again (ord : List String → List String) (root : Xml) {d : Diagram} (hd : EachKeyOnce d) :
    loadObject ord root (loadObject ord root d).1 = loadObject ord root d := by
  have he := loadObject_once ord root hd
  generalize h : loadObject ord root d = r at he ⊢
  obtain ⟨e, o⟩ := r
  simp only at he ⊢
  unfold loadObject at h ⊢
  cases h1 : pyIndex (Xml.byNameIn "BPMNDiagram" [root]) 0 with
  | error x =>
    rw [h1] at h
    simp only [reading, Prod.mk.injEq] at h ⊢
    exact ⟨trivial, h.2⟩
  | ok diagram =>
    rw [h1] at h
    simp only [reading] at h ⊢
    cases h2 : pyIndex (diagram.byName "BPMNPlane") 0 with
    | error x =>
      rw [h2] at h
      simp only [Prod.mk.injEq] at h ⊢
      exact ⟨trivial, h.2⟩
    | ok plane =>
      rw [h2] at h
      simp only at h ⊢
      have q0 : Again e (fun _ => False)
          { d with diagramId := some (diagram.getAttr "id"), diagramName := some (diagram.attrOr "name" ""), planeId := some (plane.getAttr "id"), planeElement := some (plane.getAttr "bpmnElement") }
          { e with diagramId := some (diagram.getAttr "id"), diagramName := some (diagram.attrOr "name" ""), planeId := some (plane.getAttr "id"), planeElement := some (plane.getAttr "bpmnElement") } :=
        ⟨.refl _ he.nodes, fun n => Toward.of_end _ _, ⟨⟨[], by simp, by simp⟩, he.edges, fun u v => EToward.of_end _ _⟩, .refl _ he.table, fun _ => .inr rfl,
          .refl _ he.processes, fun _ => .inr rfl, .inr rfl, ⟨rfl, rfl, rfl, rfl⟩, fun _ h => h.elim, fun _ h => h.elim, fun _ h => h.elim⟩
      have all : ∀ (l : List Xml), ∀ x ∈ l, Names (fun _ => True) x := fun l x _ => names_any x
      have fin : ∀ {A : Fact → Prop} {E : Diagram}, Again e A e E → E = e := fun q => (q.toPlane (.refl e)).done he
      have r1 := Kept.processesS (Again.kept e) ord plane (Xml.byNameIn "process" [root]) q0 (all _)
      revert h r1
      generalize processesS ord plane (Xml.byNameIn "process" [root]) _ = x1
      generalize processesS ord plane (Xml.byNameIn "process" [root]) _ = y1
      intro h r1
      cases r1 with
      | error q x =>
        simp only [Left.andThen, Prod.mk.injEq] at h ⊢
        obtain ⟨rfl, rfl⟩ := h
        exact ⟨fin q, rfl⟩
      | ok q =>
        simp only [Left.andThen] at h ⊢
        have r2 := Kept.firstCollabS (Again.kept e) (Xml.byNameIn "collaboration" [root]) q (all _)
        revert h r2
        generalize firstCollaborationS (Xml.byNameIn "collaboration" [root]) _ = x2
        generalize firstCollaborationS (Xml.byNameIn "collaboration" [root]) _ = y2
        intro h r2
        cases r2 with
        | error q x =>
          simp only [Prod.mk.injEq] at h ⊢
          obtain ⟨rfl, rfl⟩ := h
          exact ⟨fin q, rfl⟩
        | ok q =>
          simp only at h ⊢
          rename_i D2 E2
          have core := sameCore_planeS plane.children D2
          rw [h] at core
          have r3 := ((keptPlaneS_of (Plane2.kept e) fun q k _ b => q.sized k b).plane plane.children (q.toPlane core) (all _)).end
          rw [h] at r3
          rw [← Prod.eta (planeS plane.children E2), ← r3.1, r3.2.done he]

theorem loadObject_header (ord : List String → List String) {root diagram plane : Xml} (d : Diagram)
    (hd : (Xml.byNameIn "BPMNDiagram" [root]).head? = some diagram) (hp : (diagram.byName "BPMNPlane").head? = some plane) :
    (loadObject ord root d).1.diagramId = some (diagram.getAttr "id") ∧ (loadObject ord root d).1.diagramName = some (diagram.attrOr "name" "") ∧
      (loadObject ord root d).1.planeId = some (plane.getAttr "id") ∧ (loadObject ord root d).1.planeElement = some (plane.getAttr "bpmnElement") := by
  have i1 : pyIndex (Xml.byNameIn "BPMNDiagram" [root]) 0 = .ok diagram := by
    simp only [pyIndex, ← List.head?_eq_getElem?, hd]
  have i2 : pyIndex (diagram.byName "BPMNPlane") 0 = .ok plane := by
    simp only [pyIndex, ← List.head?_eq_getElem?, hp]
  have any : ∀ x, Names (fun _ => True) x := fun _ _ _ _ => trivial
  have K := kept_header (fun _ => True) (some (diagram.getAttr "id")) (some (diagram.attrOr "name" "")) (some (plane.getAttr "id")) (some (plane.getAttr "bpmnElement"))
  simp only [loadObject, i1, i2, reading]
  have key : ∀ {P : Diagram → Prop} {x : Left}, SRel (fun D E => D = E ∧ P D) (fun D E => D = E ∧ P D) x x → P x.1 := fun h => h.end.2.2
  refine key (P := fun e => e.diagramId = some (diagram.getAttr "id") ∧ e.diagramName = some (diagram.attrOr "name" "") ∧
    e.planeId = some (plane.getAttr "id") ∧ e.planeElement = some (plane.getAttr "bpmnElement")) ?_
  refine SRel.andThen (Kept.processesS K.kept (A := fun _ => False) ord plane _ ⟨rfl, rfl, rfl, rfl, rfl⟩ fun x _ => any x) fun a b q => ?_
  exact (K.kept.firstCollabS (A := fun _ => False) _ q fun x _ => any x).andThen fun a b q =>
    (keptPlaneS_of K.plane fun q k hk b => K.upd q k hk _).plane _ q fun x _ => any x

/-- Without a diagram or a plane nothing is changed. -/
theorem loadObject_index (ord : List String → List String) (root : Xml) (d : Diagram)
    (h : ∀ diagram, (Xml.byNameIn "BPMNDiagram" [root]).head? = some diagram → (diagram.byName "BPMNPlane").head? = none) :
    loadObject ord root d = (d, .error .indexError) := by
  cases hd : (Xml.byNameIn "BPMNDiagram" [root]).head? with
  | none =>
    simp only [loadObject, pyIndex, ← List.head?_eq_getElem?, hd, reading]
  | some diagram =>
    simp only [loadObject, pyIndex, ← List.head?_eq_getElem?, hd, h diagram hd, reading]

end Bpmn.Import

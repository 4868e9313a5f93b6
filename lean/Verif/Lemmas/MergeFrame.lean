import Verif.Lemmas.Merge
set_option linter.unusedSimpArgs false
set_option linter.unusedVariables false
/-!
# What a document does not mention is not touched
-/
namespace Bpmn.Import
open Bpmn Bpmn.Spec

theorem Rel.of_eq {P : Diagram → Prop} {x : Py Diagram} (h : ∀ a, x = .ok a → P a) : Rel (fun D E => D = E ∧ P D) x x := by
  cases x with
  | ok a => exact .ok ⟨rfl, h a rfl⟩
  | error e => exact .error e

theorem get?_addNode (g : Graph) {n k : String} (h : k ≠ n) : (g.addNode k).nodes.get? n = g.nodes.get? n := by
  unfold Graph.addNode
  split
  · rfl
  · rw [Dict.get?_append]
    simp [Dict.get?, h]

theorem get?_addEdge (g : Graph) {n s t : String} (h : s ≠ n) (h' : t ≠ n) : (g.addEdge s t).nodes.get? n = g.nodes.get? n := by
  unfold Graph.addEdge
  simp only
  split
  · rw [get?_addNode _ h', get?_addNode _ h]
  · simp only [get?_addNode _ h', get?_addNode _ h]

theorem importShape_parts {x : Xml} {D D' : Diagram} (h : importShape x D = .ok D') : D'.sequenceFlows = D.sequenceFlows ∧
    D'.processElements = D.processElements ∧ D'.graph.edges = D.graph.edges ∧
    (D'.collaboration.map (·.messageFlows)) = (D.collaboration.map (·.messageFlows)) ∧
    ∀ n, n ≠ x.getAttr "bpmnElement" → D'.graph.nodes.get? n = D.graph.nodes.get? n := by
  unfold importShape at h
  obtain ⟨b, _, h⟩ := except_bind_eq_ok h
  obtain ⟨D1, h1, h⟩ := except_bind_eq_ok h
  have k : D1.sequenceFlows = D.sequenceFlows ∧ D1.processElements = D.processElements ∧ D1.graph.edges = D.graph.edges ∧
      D1.collaboration = D.collaboration ∧ ∀ n, n ≠ x.getAttr "bpmnElement" → D1.graph.nodes.get? n = D.graph.nodes.get? n := by
    unfold importNodeShape at h1
    split at h1
    · rw [← Except.ok.inj h1]
      exact ⟨rfl, rfl, rfl, rfl, fun _ _ => rfl⟩
    · obtain ⟨ty, _, h1⟩ := except_bind_eq_ok h1
      rw [← Except.ok.inj h1]
      refine ⟨rfl, rfl, rfl, rfl, fun n hn => ?_⟩
      simp only [Diagram.updNode, Graph.modifyNode]
      exact Dict.get?_modify_ne _ _ (Ne.symm hn)
  split at h
  · rw [← Except.ok.inj h, ← k.1]
    exact ⟨rfl, k.2.1, k.2.2.1, by rw [k.2.2.2.1], k.2.2.2.2⟩
  · rename_i c hc
    rw [← Except.ok.inj h]
    refine ⟨k.1, k.2.1, k.2.2.1, ?_, k.2.2.2.2⟩
    rw [← k.2.2.2.1, hc]
    rfl

/-- The flow that an edge of the plane refers to. -/
theorem importFlowDi_parts {x : Xml} {D D' : Diagram} (h : importFlowDi x D = .ok D') : D' = D ∨ ∃ s t f,
    D' = { D with graph := D.graph.modifyEdge s t f } ∧ ((∃ e, D.sequenceFlows.get? (x.getAttr "bpmnElement") = some e ∧ e.sourceRef = s ∧ e.targetRef = t) ∨
      ∃ c m, D.collaboration = some c ∧ c.messageFlows.get? (x.getAttr "bpmnElement") = some m ∧ m.sourceRef = s ∧ m.targetRef = t) := by
  unfold importFlowDi at h
  cases e : D.sequenceFlows.get? (x.getAttr "bpmnElement") with
  | some f =>
    simp only [e] at h
    split at h
    · right
      exact ⟨_, _, _, (Except.ok.inj h).symm, .inl ⟨f, rfl, rfl, rfl⟩⟩
    · cases h
  | none =>
    simp only [e] at h
    cases hc : D.collaboration with
    | none =>
      simp only [hc] at h
      left
      rw [← Except.ok.inj h]
    | some c =>
      simp only [hc] at h
      cases hm : c.messageFlows.get? (x.getAttr "bpmnElement") with
      | none =>
        simp only [hm, Option.map_none] at h
        left
        rw [← Except.ok.inj h]
      | some m =>
        simp only [hm, Option.map_some] at h
        split at h
        · right
          exact ⟨_, _, _, (Except.ok.inj h).symm, .inr ⟨c, m, rfl, hm, rfl, rfl⟩⟩
        · cases h

/-- Entries under other names stay. -/
theorem kept_entries (d : Diagram) (M : String → Prop) (n : String) (hn : ¬ M n) : Steady M (fun D E => D = E ∧
    D.graph.nodes.get? n = d.graph.nodes.get? n ∧ D.sequenceFlows.get? n = d.sequenceFlows.get? n ∧
    D.processElements.get? n = d.processElements.get? n) := by
  have ne : ∀ {k}, M k → k ≠ n := fun hk e => hn (e ▸ hk)
  refine { upd := ?_, node := ?_, process := ?_, newProcess := ?_, entry := ?_, edge := ?_, collab := ?_, shape := ?_, flowDi := ?_ }
  · rintro D E ⟨rfl, h1, h2, h3⟩ k hk f
    refine ⟨rfl, ?_, h2, h3⟩
    rw [← h1]
    simp only [Diagram.updNode, Graph.modifyNode]
    exact Dict.get?_modify_ne _ _ (ne hk)
  · rintro D E ⟨rfl, h1, h2, h3⟩ k hk
    exact ⟨rfl, by rw [← h1]; exact get?_addNode _ (ne hk), h2, h3⟩
  · rintro D E ⟨rfl, h1, h2, h3⟩ k hk f hf
    exact ⟨rfl, h1, h2, by rw [← h3]; exact Dict.get?_modify_ne _ _ (ne hk)⟩
  · rintro D E ⟨rfl, h1, h2, h3⟩ k hk a ha
    exact ⟨rfl, h1, h2, by rw [← h3]; exact Dict.get?_set_ne _ _ (ne hk)⟩
  · rintro D E ⟨rfl, h1, h2, h3⟩ k hk f hs ht
    exact ⟨rfl, h1, by rw [← h2]; exact Dict.get?_set_ne _ _ (ne hk), h3⟩
  · rintro D E ⟨rfl, h1, h2, h3⟩ s t hs ht f
    exact ⟨rfl, by rw [← h1]; exact get?_addEdge _ (ne hs) (ne ht), h2, h3⟩
  · rintro D E ⟨rfl, h1, h2, h3⟩ c hc
    exact ⟨rfl, h1, h2, h3⟩
  · rintro D E ⟨rfl, h1, h2, h3⟩ x hx
    refine Rel.of_eq fun D' h => ?_
    obtain ⟨k1, k2, k3, k4, k5⟩ := importShape_parts h
    exact ⟨by rw [k5 n (Ne.symm (ne (hx.attr _))), h1], by rw [k1, h2], by rw [k2, h3]⟩
  · rintro D E ⟨rfl, h1, h2, h3⟩ x hx
    refine Rel.of_eq fun D' h => ?_
    rcases importFlowDi_parts h with rfl | ⟨s, t, f, rfl, _⟩
    · exact ⟨h1, h2, h3⟩
    · exact ⟨h1, h2, h3⟩

theorem joins_samePair (e : Edge) (a b : String) : e.joins a b = true ↔ SamePair e.u e.v a b := by
  simp [Edge.joins, SamePair]

theorem find?_modifyEdge {g : Graph} {s t u v : String} (f : EdgeAttrs → EdgeAttrs) (h : ¬ SamePair s t u v) :
    (g.modifyEdge s t f).edges.find? (·.joins u v) = g.edges.find? (·.joins u v) := by
  simp only [Graph.modifyEdge]
  induction g.edges with
  | nil => rfl
  | cons e r ih =>
    rw [List.map_cons, List.find?_cons, List.find?_cons, ih]
    by_cases c : e.joins s t
    · have c' : e.joins u v = false := by
        by_contra hh
        rw [Bool.not_eq_false, joins_samePair] at hh
        rw [joins_samePair] at c
        apply h
        rcases c with ⟨c1, c2⟩ | ⟨c1, c2⟩ <;> rcases hh with ⟨k1, k2⟩ | ⟨k1, k2⟩ <;> simp [SamePair, ← c1, ← c2, ← k1, ← k2]
      have c2 : ({ e with attrs := f e.attrs } : Edge).joins u v = false := c'
      simp [c, c', c2]
    · simp [c]

theorem find?_addEdge {g : Graph} {s t u v : String} (h : ¬ SamePair s t u v) :
    (g.addEdge s t).edges.find? (·.joins u v) = g.edges.find? (·.joins u v) := by
  have e1 : ∀ (g : Graph) k, (g.addNode k).edges = g.edges := by
    intro g k
    unfold Graph.addNode
    split <;> rfl
  unfold Graph.addEdge
  simp only
  split
  · rw [e1, e1]
  · simp only [e1]
    rw [List.find?_append]
    have : ([⟨s, t, {}⟩] : List Edge).find? (·.joins u v) = none := by
      rw [List.find?_eq_none]
      intro e he
      rw [List.mem_singleton] at he
      rw [he, joins_samePair]
      exact h
    rw [this, Option.or_none]

/-- Flows that no name refers to stay. -/
theorem kept_flow (d : Diagram) (M : String → Prop) (u v : String) (hn : ¬ (M u ∧ M v)) : Steady M (fun D E => D = E ∧
    D.graph.edges.find? (·.joins u v) = d.graph.edges.find? (·.joins u v) ∧
    (∀ i f, M i → D.sequenceFlows.get? i = some f → ¬ SamePair f.sourceRef f.targetRef u v) ∧
    ∀ k, (D.collaboration.map (·.messageFlows)) = some k → ∀ i m, M i → k.get? i = some m → ¬ SamePair m.sourceRef m.targetRef u v) := by
  have ne : ∀ {s t}, M s → M t → ¬ SamePair s t u v := by
    rintro s t hs ht (⟨rfl, rfl⟩ | ⟨rfl, rfl⟩)
    · exact hn ⟨hs, ht⟩
    · exact hn ⟨ht, hs⟩
  have en : ∀ (g : Graph) k, (g.addNode k).edges = g.edges := by
    intro g k
    unfold Graph.addNode
    split <;> rfl
  refine { upd := ?_, node := ?_, process := ?_, newProcess := ?_, entry := ?_, edge := ?_, collab := ?_, shape := ?_, flowDi := ?_ }
  · rintro D E ⟨rfl, h1, h2, h3⟩ k hk f
    exact ⟨rfl, h1, h2, h3⟩
  · rintro D E ⟨rfl, h1, h2, h3⟩ k hk
    exact ⟨rfl, by rw [← h1, en], h2, h3⟩
  · rintro D E ⟨rfl, h1, h2, h3⟩ k hk f hf
    exact ⟨rfl, h1, h2, h3⟩
  · rintro D E ⟨rfl, h1, h2, h3⟩ k hk a ha
    exact ⟨rfl, h1, h2, h3⟩
  · rintro D E ⟨rfl, h1, h2, h3⟩ k hk f hs ht
    refine ⟨rfl, h1, ?_, h3⟩
    intro i f' hi hf
    rw [Dict.get?_set] at hf
    split at hf
    · rw [← Option.some.inj hf]
      exact ne hs ht
    · exact h2 i f' hi hf
  · rintro D E ⟨rfl, h1, h2, h3⟩ s t hs ht f
    exact ⟨rfl, by rw [← h1, find?_modifyEdge f (ne hs ht), find?_addEdge (ne hs ht)], h2, h3⟩
  · rintro D E ⟨rfl, h1, h2, h3⟩ c hc
    refine ⟨rfl, h1, h2, ?_⟩
    intro k hk i m hi hm
    simp only [Option.map_some, Option.some.injEq] at hk
    subst hk
    have := hc.messages _ (Dict.mem_of_get? hm)
    exact ne this.2.1 this.2.2
  · rintro D E ⟨rfl, h1, h2, h3⟩ x hx
    refine Rel.of_eq fun D' h => ?_
    obtain ⟨k1, k2, k3, k4, k5⟩ := importShape_parts h
    exact ⟨by rw [k3, h1], by rw [k1]; exact h2, by rw [k4]; exact h3⟩
  · rintro D E ⟨rfl, h1, h2, h3⟩ x hx
    refine Rel.of_eq fun D' h => ?_
    rcases importFlowDi_parts h with rfl | ⟨s, t, f, rfl, hw⟩
    · exact ⟨h1, h2, h3⟩
    · refine ⟨?_, h2, h3⟩
      rw [← h1]
      refine find?_modifyEdge f ?_
      rcases hw with ⟨e, he, rfl, rfl⟩ | ⟨c, m, hc, hm, rfl, rfl⟩
      · exact h2 _ e (hx.attr _) he
      · exact h3 c.messageFlows (by rw [hc]; rfl) _ m (hx.attr _) hm

end Bpmn.Import

namespace Bpmn.Import
open Bpmn Bpmn.Spec

theorem flowBetween_eq (d : Diagram) (u v : String) : flowBetween d u v = (d.graph.edges.find? (·.joins u v)).map (·.attrs) := by
  unfold flowBetween
  have : (fun e : Edge => decide (SamePair e.u e.v u v)) = fun e => e.joins u v := by
    funext e
    rw [Bool.eq_iff_iff, joins_samePair, decide_eq_true_eq]
  rw [this]

/-- The header is set once. -/
theorem kept_header (M : String → Prop) (a b c e : Option String) : Steady M (fun D E => D = E ∧
    D.diagramId = a ∧ D.diagramName = b ∧ D.planeId = c ∧ D.planeElement = e) := by
  have sh : ∀ {x : Xml} {D D' : Diagram}, importShape x D = .ok D' → D'.diagramId = D.diagramId ∧ D'.diagramName = D.diagramName ∧
      D'.planeId = D.planeId ∧ D'.planeElement = D.planeElement := by
    intro x D D' h
    unfold importShape at h
    obtain ⟨b, _, h⟩ := except_bind_eq_ok h
    obtain ⟨D1, h1, h⟩ := except_bind_eq_ok h
    have k : D1.diagramId = D.diagramId ∧ D1.diagramName = D.diagramName ∧ D1.planeId = D.planeId ∧ D1.planeElement = D.planeElement := by
      unfold importNodeShape at h1
      split at h1
      · rw [← Except.ok.inj h1]
        exact ⟨rfl, rfl, rfl, rfl⟩
      · obtain ⟨ty, _, h1⟩ := except_bind_eq_ok h1
        rw [← Except.ok.inj h1]
        exact ⟨rfl, rfl, rfl, rfl⟩
    split at h
    · rw [← Except.ok.inj h]
      exact k
    · rw [← Except.ok.inj h]
      exact k
  refine { upd := ?_, node := ?_, process := ?_, newProcess := ?_, entry := ?_, edge := ?_, collab := ?_, shape := ?_, flowDi := ?_ }
  · rintro D E ⟨rfl, h⟩ k hk f
    exact ⟨rfl, h⟩
  · rintro D E ⟨rfl, h⟩ k hk
    exact ⟨rfl, h⟩
  · rintro D E ⟨rfl, h⟩ k hk f hf
    exact ⟨rfl, h⟩
  · rintro D E ⟨rfl, h⟩ k hk a ha
    exact ⟨rfl, h⟩
  · rintro D E ⟨rfl, h⟩ k hk f hs ht
    exact ⟨rfl, h⟩
  · rintro D E ⟨rfl, h⟩ s t hs ht f
    exact ⟨rfl, h⟩
  · rintro D E ⟨rfl, h⟩ c hc
    exact ⟨rfl, h⟩
  · rintro D E ⟨rfl, h⟩ x hx
    refine Rel.of_eq fun D' h' => ?_
    obtain ⟨k1, k2, k3, k4⟩ := sh h'
    rw [k1, k2, k3, k4]
    exact h
  · rintro D E ⟨rfl, h⟩ x hx
    refine Rel.of_eq fun D' h' => ?_
    rcases importFlowDi_parts h' with rfl | ⟨s, t, f, rfl, hw⟩
    · exact h
    · exact h

theorem Rel.holds {P : Diagram → Prop} {x : Py Diagram} {e : Diagram} (h : Rel (fun D E => D = E ∧ P D) x x) (hx : x = .ok e) : P e := by
  rw [hx] at h
  cases h with
  | ok h => exact h.2

theorem load_header {ord : List String → List String} {root diagram plane : Xml} {d e : Diagram} (h : load ord root d = .ok e)
    (hd : (Xml.byNameIn "BPMNDiagram" [root]).head? = some diagram) (hp : (diagram.byName "BPMNPlane").head? = some plane) :
    e.diagramId = some (diagram.getAttr "id") ∧ e.diagramName = some (diagram.attrOr "name" "") ∧ e.planeId = some (plane.getAttr "id") ∧
      e.planeElement = some (plane.getAttr "bpmnElement") := by
  have i1 : pyIndex (Xml.byNameIn "BPMNDiagram" [root]) 0 = .ok diagram := by
    simp only [pyIndex, ← List.head?_eq_getElem?, hd]
  have i2 : pyIndex (diagram.byName "BPMNPlane") 0 = .ok plane := by
    simp only [pyIndex, ← List.head?_eq_getElem?, hp]
  have any : ∀ x, Names (fun _ => True) x := fun _ _ _ _ => trivial
  simp only [load, i1, i2, except_bind_ok] at h
  have K := kept_header (fun _ => True) (some (diagram.getAttr "id")) (some (diagram.attrOr "name" "")) (some (plane.getAttr "id")) (some (plane.getAttr "bpmnElement"))
  refine Rel.holds (P := fun e => e.diagramId = some (diagram.getAttr "id") ∧ e.diagramName = some (diagram.attrOr "name" "") ∧
    e.planeId = some (plane.getAttr "id") ∧ e.planeElement = some (plane.getAttr "bpmnElement")) ?_ h
  refine (Kept.processes K.kept (A := fun _ => False) ord plane _ ⟨rfl, rfl, rfl, rfl, rfl⟩ fun x _ => any x).bind fun a b q => ?_
  exact (K.kept.firstCollab (A := fun _ => False) _ q fun x _ => any x).bind fun a b q => K.plane.plane _ q fun x _ => any x

end Bpmn.Import

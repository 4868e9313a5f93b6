import Verif.Lemmas.AgainPlane
set_option linter.unusedSimpArgs false
set_option linter.unusedVariables false
/-!
# Loading the same document once more: the whole import
-/
namespace Bpmn.Import
open Bpmn Bpmn.Spec

theorem Toward.of_end (e a : NodeAttrs) : Toward e a e := by
  constructor
  case incoming => exact .inr ⟨[], rfl, by simp⟩
  case outgoing => exact .inr ⟨[], rfl, by simp⟩
  all_goals exact .inr rfl

theorem EToward.of_end (e a : EdgeAttrs) : EToward e a e := ⟨.inr rfl, .inr rfl, .inr rfl, .inr rfl, .inr rfl, .inr rfl, .inr rfl⟩

theorem nodup_addNode {g : Graph} (h : g.nodes.keys.Nodup) (n : String) : (g.addNode n).nodes.keys.Nodup := by
  rw [keys_addNode_eq]
  split
  · exact h
  · rename_i c
    rw [List.nodup_append]
    refine ⟨h, by simp, fun a ha b hb => ?_⟩
    rw [List.mem_singleton] at hb
    rw [hb]
    exact fun e => c (e ▸ ha)

theorem once_written {es : List Edge} (h : es.Pairwise fun a b => ¬ SamePair a.u a.v b.u b.v) (s t : String) (f : EdgeAttrs → EdgeAttrs) :
    (written es s t f).Pairwise fun a b => ¬ SamePair a.u a.v b.u b.v := by
  refine once_touched ?_ s t f
  split
  · exact h
  · rename_i c
    rw [List.pairwise_append]
    refine ⟨h, by simp, fun a ha b hb => ?_⟩
    rw [List.mem_singleton] at hb
    rw [hb]
    intro g
    exact c (List.any_eq_true.2 ⟨a, ha, by rw [joins_samePair]; exact g⟩)

theorem EachKeyOnce.sameCore {D E : Diagram} (h : EachKeyOnce D) (c : SameCore D E) : EachKeyOnce E := by
  refine ⟨?_, ?_, ?_, ?_, ?_⟩
  · have := c.keys
    unfold Dict.keys at this
    rw [this]
    exact h.nodes
  · have h1 : (E.graph.edges.map ends).Pairwise fun a b => ¬ SamePair a.1 a.2 b.1 b.2 := by
      rw [c.ends, List.pairwise_map]
      exact h.edges
    rw [List.pairwise_map] at h1
    exact h1
  · rw [c.table]
    exact h.table
  · rw [c.procs]
    exact h.processes
  · intro k hk
    have := c.frame
    rw [hk] at this
    cases hD : D.collaboration with
    | none => rw [hD] at this; cases this
    | some m =>
      rw [hD] at this
      simp only [Option.map_some, Option.some.injEq, Prod.mk.injEq] at this
      have h3 := this.2.2
      unfold Dict.keys at h3
      rw [h3]
      exact h.pools m hD

theorem steady_once : Steady (fun _ => True) (fun D E => D = E ∧ EachKeyOnce D) where
  upd := by
    rintro D E ⟨rfl, q⟩ k _ f
    refine ⟨rfl, ?_, q.edges, q.table, q.processes, q.pools⟩
    have := keys_updNode D k f
    unfold Dict.keys at this
    rw [this]
    exact q.nodes
  node := by
    rintro D E ⟨rfl, q⟩ k _
    refine ⟨rfl, nodup_addNode (g := D.graph) q.nodes k, ?_, q.table, q.processes, q.pools⟩
    simp only [Graph.addNode_edges]
    exact q.edges
  process := by
    rintro D E ⟨rfl, q⟩ k _ f _
    refine ⟨rfl, q.nodes, q.edges, q.table, ?_, q.pools⟩
    have := Dict.keys_modify D.processElements k f
    unfold Dict.keys at this
    rw [this]
    exact q.processes
  newProcess := by
    rintro D E ⟨rfl, q⟩ k _ a _
    exact ⟨rfl, q.nodes, q.edges, q.table, Dict.nodup_keys_set (d := D.processElements) q.processes k a, q.pools⟩
  entry := by
    rintro D E ⟨rfl, q⟩ k _ f _ _
    exact ⟨rfl, q.nodes, q.edges, Dict.nodup_keys_set (d := D.sequenceFlows) q.table k f, q.processes, q.pools⟩
  edge := by
    rintro D E ⟨rfl, q⟩ s t _ _ f
    refine ⟨rfl, ?_, ?_, q.table, q.processes, q.pools⟩
    · simp only [Graph.modifyEdge_nodes, Graph.addEdge_nodes]
      exact nodup_addNode (nodup_addNode (g := D.graph) q.nodes s) t
    · simp only [edges_written]
      exact once_written q.edges s t f
  collab := by
    rintro D E ⟨rfl, q⟩ c hc
    refine ⟨rfl, q.nodes, q.edges, q.table, q.processes, ?_⟩
    intro k hk
    rw [← Option.some.inj hk]
    exact hc.once
  shape := by
    rintro D E ⟨rfl, q⟩ x _
    exact Rel.of_eq fun D' h => EachKeyOnce.sameCore q (sameCore_shape h)
  flowDi := by
    rintro D E ⟨rfl, q⟩ x _
    exact Rel.of_eq fun D' h => EachKeyOnce.sameCore q (sameCore_flowDi h)

theorem names_any (x : Xml) : Names (fun _ => True) x := by
  intro y _ k
  trivial

theorem load_once {ord : List String → List String} {root : Xml} {d e : Diagram} (hd : EachKeyOnce d) (h : load ord root d = .ok e) : EachKeyOnce e :=
  Rel.holds (steady_once.load ord root (names_any root) (D := d) (E := d) fun a b c e => ⟨rfl, hd.nodes, hd.edges, hd.table, hd.processes, hd.pools⟩) h

theorem Rel.ok_left {α β : Type} {Q : α → β → Prop} {x : Py α} {y : Py β} {a : α} (h : Rel Q x y) (hx : x = .ok a) : ∃ b, y = .ok b ∧ Q a b := by
  subst hx
  cases h with
  | ok q => exact ⟨_, rfl, q⟩

/-- Loading the document once more changes nothing. -/
theorem load_again {ord : List String → List String} {root : Xml} {d e : Diagram} (hd : EachKeyOnce d) (h : load ord root d = .ok e) :
    load ord root e = .ok e := by
  have he := load_once hd h
  have h0 := h
  unfold Import.load at h
  obtain ⟨diagram, h1, h⟩ := except_bind_eq_ok h
  obtain ⟨plane, h2, h⟩ := except_bind_eq_ok h
  simp only at h
  obtain ⟨D1, h3, h⟩ := except_bind_eq_ok h
  obtain ⟨D2, h4, h5⟩ := except_bind_eq_ok h
  unfold Import.load
  rw [h1]
  simp only [except_bind_ok]
  rw [h2]
  simp only [except_bind_ok]
  have q0 : Again e (fun _ => False)
      { d with diagramId := some (diagram.getAttr "id"), diagramName := some (diagram.attrOr "name" ""), planeId := some (plane.getAttr "id"), planeElement := some (plane.getAttr "bpmnElement") }
      { e with diagramId := some (diagram.getAttr "id"), diagramName := some (diagram.attrOr "name" ""), planeId := some (plane.getAttr "id"), planeElement := some (plane.getAttr "bpmnElement") } :=
    ⟨.refl _ he.nodes, fun n => Toward.of_end _ _, ⟨⟨[], by simp, by simp⟩, he.edges, fun u v => EToward.of_end _ _⟩, .refl _ he.table, fun _ => .inr rfl,
      .refl _ he.processes, fun _ => .inr rfl, .inr rfl, ⟨rfl, rfl, rfl, rfl⟩, fun _ h => h.elim, fun _ h => h.elim, fun _ h => h.elim⟩
  have all : ∀ (l : List Xml), ∀ x ∈ l, Names (fun _ => True) x := fun l x _ => names_any x
  obtain ⟨E1, g1, q1⟩ := Rel.ok_left (Kept.processes (Again.kept e) ord plane _ q0 (all _)) h3
  obtain ⟨E2, g2, q2⟩ := Rel.ok_left (Kept.firstCollab (Again.kept e) _ q1 (all _)) h4
  have q3 := q2.toPlane (sameCore_plane h5)
  obtain ⟨E3, g3, q4⟩ := Rel.ok_left ((Plane2.kept e).plane _ q3 (all _)) h5
  rw [g1]
  simp only [except_bind_ok]
  rw [g2]
  simp only [except_bind_ok]
  rw [g3, q4.done he]

end Bpmn.Import

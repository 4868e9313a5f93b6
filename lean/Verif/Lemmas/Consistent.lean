import Verif.Spec.Consistent
import Verif.Lemmas.NodeOps
import Mathlib.Data.List.Nodup
/-!
Allowed histories give consistent diagrams; lookups in consistent diagrams.
-/
set_option linter.unusedSimpArgs false
set_option linter.unusedVariables false

namespace Bpmn
open Spec

/-- In a sane diagram with unique flow ids, an edge is found by its id with its attributes. -/
theorem flow_of_edge {d : Diagram} (hs : Sane d) (hu : (d.graph.edges.map (·.attrs.id)).Nodup) {e : Edge}
    (he : e ∈ d.graph.edges) {i : String} (hi : e.attrs.id = some i) :
    ∃ a b, d.getFlowById i = .ok (some (a, b, e.attrs)) := by
  obtain ⟨r, hr⟩ := getFlowById_ok hs i
  cases r with
  | none => exact absurd hi ((getFlowById_none_iff hs i).1 hr e he)
  | some f =>
    obtain ⟨a, b, c⟩ := f
    obtain ⟨e', he', h1, h2, -⟩ := getFlowById_some hs hr
    have : e' = e := List.inj_on_of_nodup_map hu he' he (by rw [h2, hi])
    subst this
    exact ⟨a, b, by rw [hr]; simp only at h1; rw [h1]⟩

/-- Sane diagrams in which lists and edges agree are consistent. -/
theorem consistent_of_edges {d : Diagram} (hs : Sane d)
    (hu : (d.graph.edges.map (·.attrs.id)).Nodup)
    (hl : ∀ n ∈ d.getNodes, n.2.incoming.isSome ∧ n.2.outgoing.isSome ∧ (ins n).Nodup ∧ (outs n).Nodup)
    (ht : ∀ n ∈ d.getNodes, n.2.type.isSome)
    (ho : ∀ n ∈ d.getNodes, ∀ i, i ∈ outs n ↔ ∃ e ∈ d.graph.edges, e.attrs.id = some i ∧ e.attrs.sourceRef = some n.1)
    (hi : ∀ n ∈ d.getNodes, ∀ i, i ∈ ins n ↔ ∃ e ∈ d.graph.edges, e.attrs.id = some i ∧ e.attrs.targetRef = some n.1) :
    Consistent d := by
  have ends : ∀ e ∈ d.graph.edges, ∃ n ∈ d.getNodes, ∃ m ∈ d.getNodes, e.attrs.sourceRef = some n.1 ∧ e.attrs.targetRef = some m.1 := by
    intro e he
    obtain ⟨-, -, s, t, h1, h2, h3⟩ := hs.described e he
    have hk := hs.endsKnown e he
    have : s ∈ d.graph.nodes.map Prod.fst ∧ t ∈ d.graph.nodes.map Prod.fst := by
      rcases h3 with ⟨rfl, rfl⟩ | ⟨rfl, rfl⟩
      · exact hk
      · exact ⟨hk.2, hk.1⟩
    obtain ⟨n, hn, rfl⟩ := List.mem_map.1 this.1
    obtain ⟨m, hm, rfl⟩ := List.mem_map.1 this.2
    exact ⟨n, hn, m, hm, h1, h2⟩
  have perm := Graph.flows_attrs_perm hs.wf
  refine ⟨hs.nodesUnique, hl, ht, ?_, ?_, ?_, ?_⟩
  · intro n hn i hin
    obtain ⟨e, he, h1, h2⟩ := (ho n hn i).1 hin
    obtain ⟨n', hn', m, hm, h3, h4⟩ := ends e he
    obtain ⟨a, b, hab⟩ := flow_of_edge hs hu he h1
    exact ⟨m, hm, ⟨a, b, e.attrs, hab, h1, h2, h4⟩, (hi m hm i).2 ⟨e, he, h1, h4⟩⟩
  · intro n hn i hin
    obtain ⟨e, he, h1, h2⟩ := (hi n hn i).1 hin
    obtain ⟨m, hm, n', hn', h3, h4⟩ := ends e he
    obtain ⟨a, b, hab⟩ := flow_of_edge hs hu he h1
    exact ⟨m, hm, ⟨a, b, e.attrs, hab, h1, h3, h2⟩, (ho m hm i).2 ⟨e, he, h1, h3⟩⟩
  · have : (d.getFlows.map (·.2.2.id)).Perm (d.graph.edges.map (·.attrs.id)) := by
      have := perm.map (·.id)
      simpa [Diagram.getFlows, List.map_map, Function.comp_def] using this
    exact this.nodup_iff.2 hu
  · rintro ⟨a, b, c⟩ hf
    obtain ⟨e, he, rfl, -⟩ := Graph.mem_flows hf
    obtain ⟨i, hi'⟩ := Option.isSome_iff_exists.1 (hs.described e he).1
    obtain ⟨n, hn, m, hm, h3, h4⟩ := ends e he
    exact ⟨i, n, hn, hi', h3, (ho n hn i).2 ⟨e, he, hi', h3⟩⟩

theorem consistent_of_allowed (ops : List Op) (h : AllowedHistory {} ops) : Consistent (Op.run {} ops) := by
  have sane : Sane (Op.run {} ops) := Sane.empty.run ops
  obtain ⟨e, w⟩ := run_empty ops h
  rw [e] at sane ⊢
  generalize runAbs {} ops = A at *
  have hid : ((concretize A).graph.edges.map (·.attrs.id)).Nodup := by
    have : (concretize A).graph.edges.map (·.attrs.id) = (A.flows.map (·.id)).map some := by
      simp [concretize, edgeOf, Function.comp_def]
    rw [this]
    exact w.flowsNodup.map (fun a b h => by simpa using h)
  have sub : ∀ p : AFlow → Bool, ((A.flows.filter p).map (·.id)).Nodup := fun p =>
    w.flowsNodup.sublist (List.filter_sublist.map _)
  apply consistent_of_edges sane hid
  · intro n hn
    obtain ⟨m, hm, rfl⟩ := List.mem_map.1 hn
    exact ⟨rfl, rfl, sub _, sub _⟩
  · intro n hn
    obtain ⟨m, hm, rfl⟩ := List.mem_map.1 hn
    exact (w.geom m hm).2.2.2.1
  · intro n hn i
    obtain ⟨m, hm, rfl⟩ := List.mem_map.1 hn
    simp [outs, nodeOf, outIds, concretize, edgeOf]
    constructor
    · rintro ⟨f, ⟨a, b⟩, c⟩; exact ⟨f, a, c, b⟩
    · rintro ⟨f, a, c, b⟩; exact ⟨f, ⟨a, b⟩, c⟩
  · intro n hn i
    obtain ⟨m, hm, rfl⟩ := List.mem_map.1 hn
    simp [ins, nodeOf, inIds, concretize, edgeOf]
    constructor
    · rintro ⟨f, ⟨a, b⟩, c⟩; exact ⟨f, a, c, b⟩
    · rintro ⟨f, a, c, b⟩; exact ⟨f, ⟨a, b⟩, c⟩

namespace Spec.Consistent
variable {d : Diagram}

theorem node_eq (h : Consistent d) {n m : Node} (hn : n ∈ d.getNodes) (hm : m ∈ d.getNodes) (e : n.1 = m.1) : n = m :=
  List.inj_on_of_nodup_map h.ids hn hm e

theorem getNodeById (h : Consistent d) {n : Node} (hn : n ∈ d.getNodes) : d.getNodeById n.1 = some n := by
  obtain ⟨i, a⟩ := n
  rw [getNodeById_eq]
  have : d.graph.nodes.get? i = some a := Dict.get?_of_mem h.ids hn
  simp [this]

theorem mem_of_getNodeById {i : String} {n : Node} (e : d.getNodeById i = some n) : n ∈ d.getNodes ∧ n.1 = i := by
  unfold Diagram.getNodeById at e
  have := List.find?_some e
  exact ⟨List.mem_of_find?_eq_some e, by simpa using this⟩

theorem outgoing (h : Consistent d) {n : Node} (hn : n ∈ d.getNodes) : n.2.outgoing = some (outs n) := by
  obtain ⟨o, ho⟩ := Option.isSome_iff_exists.1 (h.lists n hn).2.1
  simp [outs, ho]

theorem incoming (h : Consistent d) {n : Node} (hn : n ∈ d.getNodes) : n.2.incoming = some (ins n) := by
  obtain ⟨o, ho⟩ := Option.isSome_iff_exists.1 (h.lists n hn).1
  simp [ins, ho]

end Spec.Consistent
end Bpmn

import Verif.Lemmas.Query
/-!
Effects of `add_sequence_flow_to_diagram` from arbitrary states, whatever its outcome.
-/
set_option linter.unusedSimpArgs false
set_option linter.unusedVariables false

namespace Bpmn
open Spec

/-- Attributes written by lines 520-525. -/
def stamp (p s t nm uid : String) (a : EdgeAttrs) : EdgeAttrs :=
  { a with id := some uid, name := some nm, process := some p, sourceRef := some s, targetRef := some t }

theorem modifyEdge_modifyEdge (g : Graph) (s t : String) (f h : EdgeAttrs → EdgeAttrs) :
    (g.modifyEdge s t f).modifyEdge s t h = g.modifyEdge s t (h ∘ f) := by
  simp only [Graph.modifyEdge, List.map_map]
  congr 1
  apply List.map_congr_left
  intro e _
  simp only [Function.comp]
  by_cases he : e.joins s t = true
  · simp [he, Edge.joins]
    simp [Edge.joins] at he
    simp [he]
  · simp [he]

/-- Edges, keys and the `sequence_flows` table after the call, whatever its outcome. -/
theorem addSequenceFlow_effect (d : Diagram) (p s t nm uid : String) :
    ∃ f : EdgeAttrs → EdgeAttrs, (∀ a, (f a).id = some uid ∧ (f a).name = some nm ∧ (f a).process = some p ∧
        (f a).sourceRef = some s ∧ (f a).targetRef = some t) ∧
      (d.addSequenceFlow p s t nm uid).1.graph.edges = ((d.graph.addEdge s t).modifyEdge s t f).edges ∧
      (d.addSequenceFlow p s t nm uid).1.graph.nodes.keys = ((d.graph.addNode s).addNode t).nodes.keys ∧
      (d.addSequenceFlow p s t nm uid).1.sequenceFlows = d.sequenceFlows.set uid ⟨nm, s, t⟩ ∧
      (d.addSequenceFlow p s t nm uid).1.processElements = d.processElements ∧
      (d.addSequenceFlow p s t nm uid).1.planeElement = d.planeElement ∧
      (d.addSequenceFlow p s t nm uid).1.planeId = d.planeId := by
  have base : ∀ a, (stamp p s t nm uid a).id = some uid ∧ (stamp p s t nm uid a).name = some nm ∧
      (stamp p s t nm uid a).process = some p ∧
      (stamp p s t nm uid a).sourceRef = some s ∧ (stamp p s t nm uid a).targetRef = some t := by
    intro a; simp [stamp]
  have hk : ((d.graph.addEdge s t).nodes).keys = ((d.graph.addNode s).addNode t).nodes.keys := by simp
  unfold Diagram.addSequenceFlow
  simp only
  split
  · split
    · exact ⟨_, base, rfl, hk, rfl, rfl, rfl, rfl⟩
    · rename_i w _
      have b2 : ∀ a, (((fun a => { a with waypoints := some w }) ∘ stamp p s t nm uid) a : EdgeAttrs).id = some uid ∧
          (((fun a => { a with waypoints := some w }) ∘ stamp p s t nm uid) a : EdgeAttrs).name = some nm ∧
          (((fun a => { a with waypoints := some w }) ∘ stamp p s t nm uid) a : EdgeAttrs).process = some p ∧
          (((fun a => { a with waypoints := some w }) ∘ stamp p s t nm uid) a : EdgeAttrs).sourceRef = some s ∧
          (((fun a => { a with waypoints := some w }) ∘ stamp p s t nm uid) a : EdgeAttrs).targetRef = some t := by
        intro a; simp [stamp]
      split
      · exact ⟨_, b2, by rw [modifyEdge_modifyEdge]; rfl, hk, rfl, rfl, rfl, rfl⟩
      · split
        · refine ⟨_, b2, ?_, ?_, rfl, rfl, rfl, rfl⟩
          · simp only [Diagram.updNode, Graph.modifyNode_edges]; rw [modifyEdge_modifyEdge]; rfl
          · simp [Diagram.updNode]
        · split
          · refine ⟨_, b2, ?_, ?_, rfl, rfl, rfl, rfl⟩
            · simp only [Diagram.updNode, Graph.modifyNode_edges]; rw [modifyEdge_modifyEdge]; rfl
            · simp [Diagram.updNode]
          · refine ⟨_, b2, ?_, ?_, rfl, rfl, rfl, rfl⟩
            · simp only [Diagram.updNode, Graph.modifyNode_edges]; rw [modifyEdge_modifyEdge]; rfl
            · simp [Diagram.updNode]
  · exact ⟨_, base, rfl, hk, rfl, rfl, rfl, rfl⟩
  · exact ⟨_, base, rfl, hk, rfl, rfl, rfl, rfl⟩

theorem get?_addNode2 {g : Graph} {s t n : String} {a : NodeAttrs} (h : g.nodes.get? n = some a) :
    ((g.addNode s).addNode t).nodes.get? n = some a := by
  have hn := Dict.mem_keys_of_get? h
  rw [Graph.get?_addNode, if_pos, Graph.get?_addNode, if_pos hn, h]
  rw [Graph.mem_keys_addNode]; exact Or.inr hn

/-- The call when both ends are complete nodes: it succeeds, and this is the resulting node table. -/
theorem addSequenceFlow_ok (d : Diagram) (p s t nm uid : String) {sa ta : NodeAttrs} {out inc : List String}
    (hs : d.graph.nodes.get? s = some sa) (ht : d.graph.nodes.get? t = some ta)
    (sx : sa.x.isSome) (sy : sa.y.isSome) (tx : ta.x.isSome) (ty : ta.y.isSome)
    (ho : sa.outgoing = some out) (hi : ta.incoming = some inc) :
    (d.addSequenceFlow p s t nm uid).2 = .ok uid ∧
    (d.addSequenceFlow p s t nm uid).1.graph.nodes =
      (d.graph.nodes.modify s fun a => { a with outgoing := some (out ++ [uid]) }).modify t
        fun a => { a with incoming := some (inc ++ [uid]) } := by
  obtain ⟨x1, hx1⟩ := Option.isSome_iff_exists.1 sx
  obtain ⟨y1, hy1⟩ := Option.isSome_iff_exists.1 sy
  obtain ⟨x2, hx2⟩ := Option.isSome_iff_exists.1 tx
  obtain ⟨y2, hy2⟩ := Option.isSome_iff_exists.1 ty
  have hn : ((d.graph.addNode s).addNode t).nodes = d.graph.nodes := by
    rw [Graph.addNode_of_mem (Dict.mem_keys_of_get? hs), Graph.addNode_of_mem (Dict.mem_keys_of_get? ht)]
  obtain ⟨ta2, ht2, hi2⟩ : ∃ ta2, (d.graph.nodes.modify s fun a => { a with outgoing := some (out ++ [uid]) }).get? t =
      some ta2 ∧ ta2.incoming = some inc := by
    rw [Dict.get?_modify]; split <;> simp [ht, hi]
  unfold Diagram.addSequenceFlow
  simp [Diagram.nodeAttrs, hn, hs, ht, Diagram.newWaypoints, hx1, hy1, hx2, hy2, Diagram.appendTo, ho,
    Diagram.updNode, Graph.modifyNode, ht2, hi2]

/-- The edges after a successful call. -/
theorem addSequenceFlow_edges (d : Diagram) (p s t nm uid : String) {sa ta : NodeAttrs} {out inc : List String} {x1 y1 x2 y2 : String}
    (hs : d.graph.nodes.get? s = some sa) (ht : d.graph.nodes.get? t = some ta)
    (hx1 : sa.x = some x1) (hy1 : sa.y = some y1) (hx2 : ta.x = some x2) (hy2 : ta.y = some y2)
    (ho : sa.outgoing = some out) (hi : ta.incoming = some inc) :
    (d.addSequenceFlow p s t nm uid).1.graph.edges =
      (((d.graph.addEdge s t).modifyEdge s t fun a =>
        { a with id := some uid, name := some nm, process := some p, sourceRef := some s, targetRef := some t }).modifyEdge s t
          fun a => { a with waypoints := some [(x1, y1), (x2, y2)] }).edges := by
  have hn : ((d.graph.addNode s).addNode t).nodes = d.graph.nodes := by
    rw [Graph.addNode_of_mem (Dict.mem_keys_of_get? hs), Graph.addNode_of_mem (Dict.mem_keys_of_get? ht)]
  obtain ⟨ta2, ht2, hi2⟩ : ∃ ta2, (d.graph.nodes.modify s fun a => { a with outgoing := some (out ++ [uid]) }).get? t =
      some ta2 ∧ ta2.incoming = some inc := by
    rw [Dict.get?_modify]; split <;> simp [ht, hi]
  unfold Diagram.addSequenceFlow
  simp [Diagram.nodeAttrs, hn, hs, ht, Diagram.newWaypoints, hx1, hy1, hx2, hy2, Diagram.appendTo, ho,
    Diagram.updNode, Graph.modifyNode, ht2, hi2]

/-- The call when the waypoints cannot be computed: `KeyError`, and only edge, table entry and bare end nodes were added. -/
theorem addSequenceFlow_missing (d : Diagram) (p s t nm uid : String)
    (h : ∃ n, (n = s ∨ n = t) ∧ n ∉ d.graph.nodes.keys) :
    (d.addSequenceFlow p s t nm uid).2 = .error .keyError ∧
    (d.addSequenceFlow p s t nm uid).1.graph.nodes = ((d.graph.addNode s).addNode t).nodes := by
  have hs : ∃ sa, ((d.graph.addNode s).addNode t).nodes.get? s = some sa := by
    rw [← Option.isSome_iff_exists, Dict.get?_isSome_iff, Graph.mem_keys_addNode, Graph.mem_keys_addNode]; simp
  have ht : ∃ ta, ((d.graph.addNode s).addNode t).nodes.get? t = some ta := by
    rw [← Option.isSome_iff_exists, Dict.get?_isSome_iff, Graph.mem_keys_addNode]; simp
  obtain ⟨sa, hsa⟩ := hs
  obtain ⟨ta, hta⟩ := ht
  have bare : ∀ n, (n = s ∨ n = t) → n ∉ d.graph.nodes.keys → ((d.graph.addNode s).addNode t).nodes.get? n = some {} := by
    intro n hn hk
    rw [Graph.get?_addNode]
    by_cases hns : n = s
    · subst hns
      simp [Graph.mem_keys_addNode, Graph.get?_addNode, hk]
    · have hnt : n = t := hn.resolve_left hns
      subst hnt
      simp [Graph.mem_keys_addNode, hk, hns]
  have hw : Diagram.newWaypoints sa ta = .error .keyError := by
    obtain ⟨n, hn, hk⟩ := h
    have hb := bare n hn hk
    unfold Diagram.newWaypoints
    rcases hn with rfl | rfl
    · rw [hsa] at hb; simp at hb; subst hb; simp
    · rw [hta] at hb; simp at hb; subst hb
      cases sa.x <;> cases sa.y <;> simp
  unfold Diagram.addSequenceFlow
  simp [Diagram.nodeAttrs, hsa, hta, hw]

/-- Nodes other than the two ends keep their attributes, whatever the outcome. -/
theorem addSequenceFlow_frame (d : Diagram) (p s t nm uid n : String) (h1 : n ≠ s) (h2 : n ≠ t) :
    (d.addSequenceFlow p s t nm uid).1.graph.nodes.get? n = d.graph.nodes.get? n := by
  have hk : ((d.graph.addNode s).addNode t).nodes.get? n = d.graph.nodes.get? n := by
    rw [Graph.get?_addNode, Graph.get?_addNode]
    by_cases hn : n ∈ d.graph.nodes.keys
    · rw [if_pos hn, if_pos (by rw [Graph.mem_keys_addNode]; exact Or.inr hn)]
    · simp [hn, h1, h2, Graph.mem_keys_addNode, (Dict.get?_eq_none_iff _ _).2 hn]
  unfold Diagram.addSequenceFlow
  simp only
  split
  · split
    · simpa using hk
    · split
      · simpa using hk
      · split
        · simp [Diagram.updNode, Graph.modifyNode, Dict.get?_modify_ne _ _ (Ne.symm h1), hk]
        · split <;> simp [Diagram.updNode, Graph.modifyNode, Dict.get?_modify_ne _ _ (Ne.symm h1),
            Dict.get?_modify_ne _ _ (Ne.symm h2), hk]
  · simpa using hk
  · simpa using hk

/-- Flow lists only grow, whatever the outcome. -/
theorem addSequenceFlow_lists (d : Diagram) (p s t nm uid n : String) {a : NodeAttrs}
    (h : d.graph.nodes.get? n = some a) :
    ∃ a', (d.addSequenceFlow p s t nm uid).1.graph.nodes.get? n = some a' ∧
      (∀ l, a.outgoing = some l → ∃ l', a'.outgoing = some (l ++ l')) ∧
      (∀ l, a.incoming = some l → ∃ l', a'.incoming = some (l ++ l')) := by
  have h0 := get?_addNode2 (s := s) (t := t) h
  have same : ∀ b : NodeAttrs, (∀ l, b.outgoing = some l → ∃ l', b.outgoing = some (l ++ l')) ∧
      (∀ l, b.incoming = some l → ∃ l', b.incoming = some (l ++ l')) := by
    intro b
    exact ⟨fun l hl => ⟨[], by simpa using hl⟩, fun l hl => ⟨[], by simpa using hl⟩⟩
  unfold Diagram.addSequenceFlow
  simp only
  split
  · rename_i sa ta hsa hta
    split
    · exact ⟨a, by simpa using h0, same a⟩
    · split
      · exact ⟨a, by simpa using h0, same a⟩
      · rename_i out hout
        have ha : n = s → sa = a := by
          rintro rfl
          simp [Diagram.nodeAttrs, h0] at hsa
          exact hsa.symm
        have hout' : n = s → ∀ l, a.outgoing = some l → out = l ++ [uid] := by
          intro e l hl
          rw [ha e] at hout
          simp [Diagram.appendTo, hl] at hout
          exact hout.symm
        split
        · refine ⟨if n = s then { a with outgoing := some out } else a, ?_, ?_⟩
          · simp only [Diagram.updNode, Graph.modifyNode, Graph.modifyEdge_nodes, Graph.addEdge_nodes, Dict.get?_modify, h0]
            by_cases e : n = s
            · simp [e]
            · simp [e, Ne.symm e]
          · split
            · rename_i e
              exact ⟨fun l hl => ⟨[uid], by simp [hout' e l hl]⟩, fun l hl => ⟨[], by simpa using hl⟩⟩
            · exact same a
        · rename_i t' ht'
          split
          · refine ⟨if n = s then { a with outgoing := some out } else a, ?_, ?_⟩
            · simp only [Diagram.updNode, Graph.modifyNode, Graph.modifyEdge_nodes, Graph.addEdge_nodes, Dict.get?_modify, h0]
              by_cases e : n = s
              · simp [e]
              · simp [e, Ne.symm e]
            · split
              · rename_i e
                exact ⟨fun l hl => ⟨[uid], by simp [hout' e l hl]⟩, fun l hl => ⟨[], by simpa using hl⟩⟩
              · exact same a
          · rename_i inc hinc
            have hinc' : n = t → ∀ l, a.incoming = some l → inc = l ++ [uid] := by
              rintro rfl l hl
              simp only [Diagram.nodeAttrs, Diagram.updNode, Graph.modifyNode, Graph.modifyEdge_nodes, Graph.addEdge_nodes,
                Dict.get?_modify, h0] at ht'
              split at ht' <;>
              · simp at ht'
                subst ht'
                simp [Diagram.appendTo, hl] at hinc
                exact hinc.symm
            refine ⟨if n = t then { (if n = s then { a with outgoing := some out } else a) with incoming := some inc }
              else (if n = s then { a with outgoing := some out } else a), ?_, ?_⟩
            · simp only [Diagram.updNode, Graph.modifyNode, Graph.modifyEdge_nodes, Graph.addEdge_nodes, Dict.get?_modify, h0]
              by_cases e : n = s <;> by_cases e2 : n = t
              · have : t = s := e2 ▸ e
                simp [e, e2, this]
              · subst e; simp [e2, Ne.symm e2]
              · subst e2; simp [e, Ne.symm e]
              · simp [e, e2, Ne.symm e, Ne.symm e2]
            · by_cases e : n = s <;> by_cases e2 : n = t
              · rw [if_pos e2, if_pos e]
                exact ⟨fun l hl => ⟨[uid], by simp [hout' e l hl]⟩, fun l hl => ⟨[uid], by simp [hinc' e2 l hl]⟩⟩
              · rw [if_neg e2, if_pos e]
                exact ⟨fun l hl => ⟨[uid], by simp [hout' e l hl]⟩, fun l hl => ⟨[], by simpa using hl⟩⟩
              · rw [if_pos e2, if_neg e]
                exact ⟨fun l hl => ⟨[], by simpa using hl⟩, fun l hl => ⟨[uid], by simp [hinc' e2 l hl]⟩⟩
              · rw [if_neg e2, if_neg e]
                exact same a
  · exact ⟨a, by simpa using h0, same a⟩
  · exact ⟨a, by simpa using h0, same a⟩

/-- New node keys are appended at the end. -/
theorem addNode_keys (g : Graph) (n : String) : ∃ ms, (g.addNode n).nodes.keys = g.nodes.keys ++ ms ∧ ∀ m ∈ ms, m ∉ g.nodes.keys := by
  by_cases h : n ∈ g.nodes.keys
  · exact ⟨[], by simp [Graph.addNode_of_mem h], by simp⟩
  · exact ⟨[n], by simp [Graph.addNode_of_not_mem h], by simpa using h⟩

/-- Flow lookup depends on the edges carrying the id only, and is not changed by appending nodes. -/
theorem getFlowById_congr {d d' : Diagram} (h : Sane d) (h' : Sane d') (i : String)
    (he : (d'.graph.edges.filter fun e => e.attrs.id == some i) = d.graph.edges.filter fun e => e.attrs.id == some i)
    (hk : ∃ ms, d'.graph.nodes.keys = d.graph.nodes.keys ++ ms ∧ ∀ m ∈ ms, m ∉ d.graph.nodes.keys) :
    d'.getFlowById i = d.getFlowById i := by
  obtain ⟨ms, hk, hm⟩ := hk
  rw [getFlowById_eq h.ids, getFlowById_eq h'.ids, he, hk, Graph.iterFrom_append]
  intro e hemem
  have := h.endsKnown e (List.mem_filter.1 hemem).1
  exact ⟨fun h1 => hm _ h1 this.1, fun h1 => hm _ h1 this.2⟩

end Bpmn

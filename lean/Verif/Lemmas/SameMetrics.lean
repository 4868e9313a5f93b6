import Verif.Lemmas.TwinPaths
import Verif.Spec.Analyses
import Verif.Props.Metrics
import Verif.Props.LayoutMetrics
/-!
Diagrams with the same nodes and flows in another order have the same metrics.
-/
set_option linter.unusedSimpArgs false
set_option linter.unusedVariables false

namespace Bpmn.Props
open Bpmn Bpmn.Spec Bpmn.Metrics Bpmn.LayoutMetrics

section
variable {d e : Diagram} (ht : Typed d) (hp : (e.getNodes.map (·.2.type)).Perm (d.getNodes.map (·.2.type)))
include ht hp

theorem typed_same : Typed e := by
  intro m hm
  obtain ⟨n, hn, e1⟩ := List.mem_map.1 (hp.mem_iff.1 (List.mem_map_of_mem (f := fun n : Node => n.2.type) hm))
  rw [← e1]; exact ht n hn

omit ht in
theorem howMany_same (S : List String) : howMany e S = howMany d S := by
  have := (hp.filter fun x : Option String => decide (∃ t ∈ S, x = some t)).length_eq
  rw [List.filter_map, List.filter_map, List.length_map, List.length_map] at this
  unfold howMany
  exact this

theorem getNodesCount_same (ty : Option String) : getNodesCount e ty = getNodesCount d ty := by
  have ht' := typed_same ht hp
  have hl : e.getNodes.length = d.getNodes.length := by simpa using hp.length_eq
  cases ty with
  | none => rw [(C12_count_without_type_is_zero d ht).1, (C12_count_without_type_is_zero e ht').1]
  | some t =>
    by_cases h0 : t = ""
    · subst h0
      simp only [getNodesCount, Diagram.getNodesOfType, if_true, bind, Except.bind, pure, Except.pure, Except.ok.injEq]
      exact hl
    · rw [(C12_count_without_type_is_zero d ht).2 t h0, (C12_count_without_type_is_zero e ht').2 t h0, howMany_same hp]

theorem countsOf_same : ∀ l, countsOf e l = countsOf d l
  | [] => rfl
  | t :: l => by rw [countsOf, countsOf, getNodesCount_same ht hp, countsOf_same l]

theorem durfee_same : durfeeSquare e = durfeeSquare d := by
  obtain ⟨k, h1, h2, h3⟩ := C13_durfee_largest d ht
  obtain ⟨k', h1', h2', h3'⟩ := C13_durfee_largest e (typed_same ht hp)
  have key : ∀ k, DurfeeAt e k ↔ DurfeeAt d k := by
    intro k; unfold DurfeeAt; simp only [howMany_same hp]
  rw [h1, h1', Nat.le_antisymm (h3 k' ((key k').1 h2')) (h3' k ((key k).2 h2))]

theorem perfect_same : perfectSquare e = perfectSquare d := by
  obtain ⟨k, h1, h2, h3⟩ := C14_perfect_square_largest d ht
  obtain ⟨k', h1', h2', h3'⟩ := C14_perfect_square_largest e (typed_same ht hp)
  have key : ∀ k, SquareAt e k ↔ SquareAt d k := by
    intro k; unfold SquareAt; simp only [howMany_same hp]
  rw [h1, h1', Nat.le_antisymm (h3 k' ((key k').1 h2')) (h3' k ((key k).2 h2))]

end

/-- The degree of a node, from the ends that the flows name. -/
theorem degree_eq {d : Diagram} (h : Sane d) (n : String) : d.graph.degree n =
    ((d.graph.edges.map (·.attrs)).filter fun a => a.sourceRef == some n || a.targetRef == some n).length +
    ((d.graph.edges.map (·.attrs)).filter fun a => a.sourceRef == some n && a.targetRef == some n).length := by
  have hd := h.described
  unfold Graph.degree
  rw [List.filter_map, List.filter_map, List.length_map, List.length_map]
  congr 2
  · apply List.filter_congr
    intro e he
    obtain ⟨-, -, s, t, h1, h2, h3⟩ := hd e he
    simp only [Function.comp, h1, h2]
    rcases h3 with ⟨rfl, rfl⟩ | ⟨rfl, rfl⟩
    · rfl
    · rw [Bool.or_comm]; rfl
  · apply List.filter_congr
    intro e he
    obtain ⟨-, -, s, t, h1, h2, h3⟩ := hd e he
    simp only [Function.comp, h1, h2]
    rcases h3 with ⟨rfl, rfl⟩ | ⟨rfl, rfl⟩
    · rfl
    · rw [Bool.and_comm]; rfl

theorem degree_same {d e : Diagram} (h : Sane d) (h' : Sane e) (hf : (e.getFlows.map (·.2.2)).Perm (d.getFlows.map (·.2.2))) (n : String) :
    e.graph.degree n = d.graph.degree n := by
  have hp : (e.graph.edges.map (·.attrs)).Perm (d.graph.edges.map (·.attrs)) :=
    (Graph.flows_attrs_perm h'.wf).symm.trans (hf.trans (Graph.flows_attrs_perm h.wf))
  rw [degree_eq h, degree_eq h', (hp.filter _).length_eq, (hp.filter _).length_eq]

theorem sameMetrics_of {d e : Diagram} {φ : Node → Node} (h : Twin d e φ) (hl : e.getFlows.length = d.getFlows.length)
    (hdeg : ∀ n, e.graph.degree n = d.graph.degree n) : SameMetrics d e := by
  have ht : Typed d := fun n hn => (h.complete n hn).1
  have hp : (e.getNodes.map (·.2.type)).Perm (d.getNodes.map (·.2.type)) := by
    refine (h.perm.map _).trans (List.Perm.of_eq ?_)
    rw [List.map_map]
    exact List.map_congr_left fun n hn => h.type n hn
  have ht' := typed_same ht hp
  have hn : e.getNodes.length = d.getNodes.length := by simpa using hp.length_eq
  have hc := countsOf_same ht hp
  have hg := getNodesCount_same ht hp
  refine ⟨hg, hc _, hc _, hc _, ?_, ?_, ?_, ?_, ?_, ?_, ?_, ?_, ?_, ?_, ?_, ?_, ?_, ?_, ?_, ?_, ?_⟩
  · simp only [allActivitiesCount, getActivitiesCounts, hc]
  · simp only [allGatewaysCount, getGatewayCounts, hc]
  · simp only [allControlFlowElementsCount, getGatewayCounts, getEventsCounts, hc]
  · simp only [allEventsCount, getEventsCounts, hc]
  · simp only [Metrics.tnse, hg]
  · simp only [Metrics.tnie, hg]
  · simp only [Metrics.tnee, hg]
  · simp only [Metrics.tne, getEventsCounts, hc]
  · simp only [Metrics.noa, getActivitiesCounts, hc]
  · simp only [Metrics.noac, allActivitiesCount, allControlFlowElementsCount, getActivitiesCounts, getGatewayCounts, getEventsCounts, hc]
  · simp only [Metrics.noajs, allActivitiesCount, allGatewaysCount, getActivitiesCounts, getGatewayCounts, hc]
  · simp only [Metrics.numberOfNodes, allActivitiesCount, allControlFlowElementsCount, getActivitiesCounts, getGatewayCounts, getEventsCounts, hc]
  · simp only [gatewayHeterogenity, getGatewayCounts, hc]
  · simp only [cnc, hl, hn]
  · have key : ∀ d : Diagram, Typed d → getAllGateways d = .ok (d.getNodes.filter fun n => decide (∃ t ∈ gatewayTypes, n.2.type = some t)) := by
      intro d ht
      apply pyFilter_eq_filter
      intro n hn
      obtain ⟨ty, hty⟩ := Option.isSome_iff_exists.1 (ht n hn)
      simp [hty, gatewayTypes]
    have p1 : (e.getNodes.filter fun n => decide (∃ t ∈ gatewayTypes, n.2.type = some t)).Perm
        ((d.getNodes.filter fun n => decide (∃ t ∈ gatewayTypes, n.2.type = some t)).map φ) := by
      refine (h.perm.filter _).trans (List.Perm.of_eq ?_)
      rw [List.filter_map]
      congr 1
      apply List.filter_congr
      intro n hn
      simp only [Function.comp, h.type n hn]
    have p2 := (p1.map fun g : Node => e.graph.degree g.1)
    rw [List.map_map] at p2
    have e2 : (d.getNodes.filter fun n => decide (∃ t ∈ gatewayTypes, n.2.type = some t)).map ((fun g : Node => e.graph.degree g.1) ∘ φ) =
        (d.getNodes.filter fun n => decide (∃ t ∈ gatewayTypes, n.2.type = some t)).map fun g : Node => d.graph.degree g.1 := by
      apply List.map_congr_left
      intro n hn
      simp only [Function.comp, h.id n (List.mem_of_mem_filter hn), hdeg]
    rw [e2] at p2
    unfold averageGatewayDegree
    rw [key d ht, key e ht']
    simp only [bind, Except.bind]
    rw [p2.sum_eq, p2.length_eq]
  · exact durfee_same ht hp
  · exact perfect_same ht hp

theorem countSegments_same (num : String → Py Rat) {d d' : Diagram} {k : Nat}
    (hp : (d.getFlows.map (·.2.2.waypoints)).Perm (d'.getFlows.map (·.2.2.waypoints)))
    (h : countSegments num d = .ok k) : countSegments num d' = .ok k := by
  unfold countSegments at h ⊢
  cases hs : getFlowsSegments num d.getFlows with
  | error e => rw [hs] at h; simp at h
  | ok segs =>
    rw [hs] at h
    simp only [bind, Except.bind, pure, Except.pure, Except.ok.injEq] at h
    obtain ⟨L, h1, h2⟩ := (getFlowsSegments_ok_iff num _ _).1 hs
    have hp' : (L.map (Except.ok : List Segment → Py (List Segment))).Perm
        (d'.getFlows.map (fun f => flowSegments num f.2.2.waypoints)) := by
      rw [← h1]
      have := hp.map (flowSegments num)
      simpa [List.map_map, Function.comp_def] using this
    let val : Py (List Segment) → List Segment := fun r => match r with | .ok s => s | .error _ => []
    have hL' : d'.getFlows.map (fun f => flowSegments num f.2.2.waypoints) =
        ((d'.getFlows.map (fun f => flowSegments num f.2.2.waypoints)).map val).map .ok := by
      rw [List.map_map]
      conv => lhs; rw [← List.map_id (List.map _ d'.getFlows)]
      apply List.map_congr_left
      intro r hr
      have : r ∈ L.map (Except.ok : List Segment → Py (List Segment)) := hp'.mem_iff.2 hr
      obtain ⟨s, -, rfl⟩ := List.mem_map.1 this
      rfl
    have hseg := (getFlowsSegments_ok_iff num d'.getFlows _).2 ⟨_, hL', rfl⟩
    rw [hseg]
    simp only [except_bind_ok, except_pure, Except.ok.injEq]
    rw [← h, h2]
    have := (hp'.symm.map val).flatten.length_eq
    have e : (L.map (Except.ok : List Segment → Py (List Segment))).map val = L := by
      rw [List.map_map]
      conv => rhs; rw [← List.map_id L]
      apply List.map_congr_left; intro _ _; rfl
    rwa [e] at this

theorem sameDrawing_of {d e : Diagram} {φ : Node → Node} (h : Twin d e φ)
    (hw : (e.getFlows.map (·.2.2.waypoints)).Perm (d.getFlows.map (·.2.2.waypoints))) (num : String → Py Rat) : SameDrawing num d e where
  crossings := fun k hk => C18_order_independent num d e k hw.symm hk
  segments := fun k hk => countSegments_same num hw.symm hk
  longest := fun fuel p k hk => computeLongestPath_twin h hk
  longestTasks := fun fuel p k hk => computeLongestPathTasks_twin h hk

end Bpmn.Props

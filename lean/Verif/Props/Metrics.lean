import Verif.Lemmas.Metrics
import Verif.Props.Construction
import Mathlib.Tactic.NormNum
/-!
# Properties C11 - C16: complexity metrics

The reader's vocabulary: `Typed d` (every node has a type) and `howMany d S` (the number of nodes of `d` whose type is in the list
`S`).  Everything else in the statements is the public API and arithmetic.
-/
set_option linter.unusedSimpArgs false
set_option linter.unusedVariables false

namespace Bpmn.Props
open Bpmn Bpmn.Spec Bpmn.Metrics

/-- Every node has a type; true of every diagram built by an allowed history (`C03_built_diagrams_typed`). -/
def Typed (d : Diagram) : Prop := ∀ n ∈ d.getNodes, n.2.type.isSome

/-- Number of nodes whose type is one of `S`. -/
def howMany (d : Diagram) (S : List String) : Nat := (d.getNodes.filter fun n => ∃ t ∈ S, n.2.type = some t).length

theorem built_typed (ops : List Op) (h : AllowedHistory {} ops) : Typed (Op.run {} ops) :=
  fun n hn => (C03_built_diagrams_typed ops h n hn).1

theorem howMany_singleton (d : Diagram) (t : String) : howMany d [t] = typeCount d t := by
  unfold howMany typeCount; simp

/-! ## C11 -/

/-- **C11.** Each size metric is the number of nodes whose type is in the set named by its documentation. -/
theorem C11_cardinalities (d : Diagram) (h : Typed d) :
    tnse d = .ok (howMany d ["startEvent"]) ∧
    tnie d = .ok (howMany d ["intermediateCatchEvent", "intermediateThrowEvent"]) ∧
    tnee d = .ok (howMany d ["endEvent"]) ∧
    tne d = .ok (howMany d ["startEvent", "endEvent", "intermediateCatchEvent", "intermediateThrowEvent"]) ∧
    allEventsCount d = tne d ∧
    noa d = .ok (howMany d ["task", "subProcess"]) ∧ allActivitiesCount d = noa d ∧
    allGatewaysCount d = .ok (howMany d ["inclusiveGateway", "exclusiveGateway", "parallelGateway", "eventBasedGateway",
      "complexGateway"]) ∧
    allControlFlowElementsCount d = .ok (howMany d ["inclusiveGateway", "exclusiveGateway", "parallelGateway",
      "eventBasedGateway", "complexGateway", "startEvent", "endEvent", "intermediateCatchEvent", "intermediateThrowEvent"]) ∧
    noac d = .ok (howMany d ["task", "subProcess", "inclusiveGateway", "exclusiveGateway", "parallelGateway",
      "eventBasedGateway", "complexGateway", "startEvent", "endEvent", "intermediateCatchEvent", "intermediateThrowEvent"]) ∧
    numberOfNodes d = noac d ∧
    noajs d = .ok (howMany d ["task", "subProcess", "inclusiveGateway", "exclusiveGateway", "parallelGateway",
      "eventBasedGateway", "complexGateway"]) := by
  have hk : ∀ S, howMany d S = kindCount d S := fun S => rfl
  have h1 : tnse d = .ok (howMany d ["startEvent"]) := by
    rw [howMany_singleton]; exact getNodesCount_typed h _ (by decide)
  have h3 : tnee d = .ok (howMany d ["endEvent"]) := by
    rw [howMany_singleton]; exact getNodesCount_typed h _ (by decide)
  have h2 : tnie d = .ok (howMany d ["intermediateCatchEvent", "intermediateThrowEvent"]) := by
    unfold tnie
    rw [getNodesCount_typed h _ (by decide), getNodesCount_typed h _ (by decide), hk, ← sum_typeCount d _ (by decide)]
    simp
  have hact := allActivities_typed (d := d) h
  have hgw := allGateways_typed (d := d) h
  have hcf := controlFlow_typed (d := d) h
  have h6 : noa d = .ok (howMany d ["task", "subProcess"]) := by
    unfold noa getActivitiesCounts
    rw [countsOf_typed h _ (by decide), hk, ← sum_typeCount d _ (by decide)]
    simp [Dict.get?]
  have h10 : noac d = .ok (kindCount d (["task", "subProcess"] ++ (gatewayTypes ++ eventTypes))) := by
    unfold noac
    rw [hact, hcf, kindCount_append d ["task", "subProcess"] _ (by decide)]; rfl
  have h11 : noajs d = .ok (kindCount d (["task", "subProcess"] ++ gatewayTypes)) := by
    unfold noajs
    rw [hact, hgw, kindCount_append d _ _ (by decide)]; rfl
  exact ⟨h1, h2, h3, (allEvents_typed h).2, by rw [(allEvents_typed h).1, (allEvents_typed h).2], h6,
    by rw [hact, h6, hk], hgw, hcf, h10, rfl, h11⟩

/-- **C11 (identities).** -/
theorem C11_identities (d : Diagram) (h : Typed d) :
    ∃ s i e a g : Nat, tnse d = .ok s ∧ tnie d = .ok i ∧ tnee d = .ok e ∧ noa d = .ok a ∧ allGatewaysCount d = .ok g ∧
      tne d = .ok (s + i + e) ∧ noac d = .ok (a + g + (s + i + e)) ∧ noajs d = .ok (a + g) ∧
      a + g + (s + i + e) ≤ d.getNodes.length ∧
      -- all nodes are counted when only these eleven types occur
      ((∀ n ∈ d.getNodes, ∃ t ∈ ["task", "subProcess", "inclusiveGateway", "exclusiveGateway", "parallelGateway",
        "eventBasedGateway", "complexGateway", "startEvent", "endEvent", "intermediateCatchEvent", "intermediateThrowEvent"],
        n.2.type = some t) → a + g + (s + i + e) = d.getNodes.length) := by
  obtain ⟨h1, h2, h3, h4, -, h6, -, h8, -, h10, -, h11⟩ := C11_cardinalities d h
  have hk : ∀ S, howMany d S = kindCount d S := fun S => rfl
  have e1 : howMany d ["startEvent", "endEvent", "intermediateCatchEvent", "intermediateThrowEvent"] =
      howMany d ["startEvent"] + howMany d ["intermediateCatchEvent", "intermediateThrowEvent"] + howMany d ["endEvent"] := by
    simp only [hk, ← sum_typeCount d ["startEvent", "endEvent", "intermediateCatchEvent", "intermediateThrowEvent"] (by decide),
      ← sum_typeCount d ["startEvent"] (by decide), ← sum_typeCount d ["endEvent"] (by decide),
      ← sum_typeCount d ["intermediateCatchEvent", "intermediateThrowEvent"] (by decide)]
    simp; omega
  have e2 := kindCount_append d ["task", "subProcess"] gatewayTypes (by decide)
  have e3 := kindCount_append d (["task", "subProcess"] ++ gatewayTypes) eventTypes (by decide)
  rw [e2] at e3
  have h10' : noac d = .ok (kindCount d (["task", "subProcess"] ++ gatewayTypes ++ eventTypes)) := h10
  have h11' : noajs d = .ok (kindCount d (["task", "subProcess"] ++ gatewayTypes)) := h11
  have h4' : howMany d ["startEvent", "endEvent", "intermediateCatchEvent", "intermediateThrowEvent"] = kindCount d eventTypes := rfl
  have htot : howMany d ["task", "subProcess"] + kindCount d gatewayTypes + (howMany d ["startEvent"] +
      howMany d ["intermediateCatchEvent", "intermediateThrowEvent"] + howMany d ["endEvent"]) =
      kindCount d (["task", "subProcess"] ++ gatewayTypes ++ eventTypes) := by rw [← e1, h4', hk, e3]
  refine ⟨_, _, _, _, _, h1, h2, h3, h6, h8, by rw [h4, e1], ?_, ?_, ?_, ?_⟩
  · rw [h10', ← htot]; rfl
  · rw [h11', e2]; rfl
  · have := kindCount_le d (["task", "subProcess"] ++ gatewayTypes ++ eventTypes)
    rw [← htot] at this; exact this
  · intro hall
    refine Eq.trans htot ?_
    unfold kindCount
    rw [List.filter_eq_self.2]
    intro n hn
    simpa [gatewayTypes, eventTypes] using hall n hn

example : Typed (Op.run {} demoOps) ∧ noac (Op.run {} demoOps) = .ok 4 ∧ tne (Op.run {} demoOps) = .ok 1 :=
  ⟨built_typed _ demo_allowed, by decide, by decide⟩

/-! ## C12 -/

/-- **C12.** Without a type (`None`) the count is 0 whatever the diagram contains; with a non-empty type it is exact. -/
theorem C12_count_without_type_is_zero (d : Diagram) (h : Typed d) :
    getNodesCount d none = .ok 0 ∧ ∀ t, t ≠ "" → getNodesCount d (some t) = .ok (howMany d [t]) := by
  refine ⟨?_, fun t ht => by rw [howMany_singleton]; exact getNodesCount_typed h t ht⟩
  unfold getNodesCount Diagram.getNodesOfType
  rw [if_neg (by simp), pyFilter_eq_filter (q := fun _ => false)]
  · simp
  · intro n hn
    obtain ⟨ty, hty⟩ := Option.isSome_iff_exists.1 (h n hn)
    simp [hty]

example : (Op.run {} demoOps).getNodes.length = 4 ∧ getNodesCount (Op.run {} demoOps) none = .ok 0 ∧
    getNodesCount (Op.run {} demoOps) (some "task") = .ok 2 := by decide

/-! ## C13 -/

/-- `k` distinct non-empty node types occur at least `k` times each. -/
def DurfeeAt (d : Diagram) (k : Nat) : Prop :=
  ∃ L : List String, L.Nodup ∧ L.length = k ∧ ∀ t ∈ L, t ≠ "" ∧ k ≤ howMany d [t]

theorem durfeeAt_iff (d : Diagram) (k : Nat) (hk : 0 < k) :
    DurfeeAt d k ↔ k ≤ atLeast ((usedTypes d).map (typeCount d)) k := by
  have hlen : atLeast ((usedTypes d).map (typeCount d)) k = ((usedTypes d).filter fun t => k ≤ typeCount d t).length := by
    unfold atLeast
    rw [List.filter_map, List.length_map]; rfl
  rw [hlen]
  constructor
  · rintro ⟨L, nd, hl, hL⟩
    have hsub : L.Subperm ((usedTypes d).filter fun t => k ≤ typeCount d t) := by
      apply List.subperm_of_subset nd
      intro t ht
      obtain ⟨h1, h2⟩ := hL t ht
      rw [howMany_singleton] at h2
      exact List.mem_filter.2 ⟨(mem_usedTypes d t).2 ⟨h1, by omega⟩, by simpa using h2⟩
    rw [← hl]; exact hsub.length_le.trans (by rw [hl])
  · intro h
    refine ⟨((usedTypes d).filter fun t => k ≤ typeCount d t).take k, ?_, ?_, ?_⟩
    · exact ((usedTypes_nodup d).filter _).sublist (List.take_sublist _ _)
    · simp; exact h
    · intro t ht
      have := List.mem_filter.1 (List.mem_of_mem_take ht)
      rw [howMany_singleton]
      exact ⟨((mem_usedTypes d t).1 this.1).1, by simpa using this.2⟩

/-- **C13.** `DurfeeSquare_metric` returns the largest `k` such that `k` distinct types occur at least `k` times each. -/
theorem C13_durfee_largest (d : Diagram) (h : Typed d) :
    ∃ k, durfeeSquare d = .ok k ∧ DurfeeAt d k ∧ ∀ k', DurfeeAt d k' → k' ≤ k := by
  obtain ⟨r, h1, h2, h3⟩ := durfeeSquare_typed h
  refine ⟨r, h1, ?_, ?_⟩
  · rcases Nat.eq_zero_or_pos r with e | e
    · subst e; exact ⟨[], by simp, rfl, by simp⟩
    · exact (durfeeAt_iff d r e).2 h2
  · intro k' hk'
    rcases Nat.eq_zero_or_pos k' with e | e
    · omega
    · by_contra hlt
      have h4 := (durfeeAt_iff d k' e).1 hk'
      have h5 : atLeast ((usedTypes d).map (typeCount d)) k' ≤ (usedTypes d).length := by
        unfold atLeast; exact (List.length_filter_le _ _).trans (by simp)
      have := h3 k' (by omega) (by omega)
      omega

/-- Two tasks and two exclusive gateways: two types occurring twice. -/
def squareOps : List Op :=
  [.createNew "d" "D", .addProcess "p" false true "None" "PL" "P",
   .addStartEvent "P" "s" none false true (some "s") "u1" "u2",
   .addExclusiveGateway "P" "g" "Diverging" none none "g", .addExclusiveGateway "P" "h" "Converging" none none "h",
   .addTask "P" "t1" (some "t1") "u4", .addTask "P" "t2" (some "t2") "u5", .addTask "P" "t3" (some "t3") "u6"]

theorem square_allowed : AllowedHistory {} squareOps := by
  simp [squareOps, AllowedHistory, Allowed, step, declaredNode, declaredFlow, directionArg, directions, chosen]

example : Typed (Op.run {} squareOps) ∧ durfeeSquare (Op.run {} squareOps) = .ok 2 :=
  ⟨built_typed _ square_allowed, by decide⟩

/-! ## C14 -/

/-- Some `p` distinct types in use have together at least `p * p` nodes. -/
def SquareAt (d : Diagram) (p : Nat) : Prop :=
  ∃ L : List String, L.Nodup ∧ L.length = p ∧ (∀ t ∈ L, t ≠ "" ∧ 0 < howMany d [t]) ∧ p * p ≤ howMany d L

/-- **C14.** `PerfectSquare_metric` returns the largest such `p`. -/
theorem C14_perfect_square_largest (d : Diagram) (h : Typed d) :
    ∃ p, perfectSquare d = .ok p ∧ SquareAt d p ∧ ∀ p', SquareAt d p' → p' ≤ p := by
  obtain ⟨r, cs, h1, hperm, hsort, h2, h3, h4⟩ := perfectSquare_typed h
  refine ⟨r, h1, ?_, ?_⟩
  · -- the `r` most frequent types
    have hsub : (cs.take r).Subperm ((usedTypes d).map (typeCount d)) :=
      (List.take_sublist r cs).subperm.trans hperm.subperm
    obtain ⟨N, hN1, hN2⟩ := hsub
    obtain ⟨L, hL1, hL2⟩ := List.sublist_map_iff.1 hN2
    have hndL : L.Nodup := (usedTypes_nodup d).sublist hL1
    refine ⟨L, hndL, ?_, ?_, ?_⟩
    · have := hN1.length_eq
      rw [hL2] at this
      simpa [Nat.min_eq_left h2] using this
    · intro t ht
      rw [howMany_singleton]
      exact (mem_usedTypes d t).1 (hL1.subset ht)
    · show _ ≤ kindCount d L
      rw [← sum_typeCount d L hndL, ← hL2, hN1.sum_nat]
      exact h3
  · rintro p' ⟨L, nd, hl, hL, hsq⟩
    by_contra hlt
    have hmem : ∀ t ∈ L, t ∈ usedTypes d := by
      intro t ht
      have := hL t ht
      rw [howMany_singleton] at this
      exact (mem_usedTypes d t).2 this
    have h5 := chosen_types_sum_le hperm hsort nd hmem
    have h6 : L.length ≤ cs.length := by
      rw [hperm.length_eq, List.length_map]
      exact (List.subperm_of_subset nd hmem).length_le
    have h7 := h4 p' (by omega) (by omega)
    have h8 : p' * p' ≤ kindCount d L := hsq
    rw [← sum_typeCount d L nd] at h8
    rw [hl] at h5
    omega

/-- **C14.** The metric never exceeds the number of distinct types in use. -/
theorem C14_at_most_number_of_types (d : Diagram) (h : Typed d) (T : List String)
    (hT : ∀ n ∈ d.getNodes, ∃ t ∈ T, n.2.type = some t) (p : Nat) (hp : perfectSquare d = .ok p) : p ≤ T.length := by
  obtain ⟨q, hq, ⟨L, nd, hl, hL, -⟩, -⟩ := C14_perfect_square_largest d h
  rw [hp] at hq
  cases hq
  rw [← hl]
  apply (List.subperm_of_subset nd ?_).length_le
  intro t ht
  have hpos := (hL t ht).2
  unfold howMany at hpos
  obtain ⟨n, hn⟩ := List.exists_mem_of_length_pos hpos
  obtain ⟨hn1, hn2⟩ := List.mem_filter.1 hn
  obtain ⟨u, hu, hnu⟩ := hT n hn1
  simp [hnu] at hn2
  exact hn2 ▸ hu

set_option maxRecDepth 4000 in
example : Typed (Op.run {} squareOps) ∧ (∃ p, perfectSquare (Op.run {} squareOps) = .ok p ∧ 2 ≤ p) := by
  refine ⟨built_typed _ square_allowed, ?_⟩
  obtain ⟨p, h1, h2, h3⟩ := C14_perfect_square_largest _ (built_typed _ square_allowed)
  exact ⟨p, h1, h3 2 ⟨["task", "exclusiveGateway"], by decide, rfl, by decide, by decide⟩⟩

/-! ## C15 -/

/-- **C15.** Gateway heterogeneity is the number of gateway types in use, at most 5 and at most the number of gateways. -/
theorem C15_heterogeneity (d : Diagram) (h : Typed d) :
    ∃ k g, gatewayHeterogenity d = .ok k ∧ allGatewaysCount d = .ok g ∧
      k = (["inclusiveGateway", "exclusiveGateway", "parallelGateway", "eventBasedGateway", "complexGateway"].filter
        fun t => ∃ n ∈ d.getNodes, n.2.type = some t).length ∧ k ≤ 5 ∧ k ≤ g := by
  have hcount : ∀ t, (0 < typeCount d t) ↔ ∃ n ∈ d.getNodes, n.2.type = some t := by
    intro t
    unfold typeCount
    rw [List.length_pos_iff_exists_mem]
    simp
  have hpr : ∀ S : List String, ((S.map fun t => (t, typeCount d t)).filter fun p => p.2 > 0).length =
      (S.filter fun t => 0 < typeCount d t).length := by
    intro S; rw [List.filter_map, List.length_map]; rfl
  refine ⟨(gatewayTypes.filter fun t => 0 < typeCount d t).length, _, ?_, allGateways_typed h, ?_, ?_, ?_⟩
  · unfold gatewayHeterogenity getGatewayCounts
    rw [countsOf_typed h _ (by decide)]
    simp only [except_bind_ok, except_pure, hpr]
  · simp only [hcount]; rfl
  · exact List.length_filter_le _ _
  · rw [← sum_typeCount d _ (by decide)]
    generalize gatewayTypes = S
    induction S with
    | nil => simp
    | cons t S ih =>
      simp only [List.filter_cons, List.map_cons, List.sum_cons]
      split
      · rename_i hp; simp at hp; simp; omega
      · omega

example : gatewayHeterogenity (Op.run {} squareOps) = .ok 1 ∧ allGatewaysCount (Op.run {} squareOps) = .ok 2 := by decide

/-! ## C16 -/

/-- **C16.** The coefficient of network complexity is flows / nodes; `ZeroDivisionError` exactly for the empty diagram. -/
theorem C16_network_complexity (d : Diagram) :
    (d.getNodes = [] → cnc d = .error .zeroDivision) ∧
    (d.getNodes ≠ [] → cnc d = .ok ((d.getFlows.length : Rat) / (d.getNodes.length : Rat))) := by
  constructor
  · intro h; simp [cnc, fdiv, h]
  · intro h
    have : d.getNodes.length ≠ 0 := by simpa using h
    simp [cnc, fdiv, this]

/-- **C16.** For an allowed history the numerator is the number of declared flows, the denominator the number of declared nodes. -/
theorem C16_network_complexity_declared (ops : List Op) (h : AllowedHistory {} ops) :
    (Op.run {} ops).getFlows.length = (runAbs {} ops).flows.length ∧
    (Op.run {} ops).getNodes.length = (runAbs {} ops).nodes.length := by
  have sane : Sane (Op.run {} ops) := Sane.empty.run ops
  obtain ⟨e, w⟩ := run_empty ops h
  constructor
  · have := Graph.length_flows sane.wf
    unfold Diagram.getFlows
    rw [this, e]; simp [concretize]
  · rw [e]; simp [concretize, Diagram.getNodes]

/-- **C16.** Average gateway degree: `ZeroDivisionError` exactly when there is no gateway, otherwise the mean of the degrees. -/
theorem C16_average_gateway_degree (d : Diagram) (h : Typed d) :
    let gs := d.getNodes.filter fun n => ∃ t ∈ ["inclusiveGateway", "exclusiveGateway", "parallelGateway", "eventBasedGateway",
      "complexGateway"], n.2.type = some t
    (gs = [] → averageGatewayDegree d = .error .zeroDivision) ∧
    (gs ≠ [] → averageGatewayDegree d = .ok (((gs.map fun g => d.graph.degree g.1).sum : Rat) / (gs.length : Rat))) := by
  intro gs
  have hg : getAllGateways d = .ok gs := by
    apply pyFilter_eq_filter
    intro n hn
    obtain ⟨ty, hty⟩ := Option.isSome_iff_exists.1 (h n hn)
    simp [hty, gatewayTypes]
  unfold averageGatewayDegree
  rw [hg]
  constructor
  · intro he; simp [he, fdiv]
  · intro hne
    simp [fdiv, hne]

/-- **C16.** After an allowed history the degree of every node is the length of its incoming plus that of its outgoing list. -/
theorem C16_degree (ops : List Op) (h : AllowedHistory {} ops) :
    ∀ n ∈ (Op.run {} ops).getNodes, ∃ inc out, n.2.incoming = some inc ∧ n.2.outgoing = some out ∧
      (Op.run {} ops).graph.degree n.1 = inc.length + out.length := by
  obtain ⟨e, w⟩ := run_empty ops h
  rw [e]
  intro n hn
  obtain ⟨m, hm, rfl⟩ := List.mem_map.1 hn
  refine ⟨_, _, rfl, rfl, ?_⟩
  simp only [concretize, Graph.degree, inIds, outIds, List.length_map]
  rw [List.filter_map, List.filter_map, List.length_map, List.length_map]
  generalize (runAbs {} ops).flows = fs
  induction fs with
  | nil => rfl
  | cons f fs ih =>
    simp only [List.filter_cons, Function.comp, edgeOf] at ih ⊢
    by_cases h1 : f.src = m.id <;> by_cases h2 : f.tgt = m.id <;> simp [h1, h2] at ih ⊢ <;> omega

example : AllowedHistory {} demoOps ∧ averageGatewayDegree (Op.run {} demoOps) = .ok 3 ∧ cnc (Op.run {} demoOps) = .ok 1 := by
  refine ⟨demo_allowed, ?_, ?_⟩
  · have h1 : getAllGateways (Op.run {} demoOps) =
        .ok ((Op.run {} demoOps).getNodes.filter fun n => n.1 = "g") := by decide
    have h2 : (((Op.run {} demoOps).getNodes.filter fun n => n.1 = "g").map fun g => (Op.run {} demoOps).graph.degree g.1) = [3] := by
      decide
    unfold averageGatewayDegree
    rw [h1]
    simp only [except_bind_ok, h2]
    norm_num [fdiv]
  · have h1 : (Op.run {} demoOps).getNodes.length = 4 := by decide
    have h2 : (Op.run {} demoOps).getFlows.length = 4 := by decide
    unfold cnc
    rw [h1, h2]
    norm_num [fdiv]

end Bpmn.Props

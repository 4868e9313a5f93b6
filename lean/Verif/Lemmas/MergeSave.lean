import Verif.Lemmas.Merge
set_option linter.unusedSimpArgs false
set_option linter.unusedVariables false
/-!
# Two complete diagrams in one object
-/
namespace Bpmn.Import
open Bpmn Bpmn.Spec

theorem flowId_table {d : Diagram} (h : Exportable d) {e : Edge} (he : e ∈ d.graph.edges) {i : String} (hi : e.attrs.id = some i) :
    (∃ v, d.sequenceFlows.get? i = some v) ∨ i ∈ messageIds d := by
  rcases h.flowProcess e he with ⟨p, hp, _⟩ | ⟨j, hj, h2⟩
  · left
    obtain ⟨_, h2, s, t, h3, h4, _⟩ := h.sane.described e he
    obtain ⟨nm, hn⟩ := Option.isSome_iff_exists.1 h2
    exact ⟨⟨nm, s, t⟩, (h.table i _).2 ⟨e, he, by simp [hp], hi, hn, h3, h4⟩⟩
  · right
    rw [hi] at h2
    rw [Option.some.inj h2]
    exact hj

theorem messageIds_some {d : Diagram} {k : Collab} (h : d.collaboration = some k) : messageIds d = k.messageFlows.map (·.1) := by
  simp [messageIds, h]

theorem uses_message {d : Diagram} {i : String} (h : i ∈ messageIds d) : Uses d i := by
  cases hc : d.collaboration with
  | none => simp [messageIds, hc] at h
  | some k =>
    rw [messageIds_some hc] at h
    exact .inr (.inr (.inr (.inr ⟨k, hc, .inr h⟩)))

theorem uses_pool {d : Diagram} {i : String} (h : i ∈ poolIds d) : Uses d i := by
  cases hc : d.collaboration with
  | none => simp [poolIds, hc] at h
  | some k =>
    simp only [poolIds, hc, Option.map_some, Option.getD_some] at h
    exact .inr (.inr (.inr (.inr ⟨k, hc, .inl h⟩)))

theorem uses_flowId {d : Diagram} (h : Exportable d) {e : Edge} (he : e ∈ d.graph.edges) {i : String} (hi : e.attrs.id = some i) : Uses d i := by
  rcases flowId_table h he hi with ⟨v, hv⟩ | hm
  · exact .inr (.inr (.inl (Dict.mem_keys_of_get? hv)))
  · exact uses_message hm

theorem uses_container {d : Diagram} {p : String} (h : Container d p) : Uses d p := by
  rcases h with h | ⟨m, hm, rfl, _⟩
  · exact .inr (.inr (.inr (.inl h)))
  · exact .inl (List.mem_map_of_mem hm)

section
variable {M : String → Prop} {c D : Diagram} (hN : Named M D)
include hN

theorem Named.container {p : String} (h : Container D p) : M p := by
  rcases h with h | ⟨m, hm, rfl, _⟩
  · obtain ⟨x, hx, rfl⟩ := List.mem_map.1 h
    exact (hN.procs x hx).1
  · exact hN.nodes _ (List.mem_map_of_mem hm)

theorem Named.message {i : String} (h : i ∈ messageIds D) : M i := by
  cases hc : D.collaboration with
  | none => simp [messageIds, hc] at h
  | some k =>
    rw [messageIds_some hc] at h
    obtain ⟨m, hm, rfl⟩ := List.mem_map.1 h
    exact ((hN.collab k hc).messages m hm).1

theorem Named.pool {i : String} (h : i ∈ poolIds D) : M i := by
  cases hc : D.collaboration with
  | none => simp [poolIds, hc] at h
  | some k =>
    simp only [poolIds, hc, Option.map_some, Option.getD_some] at h
    exact (hN.collab k hc).pools i h

theorem Named.lane {i : String} (h : i ∈ laneIds D) : M i := by
  obtain ⟨p, hp, h⟩ := List.mem_flatMap.1 h
  obtain ⟨l, hl, rfl⟩ := List.mem_map.1 h
  exact (hN.procs p hp).2 l hl

theorem Named.flowId (h : Exportable D) {e : Edge} (he : e ∈ D.graph.edges) {i : String} (hi : e.attrs.id = some i) : M i := by
  rcases flowId_table h he hi with ⟨v, hv⟩ | hm
  · exact (hN.table _ (Dict.mem_of_get? hv)).1
  · exact hN.message hm
end

theorem merge_laneIds (c D : Diagram) : laneIds (merge c D) = laneIds c ++ laneIds D := by simp [merge, laneIds]

theorem merge_container {c D : Diagram} {p : String} : Container (merge c D) p ↔ Container c p ∨ Container D p := by
  simp only [Container, merge, List.map_append, List.mem_append]
  constructor
  · rintro ((h | h) | ⟨m, h | h, k⟩)
    · exact .inl (.inl h)
    · exact .inr (.inl h)
    · exact .inl (.inr ⟨m, h, k⟩)
    · exact .inr (.inr ⟨m, h, k⟩)
  · rintro ((h | ⟨m, h, k⟩) | (h | ⟨m, h, k⟩))
    · exact .inl (.inl h)
    · exact .inr ⟨m, .inl h, k⟩
    · exact .inl (.inr h)
    · exact .inr ⟨m, .inr h, k⟩

/-- Two complete diagrams with different names are a complete diagram, if no message flow of the first one loses its entry. -/
theorem exportable_merge {M : String → Prop} {c D : Diagram} (hN : Named M D) (hM : ∀ v, M v → ¬ Uses c v) (hL : ∀ v, M v → v ∉ laneIds c)
    (hc : Exportable c) (hD : Exportable D) (hm : D.collaboration = none ∨ messageIds c = []) : Exportable (merge c D) := by
  have eN : (merge c D).graph.nodes = c.graph.nodes ++ D.graph.nodes := rfl
  have eE : (merge c D).graph.edges = c.graph.edges ++ D.graph.edges := rfl
  have eP : (merge c D).processElements = c.processElements ++ D.processElements := rfl
  have eS : (merge c D).sequenceFlows = c.sequenceFlows ++ D.sequenceFlows := rfl
  have nodeUses : ∀ n ∈ c.graph.nodes, Uses c n.1 := fun n hn => .inl (List.mem_map_of_mem hn)
  have endUses : ∀ e ∈ c.graph.edges, Uses c e.u ∧ Uses c e.v := fun e he => ⟨.inr (.inl ⟨e, he, .inl rfl⟩), .inr (.inl ⟨e, he, .inr rfl⟩)⟩
  have procUses : ∀ p ∈ c.processElements, Uses c p.1 := fun p hp => .inr (.inr (.inr (.inl (List.mem_map_of_mem hp))))
  have nodeM : ∀ n ∈ D.graph.nodes, M n.1 := fun n hn => hN.nodes _ (List.mem_map_of_mem hn)
  have collab : ∀ k, (merge c D).collaboration = some k → (D.collaboration = some k ∧ messageIds c = []) ∨ (D.collaboration = none ∧ c.collaboration = some k) := by
    intro k hk
    cases e : D.collaboration with
    | none => exact .inr ⟨rfl, by simpa [merge, e] using hk⟩
    | some k' =>
      have : k' = k := by simpa [merge, e] using hk
      rcases hm with hm | hm
      · rw [e] at hm; cases hm
      · exact .inl ⟨by rw [this], hm⟩
  have msgs : ∀ i, i ∈ messageIds c ∨ i ∈ messageIds D → i ∈ messageIds (merge c D) := by
    intro i hi
    cases e : D.collaboration with
    | none =>
      have h1 : messageIds D = [] := by simp [messageIds, e]
      have h2 : messageIds (merge c D) = messageIds c := by simp [messageIds, merge, e]
      rw [h2]
      rcases hi with hi | hi
      · exact hi
      · rw [h1] at hi; cases hi
    | some k =>
      have h2 : messageIds (merge c D) = messageIds D := by simp [messageIds, merge, e]
      rw [h2]
      rcases hm with hm | hm
      · rw [e] at hm; cases hm
      · rcases hi with hi | hi
        · rw [hm] at hi; cases hi
        · exact hi
  refine {
    header := hD.header
    pools := ?_, lanes := ?_, sane := ?_, nodes := ?_, flows := ?_, procIds := ?_, procs := ?_, apart := ?_, noCircles := ?_, flowIds := ?_,
    placed := ?_, flowProcess := ?_, messages := ?_, owners := ?_, shapeIds := ?_, laneNames := ?_, listed := ?_, table := ?_ }
  · intro k hk
    rcases collab k hk with ⟨h1, _⟩ | ⟨_, h1⟩
    · refine ⟨(hD.pools k h1).1, fun m hm => ?_⟩
      obtain ⟨e, he, hi⟩ := (hD.pools k h1).2 m hm
      exact ⟨e, by rw [eE]; simp [he], hi⟩
    · refine ⟨(hc.pools k h1).1, fun m hm => ?_⟩
      obtain ⟨e, he, hi⟩ := (hc.pools k h1).2 m hm
      exact ⟨e, by rw [eE]; simp [he], hi⟩
  · intro p hp
    rw [eP, List.mem_append] at hp
    exact hp.elim (hc.lanes p) (hD.lanes p)
  · refine ⟨?_, ?_, ?_, ?_⟩
    · rw [eN, List.map_append, List.nodup_append]
      refine ⟨hc.sane.nodesUnique, hD.sane.nodesUnique, ?_⟩
      rintro a ha b hb rfl
      exact hM _ (hN.nodes _ hb) (.inl ha)
    · intro e he
      rw [eE, List.mem_append] at he
      rw [eN, List.map_append]
      rcases he with he | he
      · have := hc.sane.endsKnown e he
        simp only [List.mem_append]
        exact ⟨.inl this.1, .inl this.2⟩
      · have := hD.sane.endsKnown e he
        simp only [List.mem_append]
        exact ⟨.inr this.1, .inr this.2⟩
    · rw [eE, List.pairwise_append]
      refine ⟨hc.sane.onePerPair, hD.sane.onePerPair, ?_⟩
      intro e he f hf hp
      have h1 := endUses e he
      have h2 := hN.edges f hf
      rcases hp with ⟨h, _⟩ | ⟨h, _⟩
      · exact hM _ h2.1 (h ▸ h1.1)
      · exact hM _ h2.2 (h ▸ h1.1)
    · intro e he
      rw [eE, List.mem_append] at he
      exact he.elim (hc.sane.described e) (hD.sane.described e)
  · intro n hn
    rw [eN, List.mem_append] at hn
    exact hn.elim (hc.nodes n) (hD.nodes n)
  · intro e he
    rw [eE, List.mem_append] at he
    exact he.elim (hc.flows e) (hD.flows e)
  · rw [eP, List.map_append, List.nodup_append]
    refine ⟨hc.procIds, hD.procIds, ?_⟩
    rintro a ha b hb rfl
    obtain ⟨p, hp, rfl⟩ := List.mem_map.1 hb
    exact hM _ (hN.procs p hp).1 (.inr (.inr (.inr (.inl ha))))
  · intro p hp
    rw [eP, List.mem_append] at hp
    exact hp.elim (hc.procs p) (hD.procs p)
  · intro p hp n hn
    rw [eP, List.mem_append] at hp
    rw [eN, List.mem_append] at hn
    rcases hp with hp | hp <;> rcases hn with hn | hn
    · exact hc.apart p hp n hn
    · intro e
      exact hM _ (nodeM n hn) (e ▸ procUses p hp)
    · intro e
      exact hM _ (hN.procs p hp).1 (e ▸ nodeUses n hn)
    · exact hD.apart p hp n hn
  · obtain ⟨f, hf⟩ := hc.noCircles
    obtain ⟨g, hg⟩ := hD.noCircles
    refine ⟨fun v => if v ∈ c.graph.nodes.keys then f v else g v, ?_⟩
    intro n hn m hm hp ht
    rw [eN, List.mem_append] at hn hm
    have hin : ∀ n ∈ c.graph.nodes, n.1 ∈ c.graph.nodes.keys := fun n hn => List.mem_map_of_mem hn
    have hout : ∀ n ∈ D.graph.nodes, n.1 ∉ c.graph.nodes.keys := fun n hn hk => hM _ (nodeM n hn) (.inl hk)
    rcases hn with hn | hn <;> rcases hm with hm | hm
    · simp only [if_pos (hin n hn), if_pos (hin m hm)]
      exact hf n hn m hm hp ht
    · exact absurd (uses_container (hc.placed n hn _ hp)) (hM _ (nodeM m hm))
    · exact absurd (nodeUses m hm) (hM _ (hN.container (hD.placed n hn _ hp)))
    · simp only [if_neg (hout n hn), if_neg (hout m hm)]
      exact hg n hn m hm hp ht
  · rw [eE, List.map_append, List.nodup_append]
    refine ⟨hc.flowIds, hD.flowIds, ?_⟩
    rintro a ha b hb rfl
    obtain ⟨e, he, h1⟩ := List.mem_map.1 ha
    obtain ⟨f, hf, h2⟩ := List.mem_map.1 hb
    obtain ⟨i, hi⟩ := Option.isSome_iff_exists.1 (hc.flows e he).id
    have h1' : e.attrs.id = a := h1
    have h2' : f.attrs.id = a := h2
    rw [hi] at h1'
    exact hM _ (hN.flowId hD hf (h2'.trans h1'.symm)) (uses_flowId hc he hi)
  · intro n hn p hp
    rw [eN, List.mem_append] at hn
    rw [merge_container]
    exact hn.elim (fun h => .inl (hc.placed n h p hp)) (fun h => .inr (hD.placed n h p hp))
  · intro e he
    rw [eE, List.mem_append] at he
    rcases he with he | he
    · rcases hc.flowProcess e he with ⟨p, h1, h2⟩ | ⟨i, h1, h2⟩
      · exact .inl ⟨p, h1, merge_container.2 (.inl h2)⟩
      · exact .inr ⟨i, msgs i (.inl h1), h2⟩
    · rcases hD.flowProcess e he with ⟨p, h1, h2⟩ | ⟨i, h1, h2⟩
      · exact .inl ⟨p, h1, merge_container.2 (.inr h2)⟩
      · exact .inr ⟨i, msgs i (.inr h1), h2⟩
  · intro k hk
    rcases collab k hk with ⟨h1, _⟩ | ⟨_, h1⟩
    · refine ⟨(hD.messages k h1).1, fun m hm => ⟨((hD.messages k h1).2 m hm).1, fun e he hi => ?_⟩⟩
      rw [eE, List.mem_append] at he
      rcases he with he | he
      · exact absurd (uses_flowId hc he hi) (hM _ ((hN.collab k h1).messages m hm).1)
      · exact ((hD.messages k h1).2 m hm).2 e he hi
    · refine ⟨(hc.messages k h1).1, fun m hm => ⟨((hc.messages k h1).2 m hm).1, fun e he hi => ?_⟩⟩
      rw [eE, List.mem_append] at he
      rcases he with he | he
      · exact ((hc.messages k h1).2 m hm).2 e he hi
      · exact absurd (uses_message (d := c) (by rw [messageIds_some h1]; exact List.mem_map_of_mem hm)) (hM _ (hN.flowId hD he hi))
  · intro k hk
    rcases collab k hk with ⟨h1, _⟩ | ⟨_, h1⟩
    · exact hD.owners k h1
    · exact hc.owners k h1
  · have all : ((poolIds c ++ laneIds c ++ c.graph.nodes.map (·.1)) ++ (poolIds D ++ laneIds D ++ D.graph.nodes.map (·.1))).Nodup := by
      rw [List.nodup_append]
      refine ⟨hc.shapeIds, hD.shapeIds, ?_⟩
      rintro a ha b hb rfl
      have hMa : M a := by
        simp only [List.mem_append] at hb
        rcases hb with (hb | hb) | hb
        · exact hN.pool hb
        · exact hN.lane hb
        · exact hN.nodes _ hb
      simp only [List.mem_append] at ha
      rcases ha with (ha | ha) | ha
      · exact hM _ hMa (uses_pool ha)
      · exact hL _ hMa ha
      · exact hM _ hMa (.inl ha)
    rw [merge_laneIds, eN, List.map_append]
    cases e : D.collaboration with
    | none =>
      have h1 : poolIds (merge c D) = poolIds c := by simp [poolIds, merge, e]
      have h2 : poolIds D = [] := by simp [poolIds, e]
      rw [h1]
      rw [h2] at all
      refine (List.Perm.nodup_iff ?_).1 all
      rw [List.perm_iff_count]
      intro x
      simp only [List.count_append, List.count_nil]
      omega
    | some k =>
      have h1 : poolIds (merge c D) = poolIds D := by simp [poolIds, merge, e]
      rw [h1]
      have : ((laneIds c ++ c.graph.nodes.map (·.1)) ++ (poolIds D ++ laneIds D ++ D.graph.nodes.map (·.1))).Nodup := by
        refine all.sublist ?_
        rw [List.append_assoc (poolIds c), List.append_assoc (poolIds c)]
        exact List.sublist_append_right _ _
      refine (List.Perm.nodup_iff ?_).1 this
      rw [List.perm_iff_count]
      intro x
      simp only [List.count_append]
      omega
  · intro e he i hi hid
    rw [eE, List.mem_append] at he
    rw [merge_laneIds, List.mem_append] at hi
    rcases he with he | he <;> rcases hi with hi | hi
    · exact hc.laneNames e he i hi hid
    · exact hM _ (hN.lane hi) (uses_flowId hc he hid)
    · exact hL _ (hN.flowId hD he hid) hi
    · exact hD.laneNames e he i hi hid
  · have left : ∀ (s : String) (a : NodeAttrs), c.graph.nodes.get? s = some a → (merge c D).graph.nodes.get? s = some a := by
      intro s a h
      rw [eN, Dict.get?_append, h]
      rfl
    have right : ∀ (s : String) (a : NodeAttrs), D.graph.nodes.get? s = some a → (merge c D).graph.nodes.get? s = some a := by
      intro s a h
      rw [eN, Dict.get?_append, h, (Dict.get?_eq_none_iff _ _).2 fun hk => hM _ (hN.nodes _ (Dict.mem_keys_of_get? h)) (.inl hk)]
      rfl
    intro e he i s t h1 h2 h3
    rw [eE, List.mem_append] at he
    rcases he with he | he
    · obtain ⟨⟨a, l, k1, k2⟩, b, l', k3, k4⟩ := hc.listed e he i s t h1 h2 h3
      exact ⟨⟨a, l, left _ _ k1, k2⟩, b, l', left _ _ k3, k4⟩
    · obtain ⟨⟨a, l, k1, k2⟩, b, l', k3, k4⟩ := hD.listed e he i s t h1 h2 h3
      exact ⟨⟨a, l, right _ _ k1, k2⟩, b, l', right _ _ k3, k4⟩
  · intro i v
    rw [eS, Dict.get?_append, eE]
    constructor
    · intro h
      cases hv : c.sequenceFlows.get? i with
      | some w =>
        rw [hv] at h
        obtain ⟨e, he, k⟩ := (hc.table i w).1 hv
        rw [Option.some_or, Option.some.injEq] at h
        subst h
        exact ⟨e, by simp [he], k⟩
      | none =>
        rw [hv, Option.none_or] at h
        obtain ⟨e, he, k⟩ := (hD.table i v).1 h
        exact ⟨e, by simp [he], k⟩
    · rintro ⟨e, he, k⟩
      rcases List.mem_append.1 he with he | he
      · rw [(hc.table i v).2 ⟨e, he, k⟩, Option.some_or]
      · have h1 := (hD.table i v).2 ⟨e, he, k⟩
        rw [(Dict.get?_eq_none_iff _ _).2 fun hk => hM _ (hN.table _ (Dict.mem_of_get? h1)).1 (.inr (.inr (.inl hk))), Option.none_or, h1]

end Bpmn.Import

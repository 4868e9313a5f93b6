import Verif.Lemmas.Layout
import Verif.Props.LayoutMetrics
/-!
# Properties C23 - C32: classification and layout
-/
set_option linter.unusedSimpArgs false
set_option linter.unusedVariables false

namespace Bpmn.Props
open Bpmn Bpmn.Spec Bpmn.Classify Bpmn.Layouter

/-! ## C23 -/

/-- **C23 (layouter).** On every diagram whose nodes have a type and both lists, the classified nodes are exactly the nodes of the eleven
supported types, each once; a node carries its own lists; it is labelled `Join` exactly when it has at least two incoming flows and `Split`
exactly when it has at least two outgoing flows; and every flow is classified as `Flow`. -/
theorem C23_elements (d : Diagram) (h : Complete d) :
    ∃ cs, generateElementsClassification d = .ok (cs, d.getFlows.map fun f => (f, ["Flow"])) ∧
      (cs.map (·.id)).Perm ((d.getNodes.filter fun n => decide (Supported n)).map (·.1)) ∧
      ∀ c ∈ cs, ∃ n ∈ d.getNodes, Supported n ∧ c.id = n.1 ∧ c.ins = ins n ∧ c.outs = outs n ∧ "Element" ∈ c.labels ∧
        ("Join" ∈ c.labels ↔ 2 ≤ (ins n).length) ∧ ("Split" ∈ c.labels ↔ 2 ≤ (outs n).length) ∧
        ("Start Event" ∈ c.labels ↔ n.2.type = some "startEvent") ∧ ("End Event" ∈ c.labels ↔ n.2.type = some "endEvent") := by
  refine ⟨(byType d).map ncOf, ?_, ?_, ?_⟩
  · simp [generateElementsClassification, elements_eq h, bind, Except.bind, pure, Except.pure]
  · have := (byType_perm d).map (·.1)
    simpa [List.map_map, Function.comp_def, ncOf] using this
  · intro c hc
    obtain ⟨n, hn, rfl⟩ := List.mem_map.1 hc
    obtain ⟨h1, h2⟩ := mem_byType.1 hn
    refine ⟨n, h1, h2, rfl, rfl, rfl, by simp [ncOf, Spec.labels], join_mem_labels n, split_mem_labels n, ?_, ?_⟩
    · simp only [ncOf, Spec.labels]
      by_cases h1 : n.2.type = some "startEvent" <;> by_cases h2 : n.2.type = some "endEvent" <;>
        by_cases h3 : 2 ≤ (ins n).length <;> by_cases h4 : 2 ≤ (outs n).length <;> simp [h1, h2, h3, h4]
    · simp only [ncOf, Spec.labels]
      by_cases h1 : n.2.type = some "startEvent" <;> by_cases h2 : n.2.type = some "endEvent" <;>
        by_cases h3 : 2 ≤ (ins n).length <;> by_cases h4 : 2 ≤ (outs n).length <;> simp [h1, h2, h3, h4]

/-- **C23 (agreement).** If moreover node ids are unique, the classification used by the CSV export is the same table: an entry for each
node classified by the layouter, in the same order and with the same labels. -/
theorem C23_agree (d : Diagram) (h : Complete d) (hid : (d.getNodes.map (·.1)).Nodup) :
    ∃ cs fs, generateElementsClassification d = .ok (cs, fs) ∧
      generateNodesClassification d = .ok (cs.map fun c => (c.id, c.labels)) := by
  refine ⟨(byType d).map ncOf, d.getFlows.map fun f => (f, ["Flow"]), ?_, ?_⟩
  · simp [generateElementsClassification, elements_eq h, bind, Except.bind, pure, Except.pure]
  · rw [nodes_eq h hid, List.map_map]; rfl

/-- A diagram with a split (the gateway) and a join (a task). -/
example : Complete (Op.run {} demoOps) ∧
    generateNodesClassification (Op.run {} demoOps) =
      .ok [("t1", ["Element", "Join"]), ("t2", ["Element"]), ("g", ["Element", "Split"]), ("s", ["Element", "Start Event"])] := by
  refine ⟨(consistent_of_allowed _ demo_allowed).complete, by decide⟩

/-! ## C24 -/

theorem perm_of_inv {d : Diagram} {all sorted : List NC} {back : List String} (g : Good d all) (v : Inv d all [] sorted back) :
    sorted.Perm all := by
  have hp : (sorted.map (·.id)).Perm (all.map (·.id)) := by simpa using v.perm
  have n1 : sorted.Nodup := (hp.nodup_iff.2 g.ids).of_map
  refine (List.perm_ext_iff_of_nodup n1 g.ids.of_map).2 fun a => ⟨v.sub a, fun ha => ?_⟩
  obtain ⟨s, hs, e⟩ := List.mem_map.1 (hp.mem_iff.2 (List.mem_map_of_mem ha))
  rw [← g.id_inj (v.sub s hs) ha e]
  exact hs

/-- **C24.** On every consistent diagram, cyclic or not: if the sorting of the classified nodes returns, the result is a permutation of
them, and for every flow that is not reported as backward and leads to a classified node, the source stands before the target. -/
theorem C24_topological_order (d : Diagram) (h : Consistent d) {all fl} (hc : generateElementsClassification d = .ok (all, fl))
    {fuel sorted back} (hs : topologicalSort fuel d all = .ok (sorted, back)) :
    sorted.Perm all ∧
    ∀ i s t, FlowFromTo d i s t → i ∉ back → t ∈ all.map (·.id) → Before (sorted.map (·.id)) s t := by
  have : all = (byType d).map ncOf := by
    simp only [generateElementsClassification, elements_eq h.complete, bind, Except.bind, pure, Except.pure, Except.ok.injEq, Prod.mk.injEq] at hc
    exact hc.1.symm
  subst this
  have g := good_of_consistent h
  have v : Layouter.Inv d _ [] sorted back := sortLoop_inv g fuel (inv_start g) hs
  have hp := perm_of_inv g v
  refine ⟨hp, ?_⟩
  intro i s t hf hib ht
  obtain ⟨c, hc', rfl⟩ := List.mem_map.1 ((hp.map (·.id)).mem_iff.2 ht)
  obtain ⟨n, hn, rfl⟩ := List.mem_map.1 (v.sub c hc')
  -- the flow is in the incoming list of the target
  obtain ⟨a, b, e, g1, g2, g3, g4⟩ := hf
  obtain ⟨j, m, hm, h1, h2, h3⟩ := h.listed (a, b, e) (pyFind_mem g1)
  have : j = i := by simpa [g2] using h1.symm
  subst this
  obtain ⟨m', hm', hf', hi'⟩ := h.outFlow m hm j h3
  have e1 : flowTarget d j = .ok (ncOf n).id := flowFromTo_target ⟨a, b, e, g1, g2, g3, g4⟩
  have e2 := flowFromTo_target hf'
  rw [e1] at e2
  have : n = m' := h.node_eq (mem_byType.1 hn).1 hm' (by simpa [ncOf] using e2)
  subst this
  obtain ⟨pre, post, hsp⟩ := List.append_of_mem hc'
  obtain ⟨s', k1, k2⟩ := v.order pre (ncOf n) post hsp j hi' hib
  rw [flowFromTo_source ⟨a, b, e, g1, g2, g3, g4⟩] at k1
  cases k1
  exact ⟨pre.map (·.id), post.map (·.id), by rw [hsp]; simp, k2⟩

/-- A cyclic diagram `s → a → b → c → a` is sorted, with both flows into the join `a` (also the one from the start) reported backward only
if they are still open: here `f4`. -/
example : Consistent (Op.run {} loopOps) ∧
    (generateElementsClassification (Op.run {} loopOps)).map (fun r => r.1.map (·.id)) = .ok ["a", "b", "c", "s"] ∧
    ((generateElementsClassification (Op.run {} loopOps)).bind fun r =>
      (topologicalSort 9 (Op.run {} loopOps) r.1).map fun q => (q.1.map (·.id), q.2)) = .ok (["s", "a", "b", "c"], ["f4"]) :=
  ⟨consistent_of_allowed _ loop_allowed, by decide, by decide⟩

/-! ## C25 -/

theorem next_of_flow {d : Diagram} (h : Consistent d) {p n : Node} (hp : p ∈ d.getNodes) (hn : n ∈ d.getNodes) {i : String}
    (ho : i ∈ outs p) (hi : i ∈ ins n) : Next d p n := by
  obtain ⟨m, hm, hf, hi'⟩ := h.outFlow p hp i ho
  obtain ⟨q, hq, hf', -⟩ := h.inFlow n hn i hi
  have e1 := flowFromTo_target hf
  have e2 := flowFromTo_target hf'
  rw [e1] at e2
  have : m = n := h.node_eq hm hn (by simpa using e2)
  subst this
  obtain ⟨a, b, e, g1, g2, g3, g4⟩ := hf
  exact ⟨i, ho, (a, b, e), g1, g4, h.getNodeById hm⟩

/-- During the sorting, the source of an open incoming flow is a remaining node, and precedes. -/
theorem open_pred {d : Diagram} (h : Consistent d) (hf : FlowsSupported d) {tmp sorted back}
    (v : Inv d ((byType d).map ncOf) tmp sorted back) {x : NC} (hx : x ∈ tmp) (hne : x.ins ≠ []) {n : Node} (hn : n ∈ d.getNodes)
    (hid : x.id = n.1) : ∃ p ∈ d.getNodes, (∃ y ∈ tmp, y.id = p.1) ∧ Next d p n := by
  have g := good_of_consistent h
  obtain ⟨i, l, hi⟩ := List.exists_cons_of_ne_nil hne
  have him : i ∈ x.ins := by rw [hi]; simp
  obtain ⟨c, hc, e, -, -, -, hci, -⟩ := v.cur x hx
  have hic := ((hci i).1 him).1
  obtain ⟨n', hn', rfl⟩ := List.mem_map.1 hc
  have : n' = n := h.node_eq (mem_byType.1 hn').1 hn (e.symm.trans hid)
  subst this
  obtain ⟨m, hm, hsrc⟩ := (closed_of_supported h hf).2 _ hc i hic
  obtain ⟨p, hp, rfl⟩ := List.mem_map.1 hm
  have hout := g.inOut _ hc i hic _ hm hsrc
  exact ⟨p, (mem_byType.1 hp).1, v.source_in_tmp g hx him hm hsrc, next_of_flow h (mem_byType.1 hp).1 hn hout hic⟩

theorem acyclic_progress {d : Diagram} (h : Consistent d) (hf : FlowsSupported d) (ha : Acyclic d) :
    ∀ tmp sorted back, Inv d ((byType d).map ncOf) tmp sorted back → tmp ≠ [] → ∃ x ∈ tmp, x.ins = [] := by
  intro tmp sorted back v hne
  by_contra hno
  have hno : ∀ x ∈ tmp, x.ins ≠ [] := fun x hx e => hno ⟨x, hx, e⟩
  have node : ∀ x ∈ tmp, ∃ n ∈ d.getNodes, x.id = n.1 := by
    intro x hx
    obtain ⟨c, hc, e, -⟩ := v.cur x hx
    obtain ⟨n, hn, rfl⟩ := List.mem_map.1 hc
    exact ⟨n, (mem_byType.1 hn).1, e⟩
  let l := d.getNodes.filter fun n => decide (∃ y ∈ tmp, y.id = n.1)
  have hl : l ≠ [] := by
    obtain ⟨x, hx⟩ := List.exists_mem_of_ne_nil tmp hne
    obtain ⟨n, hn, e⟩ := node x hx
    exact List.ne_nil_of_mem (a := n) (List.mem_filter.2 ⟨hn, by simpa using ⟨x, hx, e⟩⟩)
  obtain ⟨a, ha1, ha2⟩ := exists_cycle (Next d) l hl (by
    intro n hn
    obtain ⟨h1, h2⟩ := List.mem_filter.1 hn
    obtain ⟨x, hx, e⟩ := of_decide_eq_true h2
    obtain ⟨p, hp, hpt, hnext⟩ := open_pred h hf v hx (hno x hx) h1 e
    exact ⟨p, List.mem_filter.2 ⟨hp, by simpa using hpt⟩, hnext⟩)
  exact ha a (List.mem_filter.1 ha1).1 ha2

/-- **C25.** For every acyclic consistent diagram whose flows connect nodes of the supported types, the sorting terminates and reports no
backward flow. -/
theorem C25_acyclic (d : Diagram) (h : Consistent d) (hf : FlowsSupported d) (ha : Acyclic d) :
    ∃ all fl, generateElementsClassification d = .ok (all, fl) ∧
      ∃ sorted bound, ∀ fuel ≥ bound, topologicalSort fuel d all = .ok (sorted, []) := by
  refine ⟨(byType d).map ncOf, d.getFlows.map fun f => (f, ["Flow"]), ?_, ?_⟩
  · simp [generateElementsClassification, elements_eq h.complete, bind, Except.bind, pure, Except.pure]
  · have g := good_of_consistent h
    have prog := acyclic_progress h hf ha
    obtain ⟨⟨sorted, back⟩, hr⟩ := sortLoop_ends g (closed_of_supported h hf) (by
      intro tmp sorted back v hne hno
      obtain ⟨x, hx, e⟩ := prog tmp sorted back v hne
      exact absurd e (hno x hx)) (2 * ((byType d).map ncOf).length + 2) (inv_start g) (by split <;> omega)
    have hb := sortLoop_no_back g prog _ (inv_start g) hr
    simp only at hb
    subst hb
    exact ⟨sorted, _, fun fuel hfuel => sortLoop_mono hfuel hr⟩

/-- The rank of each node in `demoOps`. -/
def demoRank (n : Node) : Nat := if n.1 = "s" then 0 else if n.1 = "g" then 1 else if n.1 = "t2" then 2 else 3

theorem acyclic_of_rank {d : Diagram} (rank : Node → Nat) (h : ∀ a ∈ d.getNodes, ∀ b, Next d a b → rank a < rank b) : Acyclic d := by
  intro n hn hc
  have : ∀ b, Relation.TransGen (Next d) n b → b ∈ d.getNodes ∧ rank n < rank b := by
    intro b hab
    have mem : ∀ {x y}, Next d x y → y ∈ d.getNodes := fun ⟨_, _, _, _, _, h3⟩ => (Spec.Consistent.mem_of_getNodeById h3).1
    induction hab with
    | single h1 => exact ⟨mem h1, h _ hn _ h1⟩
    | tail _ h1 ih => exact ⟨mem h1, Nat.lt_trans ih.2 (h _ ih.1 _ h1)⟩
  exact Nat.lt_irrefl _ (this n hc).2

theorem demo_next : ∀ a ∈ (Op.run {} demoOps).getNodes, ∀ i ∈ outs a, ∀ f, (Op.run {} demoOps).getFlowById i = .ok (some f) →
    ∀ b ∈ (Op.run {} demoOps).getNodes, f.2.2.targetRef = some b.1 → demoRank a < demoRank b := by
  have key : ∀ a ∈ (Op.run {} demoOps).getNodes, ∀ i ∈ outs a, ∀ b ∈ (Op.run {} demoOps).getNodes,
      ((Op.run {} demoOps).getFlowById i).map (fun r => r.map fun f => f.2.2.targetRef) = .ok (some (some b.1)) →
      demoRank a < demoRank b := by decide
  intro a ha i hi f hf b hb ht
  apply key a ha i hi b hb
  rw [hf]
  simp [Except.map, ht]

/-- A diagram with a split and a join, and the result of sorting it. -/
example : Consistent (Op.run {} demoOps) ∧ FlowsSupported (Op.run {} demoOps) ∧ Acyclic (Op.run {} demoOps) ∧
    ((generateElementsClassification (Op.run {} demoOps)).bind fun r =>
      (topologicalSort 9 (Op.run {} demoOps) r.1).map fun q => (q.1.map (·.id), q.2)) = .ok (["s", "g", "t2", "t1"], []) := by
  refine ⟨consistent_of_allowed _ demo_allowed, ?_, ?_, by decide⟩
  · unfold FlowsSupported Supported; decide
  · refine acyclic_of_rank demoRank ?_
    rintro a ha b ⟨i, hi, f, hf, ht, hb⟩
    exact demo_next a ha i hi f hf b (Spec.Consistent.mem_of_getNodeById hb).1 ht

/-! ## C26 -/

theorem reachable_progress {d : Diagram} (h : Consistent d) (hf : FlowsSupported d) (hr : ReachableFromStart d) :
    ∀ tmp sorted back, Inv d ((byType d).map ncOf) tmp sorted back → tmp ≠ [] → (∀ x ∈ tmp, x.ins ≠ []) →
      ∃ x ∈ tmp, "Join" ∈ x.labels := by
  intro tmp sorted back v hne hno
  by_contra hnj
  have hnj : ∀ x ∈ tmp, "Join" ∉ x.labels := fun x hx e => hnj ⟨x, hx, e⟩
  have g := good_of_consistent h
  -- the remaining nodes are closed under predecessors
  have closed : ∀ m ∈ d.getNodes, (∃ x ∈ tmp, x.id = m.1) → ∀ p, Next d p m → p ∈ d.getNodes → ∃ y ∈ tmp, y.id = p.1 := by
    rintro m hm ⟨x, hx, e⟩ p hpm hp
    obtain ⟨c, hc, e', hl, -, -, hci, -⟩ := v.cur x hx
    obtain ⟨m', hm', rfl⟩ := List.mem_map.1 hc
    have hmm : m' = m := h.node_eq (mem_byType.1 hm').1 hm (e'.symm.trans e)
    subst hmm
    -- exactly one incoming flow
    have hlen : ¬2 ≤ (ins m').length := by
      have := hnj x hx
      rw [hl, g.join _ hc] at this
      exact this
    obtain ⟨p', hp', hpt, -⟩ := open_pred h hf v hx (hno x hx) hm e
    obtain ⟨i, l, hi⟩ := List.exists_cons_of_ne_nil (hno x hx)
    have hic := ((hci i).1 (by rw [hi]; simp)).1
    have hins : ∀ j ∈ ins m', j = i := by
      intro j hj
      have hic' : i ∈ ins m' := hic
      rcases hq : ins m' with _ | ⟨a, _ | ⟨b, r⟩⟩
      · rw [hq] at hj; cases hj
      · rw [hq] at hj hic'
        simp only [List.mem_singleton] at hj hic'
        rw [hj, hic']
      · rw [hq] at hlen; simp at hlen
    -- the flow of `Next d p m'` is that flow
    obtain ⟨j, hj, f, hfj, htj, -⟩ := hpm
    obtain ⟨m2, hm2, hff, hjm2⟩ := h.outFlow p hp j hj
    have : m2.1 = m'.1 := by
      obtain ⟨a, b, e3, g1, -, -, g4⟩ := hff
      rw [g1] at hfj
      simp only [Except.ok.injEq, Option.some.injEq] at hfj
      subst hfj
      simp only at htj
      rw [g4] at htj
      simpa using htj
    have := h.node_eq hm2 hm this
    subst this
    have := hins j hjm2
    subst this
    exact v.source_in_tmp g hx (by rw [hi]; simp) (m := ncOf p) (List.mem_map.2 ⟨p, mem_byType.2
      ⟨hp, hf p hp (.inr (List.ne_nil_of_mem hj))⟩, rfl⟩) (flowFromTo_source hff)
  have hstart : ∀ s n, s ∈ d.getNodes → Relation.ReflTransGen (Next d) s n → n ∈ d.getNodes → (∃ x ∈ tmp, x.id = n.1) → ∃ x ∈ tmp, x.id = s.1 := by
    intro s n hs hsn
    induction hsn with
    | refl => intro _ h; exact h
    | @tail b c hb hbc ih =>
      intro hc hx
      have hbn : b ∈ d.getNodes := by
        rcases hb.cases_tail with h1 | ⟨z, -, i, hi, f, h1, h2, h3⟩
        · rw [h1]; exact hs
        · exact (Spec.Consistent.mem_of_getNodeById h3).1
      exact ih hbn (closed c hc hx b hbc hbn)
  obtain ⟨x, hx⟩ := List.exists_mem_of_ne_nil tmp hne
  obtain ⟨c, hc, e, -⟩ := v.cur x hx
  obtain ⟨n, hn, rfl⟩ := List.mem_map.1 hc
  obtain ⟨s, hs, hs0, hsn⟩ := hr n (mem_byType.1 hn).1
  obtain ⟨y, hy, hye⟩ := hstart s n hs hsn (mem_byType.1 hn).1 ⟨x, hx, e⟩
  obtain ⟨cy, hcy, ey, -, -, -, hyi, -⟩ := v.cur y hy
  obtain ⟨s', hs', rfl⟩ := List.mem_map.1 hcy
  have : s' = s := h.node_eq (mem_byType.1 hs').1 hs (ey.symm.trans hye)
  subst this
  obtain ⟨i, l, hi⟩ := List.exists_cons_of_ne_nil (hno y hy)
  have := ((hyi i).1 (by rw [hi]; simp)).1
  simp only [ncOf, hs0] at this
  cases this

/-- **C26 (termination).** If every node of a consistent diagram (with flows between nodes of the supported types) can be reached from a
node without incoming flows, the sorting terminates. -/
theorem C26_terminates (d : Diagram) (h : Consistent d) (hf : FlowsSupported d) (hr : ReachableFromStart d) :
    ∃ all fl, generateElementsClassification d = .ok (all, fl) ∧
      ∃ sorted back bound, ∀ fuel ≥ bound, topologicalSort fuel d all = .ok (sorted, back) := by
  refine ⟨(byType d).map ncOf, d.getFlows.map fun f => (f, ["Flow"]), ?_, ?_⟩
  · simp [generateElementsClassification, elements_eq h.complete, bind, Except.bind, pure, Except.pure]
  · have g := good_of_consistent h
    obtain ⟨⟨sorted, back⟩, hr⟩ := sortLoop_ends g (closed_of_supported h hf) (reachable_progress h hf hr)
      (2 * ((byType d).map ncOf).length + 2) (inv_start g) (by split <;> omega)
    exact ⟨sorted, back, _, fun fuel hfuel => sortLoop_mono hfuel hr⟩

theorem first_satisfying {α : Type} (P : α → Prop) [DecidablePred P] (l : List α) (h : ∃ x ∈ l, P x) :
    ∃ pre x post, l = pre ++ x :: post ∧ P x ∧ ∀ y ∈ pre, ¬P y := by
  induction l with
  | nil => simp at h
  | cons a l ih =>
    by_cases ha : P a
    · exact ⟨[], a, l, rfl, ha, by simp⟩
    · obtain ⟨pre, x, post, e, hx, hp⟩ := ih (by
        obtain ⟨x, hx, hP⟩ := h
        rcases List.mem_cons.1 hx with rfl | hx
        · exact absurd hP ha
        · exact ⟨x, hx, hP⟩)
      refine ⟨a :: pre, x, post, by rw [e]; rfl, hx, ?_⟩
      intro y hy
      rcases List.mem_cons.1 hy with rfl | hy
      · exact ha
      · exact hp y hy

theorem pred_in_cycle {d : Diagram} {c : List Node} (hc : Cycle d c) : ∀ n ∈ c, ∃ p ∈ c, Next d p n := by
  obtain ⟨hne, -, hfol, hclose⟩ := hc
  have key : ∀ (c : List Node), Follows d c → ∀ n ∈ c, (∃ p ∈ c, Next d p n) ∨ c.head? = some n := by
    intro c
    induction c with
    | nil => simp
    | cons a c ih =>
      intro hf n hn
      rcases List.mem_cons.1 hn with rfl | hn
      · exact .inr rfl
      · cases c with
        | nil => cases hn
        | cons b r =>
          rcases ih hf.2 n hn with ⟨p, hp, h1⟩ | h1
          · exact .inl ⟨p, List.mem_cons_of_mem _ hp, h1⟩
          · simp only [List.head?_cons, Option.some.injEq] at h1
            subst h1
            exact .inl ⟨a, by simp, hf.1⟩
  intro n hn
  rcases key c hfol n hn with h | h
  · exact h
  · exact ⟨c.getLast hne, List.getLast_mem hne, hclose _ (List.getLast?_eq_getLast_of_ne_nil hne) _ h⟩

/-- **C26 (non-termination).** On every consistent diagram (with flows between nodes of the supported types) that contains a cycle of
nodes each having exactly one incoming flow, the sorting — and with it `generate_layout` — never ends: whatever the number of steps, it has
neither returned nor raised. -/
theorem C26_pure_cycle_hangs (d : Diagram) (h : Consistent d) (hf : FlowsSupported d) (c : List Node) (hc : Cycle d c)
    (h1 : ∀ n ∈ c, (ins n).length = 1) :
    ∃ all fl, generateElementsClassification d = .ok (all, fl) ∧
      ∀ fuel, topologicalSort fuel d all = .error .outOfFuel ∧ generateLayout fuel d = .error .outOfFuel := by
  have hcls : generateElementsClassification d = .ok ((byType d).map ncOf, d.getFlows.map fun f => (f, ["Flow"])) := by
    simp [generateElementsClassification, elements_eq h.complete, bind, Except.bind, pure, Except.pure]
  refine ⟨_, _, hcls, fun fuel => ?_⟩
  have g := good_of_consistent h
  have main : topologicalSort fuel d ((byType d).map ncOf) = .error .outOfFuel := by
    rcases sortLoop_no_raise g (closed_of_supported h hf) fuel (inv_start g) with ⟨⟨sorted, back⟩, hr⟩ | hr
    · exfalso
      have v := sortLoop_inv g fuel (inv_start g) hr
      have hp := perm_of_inv g v
      have inAll : ∀ n ∈ c, ncOf n ∈ (byType d).map ncOf := by
        intro n hn
        have hnn := hc.2.1 n hn
        refine List.mem_map.2 ⟨n, mem_byType.2 ⟨hnn, hf n hnn (.inl ?_)⟩, rfl⟩
        intro e
        have := h1 n hn
        rw [e] at this
        simp at this
      obtain ⟨n0, hn0⟩ := List.exists_mem_of_ne_nil c hc.1
      obtain ⟨pre, x, post, e, ⟨n, hn, rfl⟩, hpre⟩ := by
        classical
        exact first_satisfying (fun x : NC => ∃ n ∈ c, x = ncOf n) sorted ⟨ncOf n0, hp.mem_iff.2 (inAll n0 hn0), n0, hn0, rfl⟩
      -- its predecessor is in the cycle too
      obtain ⟨p, hp', i, hi, f, hfi, hti, -⟩ := pred_in_cycle hc n hn
      have hpn := hc.2.1 p hp'
      have hnn := hc.2.1 n hn
      obtain ⟨m, hm, hff, him⟩ := h.outFlow p hpn i hi
      have : m.1 = n.1 := by
        obtain ⟨a, b, e3, g1, -, -, g4⟩ := hff
        rw [g1] at hfi
        simp only [Except.ok.injEq, Option.some.injEq] at hfi
        subst hfi
        simp only at hti
        rw [g4] at hti
        simpa using hti
      have := h.node_eq hm hnn this
      subst this
      have hnb : i ∉ back := by
        intro hb
        obtain ⟨cj, hcj, hj, hij⟩ := v.backJoin i hb
        have : cj = ncOf m := g.in_unique hcj (inAll m hn) hij him
        subst this
        rw [g.join _ hcj] at hj
        have := h1 m hn
        simp only [ncOf] at hj
        omega
      obtain ⟨s, k1, k2⟩ := v.order pre (ncOf m) post e i him hnb
      rw [flowFromTo_source hff] at k1
      cases k1
      obtain ⟨y, hy, hye⟩ := List.mem_map.1 k2
      refine hpre y hy ⟨p, hp', ?_⟩
      exact g.id_inj (v.sub y (by rw [e]; simp [hy])) (inAll p hp') hye
    · exact hr
  refine ⟨main, ?_⟩
  simp only [generateLayout, hcls, bind, Except.bind, main]

/-- A start event with a separate cycle of two tasks. -/
def pureCycleOps : List Op :=
  [.createNew "d" "D", .addProcess "p" false true "None" "PL" "P",
   .addStartEvent "P" "s" none false true (some "s") "u1" "u2", .addTask "P" "x" (some "x") "u3",
   .addTask "P" "a" (some "a") "u4", .addTask "P" "b" (some "b") "u5", .addTask "P" "c" (some "c") "u6",
   .addSequenceFlow "P" "s" "x" "" "f1", .addSequenceFlow "P" "a" "b" "" "f2", .addSequenceFlow "P" "b" "c" "" "f3",
   .addSequenceFlow "P" "c" "a" "" "f4"]

theorem pureCycle_allowed : AllowedHistory {} pureCycleOps := by
  simp [pureCycleOps, AllowedHistory, Allowed, step, declaredNode, declaredFlow, directionArg, directions, chosen]

theorem next_of_eval {d : Diagram} {a b : Node} {i : String} (hi : i ∈ outs a)
    (hf : (d.getFlowById i).map (fun r => r.map fun f => f.2.2.targetRef) = .ok (some (some b.1))) (hb : d.getNodeById b.1 = some b) :
    Next d a b := by
  refine ⟨i, hi, ?_⟩
  cases hr : d.getFlowById i with
  | error e => rw [hr] at hf; cases hf
  | ok r =>
    rw [hr] at hf
    cases r with
    | none => simp [Except.map] at hf
    | some f => exact ⟨f, rfl, by simpa [Except.map] using hf, hb⟩

example : ∃ c, Consistent (Op.run {} pureCycleOps) ∧ FlowsSupported (Op.run {} pureCycleOps) ∧ Cycle (Op.run {} pureCycleOps) c ∧
    c.length = 3 ∧ ∀ n ∈ c, (ins n).length = 1 := by
  refine ⟨(Op.run {} pureCycleOps).getNodes.drop 2, consistent_of_allowed _ pureCycle_allowed, ?_, ⟨by decide, by decide, ?_, ?_⟩,
    by decide, by decide⟩
  · unfold FlowsSupported Supported; decide
  · exact ⟨next_of_eval (i := "f2") (by decide) (by decide) (by decide), next_of_eval (i := "f3") (by decide) (by decide) (by decide), trivial⟩
  · intro a ha b hb
    simp only [Option.mem_def] at ha hb
    have ha' := Option.some.inj (ha.symm.trans (by decide : ((Op.run {} pureCycleOps).getNodes.drop 2).getLast? = some ((Op.run {} pureCycleOps).getNodes[4]'(by decide))))
    have hb' := Option.some.inj (hb.symm.trans (by decide : ((Op.run {} pureCycleOps).getNodes.drop 2).head? = some ((Op.run {} pureCycleOps).getNodes[2]'(by decide))))
    subst ha' hb'
    exact next_of_eval (i := "f4") (by decide) (by decide) (by decide)

/-- The hypotheses of the termination theorem are met by a cyclic diagram entered from a start event (`loopOps`). -/
example : Consistent (Op.run {} loopOps) ∧ FlowsSupported (Op.run {} loopOps) ∧ ReachableFromStart (Op.run {} loopOps) := by
  refine ⟨consistent_of_allowed _ loop_allowed, ?_, ?_⟩
  · unfold FlowsSupported Supported; decide
  · have e1 : Next (Op.run {} loopOps) ((Op.run {} loopOps).getNodes[0]'(by decide)) ((Op.run {} loopOps).getNodes[1]'(by decide)) :=
      next_of_eval (i := "f1") (by decide) (by decide) (by decide)
    have e2 : Next (Op.run {} loopOps) ((Op.run {} loopOps).getNodes[1]'(by decide)) ((Op.run {} loopOps).getNodes[2]'(by decide)) :=
      next_of_eval (i := "f2") (by decide) (by decide) (by decide)
    have e3 : Next (Op.run {} loopOps) ((Op.run {} loopOps).getNodes[2]'(by decide)) ((Op.run {} loopOps).getNodes[3]'(by decide)) :=
      next_of_eval (i := "f3") (by decide) (by decide) (by decide)
    intro n hn
    refine ⟨(Op.run {} loopOps).getNodes[0]'(by decide), by decide, by decide, ?_⟩
    obtain ⟨k, hk, rfl⟩ := List.mem_iff_getElem.1 hn
    have hk4 : k < 4 := by
      have : (Op.run {} loopOps).getNodes.length = 4 := by decide
      omega
    have r1 := Relation.ReflTransGen.refl.tail e1
    match k, hk4 with
    | 0, _ => exact .refl
    | 1, _ => exact r1
    | 2, _ => exact r1.tail e2
    | 3, _ => exact (r1.tail e2).tail e3

/-! ## C27 -/

/-- **C27.** If `generate_layout` returns, two nodes with different ids are at different positions. -/
theorem C27_distinct_positions (d d' : Diagram) {fuel : Nat} (h : generateLayout fuel d = .ok d') :
    ∀ n ∈ d'.getNodes, ∀ m ∈ d'.getNodes, n.1 ≠ m.1 → (n.2.x, n.2.y) ≠ (m.2.x, m.2.y) := by
  obtain ⟨all, sorted, back, grid, ns, ws, h1, h2, h3, h4, h5, rfl⟩ := layout_steps h
  intro n hn m hm hne heq
  obtain ⟨n0, -, c1, hc1, rfl⟩ := setCoordinates_ok h4 n hn
  obtain ⟨m0, -, c2, hc2, rfl⟩ := setCoordinates_ok h4 m hm
  simp only [atCell, Prod.mk.injEq, Option.some.injEq] at heq hne
  have e1 := toString_inj heq.1
  have e2 := toString_inj heq.2
  have : c1 = c2 := List.inj_on_of_nodup_map (gridLayout_distinct h3) (List.mem_of_find?_eq_some hc1) (List.mem_of_find?_eq_some hc2)
    (by simp only [Prod.mk.injEq]; omega)
  subst this
  have i1 := List.find?_some hc1
  have i2 := List.find?_some hc2
  simp only [beq_iff_eq] at i1 i2
  exact hne (i1.symm.trans i2)

/-- The layout of a diagram with a split succeeds: the gateway `g` splits into `t1` and `t2`. -/
def splitOps : List Op :=
  [.createNew "d" "D", .addProcess "p" false true "None" "PL" "P",
   .addStartEvent "P" "s" none false true (some "s") "u1" "u2",
   .addExclusiveGateway "P" "g" "Diverging" none none "g",
   .addTask "P" "t1" (some "t1") "u4", .addTask "P" "t2" (some "t2") "u5",
   .addParallelGateway "P" "j" "Converging" (some "j") "u6", .addEndEvent "P" "e" none (some "e") "u7" "u8",
   .addSequenceFlow "P" "s" "g" "" "f1", .addSequenceFlow "P" "g" "t1" "yes" "f2",
   .addSequenceFlow "P" "g" "t2" "no" "f3", .addSequenceFlow "P" "t2" "j" "" "f4", .addSequenceFlow "P" "t1" "j" "" "f5",
   .addSequenceFlow "P" "j" "e" "" "f6"]

theorem split_allowed : AllowedHistory {} splitOps := by
  simp [splitOps, AllowedHistory, Allowed, step, declaredNode, declaredFlow, directionArg, directions, chosen]

def splitGrid : List Cell := [⟨2, 1, "s"⟩, ⟨2, 2, "g"⟩, ⟨4, 3, "t2"⟩, ⟨0, 3, "t1"⟩, ⟨2, 4, "j"⟩, ⟨2, 5, "e"⟩]

set_option maxRecDepth 8000 in
theorem split_grid :
    ((topologicalSort 20 (Op.run {} splitOps) ((byType (Op.run {} splitOps)).map ncOf)).bind fun r =>
      gridLayout 20 (Op.run {} splitOps) r.1) = .ok splitGrid := by decide

set_option maxRecDepth 8000 in
/-- The layout of `splitOps` succeeds; the two branches are put above and below the gateway. -/
theorem split_layout : ∃ d', generateLayout 20 (Op.run {} splitOps) = .ok d' ∧ d'.getNodes.length = 6 ∧
    ∃ n1 n2, d'.getNodeById "t1" = some n1 ∧ d'.getNodeById "t2" = some n2 ∧ At n1 500 50 ∧ At n2 500 450 := by
  have hg := split_grid
  cases hs : topologicalSort 20 (Op.run {} splitOps) ((byType (Op.run {} splitOps)).map ncOf) with
  | error e => rw [hs] at hg; cases hg
  | ok r =>
    obtain ⟨sorted, back⟩ := r
    rw [hs] at hg
    obtain ⟨d', ns, h1, h2, h3⟩ := layout_ok (consistent_of_allowed _ split_allowed) hs hg (by decide)
    refine ⟨d', h1, ?_, ?_⟩
    · have := congrArg List.length (setCoordinates_bare h2)
      simp only [List.length_map] at this
      rw [h3, this]
      decide
    · obtain ⟨c1, k1, k2⟩ := find_atCell h2 "t1" ((Op.run {} splitOps).getNodes[2]'(by decide)) (by decide)
      obtain ⟨c2, k3, k4⟩ := find_atCell h2 "t2" ((Op.run {} splitOps).getNodes[3]'(by decide)) (by decide)
      have e1 : c1 = ⟨0, 3, "t1"⟩ := Option.some.inj (k1.symm.trans (by decide))
      have e2 : c2 = ⟨4, 3, "t2"⟩ := Option.some.inj (k3.symm.trans (by decide))
      subst e1 e2
      exact ⟨_, _, h3 ▸ k2, h3 ▸ k4, ⟨rfl, rfl⟩, ⟨rfl, rfl⟩⟩

example : ∃ d', generateLayout 20 (Op.run {} splitOps) = .ok d' ∧ d'.getNodes.length = 6 :=
  let ⟨d', h1, h2, _⟩ := split_layout
  ⟨d', h1, h2⟩

/-! ## C28 -/

/-- **C28.** If `generate_layout` returns on a consistent diagram: every node is at `(150 * column + 50, 100 * row + 50)` for integers
`column`, `row`; a node without incoming flows is in column 1; a node with exactly one incoming flow is 150 right of the source of that
flow. -/
theorem C28_columns (d d' : Diagram) (h : Consistent d) {fuel : Nat} (hl : generateLayout fuel d = .ok d') :
    (∀ n ∈ d'.getNodes, ∃ col row : Int, At n (150 * col + 50) (100 * row + 50) ∧ (ins n = [] → col = 1)) ∧
    (∀ n ∈ d'.getNodes, ∀ m ∈ d'.getNodes, ∀ i, ins m = [i] → FlowFromTo d i n.1 m.1 →
      ∃ x : Int, n.2.x = some (toString x) ∧ m.2.x = some (toString (x + 150))) := by
  obtain ⟨all, sorted, back, grid, ns, ws, h1, h2, h3, h4, h5, rfl⟩ := layout_steps hl
  rw [elements_eq h.complete] at h1
  cases h1
  have g := good_of_consistent h
  have v := sortLoop_inv g fuel (inv_start g) h2
  have cols := gridLayout_columns h3
  -- the record behind a cell
  have cell : ∀ n0 ∈ d.getNodes, ∀ c, grid.find? (fun c => c.nodeId == n0.1) = some c →
      ∃ pre post, grid = pre ++ c :: post ∧ (ins n0 = [] → c.col = 1) ∧
        ∀ i, ins n0 = [i] → ∃ s pc, flowSource d i = .ok s ∧ pre.find? (fun c => c.nodeId == s) = some pc ∧ c.col = pc.col + 1 := by
    intro n0 hn0 c hc
    obtain ⟨pre, post, e⟩ := List.append_of_mem (List.mem_of_find?_eq_some hc)
    obtain ⟨x, hx, e1, h5, h6⟩ := cols pre c post e
    obtain ⟨n1, hn1, rfl⟩ := List.mem_map.1 (v.sub x hx)
    have hid : c.nodeId = n0.1 := by simpa using List.find?_some hc
    have : n1 = n0 := h.node_eq (mem_byType.1 hn1).1 hn0 (e1.trans hid)
    subst this
    refine ⟨pre, post, e, h5, ?_⟩
    intro i hi
    exact h6 i [] hi (by rw [ncOf, join_mem_labels, hi]; simp)
  constructor
  · intro n hn
    obtain ⟨n0, hn0, c, hc, rfl⟩ := setCoordinates_ok h4 n hn
    obtain ⟨pre, post, -, k1, -⟩ := cell n0 hn0 c hc
    exact ⟨c.col, c.row, ⟨by simp [atCell, Int.mul_comm], by simp [atCell, Int.mul_comm]⟩, k1⟩
  · intro n hn m hm i hi hf
    obtain ⟨n0, hn0, c, hc, rfl⟩ := setCoordinates_ok h4 n hn
    obtain ⟨m0, hm0, c', hc', rfl⟩ := setCoordinates_ok h4 m hm
    obtain ⟨pre, post, e, -, k2⟩ := cell m0 hm0 c' hc'
    obtain ⟨s, pc, hs, hfind, hcol⟩ := k2 i hi
    rw [flowFromTo_source hf] at hs
    cases hs
    have : grid.find? (fun c => c.nodeId == n0.1) = some pc := by
      rw [e, List.find?_append]
      have hfind' : pre.find? (fun c => c.nodeId == n0.1) = some pc := hfind
      rw [hfind']; rfl
    rw [hc] at this
    cases this
    refine ⟨c.col * 150 + 50, rfl, ?_⟩
    simp only [atCell]
    congr 2
    omega

/-! ## C29 -/

/-- **C29 (frame).** A layout changes nothing but the coordinates of nodes and the waypoints of flows. -/
theorem C29_only_layout_changes (d d' : Diagram) {fuel : Nat} (h : generateLayout fuel d = .ok d') : eraseLayout d' = eraseLayout d := by
  have sb := layout_sameBut h
  obtain ⟨all, sorted, back, grid, ns, ws, -, -, -, -, -, rfl⟩ := layout_steps h
  have e1 := sb.nodes
  have e2 := sb.edges
  simp only [eraseLayout]
  simp only [bareNode, bareEdge, bareAttrs] at e1 e2
  congr 2

/-- **C29 (idempotence).** Running the layout again gives the same diagram. -/
theorem C29_idempotent (d d' : Diagram) {fuel : Nat} (h : generateLayout fuel d = .ok d') : generateLayout fuel d' = .ok d' :=
  layout_idem h

/-! ## C30 -/

theorem lastWrite_eq {u v : String} {w : List (String × String)} {ws : List (String × String × List (String × String))}
    (h1 : ∃ p ∈ ws, (⟨u, v, {}⟩ : Edge).joins p.1 p.2.1 = true)
    (h2 : ∀ p ∈ ws, (⟨u, v, {}⟩ : Edge).joins p.1 p.2.1 = true → p.2.2 = w) : lastWrite u v ws = some w := by
  induction ws with
  | nil => simp at h1
  | cons p ws ih =>
    obtain ⟨a, b, w'⟩ := p
    rw [lastWrite]
    by_cases hr : ∃ p ∈ ws, (⟨u, v, {}⟩ : Edge).joins p.1 p.2.1 = true
    · rw [ih hr (fun p hp => h2 p (by simp [hp]))]; rfl
    · have hn : lastWrite u v ws = none := by
        clear ih h1 h2
        induction ws with
        | nil => rfl
        | cons q ws ih =>
          obtain ⟨a', b', w''⟩ := q
          rw [lastWrite, ih (fun ⟨p, hp, h⟩ => hr ⟨p, by simp [hp], h⟩)]
          have : ¬(⟨u, v, {}⟩ : Edge).joins a' b' = true := fun h => hr ⟨(a', b', w''), by simp, h⟩
          simp [this]
      rw [hn]
      obtain ⟨q, hq, hj⟩ := h1
      rcases List.mem_cons.1 hq with rfl | hq
      · rw [if_pos hj, show w' = w from h2 _ (by simp) hj]; rfl
      · exact absurd ⟨q, hq, hj⟩ hr

theorem mem_assignments {d : Diagram} {fs ws} (h : assignments d fs = .ok ws) :
    (∀ f ∈ fs, ∃ w, (f.1, f.2.1, w) ∈ ws) ∧ ∀ p ∈ ws, ∃ f ∈ fs, p.1 = f.1 ∧ p.2.1 = f.2.1 ∧ waypointsOf d f = .ok p.2.2 := by
  induction fs generalizing ws with
  | nil => cases h; simp
  | cons f fs ih =>
    rw [assignments] at h
    cases hw : waypointsOf d f with
    | error e => rw [hw] at h; cases h
    | ok w =>
      rw [hw] at h
      simp only [bind, Except.bind] at h
      cases ha : assignments d fs with
      | error e => rw [ha] at h; cases h
      | ok ws' =>
        rw [ha] at h
        cases h
        obtain ⟨i1, i2⟩ := ih ha
        constructor
        · intro g hg
          rcases List.mem_cons.1 hg with rfl | hg
          · exact ⟨w, by simp⟩
          · obtain ⟨w', h'⟩ := i1 g hg
            exact ⟨w', by simp [h']⟩
        · intro p hp
          rcases List.mem_cons.1 hp with rfl | hp
          · exact ⟨f, by simp, rfl, rfl, hw⟩
          · obtain ⟨g, hg, h'⟩ := i2 p hp
            exact ⟨g, by simp [hg], h'⟩

theorem flowWaypoints_shape {s t : NodeAttrs} {w} (h : flowWaypoints s t = .ok w) {sx sy tx ty : Int}
    (h1 : s.x = some (toString sx)) (h2 : s.y = some (toString sy)) (h3 : t.x = some (toString tx)) (h4 : t.y = some (toString ty)) :
    2 ≤ w.length ∧ w.length ≤ 3 ∧ w.head? = some (toString (sx + 50), toString (sy + 50)) ∧
      (w.getLast? = some (toString tx, toString (ty + 50)) ∨ w.getLast? = some (toString (tx + 50), toString ty)) := by
  unfold flowWaypoints at h
  cases hs : s.type with
  | none => rw [hs] at h; cases h
  | some st =>
    cases ht : t.type with
    | none => rw [hs, ht] at h; cases h
    | some tt =>
      simp only [hs, ht, h1, h2, h3, h4, need, pyInt_toString, bind, Except.bind, pure, Except.pure] at h
      split at h
      · cases h; simp
      · split at h
        · cases h; simp
        · split at h <;> cases h <;> simp

/-- The waypoints of a flow of a laid out diagram are those computed from its ends. -/
theorem layout_waypoints (d d' : Diagram) (hp : d.graph.edges.Pairwise fun e f => ¬SamePair e.u e.v f.u f.v) {fuel : Nat}
    (h : generateLayout fuel d = .ok d') :
    ∀ f ∈ d'.getFlows, ∃ s t n m w, f.2.2.sourceRef = some s ∧ f.2.2.targetRef = some t ∧
      d'.getNodeById s = some n ∧ d'.getNodeById t = some m ∧ f.2.2.waypoints = some w ∧
      ∃ sx sy tx ty : Int, At n sx sy ∧ At m tx ty ∧ flowWaypoints n.2 m.2 = .ok w := by
  have sb0 := layout_sameBut h
  obtain ⟨all, sorted, back, grid, ns, ws, h1, h2, h3, h4, h5, rfl⟩ := layout_steps h
  rintro ⟨a, b, at'⟩ hf
  obtain ⟨e', he', rfl, hab⟩ := Graph.mem_flows hf
  obtain ⟨e, he, rfl⟩ := List.mem_map.1 he'
  -- the flow before the waypoints were set
  have sb : SameBut { d with graph := { d.graph with nodes := ns } }
      { d with graph := { nodes := ns, edges := d.graph.edges.map (written ws) } } := by
    refine ⟨rfl, ?_⟩
    simp only [List.map_map]
    apply List.map_congr_left
    intro e he
    exact bareEdge_written ws e
  obtain ⟨⟨a1, b1, at1⟩, hf1, e1⟩ := List.mem_map.1 (show bareFlow (a, b, (written ws e).attrs) ∈ _ from
    sb.flows ▸ List.mem_map_of_mem hf)
  simp only [bareFlow, Prod.mk.injEq] at e1
  obtain ⟨rfl, rfl, e1⟩ := e1
  obtain ⟨i1, i2⟩ := mem_assignments h5
  have uniq : ∀ f ∈ Diagram.getFlows { d with graph := { d.graph with nodes := ns } }, e.joins f.1 f.2.1 = true → f.2.2 = e.attrs := by
    rintro ⟨x, y, z⟩ hf' hj
    obtain ⟨e2, he2, rfl, hxy⟩ := Graph.mem_flows hf'
    have sp : SamePair e.u e.v e2.u e2.v := by
      simp only [Edge.joins_iff] at hj
      simp only [SamePair]
      rcases hj with ⟨r1, r2⟩ | ⟨r1, r2⟩ <;> rcases hxy with ⟨r3, r4⟩ | ⟨r3, r4⟩ <;> simp_all
    have : e2 = e := by
      by_contra hne
      · rcases List.mem_iff_getElem.1 he with ⟨p, hp1, hp2⟩
        rcases List.mem_iff_getElem.1 he2 with ⟨q, hq1, hq2⟩
        have hpq := List.pairwise_iff_getElem.1 hp
        rcases Nat.lt_trichotomy p q with hlt | heq | hlt
        · have := hpq p q hp1 hq1 hlt
          rw [hp2, hq2] at this
          exact this sp
        · subst heq; rw [hp2] at hq2; exact hne hq2.symm
        · have := hpq q p hq1 hp1 hlt
          rw [hp2, hq2] at this
          apply this
          simp only [SamePair] at sp ⊢
          rcases sp with ⟨r1, r2⟩ | ⟨r1, r2⟩ <;> simp_all
    rw [this]
  have hwu : (written ws e).u = e.u := by unfold written; cases lastWrite e.u e.v ws <;> rfl
  have hwv : (written ws e).v = e.v := by unfold written; cases lastWrite e.u e.v ws <;> rfl
  rw [hwu, hwv] at hab
  have hj1 : e.joins a1 b1 = true := by
    rw [Edge.joins_iff]
    rcases hab with ⟨r1, r2⟩ | ⟨r1, r2⟩
    · exact .inl ⟨r1, r2⟩
    · exact .inr ⟨r1, r2⟩
  have hat1 : at1 = e.attrs := uniq _ hf1 hj1
  obtain ⟨w, hw⟩ := i1 _ hf1
  obtain ⟨f2, hf2, k1, k2, k3⟩ := i2 _ hw
  have wof : ∀ f ∈ Diagram.getFlows { d with graph := { d.graph with nodes := ns } }, e.joins f.1 f.2.1 = true →
      waypointsOf { d with graph := { d.graph with nodes := ns } } f = .ok w := by
    intro f hf' hj
    have r1 := uniq f hf' hj
    have r2 := uniq f2 hf2 (by rw [← k1, ← k2]; exact hj1)
    have : waypointsOf { d with graph := { d.graph with nodes := ns } } f = waypointsOf { d with graph := { d.graph with nodes := ns } } f2 := by
      simp only [waypointsOf, r1, r2]
    rw [this]; exact k3
  have lw : lastWrite e.u e.v ws = some w := by
    apply lastWrite_eq ⟨_, hw, hj1⟩
    intro p hp' hj
    obtain ⟨f3, hf3, m1, m2, m3⟩ := i2 p hp'
    have := wof f3 hf3 (by rw [← m1, ← m2]; exact hj)
    rw [m3] at this
    simpa using this
  have hwr : written ws e = { e with attrs := { e.attrs with waypoints := some w } } := by simp only [written, lw]
  -- the computation of `w`
  have hwo := wof _ hf1 hj1
  rw [hat1] at hwo
  unfold waypointsOf at hwo
  cases hs : e.attrs.sourceRef with
  | none => rw [hs] at hwo; cases hwo
  | some s =>
    cases ht : e.attrs.targetRef with
    | none => rw [hs, ht] at hwo; cases hwo
    | some t =>
      simp only [hs, ht, need, bind, Except.bind, nodeAttrsById] at hwo
      cases hn : Diagram.getNodeById { d with graph := { d.graph with nodes := ns } } s with
      | none => rw [hn] at hwo; cases hwo
      | some n =>
        cases hm : Diagram.getNodeById { d with graph := { d.graph with nodes := ns } } t with
        | none => rw [hn, hm] at hwo; cases hwo
        | some m =>
          rw [hn, hm] at hwo
          simp only at hwo
          obtain ⟨n0, -, c1, -, rfl⟩ := setCoordinates_ok h4 n (List.mem_of_find?_eq_some hn)
          obtain ⟨m0, -, c2, -, rfl⟩ := setCoordinates_ok h4 m (List.mem_of_find?_eq_some hm)
          refine ⟨s, t, _, _, w, ?_, ?_, hn, hm, ?_, _, _, _, _, ⟨rfl, rfl⟩, ⟨rfl, rfl⟩, hwo⟩
          · rw [hwr]; exact hs
          · rw [hwr]; exact ht
          · rw [hwr]

/-- **C30.** After `generate_layout` (on any diagram in which no two edges join the same two nodes, which `networkx.Graph` guarantees) every
flow's ends are nodes with integer coordinates, and the flow has two or three waypoints of which the first is the centre of its 100 x 100
source and the last is the middle of the left border or a point on the vertical centre line of its target. -/
theorem C30_waypoints (d d' : Diagram) (hp : d.graph.edges.Pairwise fun e f => ¬SamePair e.u e.v f.u f.v) {fuel : Nat}
    (h : generateLayout fuel d = .ok d') :
    ∀ f ∈ d'.getFlows, ∃ s t n m w, f.2.2.sourceRef = some s ∧ f.2.2.targetRef = some t ∧
      d'.getNodeById s = some n ∧ d'.getNodeById t = some m ∧ f.2.2.waypoints = some w ∧
      ∃ sx sy tx ty : Int, At n sx sy ∧ At m tx ty ∧ 2 ≤ w.length ∧ w.length ≤ 3 ∧
        w.head? = some (toString (sx + 50), toString (sy + 50)) ∧
        (w.getLast? = some (toString tx, toString (ty + 50)) ∨ w.getLast? = some (toString (tx + 50), toString ty)) := by
  intro f hf
  obtain ⟨s, t, n, m, w, h1, h2, h3, h4, h5, sx, sy, tx, ty, h6, h7, h8⟩ := layout_waypoints d d' hp h f hf
  exact ⟨s, t, n, m, w, h1, h2, h3, h4, h5, sx, sy, tx, ty, h6, h7, flowWaypoints_shape h8 h6.1 h6.2 h7.1 h7.2⟩

/-- **C30, routes.** A flow that leaves a parallel, inclusive or exclusive gateway goes from its centre vertically to the height of the target and then to
the middle of the left border of the target.  A flow that enters such a gateway from another row goes horizontally to the vertical centre line of the
gateway and then to its top.  Every other flow is one line from the centre of the source to the middle of the left border of the target. -/
theorem C30_routes (d d' : Diagram) (hp : d.graph.edges.Pairwise fun e f => ¬SamePair e.u e.v f.u f.v) {fuel : Nat}
    (h : generateLayout fuel d = .ok d') :
    ∀ f ∈ d'.getFlows, ∃ s t n m w, f.2.2.sourceRef = some s ∧ f.2.2.targetRef = some t ∧
      d'.getNodeById s = some n ∧ d'.getNodeById t = some m ∧ f.2.2.waypoints = some w ∧
      ∃ sx sy tx ty : Int, At n sx sy ∧ At m tx ty ∧
        let bends := [some "parallelGateway", some "inclusiveGateway", some "exclusiveGateway"]
        let points := fun l : List (Int × Int) => l.map fun p => (toString p.1, toString p.2)
        (n.2.type ∈ bends → w = points [(sx + 50, sy + 50), (sx + 50, ty + 50), (tx, ty + 50)]) ∧
        (n.2.type ∉ bends → sy ≠ ty → m.2.type ∈ bends → w = points [(sx + 50, sy + 50), (tx + 50, sy + 50), (tx + 50, ty)]) ∧
        (n.2.type ∉ bends → sy = ty ∨ m.2.type ∉ bends → w = points [(sx + 50, sy + 50), (tx, ty + 50)]) := by
  intro f hf
  obtain ⟨s, t, n, m, w, h1, h2, h3, h4, h5, sx, sy, tx, ty, h6, h7, h8⟩ := layout_waypoints d d' hp h f hf
  refine ⟨s, t, n, m, w, h1, h2, h3, h4, h5, sx, sy, tx, ty, h6, h7, ?_⟩
  have inj : toString sy = toString ty → sy = ty := by
    intro e
    have e1 := pyInt_toString sy
    rw [e, pyInt_toString ty] at e1
    exact (Except.ok.inj e1).symm
  unfold flowWaypoints at h8
  cases hs : n.2.type with
  | none => rw [hs] at h8; cases h8
  | some st =>
    cases ht : m.2.type with
    | none => rw [hs, ht] at h8; cases h8
    | some tt =>
      have g : ∀ x : String, isGateway x = true ↔ some x ∈ [some "parallelGateway", some "inclusiveGateway", some "exclusiveGateway"] := by
        intro x; simp [isGateway, or_assoc]
      simp only [hs, ht, h6.1, h6.2, h7.1, h7.2, need, pyInt_toString, bind, Except.bind, pure, Except.pure, g] at h8
      by_cases c1 : some st ∈ [some "parallelGateway", some "inclusiveGateway", some "exclusiveGateway"]
      · rw [if_pos c1] at h8
        cases h8
        exact ⟨fun _ => rfl, fun c => absurd c1 c, fun c => absurd c1 c⟩
      · rw [if_neg c1] at h8
        by_cases c2 : toString sy = toString ty
        · rw [if_pos c2] at h8
          cases h8
          exact ⟨fun c => absurd c c1, fun _ c => absurd (inj c2) c, fun _ _ => rfl⟩
        · rw [if_neg c2] at h8
          have c2' : sy ≠ ty := fun e => c2 (by rw [e])
          by_cases c3 : some tt ∈ [some "parallelGateway", some "inclusiveGateway", some "exclusiveGateway"]
          · rw [if_pos c3] at h8
            cases h8
            exact ⟨fun c => absurd c c1, fun _ _ _ => rfl, fun _ c => c.elim (fun e => absurd e c2') fun e => absurd c3 e⟩
          · rw [if_neg c3] at h8
            cases h8
            exact ⟨fun c => absurd c c1, fun _ _ c => absurd c c3, fun _ _ => rfl⟩

/-- The hypothesis holds for every diagram built with the API, and the layout of `splitOps` succeeds (see above). -/
example : (Op.run {} splitOps).graph.edges.Pairwise fun e f => ¬SamePair e.u e.v f.u f.v := (Sane.empty.run splitOps).onePerPair

/-! ## C31 -/

/-- **C31 (occupied).** Inserting into an occupied cell raises `TypeError`, whatever the grid. -/
theorem C31_occupied_raises (grid : List Cell) (row col : Int) (id : String) (h : ∃ c ∈ grid, c.row = row ∧ c.col = col) :
    insertIntoGrid grid row col id = .error .typeError := insert_occupied id h

/-- **C31 (free).** Inserting into a free cell appends it and leaves all other cells alone. -/
theorem C31_free_appends (grid : List Cell) (row col : Int) (id : String) (h : ∀ c ∈ grid, ¬(c.row = row ∧ c.col = col)) :
    insertIntoGrid grid row col id = .ok (grid ++ [⟨row, col, id⟩]) := insert_free id h

example : insertIntoGrid [⟨2, 1, "a"⟩, ⟨4, 1, "b"⟩] 4 1 "c" = .error .typeError ∧
    insertIntoGrid [⟨2, 1, "a"⟩, ⟨4, 1, "b"⟩] 4 2 "c" = .ok [⟨2, 1, "a"⟩, ⟨4, 1, "b"⟩, ⟨4, 2, "c"⟩] := by decide

/-! ## C32 -/

theorem chain_link {d : Diagram} : ∀ (c p : List Node) (x y : Node) (q : List Node), Links d c → c = p ++ x :: y :: q →
    ∃ i, outs x = [i] ∧ ins y = [i] ∧ FlowFromTo d i x.1 y.1 := by
  intro c p
  induction p generalizing c with
  | nil => rintro x y q hl rfl; exact hl.1
  | cons a p ih => rintro x y q hl rfl; exact ih (p ++ x :: y :: q) x y q (Layouter.Links.tail hl) rfl

theorem chain_at {d : Diagram} {c : List Node} (hl : Links d c) (k : Nat) (hk : k + 1 < c.length) :
    ∃ i, outs c[k] = [i] ∧ ins c[k + 1] = [i] ∧ FlowFromTo d i c[k].1 c[k + 1].1 := by
  have hk' : k < c.length := by omega
  have e : c = c.take k ++ c[k] :: c[k + 1] :: c.drop (k + 2) := by
    conv => lhs; rw [← List.take_append_drop k c]
    rw [List.drop_eq_getElem_cons hk', List.drop_eq_getElem_cons hk]
  exact chain_link c _ _ _ _ hl e

theorem chain_last {d : Diagram} {c : List Node} (hl : Links d c) (k : Nat) (hk : k < c.length) (hlast : ¬k + 1 < c.length) :
    outs c[k] = [] := by
  induction c generalizing k with
  | nil => simp at hk
  | cons a c ih =>
    cases c with
    | nil =>
      have : k = 0 := by simp at hk; omega
      subst this
      exact hl
    | cons b r =>
      cases k with
      | zero => simp at hlast
      | succ k => exact ih hl.2 k (by simpa using hk) (by simpa using hlast)

/-- **C32.** Every diagram that is a single chain (of any length, with any ids, names and supported types) is laid out: `generate_layout`
returns, and the `k`-th node of the chain (counting from 0) is put at `x = 150 * (k + 1) + 50`, `y = 250`, i.e. in column `k + 1` of one row. -/
theorem C32_chain_in_one_row (d : Diagram) (h : Consistent d) (c : List Node) (hc : Chain d c) :
    ∃ bound, ∀ fuel ≥ bound, ∃ d', generateLayout fuel d = .ok d' ∧
      ∀ k (hk : k < c.length), ∃ n, d'.getNodeById c[k].1 = some n ∧ At n (150 * (k + 1) + 50) 250 := by
  have hids : (c.map (·.1)).Nodup := (hc.nodes.map (·.1)).nodup_iff.2 h.ids
  have hmem : ∀ n ∈ c, n ∈ d.getNodes := fun n hn => hc.nodes.mem_iff.1 hn
  have hfs : FlowsSupported d := fun n hn _ => hc.supported n (hc.nodes.mem_iff.2 hn)
  have hcn : c.Nodup := hids.of_map
  -- acyclic: a flow leads to the next node
  have hac : Acyclic d := by
    classical
    apply acyclic_of_rank (fun n => c.idxOf n)
    rintro a ha b ⟨i, hi, f, hf, ht, hb⟩
    obtain ⟨k, hk, rfl⟩ := List.mem_iff_getElem.1 (hc.nodes.mem_iff.2 ha)
    by_cases hk1 : k + 1 < c.length
    · obtain ⟨j, h1, h2, h3⟩ := chain_at hc.links k hk1
      rw [h1] at hi
      simp only [List.mem_singleton] at hi
      subst hi
      have : b = c[k + 1] := by
        obtain ⟨x, y, e, g1, -, -, g4⟩ := h3
        rw [g1] at hf
        simp only [Except.ok.injEq, Option.some.injEq] at hf
        subst hf
        simp only [g4, Option.some.injEq] at ht
        exact h.node_eq (Spec.Consistent.mem_of_getNodeById hb).1 (hmem _ (List.getElem_mem _)) ht.symm
      subst this
      rw [hcn.idxOf_getElem, hcn.idxOf_getElem]
      omega
    · rw [chain_last hc.links k hk hk1] at hi
      cases hi
  obtain ⟨all, fl, hall, sorted, bound, hsort⟩ := C25_acyclic d h hfs hac
  have hall' := hall
  simp only [generateElementsClassification, elements_eq h.complete, bind, Except.bind, pure, Except.pure, Except.ok.injEq,
    Prod.mk.injEq] at hall'
  obtain ⟨rfl, -⟩ := hall'
  obtain ⟨hperm, hord⟩ := C24_topological_order d h hall (hsort _ (Nat.le_refl _))
  -- the sorted nodes are the chain
  have hbt : (byType d).Perm c := by
    refine (byType_perm d).trans ?_
    rw [List.filter_eq_self.2]
    · exact hc.nodes.symm
    · intro n hn
      simpa using hc.supported n (hc.nodes.mem_iff.2 hn)
  have hidp : (sorted.map (·.id)).Perm (c.map (·.1)) := by
    refine (hperm.map (·.id)).trans ?_
    have := hbt.map (·.1)
    simpa [List.map_map, Function.comp_def, ncOf] using this
  have hids2 : sorted.map (·.id) = c.map (·.1) := by
    apply chain_order _ _ hids hidp
    intro x y p q e
    obtain ⟨p', r', e1, e2, e3⟩ := List.map_eq_append_iff.1 e
    obtain ⟨x', r2, e4, e5, e6⟩ := List.map_eq_cons_iff.1 e3
    obtain ⟨y', r3, e7, e8, e9⟩ := List.map_eq_cons_iff.1 e6
    subst e4 e7 e5 e8
    obtain ⟨i, -, -, hf⟩ := chain_link c p' x' y' r3 hc.links e1
    refine hord i x'.1 y'.1 hf (by simp) ?_
    refine List.mem_map.2 ⟨ncOf y', List.mem_map_of_mem (hbt.mem_iff.2 ?_), rfl⟩
    rw [e1]; simp
  have hsorted : sorted = c.map ncOf := by
    have sub : ∀ x ∈ sorted, ∃ n ∈ c, x = ncOf n := by
      intro x hx
      obtain ⟨n, hn, rfl⟩ := List.mem_map.1 (hperm.mem_iff.1 hx)
      exact ⟨n, hbt.mem_iff.1 hn, rfl⟩
    apply List.ext_getElem
    · have := congrArg List.length hids2
      simpa using this
    · intro k h1 h2
      have hk : k < c.length := by simpa using h2
      obtain ⟨n, hn, e⟩ := sub _ (List.getElem_mem h1)
      have : (sorted.map (·.id))[k]'(by simpa using h1) = (c.map (·.1))[k]'(by simpa using h2) := by simp only [hids2]
      simp only [List.getElem_map] at this
      rw [e] at this ⊢
      rw [List.getElem_map]
      congr 1
      exact h.node_eq (hmem n hn) (hmem _ (List.getElem_mem _)) this
  refine ⟨bound + c.length + 2, fun fuel hfuel => ?_⟩
  have hgrid : gridLayout fuel d sorted = .ok (chainCells 1 (c.map (·.1))) := by
    obtain ⟨f, rfl⟩ : ∃ f, fuel = f + 1 := ⟨fuel - 1, by omega⟩
    rw [gridLayout, hsorted]
    exact gridLoop_chain f c [] (f + 1) 2 (by simpa using hids) hc.links (fun _ => ⟨rfl, hc.start⟩) (by simp) (by omega)
  obtain ⟨d', ns, h1, h2, h3⟩ := layout_ok h (hsort fuel (by omega)) hgrid (by
    intro n hn
    have : n.1 ∈ (chainCells 1 (c.map (·.1))).map (·.nodeId) := by
      rw [chainCells_ids]; exact List.mem_map_of_mem (hc.nodes.mem_iff.2 hn)
    obtain ⟨x, hx, e⟩ := List.mem_map.1 this
    exact ⟨x, hx, e⟩)
  refine ⟨d', h1, ?_⟩
  intro k hk
  obtain ⟨cell, k1, k2⟩ := find_atCell h2 c[k].1 c[k] (h.getNodeById (hmem _ (List.getElem_mem _)))
  have := chainCells_find 1 (c.map (·.1)) hids k (by simpa using hk)
  simp only [List.getElem_map] at this
  rw [k1] at this
  cases this
  refine ⟨_, h3 ▸ k2, ?_, ?_⟩
  · simp only [atCell]
    congr 2
    omega
  · rfl

/-- A chain of four nodes, whose nodes were not added in the order of the chain. -/
def lineOps : List Op :=
  [.createNew "d" "D", .addProcess "p" false true "None" "PL" "P",
   .addStartEvent "P" "s" none false true (some "s") "u1" "u2", .addEndEvent "P" "e" none (some "e") "u6" "u7",
   .addTask "P" "b" (some "b") "u5", .addTask "P" "a" (some "a") "u4",
   .addSequenceFlow "P" "b" "e" "" "f3", .addSequenceFlow "P" "s" "a" "" "f1", .addSequenceFlow "P" "a" "b" "" "f2"]

theorem line_allowed : AllowedHistory {} lineOps := by
  simp [lineOps, AllowedHistory, Allowed, step, declaredNode, declaredFlow, directionArg, directions, chosen]

theorem flowFromTo_of_eval {d : Diagram} {i s t : String}
    (h : (d.getFlowById i).map (fun r => r.map fun f => (f.2.2.id, f.2.2.sourceRef, f.2.2.targetRef)) = .ok (some (some i, some s, some t))) :
    FlowFromTo d i s t := by
  cases hr : d.getFlowById i with
  | error e => rw [hr] at h; cases h
  | ok r =>
    rw [hr] at h
    cases r with
    | none => simp [Except.map] at h
    | some f =>
      obtain ⟨a, b, e⟩ := f
      simp only [Except.map, Option.map_some, Except.ok.injEq, Option.some.injEq, Prod.mk.injEq] at h
      exact ⟨a, b, e, hr, h.1, h.2.1, h.2.2⟩

example : ∃ c, Consistent (Op.run {} lineOps) ∧ Chain (Op.run {} lineOps) c ∧ c.map (·.1) = ["s", "a", "b", "e"] := by
  let ns := (Op.run {} lineOps).getNodes
  refine ⟨[ns[0]'(by decide), ns[3]'(by decide), ns[2]'(by decide), ns[1]'(by decide)], consistent_of_allowed _ line_allowed,
    ⟨by decide, ?_, by decide, ?_⟩, by decide⟩
  · unfold Supported; decide
  · exact ⟨⟨"f1", by decide, by decide, flowFromTo_of_eval (by decide)⟩, ⟨"f2", by decide, by decide, flowFromTo_of_eval (by decide)⟩,
      ⟨"f3", by decide, by decide, flowFromTo_of_eval (by decide)⟩, (by decide : outs (ns[1]'(by decide)) = [])⟩

end Bpmn.Props

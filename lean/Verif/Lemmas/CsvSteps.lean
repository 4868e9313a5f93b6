import Verif.Lemmas.CsvState
/-! What the CSV import keeps in step. -/
set_option linter.unusedSimpArgs false
set_option linter.unusedVariables false

namespace Bpmn.Csv
open Bpmn.Spec Bpmn.Spec.Csv

/-- The lists of both ends and the dictionary of flows know of a flow. -/
structure Wired (d : Diagram) (s t : String) : Prop where
  src : s ∈ ids d
  tgt : t ∈ ids d
  out : flowId s t ∈ outOf d s
  inn : flowId s t ∈ inOf d t
  flow : d.sequenceFlows.get? (flowId s t) = some ⟨flowId s t, s, t⟩

/-- What every state of the import satisfies. -/
structure Inv (d : Diagram) : Prop where
  sane : Sane d
  plain : ∀ x ∈ ids d, Plain x
  outI : ∀ x, ∀ f ∈ outOf d x, ∃ t, f = flowId x t
  inI : ∀ x, ∀ f ∈ inOf d x, ∃ s, Plain s ∧ f = flowId s x
  keysI : d.sequenceFlows.keys.Nodup
  flowI : ∀ f sf, d.sequenceFlows.get? f = some sf → Plain sf.sourceRef ∧ f = flowId sf.sourceRef sf.targetRef ∧ sf.name = f
  edgeI : ∀ e ∈ d.graph.edges, ∃ s t, e.attrs.id = some (flowId s t) ∧ e.attrs.sourceRef = some s ∧ e.attrs.targetRef = some t ∧
    e.attrs.waypoints = none ∧ SamePair e.u e.v s t ∧ Wired d s t

theorem Inv.nodup {d : Diagram} (h : Inv d) : (ids d).Nodup := h.sane.nodesUnique

theorem outOf_mem {d : Diagram} {x f : String} (h : f ∈ outOf d x) : x ∈ ids d := by
  rw [← Dict.get?_isSome_iff]
  simp only [outOf] at h
  cases hh : d.graph.nodes.get? x <;> simp [hh] at h ⊢

theorem inOf_mem {d : Diagram} {x f : String} (h : f ∈ inOf d x) : x ∈ ids d := by
  rw [← Dict.get?_isSome_iff]
  simp only [inOf] at h
  cases hh : d.graph.nodes.get? x <;> simp [hh] at h ⊢

/-! ## A new node -/

theorem Wired.added {d d' : Diagram} {o : String} {ty : Option String} {act : String} (h : Added d d' o ty act) (ho : o ∉ ids d)
    {s t : String} (w : Wired d s t) : Wired d' s t := by
  have hs : s ≠ o := fun e => ho (e ▸ w.src)
  have ht : t ≠ o := fun e => ho (e ▸ w.tgt)
  refine ⟨by rw [h.ids]; simp [w.src], by rw [h.ids]; simp [w.tgt], ?_, ?_, by rw [h.flows]; exact w.flow⟩
  · rw [h.out, if_neg hs]; exact w.out
  · rw [h.inn, if_neg ht]; exact w.inn

theorem Inv.added {d d' : Diagram} (i : Inv d) {o : String} {ty : Option String} {act : String} (h : Added d d' o ty act) (ho : o ∉ ids d)
    (hp : Plain o) : Inv d' := by
  refine ⟨h.sane i.sane, ?_, ?_, ?_, by rw [h.flows]; exact i.keysI, by rw [h.flows]; exact i.flowI, ?_⟩
  · intro x hx
    rw [h.ids] at hx
    simp at hx
    rcases hx with hx | rfl
    · exact i.plain x hx
    · exact hp
  · intro x f hf
    rw [h.out] at hf
    split at hf
    · simp at hf
    · exact i.outI x f hf
  · intro x f hf
    rw [h.inn] at hf
    split at hf
    · simp at hf
    · exact i.inI x f hf
  · rw [h.edges]
    intro e he
    obtain ⟨s, t, h1, h2, h3, h4, h5, h6⟩ := i.edgeI e he
    exact ⟨s, t, h1, h2, h3, h4, h5, h6.added h ho⟩

/-! ## A new flow -/

theorem Wired.connected {pd : Dict String Line} {d d' : Diagram} (i : Inv d) {s t : String} (h : Connected pd d d' s t)
    {x y : String} (w : Wired d x y) : Wired d' x y := by
  refine ⟨by rw [h.ids]; exact w.src, by rw [h.ids]; exact w.tgt, ?_, ?_, ?_⟩
  · rw [h.out]; split
    · simp [w.out]
    · exact w.out
  · rw [h.inn]; split
    · simp [w.inn]
    · exact w.inn
  · rw [h.flows, Dict.get?_set]
    split
    · rename_i e
      obtain ⟨rfl, rfl⟩ := flowId_inj (i.plain _ h.src) (i.plain _ w.src) e
      rfl
    · exact w.flow

theorem Connected.wired {pd : Dict String Line} {d d' : Diagram} {s t : String} (h : Connected pd d d' s t) : Wired d' s t := by
  refine ⟨by rw [h.ids]; exact h.src, by rw [h.ids]; exact h.tgt, ?_, ?_, ?_⟩
  · rw [h.out]; simp
  · rw [h.inn]; simp
  · rw [h.flows, Dict.get?_set]; simp

theorem Inv.connected {pd : Dict String Line} {d d' : Diagram} (i : Inv d) {s t : String} (h : Connected pd d d' s t) : Inv d' := by
  refine ⟨h.sane i.sane, by rw [h.ids]; exact i.plain, ?_, ?_, ?_, ?_, ?_⟩
  · intro x f hf
    rw [h.out] at hf
    split at hf
    · subst_vars
      simp at hf
      rcases hf with hf | rfl
      · exact i.outI _ f hf
      · exact ⟨t, rfl⟩
    · exact i.outI x f hf
  · intro x f hf
    rw [h.inn] at hf
    split at hf
    · subst_vars
      simp at hf
      rcases hf with hf | rfl
      · exact i.inI _ f hf
      · exact ⟨s, i.plain _ h.src, rfl⟩
    · exact i.inI x f hf
  · rw [h.flows]; exact Dict.nodup_keys_set i.keysI _ _
  · intro f sf hf
    rw [h.flows, Dict.get?_set] at hf
    split at hf
    · rename_i e
      cases hf
      exact ⟨i.plain _ h.src, e.symm, e⟩
    · exact i.flowI f sf hf
  · intro e he
    rw [h.edges, List.mem_append, List.mem_map] at he
    rcases he with ⟨c, hc, rfl⟩ | he
    · split
      · rename_i hj
        obtain ⟨_, _, _, _, _, hw, _⟩ := i.edgeI c hc
        exact ⟨s, t, rfl, rfl, rfl, hw, SamePair.joins.1 hj, h.wired⟩
      · obtain ⟨x, y, h1, h2, h3, h4, h5, h6⟩ := i.edgeI c hc
        exact ⟨x, y, h1, h2, h3, h4, h5, h6.connected i h⟩
    · split at he
      · simp at he
      · simp at he
        subst he
        exact ⟨s, t, rfl, rfl, rfl, rfl, Or.inl ⟨rfl, rfl⟩, h.wired⟩

/-! ## A removed node -/

/-- The node and everything at it is gone; its first incoming and its first outgoing flow are taken out of the lists of the other end. -/
structure Removed (d d' : Diagram) (n src tgt : String) : Prop where
  node : n ∈ ids d
  hasSrc : src ∈ ids d
  hasTgt : tgt ∈ ids d
  inHead : (inOf d n).head? = some (flowId src n)
  outHead : (outOf d n).head? = some (flowId n tgt) ∨ src = n
  srcOut : flowId src n ∈ outOf d src
  tgtIn : flowId n tgt ∈ inOf d tgt
  ids : ids d' = (ids d).erase n
  out : ∀ x, x ≠ n → outOf d' x = if x = src then (outOf d x).erase (flowId src n) else outOf d x
  inn : ∀ x, x ≠ n → inOf d' x = if x = tgt then (inOf d x).erase (flowId n tgt) else inOf d x
  bare : ∀ x, x ≠ n → bareOf d' x = bareOf d x
  flows : d'.sequenceFlows = (d.sequenceFlows.erase (flowId src n)).erase (flowId n tgt)
  edges : d'.graph.edges = d.graph.edges.filter fun e => !(e.u == n || e.v == n)
  procs : d'.processElements = d.processElements
  plane : d'.planeElement = d.planeElement
  listed : Listed d → Listed d'

theorem nodeAttrs_ok {d : Diagram} {n : String} {a : NodeAttrs} (h : d.nodeAttrs n = .ok a) : d.graph.nodes.get? n = some a := by
  simp only [Diagram.nodeAttrs] at h
  cases hh : d.graph.nodes.get? n <;> simp [hh] at h; rw [h]

theorem need_ok {α : Type} {o : Option α} {a : α} (h : need o = .ok a) : o = some a := by
  cases o <;> simp at h; rw [h]

theorem pyIndex_zero {α : Type} {l : List α} {a : α} (h : pyIndex l 0 = .ok a) : l.head? = some a := by
  cases l with
  | nil => simp [pyIndex] at h
  | cons x l => simp [pyIndex] at h; simp [h]

theorem pyRemove_ok {α : Type} [DecidableEq α] {l r : List α} {a : α} (h : pyRemove l a = .ok r) : a ∈ l ∧ r = l.erase a := by
  unfold pyRemove at h
  split at h
  · cases h; exact ⟨by assumption, rfl⟩
  · cases h

/-- First half. -/
structure InCut (d d' : Diagram) (n src : String) : Prop where
  node : n ∈ ids d
  hasSrc : src ∈ ids d
  head : (inOf d n).head? = some (flowId src n)
  srcOut : flowId src n ∈ outOf d src
  keys : ids d' = ids d
  out : ∀ x, outOf d' x = if x = src then (outOf d x).erase (flowId src n) else outOf d x
  inn : ∀ x, inOf d' x = inOf d x
  bare : ∀ x, bareOf d' x = bareOf d x
  flows : d'.sequenceFlows = d.sequenceFlows.erase (flowId src n)
  edges : d'.graph.edges = d.graph.edges.filter fun e => !e.joins src n
  procs : d'.processElements = d.processElements
  plane : d'.planeElement = d.planeElement
  listed : Listed d → Listed d'

theorem removeIncoming_cut {d d' : Diagram} {n src : String} (i : Inv d) (h : removeIncoming n d = .ok (src, d')) : InCut d d' n src := by
  obtain ⟨a, ha, h⟩ := except_bind_eq_ok h
  obtain ⟨inc, hinc, h⟩ := except_bind_eq_ok h
  obtain ⟨f, hf, h⟩ := except_bind_eq_ok h
  obtain ⟨sf, hsf, h⟩ := except_bind_eq_ok h
  obtain ⟨b, hb, h⟩ := except_bind_eq_ok h
  obtain ⟨out, hout, h⟩ := except_bind_eq_ok h
  obtain ⟨out', hr, h⟩ := except_bind_eq_ok h
  obtain ⟨g, hg, h⟩ := except_bind_eq_ok h
  cases h
  have ga := nodeAttrs_ok ha
  have gb := nodeAttrs_ok hb
  have hinc := need_ok hinc
  have hsf := need_ok hsf
  have hout := need_ok hout
  obtain ⟨hm, rfl⟩ := pyRemove_ok hr
  have e1 : inOf d n = inc := by simp [inOf, ga, hinc]
  have e2 : outOf d sf.sourceRef = out := by simp [outOf, gb, hout]
  have hf := pyIndex_zero hf
  rw [← e1] at hf
  obtain ⟨s0, hs0, ef⟩ := i.inI n f (List.mem_of_head? hf)
  obtain ⟨p1, p2, p3⟩ := i.flowI f sf hsf
  obtain ⟨e3, e4⟩ := flowId_inj p1 hs0 (p2.symm.trans ef)
  rw [e4] at p2
  subst p2
  rw [← e2] at hm
  have hsrc := Dict.mem_keys_of_get? gb
  unfold Graph.removeEdge at hg
  split at hg
  · cases hg
    refine ⟨Dict.mem_keys_of_get? ga, hsrc, hf, hm, ids_updNode _ _ _, ?_, ?_, ?_, rfl, rfl, rfl, rfl, fun hl => hl.updNode _ _ (by intro a h; simp [h])⟩
    · intro x
      have := outOf_updNode_out d sf.sourceRef ((outOf d sf.sourceRef).erase (flowId sf.sourceRef n)) hsrc x
      rw [e2] at this
      refine Eq.trans this ?_
      split
      · subst_vars; rfl
      · rfl
    · intro x
      exact inOf_updNode_out d sf.sourceRef _ x
    · intro x
      exact bareOf_updNode_out d sf.sourceRef _ x
  · cases hg

/-- Second half; only what the state is known to satisfy after the first half is asked for. -/
structure OutCut (d d' : Diagram) (n tgt : String) : Prop where
  node : n ∈ ids d
  hasTgt : tgt ∈ ids d
  head : (outOf d n).head? = some (flowId n tgt)
  tgtIn : flowId n tgt ∈ inOf d tgt
  keys : ids d' = ids d
  inn : ∀ x, inOf d' x = if x = tgt then (inOf d x).erase (flowId n tgt) else inOf d x
  out : ∀ x, outOf d' x = outOf d x
  bare : ∀ x, bareOf d' x = bareOf d x
  flows : d'.sequenceFlows = d.sequenceFlows.erase (flowId n tgt)
  edges : d'.graph.edges = d.graph.edges.filter fun e => !e.joins n tgt
  procs : d'.processElements = d.processElements
  plane : d'.planeElement = d.planeElement
  listed : Listed d → Listed d'

theorem removeOutgoing_cut {d d' : Diagram} {n tgt : String} (hp : Plain n) (hO : ∀ f ∈ outOf d n, ∃ t, f = flowId n t)
    (hF : ∀ f sf, d.sequenceFlows.get? f = some sf → Plain sf.sourceRef ∧ f = flowId sf.sourceRef sf.targetRef ∧ sf.name = f)
    (h : removeOutgoing n d = .ok (tgt, d')) : OutCut d d' n tgt := by
  obtain ⟨a, ha, h⟩ := except_bind_eq_ok h
  obtain ⟨inc, hinc, h⟩ := except_bind_eq_ok h
  obtain ⟨f, hf, h⟩ := except_bind_eq_ok h
  obtain ⟨sf, hsf, h⟩ := except_bind_eq_ok h
  obtain ⟨b, hb, h⟩ := except_bind_eq_ok h
  obtain ⟨out, hout, h⟩ := except_bind_eq_ok h
  obtain ⟨out', hr, h⟩ := except_bind_eq_ok h
  obtain ⟨g, hg, h⟩ := except_bind_eq_ok h
  cases h
  have ga := nodeAttrs_ok ha
  have gb := nodeAttrs_ok hb
  have hinc := need_ok hinc
  have hsf := need_ok hsf
  have hout := need_ok hout
  obtain ⟨hm, rfl⟩ := pyRemove_ok hr
  have e1 : outOf d n = inc := by simp [outOf, ga, hinc]
  have e2 : inOf d sf.targetRef = out := by simp [inOf, gb, hout]
  have hf := pyIndex_zero hf
  rw [← e1] at hf
  obtain ⟨s0, ef⟩ := hO f (List.mem_of_head? hf)
  obtain ⟨p1, p2, p3⟩ := hF f sf hsf
  obtain ⟨e3, e4⟩ := flowId_inj p1 hp (p2.symm.trans ef)
  rw [e3] at p2
  subst p2
  rw [← e2] at hm
  have hsrc := Dict.mem_keys_of_get? gb
  unfold Graph.removeEdge at hg
  split at hg
  · cases hg
    refine ⟨Dict.mem_keys_of_get? ga, hsrc, hf, hm, ids_updNode _ _ _, ?_, ?_, ?_, rfl, rfl, rfl, rfl, fun hl => hl.updNode _ _ (by intro a h; simp [h])⟩
    · intro x
      have := inOf_updNode_in d sf.targetRef ((inOf d sf.targetRef).erase (flowId n sf.targetRef)) hsrc x
      rw [e2] at this
      refine Eq.trans this ?_
      split
      · subst_vars; rfl
      · rfl
    · intro x
      exact outOf_updNode_in d sf.targetRef _ x
    · intro x
      exact bareOf_updNode_in d sf.targetRef _ x
  · cases hg

theorem get?_erase_some {α : Type} {d : Dict String α} {k x : String} {v : α} (nd : d.keys.Nodup) (h : (d.erase k).get? x = some v) :
    d.get? x = some v := by
  by_cases e : k = x
  · subst e; rw [Dict.get?_erase_self nd] at h; cases h
  · rwa [Dict.get?_erase_ne _ e] at h

theorem removeNode_removed {d d' : Diagram} {n src tgt : String} {pd pd' : Dict String Line} (i : Inv d)
    (h : removeNode n pd d = .ok (src, tgt, pd', d')) : Removed d d' n src tgt ∧ pd' = pd.erase n := by
  obtain ⟨⟨s1, d1⟩, h1, h⟩ := except_bind_eq_ok h
  obtain ⟨⟨t1, d2⟩, h2, h⟩ := except_bind_eq_ok h
  obtain ⟨g, hg, h⟩ := except_bind_eq_ok h
  cases h
  have c1 := removeIncoming_cut i h1
  have hpn := i.plain n c1.node
  have c2 := removeOutgoing_cut hpn
    (by
      intro f hf
      rw [c1.out] at hf
      split at hf
      · exact i.outI n f (List.mem_of_mem_erase hf)
      · exact i.outI n f hf)
    (by
      intro f sf hf
      rw [c1.flows] at hf
      exact i.flowI f sf (get?_erase_some i.keysI hf)) h2
  unfold Graph.removeNode at hg
  split at hg
  · cases hg
    refine ⟨⟨c1.node, c1.hasSrc, ?_, c1.head, ?_, c1.srcOut, ?_, ?_, ?_, ?_, ?_, ?_, ?_, ?_, ?_, ?_⟩, rfl⟩
    · rw [← c1.keys]; exact c2.hasTgt
    · by_cases e : src = n
      · exact Or.inr e
      · left
        have := c2.head
        rw [c1.out, if_neg (Ne.symm e)] at this
        exact this
    · have := c2.tgtIn
      rwa [c1.inn] at this
    · show (d2.graph.nodes.erase n).keys = _
      rw [Dict.keys_erase, show d2.graph.nodes.keys = ids d from c2.keys.trans c1.keys]
    · intro x hx
      simp only [outOf, Dict.get?_erase_ne _ (Ne.symm hx)]
      exact (c2.out x).trans (c1.out x)
    · intro x hx
      simp only [inOf, Dict.get?_erase_ne _ (Ne.symm hx)]
      have := c2.inn x
      rw [c1.inn] at this
      exact this
    · intro x hx
      simp only [bareOf, Dict.get?_erase_ne _ (Ne.symm hx)]
      exact (c2.bare x).trans (c1.bare x)
    · show d2.sequenceFlows = _
      rw [c2.flows, c1.flows]
    · show d2.graph.edges.filter _ = _
      rw [c2.edges, c1.edges, List.filter_filter, List.filter_filter]
      apply List.filter_congr
      intro e _
      rw [Bool.eq_iff_iff]
      simp only [Bool.and_eq_true, Bool.not_eq_true', Bool.or_eq_false_iff, beq_eq_false_iff_ne, ne_eq]
      constructor
      · intro h; exact h.1.1
      · intro h
        refine ⟨⟨h, ?_⟩, ?_⟩
        · rw [Bool.eq_false_iff, ne_eq, Edge.joins_iff]; simp [h.1, h.2]
        · rw [Bool.eq_false_iff, ne_eq, Edge.joins_iff]; simp [h.1, h.2]
    · exact c2.procs.trans c1.procs
    · exact c2.plane.trans c1.plane
    · intro hl x a ha
      have hl2 := c2.listed (c1.listed hl)
      by_cases e : n = x
      · subst e
        rw [Dict.get?_erase_self (by
          rw [show d2.graph.nodes.keys = ids d from c2.keys.trans c1.keys]; exact i.nodup)] at ha
        cases ha
      · rw [Dict.get?_erase_ne _ e] at ha
        exact hl2 x a ha
  · cases hg

theorem Wired.removed {d d' : Diagram} (i : Inv d) {n src tgt : String} (h : Removed d d' n src tgt) {x y : String} (w : Wired d x y)
    (hx : x ≠ n) (hy : y ≠ n) : Wired d' x y := by
  have ne1 : flowId x y ≠ flowId src n := fun e => hy (flowId_inj (i.plain _ w.src) (i.plain _ h.hasSrc) e).2
  have ne2 : flowId x y ≠ flowId n tgt := fun e => hx (flowId_inj (i.plain _ w.src) (i.plain _ h.node) e).1
  refine ⟨?_, ?_, ?_, ?_, ?_⟩
  · rw [h.ids]; exact (List.mem_erase_of_ne hx).2 w.src
  · rw [h.ids]; exact (List.mem_erase_of_ne hy).2 w.tgt
  · rw [h.out x hx]
    split
    · exact (List.mem_erase_of_ne ne1).2 w.out
    · exact w.out
  · rw [h.inn y hy]
    split
    · exact (List.mem_erase_of_ne ne2).2 w.inn
    · exact w.inn
  · rw [h.flows, Dict.get?_erase_ne _ (Ne.symm ne2), Dict.get?_erase_ne _ (Ne.symm ne1)]
    exact w.flow

theorem Removed.sane {d d' : Diagram} {n src tgt : String} (h : Removed d d' n src tgt) (s : Sane d) : Sane d' := by
  have sub : ∀ e ∈ d'.graph.edges, e ∈ d.graph.edges ∧ e.u ≠ n ∧ e.v ≠ n := by
    intro e he
    rw [h.edges, List.mem_filter] at he
    simpa using he
  refine ⟨?_, ?_, ?_, ?_⟩
  · show (Csv.ids d').Nodup
    rw [h.ids]; exact List.Nodup.erase _ s.nodesUnique
  · intro e he
    obtain ⟨h1, h2, h3⟩ := sub e he
    show e.u ∈ Csv.ids d' ∧ e.v ∈ Csv.ids d'
    rw [h.ids]
    have := s.endsKnown e h1
    exact ⟨(List.mem_erase_of_ne h2).2 this.1, (List.mem_erase_of_ne h3).2 this.2⟩
  · rw [h.edges]; exact s.onePerPair.filter _
  · intro e he; exact s.described e (sub e he).1

theorem outOf_removed {d d' : Diagram} (i : Inv d) {n src tgt : String} (h : Removed d d' n src tgt) {x f : String} (hf : f ∈ outOf d' x) :
    f ∈ outOf d x ∧ x ≠ n := by
  have hx : x ≠ n := by
    rintro rfl
    have := outOf_mem hf
    rw [h.ids] at this
    exact (List.Nodup.not_mem_erase i.nodup) this
  refine ⟨?_, hx⟩
  rw [h.out x hx] at hf
  split at hf
  · exact List.mem_of_mem_erase hf
  · exact hf

theorem inOf_removed {d d' : Diagram} (i : Inv d) {n src tgt : String} (h : Removed d d' n src tgt) {x f : String} (hf : f ∈ inOf d' x) :
    f ∈ inOf d x ∧ x ≠ n := by
  have hx : x ≠ n := by
    rintro rfl
    have := inOf_mem hf
    rw [h.ids] at this
    exact (List.Nodup.not_mem_erase i.nodup) this
  refine ⟨?_, hx⟩
  rw [h.inn x hx] at hf
  split at hf
  · exact List.mem_of_mem_erase hf
  · exact hf

theorem Inv.removed {d d' : Diagram} (i : Inv d) {n src tgt : String} (h : Removed d d' n src tgt) : Inv d' := by
  have nd1 : (d.sequenceFlows.erase (flowId src n)).keys.Nodup := by rw [Dict.keys_erase]; exact List.Nodup.erase _ i.keysI
  refine ⟨h.sane i.sane, ?_, ?_, ?_, ?_, ?_, ?_⟩
  · intro x hx
    rw [h.ids] at hx
    exact i.plain x (List.mem_of_mem_erase hx)
  · intro x f hf; exact i.outI x f (outOf_removed i h hf).1
  · intro x f hf; exact i.inI x f (inOf_removed i h hf).1
  · rw [h.flows, Dict.keys_erase]; exact List.Nodup.erase _ nd1
  · intro f sf hf
    rw [h.flows] at hf
    exact i.flowI f sf (get?_erase_some i.keysI (get?_erase_some nd1 hf))
  · intro e he
    rw [h.edges, List.mem_filter] at he
    obtain ⟨he, hn⟩ := he
    simp at hn
    obtain ⟨s, t, h1, h2, h3, h4, h5, h6⟩ := i.edgeI e he
    refine ⟨s, t, h1, h2, h3, h4, h5, h6.removed i h ?_ ?_⟩
    · rcases h5 with ⟨rfl, rfl⟩ | ⟨rfl, rfl⟩
      · exact hn.1
      · exact hn.2
    · rcases h5 with ⟨rfl, rfl⟩ | ⟨rfl, rfl⟩
      · exact hn.2
      · exact hn.1

end Bpmn.Csv

import Verif.Lemmas.CsvExact
/-! The last loop of the CSV import, without `goto`: it never fails and keeps lists and flows in agreement. -/
set_option linter.unusedSimpArgs false
set_option linter.unusedVariables false

namespace Bpmn.Csv
open Bpmn.Spec Bpmn.Spec.Csv

/-- What the last loop keeps. -/
structure Fit (nodes : List String) (d : Diagram) : Prop where
  exact : Exact d
  shape : ∀ a b, Plain a → EdgeOf d a b → Shape nodes (a, b)
  one : ∀ x ∈ nodes, (outOf d x).length ≤ 1
  rows : ∀ x ∈ nodes, ¬GatewayKind d x
  listed : Listed d
  alive : ∀ x ∈ ids d, GatewayKind d x → inOf d x ≠ [] ∧ outOf d x ≠ []

theorem Fit.around {nodes : List String} (hu : ∀ x ∈ nodes, '_' ∉ x.toList) {d : Diagram} (f : Fit nodes d) {n : String} (hn : n ∈ ids d)
    (hg : GatewayKind d n) {src tgt : String} (h1 : flowId src n ∈ inOf d n) (ps : Plain src) (h2 : flowId n tgt ∈ outOf d n) :
    src ∈ nodes ∧ tgt ∈ nodes ∧ NextRow src tgt ∧ Wired d src n ∧ Wired d n tgt ∧ d.graph.hasEdge src n = true ∧ d.graph.hasEdge n tgt = true := by
  have pn := f.exact.inv.plain _ hn
  have e1 := f.exact.backIn _ _ ps h1
  have e2 := f.exact.back _ _ h2
  have s1 := f.shape _ _ ps e1
  have s2 := f.shape _ _ pn e2
  have w1 := (f.exact.inv.edge ps e1).1
  have w2 := (f.exact.inv.edge pn e2).1
  have g1 := f.exact.inv.edge_has ps e1
  have g2 := f.exact.inv.edge_has pn e2
  have nn : n ∉ nodes := fun h => f.rows n h hg
  suffices h : src ∈ nodes ∧ tgt ∈ nodes ∧ NextRow src tgt from ⟨h.1, h.2.1, h.2.2, w1, w2, g1, g2⟩
  rcases s1.cases hu with ⟨_, h, _⟩ | ⟨a1, a2⟩ | ⟨_, _, _, h, _⟩ | ⟨a1, s, a2, a3, a4⟩ | ⟨h, _⟩
  · exact absurd h nn
  · rcases s2.cases hu with ⟨h, _⟩ | ⟨h, _⟩ | ⟨r, b1, b2, b3, b4⟩ | ⟨h, _⟩ | ⟨b1, b2⟩
    · exact absurd h nn
    · exact absurd h nn
    · rw [a2] at b2; have := split_inj b2; subst this
      exact ⟨a1, b3, b4⟩
    · exact absurd h nn
    · exact absurd (a2.symm.trans b2) (split_ne_join _ _)
  · exact absurd h nn
  · rcases s2.cases hu with ⟨h, _⟩ | ⟨h, _⟩ | ⟨r, b1, b2, b3, b4⟩ | ⟨h, _⟩ | ⟨b1, b2⟩
    · exact absurd h nn
    · exact absurd h nn
    · exact absurd (b2.symm.trans a3) (split_ne_join _ _)
    · exact absurd h nn
    · rw [a3] at b2; have := join_inj b2; subst this
      exact ⟨a1, b1, a4⟩
  · exact absurd h nn

theorem Fit.bypass {nodes : List String} (hu : ∀ x ∈ nodes, '_' ∉ x.toList) (ha : ∀ x ∈ nodes, ∀ c ∈ x.toList, c.isAlphanum = true)
    {pd : Dict String Line} {d d' : Diagram} (f : Fit nodes d) {n src tgt : String} (hg : GatewayKind d n)
    (hi : (inOf d n).length < 2) (ho : (outOf d n).length < 2) (b : Bypass pd d n src tgt tgt d') : Fit nodes d' := by
  have hne := b.src_ne f.exact.inv
  obtain ⟨d1, pd', hs, r, c⟩ := b.step
  have hin := r.inHead
  have hout := r.outHead.resolve_right hne.1
  obtain ⟨h1, h2, h3, w1, w2, g1, g2⟩ := f.around hu r.node hg (List.mem_of_head? hin) (f.exact.inv.plain _ r.hasSrc) (List.mem_of_head? hout)
  have x1 := f.exact.removed r hi ho hne.1
  have pn := f.exact.inv.plain _ r.node
  have psrc := f.exact.inv.plain _ r.hasSrc
  have ptgt := f.exact.inv.plain _ r.hasTgt
  have hno : d1.graph.hasEdge src tgt = false := by
    cases hh : d1.graph.hasEdge src tgt with
    | false => rfl
    | true =>
      exfalso
      rcases x1.inv.has_edge hh with he | he
      · have he := ((r.edgeOf f.exact.inv psrc).1 he).1
        have w := (f.exact.inv.edge psrc he).1.out
        have w' := w1.out
        have hone := f.one src h1
        match hl : outOf d src, hone with
        | [], _ => rw [hl] at w; simp at w
        | [y], _ =>
          rw [hl, List.mem_singleton] at w w'
          exact hne.2 (flowId_inj psrc psrc (w.trans w'.symm)).2
        | _ :: _ :: _, hone => simp at hone
      · have he := ((r.edgeOf f.exact.inv ptgt).1 he).1
        rcases (f.shape _ _ ptgt he).cases hu with ⟨_, _, k⟩ | ⟨_, k⟩ | ⟨_, _, k, _⟩ | ⟨_, _, _, k, _⟩ | ⟨_, k⟩
        · exact h3.asymm (ha _ h1) (ha _ h2) k
        · exact hu _ h1 (k ▸ underscore_split _)
        · exact hu _ h2 (k ▸ underscore_split _)
        · exact hu _ h1 (k ▸ underscore_join _)
        · exact hu _ h2 (k ▸ underscore_join _)
  refine ⟨x1.connected c hno, ?_, ?_, ?_, c.listed (r.listed f.listed), ?_⟩
  · intro a b pa hab
    rcases (c.edgeOf hno x1.inv pa).1 hab with h | ⟨rfl, rfl⟩
    · exact f.shape _ _ pa ((r.edgeOf f.exact.inv pa).1 h).1
    · exact Shape.direct h1 h2 h3
  · intro x hx
    have nx : x ≠ n := by rintro rfl; exact f.rows _ hx hg
    rw [b.outLength nx]; exact f.one x hx
  · intro x hx
    have nx : x ≠ n := by rintro rfl; exact f.rows _ hx hg
    rw [GatewayKind.congr (b.bare nx)]; exact f.rows x hx
  · intro x hx hgx
    have nx : x ≠ n := by
      rintro rfl
      rw [b.ids] at hx
      exact (List.Nodup.not_mem_erase f.exact.inv.nodup) hx
    rw [b.ids] at hx
    rw [GatewayKind.congr (b.bare nx)] at hgx
    have := f.alive x (List.mem_of_mem_erase hx) hgx
    have l1 := b.inLength nx
    have l2 := b.outLength nx
    constructor
    · intro e; rw [e] at l1; exact this.1 (List.length_eq_zero_iff.1 l1.symm)
    · intro e; rw [e] at l2; exact this.2 (List.length_eq_zero_iff.1 l2.symm)

theorem Cleaned.fit {nodes : List String} (hu : ∀ x ∈ nodes, '_' ∉ x.toList) (ha : ∀ x ∈ nodes, ∀ c ∈ x.toList, c.isAlphanum = true)
    {pd : Dict String Line} {todo : List String} {d d' : Diagram} (h : Cleaned pd todo d d') : Fit nodes d → Fit nodes d' := by
  induction h with
  | nil => exact id
  | keep _ _ ih => exact ih
  | cut hg hi ho b _ ih => exact fun f => ih (f.bypass hu ha hg hi ho b)

/-! ## Success -/

theorem pyIndex_cons_zero {α : Type} (a : α) (l : List α) : pyIndex (a :: l) 0 = .ok a := rfl

theorem nodeAttrs_of_mem {d : Diagram} {n : String} (h : n ∈ ids d) : ∃ a, d.nodeAttrs n = .ok a ∧ d.graph.nodes.get? n = some a := by
  obtain ⟨a, ha⟩ := Option.isSome_iff_exists.1 ((Dict.get?_isSome_iff _ _).2 h)
  exact ⟨a, by simp [Diagram.nodeAttrs, ha], ha⟩

theorem Listed.lists {d : Diagram} (h : Listed d) {n : String} {a : NodeAttrs} (ha : d.graph.nodes.get? n = some a) :
    a.incoming = some (inOf d n) ∧ a.outgoing = some (outOf d n) := by
  obtain ⟨h1, h2⟩ := h n a ha
  obtain ⟨i, hi⟩ := Option.isSome_iff_exists.1 h1
  obtain ⟨o, ho⟩ := Option.isSome_iff_exists.1 h2
  constructor
  · simp [inOf, ha, hi]
  · simp [outOf, ha, ho]

theorem removeIncoming_ok {d : Diagram} (hl : Listed d) {n src : String} {rest : List String} (hi : inOf d n = flowId src n :: rest) (w : Wired d src n)
    (he : d.graph.hasEdge src n = true) : ∃ d', removeIncoming n d = .ok (src, d') := by
  obtain ⟨a, h1, h2⟩ := nodeAttrs_of_mem w.tgt
  obtain ⟨b, h3, h4⟩ := nodeAttrs_of_mem w.src
  unfold removeIncoming
  have hp : pyRemove (outOf d src) (flowId src n) = .ok ((outOf d src).erase (flowId src n)) := by simp [pyRemove, w.out]
  have hg : (d.updNode src fun c => { c with outgoing := some ((outOf d src).erase (flowId src n)) }).graph.hasEdge src n = true := he
  simp only [h1, except_bind_ok, (hl.lists h2).1, need_some, hi, pyIndex_cons_zero, w.flow, h3, (hl.lists h4).2, hp, Graph.removeEdge, hg, if_true, except_pure]
  exact ⟨_, rfl⟩

theorem removeOutgoing_ok {d : Diagram} (hl : Listed d) {n tgt : String} {rest : List String} (ho : outOf d n = flowId n tgt :: rest) (w : Wired d n tgt)
    (he : d.graph.hasEdge n tgt = true) : ∃ d', removeOutgoing n d = .ok (tgt, d') := by
  obtain ⟨a, h1, h2⟩ := nodeAttrs_of_mem w.src
  obtain ⟨b, h3, h4⟩ := nodeAttrs_of_mem w.tgt
  unfold removeOutgoing
  have hp : pyRemove (inOf d tgt) (flowId n tgt) = .ok ((inOf d tgt).erase (flowId n tgt)) := by simp [pyRemove, w.inn]
  have hg : (d.updNode tgt fun c => { c with incoming := some ((inOf d tgt).erase (flowId n tgt)) }).graph.hasEdge n tgt = true := he
  simp only [h1, except_bind_ok, (hl.lists h2).2, need_some, ho, pyIndex_cons_zero, w.flow, h3, (hl.lists h4).1, hp, Graph.removeEdge, hg, if_true, except_pure]
  exact ⟨_, rfl⟩

theorem Fit.remove_ok {nodes : List String} (hu : ∀ x ∈ nodes, '_' ∉ x.toList) (ha : ∀ x ∈ nodes, ∀ c ∈ x.toList, c.isAlphanum = true) {d : Diagram} (f : Fit nodes d) {n : String} (hn : n ∈ ids d)
    (hg : GatewayKind d n) (p : Dict String Line) : ∃ src tgt d', removeNode n p d = .ok (src, tgt, p.erase n, d') ∧ src ≠ n ∧ tgt ≠ n := by
  obtain ⟨hi, ho⟩ := f.alive n hn hg
  match ei : inOf d n, eo : outOf d n with
  | [], _ => exact absurd ei hi
  | _, [] => exact absurd eo ho
  | fi :: ri, fo :: ro =>
    obtain ⟨src, ps, rfl⟩ := f.exact.inv.inI n fi (by rw [ei]; simp)
    obtain ⟨tgt, rfl⟩ := f.exact.inv.outI n fo (by rw [eo]; simp)
    obtain ⟨h1, h2, h3, w1, w2, g1, g2⟩ := f.around hu hn hg (src := src) (tgt := tgt) (by rw [ei]; simp) ps (by rw [eo]; simp)
    have nn : n ∉ nodes := fun h => f.rows n h hg
    have nsrc : src ≠ n := fun e => nn (e ▸ h1)
    have ntgt : tgt ≠ n := fun e => nn (e ▸ h2)
    obtain ⟨d1, k1⟩ := removeIncoming_ok f.listed ei w1 g1
    have c1 := removeIncoming_cut f.exact.inv k1
    have w2' : Wired d1 n tgt := by
      refine ⟨by rw [c1.keys]; exact w2.src, by rw [c1.keys]; exact w2.tgt, ?_, by rw [c1.inn]; exact w2.inn, ?_⟩
      · rw [c1.out, if_neg (Ne.symm nsrc)]; exact w2.out
      · rw [c1.flows, Dict.get?_erase_ne]
        · exact w2.flow
        · intro e
          exact nsrc (flowId_inj ps (f.exact.inv.plain _ hn) e).1
    have g2' : d1.graph.hasEdge n tgt = true := by
      obtain ⟨e, he, hj⟩ := (Graph.hasEdge_iff _ _ _).1 g2
      refine (Graph.hasEdge_iff _ _ _).2 ⟨e, ?_, hj⟩
      rw [c1.edges, List.mem_filter]
      refine ⟨he, ?_⟩
      cases hjs : e.joins src n with
      | false => rfl
      | true =>
        exfalso
        have j1 := SamePair.joins.1 hj
        have j2 := SamePair.joins.1 hjs
        have et : src = tgt := by
          unfold SamePair at j1 j2
          rcases j1 with ⟨a1, a2⟩ | ⟨a1, a2⟩ <;> rcases j2 with ⟨b1, b2⟩ | ⟨b1, b2⟩
          · exact absurd (a1 ▸ b1) (Ne.symm nsrc)
          · exact b2.symm.trans a2
          · exact b1.symm.trans a1
          · exact absurd (a2 ▸ b2) (Ne.symm nsrc)
        subst et
        exact h3.asymm (ha _ h1) (ha _ h1) h3
    obtain ⟨d2, k2⟩ := removeOutgoing_ok (c1.listed f.listed) (rest := ro) (by rw [c1.out, if_neg (Ne.symm nsrc)]; exact eo) w2' g2'
    have c2 := removeOutgoing_cut (f.exact.inv.plain _ hn)
      (by
        intro g hg
        rw [c1.out, if_neg (Ne.symm nsrc)] at hg
        exact f.exact.inv.outI n g hg)
      (by
        intro g sf hg
        rw [c1.flows] at hg
        exact f.exact.inv.flowI g sf (get?_erase_some f.exact.inv.keysI hg)) k2
    have hm : d2.graph.nodes.has n = true := (Dict.has_iff _ _).2 (by
      show n ∈ ids d2
      rw [c2.keys, c1.keys]; exact hn)
    refine ⟨src, tgt, ?_⟩
    unfold removeNode
    simp only [k1, except_bind_ok, k2, Graph.removeNode, hm, if_true, except_pure]
    exact ⟨_, rfl, nsrc, ntgt⟩

theorem Fit.clean_ok {nodes : List String} (hu : ∀ x ∈ nodes, '_' ∉ x.toList) (ha : ∀ x ∈ nodes, ∀ c ∈ x.toList, c.isAlphanum = true) :
    ∀ {todo : List String} {p : Dict String Line} {d : Diagram}, Fit nodes d → todo.Nodup → (∀ x ∈ todo, x ∈ ids d) → p.keys.Nodup →
      ∃ d', removeGateways todo p d = .ok d'
  | [], p, d, _, _, _, _ => ⟨d, rfl⟩
  | n :: r, p, d, f, nd, hs, np => by
    rw [List.nodup_cons] at nd
    have hn := hs n (by simp)
    have hr : ∀ x ∈ r, x ∈ ids d := fun x hx => hs x (List.mem_cons_of_mem _ hx)
    obtain ⟨a, h1, h2⟩ := nodeAttrs_of_mem hn
    have ek : kind d n = a.type := by simp [kind, h2]
    unfold removeGateways
    simp only [h1, except_bind_ok]
    split
    · rename_i hk
      rw [← ek] at hk
      simp only [(f.listed.lists h2).1, (f.listed.lists h2).2, found, except_bind_ok]
      split
      · rename_i hi
        split
        · rename_i ho
          obtain ⟨src, tgt, d1, h3, h4, h5⟩ := f.remove_ok hu ha hn hk p
          rw [h3]
          simp only [except_bind_ok]
          obtain ⟨r1, -⟩ := removeNode_removed f.exact.inv h3
          obtain ⟨d2, h6⟩ := addConnection_ok (pd := p.erase n) (s := src) (t := tgt) (d := d1)
            (by rw [r1.ids]; exact (List.mem_erase_of_ne h4).2 r1.hasSrc) (by rw [r1.ids]; exact (List.mem_erase_of_ne h5).2 r1.hasTgt)
          rw [h6]
          simp only [except_bind_ok]
          have b : Bypass p d n src tgt tgt d2 := ⟨d1, _, (Within.refl _ _).removed f.exact.inv np r1, r1, addConnection_connected h6⟩
          refine Fit.clean_ok hu ha (f.bypass hu ha hk hi ho b) nd.2 ?_ (by rw [Dict.keys_erase]; exact List.Nodup.erase _ np)
          intro x hx
          rw [b.ids]
          exact (List.mem_erase_of_ne (by rintro rfl; exact nd.1 hx)).2 (hr x hx)
        · exact Fit.clean_ok hu ha f nd.2 hr np
      · exact Fit.clean_ok hu ha f nd.2 hr np
    · exact Fit.clean_ok hu ha f nd.2 hr np

end Bpmn.Csv

import Verif.Lemmas.CsvHead
import Verif.Lemmas.CsvAccept
import Verif.Lemmas.CsvGoto
/-! When the two loops at the end of the CSV import succeed, with rows that are `goto`. -/
set_option linter.unusedSimpArgs false
set_option linter.unusedVariables false

namespace Bpmn.Csv
open Bpmn.Spec Bpmn.Spec.Csv

/-! ## Edges that stay -/

theorem Removed.keepsEdge {d d' : Diagram} {n src tgt : String} (h : Removed d d' n src tgt) {x y : String} (hx : x ≠ n) (hy : y ≠ n)
    (he : d.graph.hasEdge x y = true) : d'.graph.hasEdge x y = true := by
  obtain ⟨e, he, hj⟩ := (Graph.hasEdge_iff _ _ _).1 he
  refine (Graph.hasEdge_iff _ _ _).2 ⟨e, ?_, hj⟩
  rw [h.edges, List.mem_filter]
  refine ⟨he, ?_⟩
  have hp := SamePair.joins.1 hj
  unfold SamePair at hp
  rcases hp with ⟨rfl, rfl⟩ | ⟨rfl, rfl⟩ <;> simp [hx, hy]

theorem Connected.keepsEdge {pd : Dict String Line} {d d' : Diagram} {s t : String} (h : Connected pd d d' s t) {x y : String}
    (he : d.graph.hasEdge x y = true) : d'.graph.hasEdge x y = true := by
  obtain ⟨e, he, hj⟩ := (Graph.hasEdge_iff _ _ _).1 he
  refine (Graph.hasEdge_iff _ _ _).2 ⟨if e.joins s t then { e with attrs := newAttrs pd s t e.attrs } else e, ?_, ?_⟩
  · rw [h.edges]
    exact List.mem_append_left _ (List.mem_map.2 ⟨e, he, rfl⟩)
  · split
    · exact hj
    · exact hj

theorem Bypass.keepsEdge {pd : Dict String Line} {d d' : Diagram} {n src tgt t : String} (h : Bypass pd d n src tgt t d') {x y : String}
    (hx : x ≠ n) (hy : y ≠ n) (he : d.graph.hasEdge x y = true) : d'.graph.hasEdge x y = true := by
  obtain ⟨d1, pd', _, r, c⟩ := h
  exact c.keepsEdge (r.keepsEdge hx hy he)

theorem Gotos.keepsEdge {pd : Dict String Line} {todo : List (String × Line)} {d d' : Diagram} (h : Gotos pd todo d d') :
    ∀ {x y : String}, NotGoto todo x → NotGoto todo y → d.graph.hasEdge x y = true → d'.graph.hasEdge x y = true := by
  induction h with
  | nil => intro x y _ _ h; exact h
  | skip _ _ ih => intro x y hx hy h; exact ih hx.tail hy.tail h
  | cut hg _ b _ ih => intro x y hx hy h; exact ih hx.tail hy.tail (b.keepsEdge (hx.ne hg) (hy.ne hg) h)

theorem Gotos.listed {pd : Dict String Line} {todo : List (String × Line)} {d d' : Diagram} (h : Gotos pd todo d d') : Listed d → Listed d' := by
  induction h with
  | nil => exact id
  | skip _ _ ih => exact ih
  | cut _ _ b _ ih => exact fun l => ih (b.listed l)

/-! ## The removal of one node -/

theorem removeNode_ok {d : Diagram} (i : Inv d) (hl : Listed d) {n src tgt : String} {ri ro : List String} (ei : inOf d n = flowId src n :: ri)
    (eo : outOf d n = flowId n tgt :: ro) (w1 : Wired d src n) (w2 : Wired d n tgt) (g1 : d.graph.hasEdge src n = true)
    (g2 : d.graph.hasEdge n tgt = true) (nsrc : src ≠ n) (ntgt : tgt ≠ n) (hne : src ≠ tgt) (p : Dict String Line) :
    ∃ d', removeNode n p d = .ok (src, tgt, p.erase n, d') := by
  have hn := w1.tgt
  have ps := i.plain _ w1.src
  obtain ⟨d1, k1⟩ := removeIncoming_ok hl ei w1 g1
  have c1 := removeIncoming_cut i k1
  have w2' : Wired d1 n tgt := by
    refine ⟨by rw [c1.keys]; exact w2.src, by rw [c1.keys]; exact w2.tgt, ?_, by rw [c1.inn]; exact w2.inn, ?_⟩
    · rw [c1.out, if_neg (Ne.symm nsrc)]; exact w2.out
    · rw [c1.flows, Dict.get?_erase_ne]
      · exact w2.flow
      · intro e
        exact nsrc (flowId_inj ps (i.plain _ hn) e).1
  have g2' : d1.graph.hasEdge n tgt = true := by
    obtain ⟨e, he, hj⟩ := (Graph.hasEdge_iff _ _ _).1 g2
    refine (Graph.hasEdge_iff _ _ _).2 ⟨e, ?_, hj⟩
    rw [c1.edges, List.mem_filter]
    refine ⟨he, ?_⟩
    cases hjs : e.joins src n with
    | false => rfl
    | true =>
      exfalso
      have j1 := SamePair.joins.1 hj
      have j2 := SamePair.joins.1 hjs
      apply hne
      unfold SamePair at j1 j2
      rcases j1 with ⟨a1, a2⟩ | ⟨a1, a2⟩ <;> rcases j2 with ⟨b1, b2⟩ | ⟨b1, b2⟩
      · exact absurd (a1 ▸ b1) (Ne.symm nsrc)
      · exact b2.symm.trans a2
      · exact b1.symm.trans a1
      · exact absurd (a2 ▸ b2) (Ne.symm nsrc)
  obtain ⟨d2, k2⟩ := removeOutgoing_ok (c1.listed hl) (rest := ro) (by rw [c1.out, if_neg (Ne.symm nsrc)]; exact eo) w2' g2'
  have c2 := removeOutgoing_cut (i.plain _ hn)
    (by
      intro g hg
      rw [c1.out, if_neg (Ne.symm nsrc)] at hg
      exact i.outI n g hg)
    (by
      intro g sf hg
      rw [c1.flows] at hg
      exact i.flowI g sf (get?_erase_some i.keysI hg)) k2
  have hm : d2.graph.nodes.has n = true := (Dict.has_iff _ _).2 (by
    show n ∈ ids d2
    rw [c2.keys, c1.keys]; exact hn)
  unfold removeNode
  simp only [k1, except_bind_ok, k2, Graph.removeNode, hm, if_true, except_pure]
  exact ⟨_, rfl⟩

/-! ## The loop for `goto` -/

/-- Every row to come that is a `goto` can be removed. -/
structure Ready (todo : List (String × Line)) (d : Diagram) : Prop where
  inv : Inv d
  listed : Listed d
  some : ∀ o l, (o, l) ∈ todo → isGoto l.activity = true → inOf d o ≠ [] ∧ outOf d o ≠ []
  inn : ∀ o l, (o, l) ∈ todo → isGoto l.activity = true → ∀ x, Plain x → flowId x o ∈ inOf d o →
    NotGoto todo x ∧ Wired d x o ∧ d.graph.hasEdge x o = true
  out : ∀ o l, (o, l) ∈ todo → isGoto l.activity = true → ∀ y, flowId o y ∈ outOf d o →
    NotGoto todo y ∧ Wired d o y ∧ d.graph.hasEdge o y = true ∧ ∀ x, Plain x → flowId x o ∈ inOf d o → x ≠ y
  target : ∀ o l, (o, l) ∈ todo → isGoto l.activity = true → ∃ t, pyIndex (words (strip l.activity)) 1 = .ok t ∧ t ∈ ids d ∧ NotGoto todo t

theorem Ready.tail {p : String × Line} {todo : List (String × Line)} {d : Diagram} (h : Ready (p :: todo) d) : Ready todo d := by
  refine ⟨h.inv, h.listed, ?_, ?_, ?_, ?_⟩
  · exact fun o l hm hg => h.some o l (List.mem_cons_of_mem _ hm) hg
  · intro o l hm hg x px hx
    obtain ⟨a, b, c⟩ := h.inn o l (List.mem_cons_of_mem _ hm) hg x px hx
    exact ⟨a.tail, b, c⟩
  · intro o l hm hg x hx
    obtain ⟨a, b, c⟩ := h.out o l (List.mem_cons_of_mem _ hm) hg x hx
    exact ⟨a.tail, b, c⟩
  · intro o l hm hg
    obtain ⟨t, a, b, c⟩ := h.target o l (List.mem_cons_of_mem _ hm) hg
    exact ⟨t, a, b, c.tail⟩

theorem Ready.bypass {o : String} {l : Line} {todo : List (String × Line)} {d d' : Diagram} (h : Ready ((o, l) :: todo) d)
    (hg : isGoto l.activity = true) (no : ∀ k, (o, k) ∉ todo) {pd : Dict String Line} {src tgt t : String} (b : Bypass pd d o src tgt t d')
    (hsrc : NotGoto ((o, l) :: todo) src) (htgt : NotGoto ((o, l) :: todo) tgt) (ht : NotGoto ((o, l) :: todo) t) : Ready todo d' := by
  have lists : ∀ g k, (g, k) ∈ todo → isGoto k.activity = true → inOf d' g = inOf d g ∧ outOf d' g = outOf d g := by
    intro g k hm hk
    have hgo : g ≠ o := by rintro rfl; exact no k hm
    have ne : ∀ x, NotGoto ((o, l) :: todo) x → g ≠ x := by
      rintro x hx rfl
      have := hx k (List.mem_cons_of_mem _ hm)
      rw [hk] at this; cases this
    obtain ⟨d1, pd', _, r, c⟩ := b.step
    constructor
    · rw [c.inn, if_neg (ne t ht), r.inn g hgo, if_neg (ne tgt htgt)]
    · rw [c.out, if_neg (ne src hsrc), r.out g hgo, if_neg (ne src hsrc)]
  have hgo : ∀ g k, (g, k) ∈ todo → g ≠ o := by rintro g k hm rfl; exact no k hm
  refine ⟨b.inv h.inv, b.listed h.listed, ?_, ?_, ?_, ?_⟩
  · intro g k hm hk
    rw [(lists g k hm hk).1, (lists g k hm hk).2]
    exact h.some g k (List.mem_cons_of_mem _ hm) hk
  · intro g k hm hk x px hx
    rw [(lists g k hm hk).1] at hx
    obtain ⟨a1, a2, a3⟩ := h.inn g k (List.mem_cons_of_mem _ hm) hk x px hx
    exact ⟨a1.tail, b.wired h.inv a2 (a1.ne hg) (hgo g k hm), b.keepsEdge (a1.ne hg) (hgo g k hm) a3⟩
  · intro g k hm hk y hy
    rw [(lists g k hm hk).2] at hy
    obtain ⟨a1, a2, a3, a4⟩ := h.out g k (List.mem_cons_of_mem _ hm) hk y hy
    refine ⟨a1.tail, b.wired h.inv a2 (hgo g k hm) (a1.ne hg), b.keepsEdge (hgo g k hm) (a1.ne hg) a3, ?_⟩
    rw [(lists g k hm hk).1]
    exact a4
  · intro g k hm hk
    obtain ⟨u, a1, a2, a3⟩ := h.target g k (List.mem_cons_of_mem _ hm) hk
    refine ⟨u, a1, ?_, a3.tail⟩
    rw [b.ids]
    exact (List.mem_erase_of_ne (a3.ne hg)).2 a2

theorem Ready.gotos_ok : ∀ {todo : List (String × Line)} {p : Dict String Line} {d : Diagram}, Ready todo d → (todo.map (·.1)).Nodup → p.keys.Nodup →
    ∃ p' d', removeGotos todo p d = .ok (p', d')
  | [], p, d, _, _, _ => ⟨p, d, rfl⟩
  | (o, l) :: r, p, d, h, nd, np => by
    simp only [List.map_cons, List.nodup_cons] at nd
    have no : ∀ k, (o, k) ∉ r := fun k hk => nd.1 (List.mem_map.2 ⟨_, hk, rfl⟩)
    unfold removeGotos
    cases hg : isGoto l.activity with
    | false => simp only [Bool.false_eq_true, if_false]; exact Ready.gotos_ok h.tail nd.2 np
    | true =>
      simp only [if_true]
      obtain ⟨hi, ho⟩ := h.some o l (by simp) hg
      obtain ⟨t, ht1, ht2, ht3⟩ := h.target o l (by simp) hg
      match ei : inOf d o, eo : outOf d o with
      | [], _ => exact absurd ei hi
      | _, [] => exact absurd eo ho
      | fi :: ri, fo :: ro =>
        obtain ⟨src, ps, rfl⟩ := h.inv.inI o fi (by rw [ei]; simp)
        obtain ⟨tgt, rfl⟩ := h.inv.outI o fo (by rw [eo]; simp)
        obtain ⟨a1, a2, a3⟩ := h.inn o l (by simp) hg src ps (by rw [ei]; simp)
        obtain ⟨b1, b2, b3, b4⟩ := h.out o l (by simp) hg tgt (by rw [eo]; simp)
        obtain ⟨d1, h1⟩ := removeNode_ok h.inv h.listed ei eo a2 b2 a3 b3 (a1.ne hg) (b1.ne hg) (b4 src ps (by rw [ei]; simp)) p
        obtain ⟨r1, -⟩ := removeNode_removed h.inv h1
        obtain ⟨d2, h2⟩ := addConnection_ok (pd := p.erase o) (s := src) (t := t) (d := d1)
          (by rw [r1.ids]; exact (List.mem_erase_of_ne (a1.ne hg)).2 r1.hasSrc) (by rw [r1.ids]; exact (List.mem_erase_of_ne (ht3.ne hg)).2 ht2)
        have b : Bypass p d o src tgt t d2 := ⟨d1, _, (Within.refl _ _).removed h.inv np r1, r1, addConnection_connected h2⟩
        simp only [h1, ht1, h2, except_bind_ok]
        exact Ready.gotos_ok (h.bypass hg no b a1 b1 ht3) nd.2 (by rw [Dict.keys_erase]; exact List.Nodup.erase _ np)

/-! ## The loop for gateways -/

/-- Every superfluous gateway stands between two different rows. -/
structure Cleanable (d : Diagram) : Prop where
  inv : Inv d
  listed : Listed d
  gate : ∀ n ∈ ids d, GatewayKind d n → (inOf d n).length < 2 → (outOf d n).length < 2 → ∃ x y, inOf d n = [flowId x n] ∧ outOf d n = [flowId n y] ∧
    Wired d x n ∧ Wired d n y ∧ d.graph.hasEdge x n = true ∧ d.graph.hasEdge n y = true ∧ x ≠ y ∧ ¬GatewayKind d x ∧ ¬GatewayKind d y

theorem Cleanable.bypass {d d' : Diagram} (h : Cleanable d) {pd : Dict String Line} {n src tgt : String} (hn : GatewayKind d n)
    (b : Bypass pd d n src tgt tgt d') (hs : ¬GatewayKind d src) (ht : ¬GatewayKind d tgt) : Cleanable d' := by
  refine ⟨b.inv h.inv, b.listed h.listed, ?_⟩
  intro m hm gm li lo
  have mn : m ≠ n := by
    rintro rfl
    rw [b.ids] at hm
    exact List.Nodup.not_mem_erase h.inv.nodup hm
  rw [GatewayKind.congr (b.bare mn)] at gm
  rw [b.ids] at hm
  rw [b.inLength mn] at li
  rw [b.outLength mn] at lo
  obtain ⟨x, y, k1, k2, k3, k4, k5, k6, k7, k8, k9⟩ := h.gate m (List.mem_of_mem_erase hm) gm li lo
  have xn : x ≠ n := by rintro rfl; exact k8 hn
  have yn : y ≠ n := by rintro rfl; exact k9 hn
  have ms : m ≠ src := by rintro rfl; exact hs gm
  have mt : m ≠ tgt := by rintro rfl; exact ht gm
  refine ⟨x, y, ?_, ?_, b.wired h.inv k3 xn mn, b.wired h.inv k4 mn yn, b.keepsEdge xn mn k5, b.keepsEdge mn yn k6, k7, ?_, ?_⟩
  · obtain ⟨d1, pd', _, r, c⟩ := b.step
    rw [c.inn, if_neg mt, r.inn m mn, if_neg mt]; exact k1
  · obtain ⟨d1, pd', _, r, c⟩ := b.step
    rw [c.out, if_neg ms, r.out m mn, if_neg ms]; exact k2
  · rw [GatewayKind.congr (b.bare xn)]; exact k8
  · rw [GatewayKind.congr (b.bare yn)]; exact k9

theorem Cleanable.clean_ok : ∀ {todo : List String} {p : Dict String Line} {d : Diagram}, Cleanable d → todo.Nodup → (∀ x ∈ todo, x ∈ ids d) →
    p.keys.Nodup → ∃ d', removeGateways todo p d = .ok d'
  | [], p, d, _, _, _, _ => ⟨d, rfl⟩
  | n :: r, p, d, f, nd, hs, np => by
    rw [List.nodup_cons] at nd
    have hn := hs n (by simp)
    have hr : ∀ x ∈ r, x ∈ ids d := fun x hx => hs x (List.mem_cons_of_mem _ hx)
    obtain ⟨a, h1, h2⟩ := nodeAttrs_of_mem hn
    have ek : kind d n = a.type := by simp [kind, h2]
    unfold removeGateways
    simp only [h1, except_bind_ok]
    split
    · rename_i hk
      rw [← ek] at hk
      simp only [(f.listed.lists h2).1, (f.listed.lists h2).2, found, except_bind_ok]
      split
      · rename_i hi
        split
        · rename_i ho
          obtain ⟨x, y, k1, k2, k3, k4, k5, k6, k7, k8, k9⟩ := f.gate n hn hk hi ho
          have xn : x ≠ n := by rintro rfl; exact k8 hk
          have yn : y ≠ n := by rintro rfl; exact k9 hk
          obtain ⟨d1, h3⟩ := removeNode_ok f.inv f.listed k1 k2 k3 k4 k5 k6 xn yn k7 p
          rw [h3]
          simp only [except_bind_ok]
          obtain ⟨r1, -⟩ := removeNode_removed f.inv h3
          obtain ⟨d2, h6⟩ := addConnection_ok (pd := p.erase n) (s := x) (t := y) (d := d1)
            (by rw [r1.ids]; exact (List.mem_erase_of_ne xn).2 r1.hasSrc) (by rw [r1.ids]; exact (List.mem_erase_of_ne yn).2 r1.hasTgt)
          rw [h6]
          simp only [except_bind_ok]
          have b : Bypass p d n x y y d2 := ⟨d1, _, (Within.refl _ _).removed f.inv np r1, r1, addConnection_connected h6⟩
          refine Cleanable.clean_ok (f.bypass hk b k8 k9) nd.2 ?_ (by rw [Dict.keys_erase]; exact List.Nodup.erase _ np)
          intro z hz
          rw [b.ids]
          exact (List.mem_erase_of_ne (by rintro rfl; exact nd.1 hz)).2 (hr z hz)
        · exact Cleanable.clean_ok f nd.2 hr np
      · exact Cleanable.clean_ok f nd.2 hr np
    · exact Cleanable.clean_ok f nd.2 hr np

/-! ## The whole import -/

/-- What the flows made for the rows have to be like. -/
structure Loopable (rows : List Row) (F : List (String × String)) (d1 : Diagram) : Prop where
  into : ∀ g ∈ rows, GotoRow g → (∃ x, (x, g.order) ∈ F) ∧ ∀ x, (x, g.order) ∈ F → NotGoto (dictOf rows) x
  onward : ∀ g ∈ rows, GotoRow g → (∃ y, (g.order, y) ∈ F) ∧ ∀ y, (g.order, y) ∈ F → NotGoto (dictOf rows) y
  target : ∀ g ∈ rows, GotoRow g → ∃ t, pyIndex (words (strip g.activity)) 1 = .ok t ∧ t ∈ rows.map Row.order ∧ NotGoto (dictOf rows) t
  gateIn : ∀ n ∈ ids d1, n ∉ rows.map Row.order → ∃ x ∈ rows.map Row.order, NotGoto (dictOf rows) x ∧ (x, n) ∈ F
  gateOut : ∀ n ∈ ids d1, n ∉ rows.map Row.order → 2 ≤ (leaving n F).length ∨ ∃ y ∈ rows.map Row.order, NotGoto (dictOf rows) y ∧ (n, y) ∈ F

theorem mem_dictOf_iff {rows : List Row} {o : String} {l : Line} (h : (o, l) ∈ dictOf rows) :
    ∃ r ∈ rows, o = r.order ∧ l = ⟨r.activity, r.condition, r.who, r.subprocess, r.terminated⟩ := by
  obtain ⟨r, hr, e⟩ := List.mem_map.1 h
  cases e
  exact ⟨r, hr, rfl, rfl⟩

theorem Filled.out {rows : List Row} {d0 d1 : Diagram} {F : List (String × String)} (s : Filled rows d0 F d1) (x : String) :
    outOf d1 x = leaving x F := by rw [s.rounds.out, s.planted.out]; rfl

theorem Filled.inn {rows : List Row} {d0 d1 : Diagram} {F : List (String × String)} (s : Filled rows d0 F d1) (x : String) :
    inOf d1 x = entering x F := by rw [s.rounds.inn, s.planted.inn]; rfl

theorem Filled.asymm {rows : List Row} (t : Table rows) {d0 d1 : Diagram} {F : List (String × String)} (s : Filled rows d0 F d1) {a b : String}
    (h1 : (a, b) ∈ F) (h2 : (b, a) ∈ F) : False := by
  have sh := s.rounds.shape (fun _ h => h) (tableAlnum t)
  exact (sh _ h1).asymm (tableUnder t) (tableAlnum t) (sh _ h2)

theorem Filled.ready {rows : List Row} (t : Table rows) {d0 d1 : Diagram} {F : List (String × String)} (s : Filled rows d0 F d1)
    (L : Loopable rows F d1) : Ready (dictOf rows) (legacyAdjustment d1) := by
  have hu := tableUnder t
  obtain ⟨i1, g1, n1, w1⟩ := s.rounds.step hu s.planted.inv s.named0 (fun _ h => h)
  obtain ⟨x1, p1⟩ := s.exact t
  have xl := x1.legacy
  have p1' : ∀ a b, Plain a → EdgeOf (legacyAdjustment d1) a b → (a, b) ∈ F := p1
  have goto : ∀ o l, (o, l) ∈ dictOf rows → isGoto l.activity = true → ∃ r ∈ rows, GotoRow r ∧ o = r.order ∧ l.activity = r.activity := by
    intro o l hm hg
    obtain ⟨r, hr, rfl, rfl⟩ := mem_dictOf_iff hm
    exact ⟨r, hr, (isGoto_iff r).1 hg, rfl, rfl⟩
  refine ⟨i1.legacy, legacy_listed _, ?_, ?_, ?_, ?_⟩
  · intro o l hm hg
    obtain ⟨r, hr, hgr, rfl, -⟩ := goto o l hm hg
    obtain ⟨x, hx⟩ := (L.into r hr hgr).1
    obtain ⟨y, hy⟩ := (L.onward r hr hgr).1
    rw [legacy_inn, legacy_out, s.out, s.inn]
    exact ⟨List.ne_nil_of_mem (mem_entering.2 ⟨x, hx, rfl⟩), List.ne_nil_of_mem (mem_leaving.2 ⟨y, hy, rfl⟩)⟩
  · intro o l hm hg x px hx
    obtain ⟨r, hr, hgr, rfl, -⟩ := goto o l hm hg
    have e := xl.backIn _ _ px hx
    exact ⟨(L.into r hr hgr).2 x (p1' _ _ px e), (xl.inv.edge px e).1, xl.inv.edge_has px e⟩
  · intro o l hm hg y hy
    obtain ⟨r, hr, hgr, rfl, -⟩ := goto o l hm hg
    have e := xl.back _ _ hy
    have po := xl.inv.plain _ (outOf_mem hy)
    refine ⟨(L.onward r hr hgr).2 y (p1' _ _ po e), (xl.inv.edge po e).1, xl.inv.edge_has po e, ?_⟩
    rintro x px hx rfl
    exact s.asymm t (p1' _ _ px (xl.backIn _ _ px hx)) (p1' _ _ po e)
  · intro o l hm hg
    obtain ⟨r, hr, hgr, rfl, e⟩ := goto o l hm hg
    obtain ⟨u, h1, h2, h3⟩ := L.target r hr hgr
    refine ⟨u, by rw [e]; exact h1, ?_, h3⟩
    rw [legacy_ids]
    exact g1.ids _ (by rw [s.planted.ids, keys_dictOf]; exact h2)

theorem Filled.cleanable {rows : List Row} (t : Table rows) {d0 d1 : Diagram} {F : List (String × String)} (s : Filled rows d0 F d1)
    (L : Loopable rows F d1) {d2 : Diagram} (hg : Gotos (dictOf rows) (dictOf rows) (legacyAdjustment d1) d2) : Cleanable d2 := by
  have hu := tableUnder t
  obtain ⟨i1, g1, n1, w1⟩ := s.rounds.step hu s.planted.inv s.named0 (fun _ h => h)
  have x1 := (s.exact t).1.legacy
  have k := hg.keep i1.legacy
  have f := s.fit t
  refine ⟨k.inv, hg.listed (legacy_listed _), ?_⟩
  intro n hn gn li lo
  obtain ⟨h1, ng⟩ := k.sub n hn
  have rows_not : ∀ x ∈ rows.map Row.order, NotGoto (dictOf rows) x → ¬GatewayKind d2 x := by
    intro x hx hx2
    rw [GatewayKind.congr (k.bare x hx2)]
    exact f.rows x hx
  have nr : n ∉ rows.map Row.order := fun hm => rows_not n hm ng gn
  rw [legacy_ids] at h1
  obtain ⟨x, hx1, hx2, hx3⟩ := L.gateIn n h1 nr
  have lo' : (leaving n F).length < 2 := by rw [k.outLength n ng, legacy_out, s.out] at lo; exact lo
  obtain ⟨y, hy1, hy2, hy3⟩ := (L.gateOut n h1 nr).resolve_left (by omega)
  have a1 := (w1 _ hx3).legacy
  have a2 := (w1 _ hy3).legacy
  have wx := k.wired _ _ a1 hx2 ng
  have wy := k.wired _ _ a2 ng hy2
  have one : ∀ {l : List String} {f : String}, f ∈ l → l.length < 2 → l = [f] := by
    intro l f hf hl
    match l, hf, hl with
    | [a], hf, _ => rw [List.mem_singleton] at hf; rw [hf]
    | _ :: _ :: _, _, hl => simp at hl; omega
  have edge : ∀ {a b : String}, Wired (legacyAdjustment d1) a b → (legacyAdjustment d1).graph.hasEdge a b = true := by
    intro a b w
    exact x1.inv.edge_has (x1.inv.plain _ w.src) (x1.back _ _ w.out)
  refine ⟨x, y, one wx.inn li, one wy.out lo, wx, wy, hg.keepsEdge hx2 ng (edge a1), hg.keepsEdge ng hy2 (edge a2), ?_, rows_not x hx1 hx2, rows_not y hy1 hy2⟩
  rintro rfl
  exact s.asymm t hx3 hy3

/-- Rows that can be handled, flows that can be rewired. -/
theorem goto_load_ok {rows : List Row} (t : Table rows) (hg : ∀ r ∈ rows, r.terminated ≠ "yes" → GoesOn (rows.map Row.order) r.order)
    (L : ∀ d0 F d1, Filled rows d0 F d1 → Loopable rows F d1) : ∃ d, loadCsv rows {} = .ok d := by
  have hu := tableUnder t
  have hP := planted_start t
  have n0 : ∀ x ∈ ids (importNodes (dictOf rows) (populate (dictOf rows) {})), Named (rows.map Row.order) [] x := by
    intro x hx
    rw [hP.ids, keys_dictOf] at hx
    exact Or.inl hx
  have key : (importNodes (dictOf rows) (populate (dictOf rows) {})).graph.nodes.keys = rows.map Row.order := by
    have := hP.ids
    rw [keys_dictOf] at this
    exact this
  obtain ⟨d1, h1⟩ := fill_ok hu (tableAlnum t) (keys_dictOf rows) hP.inv n0 (fun x hx => by rw [hP.ids, keys_dictOf]; exact hx)
    (fun x hx => by rw [hP.ids, keys_dictOf] at hx; exact Or.inl hx) (fun _ h => h) t.orders (by simp) (by
      intro x hx l hl
      obtain ⟨r, hr, rfl⟩ := List.mem_map.1 hx
      rw [get?_dictOf t hr] at hl
      cases hl
      exact hg r hr)
  obtain ⟨F, hF⟩ := fill_rounds hu h1 hP.inv n0 (fun _ h => h) t.orders (by simp)
  have fl : Filled rows _ F d1 := ⟨hP, hF⟩
  have ll := L _ _ _ fl
  have nk : (dictOf rows).keys.Nodup := by rw [keys_dictOf]; exact t.orders
  have rd := fl.ready t ll
  obtain ⟨p2, d2, h2⟩ := rd.gotos_ok (p := dictOf rows) nk nk
  obtain ⟨g2, v2, nk2⟩ := removeGotos_gotos h2 rd.inv (Within.refl _ _) nk
  have c := fl.cleanable t ll g2
  obtain ⟨d, h3⟩ := c.clean_ok (todo := ids d2) (p := p2) c.inv.nodup (fun _ h => h) nk2
  refine ⟨d, ?_⟩
  unfold loadCsv fillConnections
  rw [t.dict]
  simp only [except_bind_ok, key, h1, h2]
  exact h3

/-! ## What a successful import needs -/

/-- A `goto` row needs something before it. -/
theorem Gotos.entered {pd : Dict String Line} {todo : List (String × Line)} {d d' : Diagram} (h : Gotos pd todo d d') : Inv d → (todo.map (·.1)).Nodup →
    (∀ o l, (o, l) ∈ todo → isGoto l.activity = true → ∀ t, pyIndex (words (strip l.activity)) 1 = .ok t → NotGoto todo t) →
    ∀ g l, (g, l) ∈ todo → isGoto l.activity = true → inOf d g ≠ [] := by
  induction h with
  | nil => intro _ _ _ g l hm; simp at hm
  | skip hg _ ih =>
    intro i nd ht g l hm hl
    simp only [List.map_cons, List.nodup_cons] at nd
    simp only [List.mem_cons] at hm
    rcases hm with hm | hm
    · cases hm; rw [hl] at hg; cases hg
    · exact ih i nd.2 (fun o l hm hg t h => (ht o l (List.mem_cons_of_mem _ hm) hg t h).tail) g l hm hl
  | @cut o src tgt t k r d d1 d' hg hw b _ ih =>
    intro i nd ht g l hm hl
    simp only [List.map_cons, List.nodup_cons] at nd
    simp only [List.mem_cons] at hm
    obtain ⟨e1, pd', _, rr, c⟩ := b.step
    rcases hm with hm | hm
    · cases hm
      intro e
      have := rr.inHead
      rw [e] at this; simp at this
    · have hgo : g ≠ o := by rintro rfl; exact nd.1 (List.mem_map.2 ⟨_, hm, rfl⟩)
      have := ih (b.inv i) nd.2 (fun o l hm hg t h => (ht o l (List.mem_cons_of_mem _ hm) hg t h).tail) g l hm hl
      have gt : g ≠ t := by
        rintro rfl
        have := ht o k (by simp) hg g hw l (List.mem_cons_of_mem _ hm)
        rw [hl] at this; cases this
      rw [c.inn, if_neg gt, rr.inn g hgo] at this
      intro e
      rw [e] at this
      simp at this

/-- A node that is entered from `goto` rows only is not entered any more behind the loop. -/
theorem Gotos.dead {pd : Dict String Line} {todo : List (String × Line)} {d d' : Diagram} (h : Gotos pd todo d d') : Inv d → (todo.map (·.1)).Nodup →
    ∀ j, (∀ o l, (o, l) ∈ todo → isGoto l.activity = true → ∀ t, pyIndex (words (strip l.activity)) 1 = .ok t → NotGoto todo t ∧ t ≠ j) → NotGoto todo j →
    (∀ o l, (o, l) ∈ todo → isGoto l.activity = true → ∀ x, Plain x → flowId x o ∈ inOf d o → NotGoto todo x) →
    (∀ o l, (o, l) ∈ todo → isGoto l.activity = true → ∀ y, flowId o y ∈ outOf d o → NotGoto todo y) →
    (inOf d j).Nodup → (∀ f ∈ inOf d j, ∃ o l, (o, l) ∈ todo ∧ isGoto l.activity = true ∧ f = flowId o j ∧ outOf d o = [flowId o j]) →
    inOf d' j = [] := by
  induction h with
  | nil =>
    intro _ _ j _ _ _ _ _ hf
    refine List.eq_nil_iff_forall_not_mem.2 fun f hm => ?_
    obtain ⟨o, l, h1, -⟩ := hf f hm
    simp at h1
  | @skip o k r d d' hg _ ih =>
    intro i nd j ht hj hin hout hnd hf
    simp only [List.map_cons, List.nodup_cons] at nd
    refine ih i nd.2 j (fun o l hm hg t h => ⟨(ht o l (List.mem_cons_of_mem _ hm) hg t h).1.tail, (ht o l (List.mem_cons_of_mem _ hm) hg t h).2⟩) hj.tail
      (fun o l hm hg x px hx => (hin o l (List.mem_cons_of_mem _ hm) hg x px hx).tail)
      (fun o l hm hg x hx => (hout o l (List.mem_cons_of_mem _ hm) hg x hx).tail) hnd ?_
    intro f hm
    obtain ⟨o', l', h1, h2, h3⟩ := hf f hm
    simp only [List.mem_cons] at h1
    rcases h1 with h1 | h1
    · cases h1; rw [h2] at hg; cases hg
    · exact ⟨o', l', h1, h2, h3⟩
  | @cut o src tgt t k r d d1 d' hg hw b _ ih =>
    intro i nd j ht hj hin hout hnd hf
    simp only [List.map_cons, List.nodup_cons] at nd
    have no : ∀ k, (o, k) ∉ r := fun k hk => nd.1 (List.mem_map.2 ⟨_, hk, rfl⟩)
    have hne := b.src_ne i
    obtain ⟨e1, pd', _, rr, c⟩ := b.step
    have hsrc := hin o k (by simp) hg src (i.plain _ rr.hasSrc) (List.mem_of_head? rr.inHead)
    have hoh := rr.outHead.resolve_right hne.1
    have htgt := hout o k (by simp) hg tgt (List.mem_of_head? hoh)
    have ht' := ht o k (by simp) hg t hw
    have ne : ∀ g l, (g, l) ∈ r → isGoto l.activity = true → ∀ x, NotGoto ((o, k) :: r) x → g ≠ x := by
      rintro g l hm hl x hx rfl
      have := hx l (List.mem_cons_of_mem _ hm)
      rw [hl] at this; cases this
    have hgo : ∀ g l, (g, l) ∈ r → g ≠ o := by rintro g l hm rfl; exact no l hm
    have li : ∀ g l, (g, l) ∈ r → isGoto l.activity = true → inOf d1 g = inOf d g ∧ outOf d1 g = outOf d g := by
      intro g l hm hl
      constructor
      · rw [c.inn, if_neg (ne g l hm hl t ht'.1), rr.inn g (hgo g l hm), if_neg (ne g l hm hl tgt htgt)]
      · rw [c.out, if_neg (ne g l hm hl src hsrc), rr.out g (hgo g l hm), if_neg (ne g l hm hl src hsrc)]
    have jo : j ≠ o := hj.ne hg
    have ij : inOf d1 j = if j = tgt then (inOf d j).erase (flowId o tgt) else inOf d j := by
      rw [c.inn, if_neg (Ne.symm ht'.2), rr.inn j jo]
    refine ih (b.inv i) nd.2 j (fun o l hm hg t h => ⟨(ht o l (List.mem_cons_of_mem _ hm) hg t h).1.tail, (ht o l (List.mem_cons_of_mem _ hm) hg t h).2⟩) hj.tail
      ?_ ?_ ?_ ?_
    · intro g l hm hl x px hx
      rw [(li g l hm hl).1] at hx
      exact (hin g l (List.mem_cons_of_mem _ hm) hl x px hx).tail
    · intro g l hm hl x hx
      rw [(li g l hm hl).2] at hx
      exact (hout g l (List.mem_cons_of_mem _ hm) hl x hx).tail
    · rw [ij]; split
      · exact hnd.erase _
      · exact hnd
    · intro f hm
      have hm' : f ∈ inOf d j := by
        rw [ij] at hm
        split at hm
        · exact List.mem_of_mem_erase hm
        · exact hm
      obtain ⟨o', l', h1, h2, h3, h4⟩ := hf f hm'
      simp only [List.mem_cons] at h1
      rcases h1 with h1 | h1
      · cases h1
        exfalso
        rw [h4] at hoh
        simp only [List.head?_cons, Option.some.injEq] at hoh
        have po := i.plain _ rr.node
        have := (flowId_inj po po hoh).2
        subst this
        rw [ij, if_pos rfl, h3] at hm
        exact (List.Nodup.not_mem_erase hnd) hm
      · exact ⟨o', l', h1, h2, h3, by rw [(li o' l' h1 h2).2]; exact h4⟩

/-- The loop for gateways does not get past a gateway that nothing enters. -/
theorem Cleaned.dead {pd : Dict String Line} {todo : List String} {d d' : Diagram} (h : Cleaned pd todo d d') {j : String} (hj : j ∈ todo)
    (gj : GatewayKind d j) (hi : inOf d j = []) (ho : (outOf d j).length < 2) : False := by
  induction h with
  | nil => simp at hj
  | @keep n r d d' hk _ ih =>
    simp only [List.mem_cons] at hj
    rcases hj with rfl | hj
    · have := hk gj
      rw [hi] at this
      simp at this
      omega
    · exact ih hj gj hi ho
  | @cut n src tgt r d d1 d' hk h1 h2 b _ ih =>
    by_cases e : j = n
    · subst e
      obtain ⟨e1, pd', _, rr, c⟩ := b.step
      have := rr.inHead
      rw [hi] at this; simp at this
    · simp only [List.mem_cons] at hj
      refine ih (hj.resolve_left e) ((GatewayKind.congr (b.bare e)).2 gj) ?_ (by rw [b.outLength e]; exact ho)
      have := b.inLength e
      rw [hi] at this
      exact List.length_eq_zero_iff.1 this

/-- Every `goto` has a flow out of it and names a node other than itself. -/
theorem Gotos.cuts {pd : Dict String Line} {todo : List (String × Line)} {d d' : Diagram} (h : Gotos pd todo d d') : Inv d → (todo.map (·.1)).Nodup →
    ∀ g l, (g, l) ∈ todo → isGoto l.activity = true →
      outOf d g ≠ [] ∧ ∃ t, pyIndex (words (strip l.activity)) 1 = .ok t ∧ t ∈ ids d ∧ t ≠ g := by
  induction h with
  | nil => intro _ _ g l hm; simp at hm
  | skip hg _ ih =>
    intro i nd g l hm hl
    simp only [List.map_cons, List.nodup_cons] at nd
    simp only [List.mem_cons] at hm
    rcases hm with hm | hm
    · cases hm; rw [hl] at hg; cases hg
    · exact ih i nd.2 g l hm hl
  | @cut o src tgt t k r d d1 d' hg hw b _ ih =>
    intro i nd g l hm hl
    simp only [List.map_cons, List.nodup_cons] at nd
    simp only [List.mem_cons] at hm
    have hne := b.src_ne i
    rcases hm with hm | hm
    · cases hm
      obtain ⟨e1, pd', _, rr, c⟩ := b.step
      refine ⟨?_, t, hw, ?_, hne.2⟩
      · intro e
        have := rr.outHead.resolve_right hne.1
        rw [e] at this; simp at this
      · have := c.tgt
        rw [rr.ids] at this
        exact List.mem_of_mem_erase this
    · have hgo : g ≠ o := by rintro rfl; exact nd.1 (List.mem_map.2 ⟨_, hm, rfl⟩)
      obtain ⟨h1, u, h2, h3, h4⟩ := ih (b.inv i) nd.2 g l hm hl
      refine ⟨?_, u, h2, ?_, h4⟩
      · intro e
        have := b.outLength hgo
        rw [e] at this
        exact h1 (List.length_eq_zero_iff.1 (by simpa using this))
      · rw [b.ids] at h3
        exact List.mem_of_mem_erase h3

end Bpmn.Csv

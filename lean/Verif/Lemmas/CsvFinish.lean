import Verif.Lemmas.CsvFill
/-! The adjustments at the end of the CSV import, and the import as a whole. -/
set_option linter.unusedSimpArgs false
set_option linter.unusedVariables false

namespace Bpmn.Csv
open Bpmn.Spec Bpmn.Spec.Csv

/-- The type of a node. -/
def kind (d : Diagram) (x : String) : Option String := (d.graph.nodes.get? x).bind (·.type)
/-- The name of a node. -/
def title (d : Diagram) (x : String) : Option String := (d.graph.nodes.get? x).bind (·.nodeName)
/-- The event definitions of a node. -/
def events (d : Diagram) (x : String) : List EventDef := ((d.graph.nodes.get? x).bind (·.eventDefinitions)).getD []

/-- The default flow of a node. -/
def defaultOf (d : Diagram) (x : String) : Option (Option String) := (d.graph.nodes.get? x).bind (·.default)

/-- What a node says, apart from its lists. -/
def saysOf (d : Diagram) (x : String) : Option NodeAttrs := (d.graph.nodes.get? x).map norm

theorem saysOf_eq (d : Diagram) (x : String) : saysOf d x = (bareOf d x).map norm := by
  simp only [saysOf, bareOf]; cases d.graph.nodes.get? x <;> rfl
theorem defaultOf_eq (d : Diagram) (x : String) : defaultOf d x = (bareOf d x).bind (·.default) := by
  simp only [defaultOf, bareOf]; cases d.graph.nodes.get? x <;> rfl
theorem kind_eq (d : Diagram) (x : String) : kind d x = (bareOf d x).bind (·.type) := by
  simp only [kind, bareOf]; cases d.graph.nodes.get? x <;> rfl
theorem title_eq (d : Diagram) (x : String) : title d x = (bareOf d x).bind (·.nodeName) := by
  simp only [title, bareOf]; cases d.graph.nodes.get? x <;> rfl
theorem events_eq (d : Diagram) (x : String) : events d x = ((bareOf d x).bind (·.eventDefinitions)).getD [] := by
  simp only [events, bareOf]; cases d.graph.nodes.get? x <;> rfl

/-! ## Nodes of the rows -/

theorem Inv.empty {d : Diagram} (h : d.graph = {}) (h' : d.sequenceFlows = []) : Inv d := by
  have o : ∀ x, outOf d x = [] := by intro x; simp [outOf, h, Dict.get?]
  have i : ∀ x, inOf d x = [] := by intro x; simp [inOf, h, Dict.get?]
  refine ⟨Sane.empty.of_graph (by rw [h]), by simp [ids, h], by simp [o], by simp [i], by simp [h'], by simp [h', Dict.get?], by simp [h]⟩

/-- The look of the node of a row. -/
structure Looks (d : Diagram) (x : String) (ty : Option String) (act : String) : Prop where
  kind : kind d x = some (kindOf ty)
  title : title d x = some (nameFor ty act)
  events : events d x = []
  default : ∀ f, defaultOf d x ≠ some (some f)
  whole : saysOf d x = some (csvNode x (kindOf ty) (nameFor ty act))

theorem Added.looks {d d' : Diagram} {o : String} {ty : Option String} {act : String} (h : Added d d' o ty act) : Looks d' o ty act := by
  obtain ⟨a, h1, h2, hs⟩ := h.node
  constructor
  · simp [Csv.kind, h1, h2.kind]
  · simp [Csv.title, h1, h2.name]
  · have := h2.events
    simp [Csv.events, h1, this]
  · have := h2.default
    simpa [Csv.defaultOf, h1] using this
  · simp [Csv.saysOf, h1, hs]

theorem Looks.of_bare {d d' : Diagram} {x : String} {ty : Option String} {act : String} (h : Looks d x ty act) (e : bareOf d' x = bareOf d x) :
    Looks d' x ty act := by
  obtain ⟨h1, h2, h3, h4, h5⟩ := h
  constructor
  · rw [kind_eq, e, ← kind_eq]; exact h1
  · rw [title_eq, e, ← title_eq]; exact h2
  · rw [events_eq, e, ← events_eq]; exact h3
  · rw [defaultOf_eq, e, ← defaultOf_eq]; exact h4
  · rw [saysOf_eq, e, ← saysOf_eq]; exact h5

/-- After the nodes of the rows were made. -/
structure Planted (pd : Dict String Line) (d : Diagram) : Prop where
  inv : Inv d
  ids : ids d = pd.keys
  looks : ∀ o l, (o, l) ∈ pd → Looks d o (some (nodeType o l)) l.activity
  out : ∀ x, outOf d x = []
  inn : ∀ x, inOf d x = []
  edges : d.graph.edges = []
  flows : d.sequenceFlows = []

theorem importNodes_planted : ∀ (todo : Dict String Line) {pd : Dict String Line} {d : Diagram}, Planted pd d → (pd ++ todo).keys.Nodup →
    (∀ x ∈ todo.keys, Plain x) → Planted (pd ++ todo) (importNodes todo d)
  | [], pd, d, h, _, _ => by simpa [importNodes] using h
  | (o, l) :: todo, pd, d, h, nd, hp => by
    have nd' : ((pd ++ [(o, l)]) ++ todo).keys.Nodup := by simpa using nd
    have ho : o ∉ Csv.ids d := by
      rw [h.ids]
      simp only [Dict.keys_append, Dict.keys_cons] at nd
      rw [List.nodup_append] at nd
      intro hm
      exact nd.2.2 o hm o (by simp) rfl
    have ha := addNodeInfo_added (some (nodeType o l)) l.activity ho
    have hP : Planted (pd ++ [(o, l)]) (addNodeInfo o (some (nodeType o l)) l.activity d) := by
      refine ⟨h.inv.added ha ho (hp o (by simp)), ?_, ?_, ?_, ?_, by rw [ha.edges]; exact h.edges, by rw [ha.flows]; exact h.flows⟩
      · rw [ha.ids, h.ids]; simp
      · intro x k hk
        rw [List.mem_append] at hk
        rcases hk with hk | hk
        · have hx : x ∈ Csv.ids d := by rw [h.ids]; exact Dict.mem_keys_of_mem hk
          exact (h.looks x k hk).of_bare (ha.bare (fun e => ho (e ▸ hx)))
        · simp at hk
          obtain ⟨rfl, rfl⟩ := hk
          exact ha.looks
      · intro x; rw [ha.out]; split
        · rfl
        · exact h.out x
      · intro x; rw [ha.inn]; split
        · rfl
        · exact h.inn x
    have := importNodes_planted todo hP nd' (fun x hx => hp x (by simp [hx]))
    simpa [importNodes] using this

/-! ## `legacy_adjustment` -/

theorem legacy_get? (d : Diagram) (x : String) : (legacyAdjustment d).graph.nodes.get? x = (d.graph.nodes.get? x).map fun a =>
    { a with
      incoming := some (a.incoming.getD []), outgoing := some (a.outgoing.getD [])
      eventDefinitions := some (a.eventDefinitions.getD []) } := by
  simp only [legacyAdjustment]
  induction d.graph.nodes with
  | nil => rfl
  | cons p r ih =>
    obtain ⟨k, v⟩ := p
    simp only [List.map_cons, Dict.get?_cons]
    split
    · simp
    · exact ih

theorem legacy_ids (d : Diagram) : ids (legacyAdjustment d) = ids d := by
  simp [ids, legacyAdjustment, Dict.keys, Function.comp_def]

theorem legacy_out (d : Diagram) (x : String) : outOf (legacyAdjustment d) x = outOf d x := by
  simp only [outOf, legacy_get?]; cases d.graph.nodes.get? x <;> simp

theorem legacy_inn (d : Diagram) (x : String) : inOf (legacyAdjustment d) x = inOf d x := by
  simp only [inOf, legacy_get?]; cases d.graph.nodes.get? x <;> simp

theorem legacy_kind (d : Diagram) (x : String) : kind (legacyAdjustment d) x = kind d x := by
  simp only [kind, legacy_get?]; cases d.graph.nodes.get? x <;> simp

theorem Looks.legacy {d : Diagram} {x : String} {ty : Option String} {act : String} (h : Looks d x ty act) : Looks (legacyAdjustment d) x ty act := by
  obtain ⟨h1, h2, h3, h4, h5⟩ := h
  constructor
  · rw [legacy_kind]; exact h1
  · rw [← h2]; simp only [Csv.title, legacy_get?]; cases d.graph.nodes.get? x <;> simp
  · rw [← h3]; simp only [Csv.events, legacy_get?]; cases d.graph.nodes.get? x <;> simp
  · intro f
    have := h4 f
    simp only [Csv.defaultOf, legacy_get?] at this ⊢
    cases e : d.graph.nodes.get? x with
    | none => simp
    | some a => simpa [e] using this
  · rw [← h5]; simp only [Csv.saysOf, legacy_get?]; cases d.graph.nodes.get? x <;> simp [norm]

theorem Wired.legacy {d : Diagram} {s t : String} (w : Wired d s t) : Wired (legacyAdjustment d) s t :=
  ⟨by rw [legacy_ids]; exact w.src, by rw [legacy_ids]; exact w.tgt, by rw [legacy_out]; exact w.out, by rw [legacy_inn]; exact w.inn, w.flow⟩

theorem Inv.legacy {d : Diagram} (i : Inv d) : Inv (legacyAdjustment d) := by
  refine ⟨⟨?_, ?_, i.sane.onePerPair, i.sane.described⟩, by rw [legacy_ids]; exact i.plain, ?_, ?_, i.keysI, i.flowI, ?_⟩
  · show (ids (legacyAdjustment d)).Nodup
    rw [legacy_ids]; exact i.sane.nodesUnique
  · intro e he
    show e.u ∈ ids (legacyAdjustment d) ∧ e.v ∈ ids (legacyAdjustment d)
    rw [legacy_ids]; exact i.sane.endsKnown e he
  · intro x; rw [legacy_out]; exact i.outI x
  · intro x; rw [legacy_inn]; exact i.inI x
  · intro e he
    obtain ⟨s, t, h1, h2, h3, h4, h5, h6⟩ := i.edgeI e he
    exact ⟨s, t, h1, h2, h3, h4, h5, h6.legacy⟩

/-! ## Bypassed nodes -/

/-- Every entry of the first dictionary is one of the second. -/
def Sub (pd' pd : Dict String Line) : Prop := ∀ k v, pd'.get? k = some v → pd.get? k = some v

theorem Sub.conditionOf {pd' pd : Dict String Line} (h : Sub pd' pd) {x : String} (hx : conditionOf pd' x ≠ "") : conditionOf pd x = conditionOf pd' x := by
  simp only [Csv.conditionOf] at *
  cases e : pd'.get? x with
  | none => simp [e] at hx
  | some v => rw [h x v e]

/-- What is left of the rows: for the nodes that are left, what they were. -/
structure Within (pd' pd : Dict String Line) (d : Diagram) : Prop where
  sub : Sub pd' pd
  same : ∀ x ∈ ids d, pd'.get? x = pd.get? x

theorem Within.refl (pd : Dict String Line) (d : Diagram) : Within pd pd d := ⟨fun _ _ h => h, fun _ _ => rfl⟩

theorem Within.conditionOf {pd' pd : Dict String Line} {d : Diagram} (h : Within pd' pd d) {x : String} (hx : x ∈ ids d) :
    conditionOf pd' x = conditionOf pd x := by
  simp only [Csv.conditionOf, h.same x hx]

theorem Within.removed {p pd : Dict String Line} {d d1 : Diagram} {n src tgt : String} (i : Inv d) (h : Within p pd d) (nd : p.keys.Nodup)
    (r : Removed d d1 n src tgt) : Within (p.erase n) pd d1 := by
  refine ⟨fun k v hk => h.sub k v (get?_erase_some nd hk), fun x hx => ?_⟩
  rw [r.ids] at hx
  have hne : x ≠ n := by rintro rfl; exact List.Nodup.not_mem_erase i.nodup hx
  rw [Dict.get?_erase_ne _ (Ne.symm hne), h.same x (List.mem_of_mem_erase hx)]

theorem Within.connected {p q pd : Dict String Line} {d d1 : Diagram} {s t : String} (h : Within p pd d) (c : Connected q d d1 s t) : Within p pd d1 :=
  ⟨h.sub, fun x hx => h.same x (by rw [c.ids] at hx; exact hx)⟩

/-- A node is removed, and its predecessor connected with some other node. -/
structure Bypass (pd : Dict String Line) (d : Diagram) (n src tgt t : String) (d' : Diagram) : Prop where
  step : ∃ d1 pd', Within pd' pd d1 ∧ Removed d d1 n src tgt ∧ Connected pd' d1 d' src t

theorem Bypass.ids {pd : Dict String Line} {d d' : Diagram} {n src tgt t : String} (h : Bypass pd d n src tgt t d') : ids d' = (ids d).erase n := by
  obtain ⟨d1, pd', _, r, c⟩ := h
  rw [c.ids, r.ids]

theorem Bypass.src_ne {pd : Dict String Line} {d d' : Diagram} {n src tgt t : String} (i : Inv d) (h : Bypass pd d n src tgt t d') : src ≠ n ∧ t ≠ n := by
  obtain ⟨d1, pd', _, r, c⟩ := h
  have h1 := c.src
  have h2 := c.tgt
  rw [r.ids] at h1 h2
  constructor
  · rintro rfl; exact (List.Nodup.not_mem_erase i.nodup) h1
  · rintro rfl; exact (List.Nodup.not_mem_erase i.nodup) h2

theorem Bypass.inv {pd : Dict String Line} {d d' : Diagram} {n src tgt t : String} (i : Inv d) (h : Bypass pd d n src tgt t d') : Inv d' := by
  obtain ⟨d1, pd', _, r, c⟩ := h
  exact (i.removed r).connected c

theorem Bypass.wired {pd : Dict String Line} {d d' : Diagram} {n src tgt t : String} (i : Inv d) (h : Bypass pd d n src tgt t d') {x y : String}
    (w : Wired d x y) (hx : x ≠ n) (hy : y ≠ n) : Wired d' x y := by
  obtain ⟨d1, pd', _, r, c⟩ := h
  exact (w.removed i r hx hy).connected (i.removed r) c

theorem Bypass.new {pd : Dict String Line} {d d' : Diagram} {n src tgt t : String} (h : Bypass pd d n src tgt t d') : Wired d' src t := by
  obtain ⟨d1, pd', _, r, c⟩ := h
  exact c.wired

theorem Bypass.bare {pd : Dict String Line} {d d' : Diagram} {n src tgt t : String} (h : Bypass pd d n src tgt t d') {x : String} (hx : x ≠ n) :
    bareOf d' x = bareOf d x := by
  obtain ⟨d1, pd', _, r, c⟩ := h
  rw [c.bare, r.bare x hx]

theorem Bypass.outLength {pd : Dict String Line} {d d' : Diagram} {n src tgt t : String} (h : Bypass pd d n src tgt t d') {x : String} (hx : x ≠ n) :
    (outOf d' x).length = (outOf d x).length := by
  obtain ⟨d1, pd', _, r, c⟩ := h
  rw [c.out, r.out x hx]
  split
  · subst_vars
    have := List.length_erase_of_mem r.srcOut
    have hp := List.length_pos_of_mem r.srcOut
    simp only [List.length_append, List.length_singleton, this]
    omega
  · rfl

theorem Bypass.inLength {pd : Dict String Line} {d d' : Diagram} {n src tgt : String} (h : Bypass pd d n src tgt tgt d') {x : String} (hx : x ≠ n) :
    (inOf d' x).length = (inOf d x).length := by
  obtain ⟨d1, pd', _, r, c⟩ := h
  rw [c.inn, r.inn x hx]
  split
  · subst_vars
    have := List.length_erase_of_mem r.tgtIn
    have hp := List.length_pos_of_mem r.tgtIn
    simp only [List.length_append, List.length_singleton, this]
    omega
  · rfl

/-- The loop over the rows for `goto`. -/
inductive Gotos (pd : Dict String Line) : List (String × Line) → Diagram → Diagram → Prop where
  | nil (d : Diagram) : Gotos pd [] d d
  | skip {o : String} {l : Line} {r : List (String × Line)} {d d' : Diagram} : isGoto l.activity = false → Gotos pd r d d' → Gotos pd ((o, l) :: r) d d'
  | cut {o src tgt t : String} {l : Line} {r : List (String × Line)} {d d1 d' : Diagram} : isGoto l.activity = true →
      pyIndex (words (strip l.activity)) 1 = .ok t → Bypass pd d o src tgt t d1 → Gotos pd r d1 d' → Gotos pd ((o, l) :: r) d d'

theorem removeGotos_gotos {pd : Dict String Line} : ∀ {todo : List (String × Line)} {p p' : Dict String Line} {d d' : Diagram},
    removeGotos todo p d = .ok (p', d') → Inv d → Within p pd d → p.keys.Nodup → Gotos pd todo d d' ∧ Within p' pd d' ∧ p'.keys.Nodup
  | [], p, p', d, d', h, _, hs, nd => by cases h; exact ⟨Gotos.nil _, hs, nd⟩
  | (o, l) :: r, p, p', d, d', h, i, hs, nd => by
    unfold removeGotos at h
    split at h
    · rename_i hg
      obtain ⟨⟨src, tgt, q, d1⟩, h1, h⟩ := except_bind_eq_ok h
      obtain ⟨t, h2, h⟩ := except_bind_eq_ok h
      obtain ⟨d2, h3, h⟩ := except_bind_eq_ok h
      obtain ⟨r1, rfl⟩ := removeNode_removed i h1
      have nd' : (p.erase o).keys.Nodup := by rw [Dict.keys_erase]; exact List.Nodup.erase _ nd
      have b : Bypass pd d o src tgt t d2 := ⟨d1, _, hs.removed i nd r1, r1, addConnection_connected h3⟩
      obtain ⟨k1, k2⟩ := removeGotos_gotos h (b.inv i) ((hs.removed i nd r1).connected (addConnection_connected h3)) nd'
      exact ⟨Gotos.cut hg h2 b k1, k2⟩
    · rename_i hg
      obtain ⟨k1, k2⟩ := removeGotos_gotos h i hs nd
      exact ⟨Gotos.skip (by simpa using hg) k1, k2⟩

/-- A node of a gateway type. -/
def GatewayKind (d : Diagram) (n : String) : Prop := kind d n ∈ [some "inclusiveGateway", some "exclusiveGateway", some "parallelGateway"]

/-- The loop over the nodes for superfluous gateways. -/
inductive Cleaned (pd : Dict String Line) : List String → Diagram → Diagram → Prop where
  | nil (d : Diagram) : Cleaned pd [] d d
  | keep {n : String} {r : List String} {d d' : Diagram} : (GatewayKind d n → 2 ≤ (inOf d n).length ∨ 2 ≤ (outOf d n).length) →
      Cleaned pd r d d' → Cleaned pd (n :: r) d d'
  | cut {n src tgt : String} {r : List String} {d d1 d' : Diagram} : GatewayKind d n → (inOf d n).length < 2 → (outOf d n).length < 2 →
      Bypass pd d n src tgt tgt d1 → Cleaned pd r d1 d' → Cleaned pd (n :: r) d d'

theorem found_ok {α : Type} {o : Option α} {a : α} (h : found o = .ok a) : o = some a := by
  cases o <;> simp [found] at h; rw [h]

theorem removeGateways_cleaned {pd : Dict String Line} : ∀ {todo : List String} {p : Dict String Line} {d d' : Diagram},
    removeGateways todo p d = .ok d' → Inv d → Within p pd d → p.keys.Nodup → Cleaned pd todo d d'
  | [], p, d, d', h, _, hs, nd => by cases h; exact Cleaned.nil _
  | n :: r, p, d, d', h, i, hs, nd => by
    obtain ⟨a, ha, h⟩ := except_bind_eq_ok h
    have ga := nodeAttrs_ok ha
    have ek : kind d n = a.type := by simp [kind, ga]
    split at h
    · rename_i hk
      obtain ⟨inc, h1, h⟩ := except_bind_eq_ok h
      have e1 : inOf d n = inc := by simp [inOf, ga, found_ok h1]
      split at h
      · rename_i hlt
        obtain ⟨out, h2, h⟩ := except_bind_eq_ok h
        have e2 : outOf d n = out := by simp [outOf, ga, found_ok h2]
        split at h
        · rename_i hlt2
          obtain ⟨⟨src, tgt, q, d1⟩, h3, h⟩ := except_bind_eq_ok h
          obtain ⟨d2, h4, h⟩ := except_bind_eq_ok h
          obtain ⟨r1, rfl⟩ := removeNode_removed i h3
          have nd' : (p.erase n).keys.Nodup := by rw [Dict.keys_erase]; exact List.Nodup.erase _ nd
          have b : Bypass pd d n src tgt tgt d2 := ⟨d1, _, hs.removed i nd r1, r1, addConnection_connected h4⟩
          exact Cleaned.cut (by rw [GatewayKind, ek]; exact hk) (by rw [e1]; exact hlt) (by rw [e2]; exact hlt2) b
            (removeGateways_cleaned h (b.inv i) ((hs.removed i nd r1).connected (addConnection_connected h4)) nd')
        · exact Cleaned.keep (fun _ => by rw [e1, e2]; omega) (removeGateways_cleaned h i hs nd)
      · exact Cleaned.keep (fun _ => by rw [e1]; omega) (removeGateways_cleaned h i hs nd)
    · rename_i hk
      exact Cleaned.keep (fun hk' => by rw [GatewayKind, ek] at hk'; exact absurd hk' hk) (removeGateways_cleaned h i hs nd)

/-- No row of the list with this order is a `goto`. -/
def NotGoto (todo : List (String × Line)) (x : String) : Prop := ∀ l, (x, l) ∈ todo → isGoto l.activity = false

theorem NotGoto.tail {p : String × Line} {todo : List (String × Line)} {x : String} (h : NotGoto (p :: todo) x) : NotGoto todo x :=
  fun l hl => h l (List.mem_cons_of_mem _ hl)

theorem NotGoto.ne {o : String} {l : Line} {todo : List (String × Line)} {x : String} (h : NotGoto ((o, l) :: todo) x) (hg : isGoto l.activity = true) : x ≠ o := by
  rintro rfl
  have := h l (by simp)
  rw [hg] at this
  cases this

/-- What the first loop leaves. -/
structure GotosKeep (todo : List (String × Line)) (d d' : Diagram) : Prop where
  inv : Inv d'
  sub : ∀ x ∈ ids d', x ∈ ids d ∧ NotGoto todo x
  stays : ∀ x ∈ ids d, NotGoto todo x → x ∈ ids d'
  wired : ∀ x y, Wired d x y → NotGoto todo x → NotGoto todo y → Wired d' x y
  bare : ∀ x, NotGoto todo x → bareOf d' x = bareOf d x
  outLength : ∀ x, NotGoto todo x → (outOf d' x).length = (outOf d x).length

theorem Gotos.keep {pd : Dict String Line} {todo : List (String × Line)} {d d' : Diagram} (h : Gotos pd todo d d') : Inv d → GotosKeep todo d d' := by
  induction h with
  | nil => intro i; exact ⟨i, fun x hx => ⟨hx, by simp [NotGoto]⟩, fun x hx _ => hx, fun _ _ w _ _ => w, fun _ _ => rfl, fun _ _ => rfl⟩
  | @skip o l r d d' hg _ ih =>
    intro i
    have k := ih i
    have cons : ∀ x, NotGoto r x → NotGoto ((o, l) :: r) x := by
      intro x hx k hk
      simp only [List.mem_cons, Prod.mk.injEq] at hk
      rcases hk with ⟨rfl, rfl⟩ | hk
      · exact hg
      · exact hx k hk
    exact ⟨k.inv, fun x hx => ⟨(k.sub x hx).1, cons x (k.sub x hx).2⟩, fun x hx hn => k.stays x hx hn.tail,
      fun x y w hx hy => k.wired x y w hx.tail hy.tail, fun x hx => k.bare x hx.tail, fun x hx => k.outLength x hx.tail⟩
  | @cut o src tgt t l r d d1 d' hg _ b _ ih =>
    intro i
    have k := ih (b.inv i)
    refine ⟨k.inv, ?_, ?_, ?_, ?_, ?_⟩
    · intro x hx
      obtain ⟨h1, h2⟩ := k.sub x hx
      rw [b.ids] at h1
      refine ⟨List.mem_of_mem_erase h1, ?_⟩
      intro m hm
      simp only [List.mem_cons, Prod.mk.injEq] at hm
      rcases hm with ⟨rfl, rfl⟩ | hm
      · exact absurd h1 (List.Nodup.not_mem_erase i.nodup)
      · exact h2 m hm
    · intro x hx hn
      refine k.stays x ?_ hn.tail
      rw [b.ids]; exact (List.mem_erase_of_ne (hn.ne hg)).2 hx
    · intro x y w hx hy
      exact k.wired x y (b.wired i w (hx.ne hg) (hy.ne hg)) hx.tail hy.tail
    · intro x hx
      rw [k.bare x hx.tail, b.bare (hx.ne hg)]
    · intro x hx
      rw [k.outLength x hx.tail, b.outLength (hx.ne hg)]

/-- What the second loop leaves. -/
structure CleanedKeep (todo : List String) (d d' : Diagram) : Prop where
  inv : Inv d'
  sub : ∀ x ∈ ids d', x ∈ ids d
  stays : ∀ x ∈ ids d, ¬(GatewayKind d x ∧ (inOf d x).length < 2 ∧ (outOf d x).length < 2) → x ∈ ids d'
  wired : ∀ x y, Wired d x y → x ∈ ids d' → y ∈ ids d' → Wired d' x y
  bare : ∀ x ∈ ids d', bareOf d' x = bareOf d x
  outLength : ∀ x ∈ ids d', (outOf d' x).length = (outOf d x).length
  inLength : ∀ x ∈ ids d', (inOf d' x).length = (inOf d x).length
  busy : ∀ x ∈ todo, x ∈ ids d' → GatewayKind d' x → 2 ≤ (inOf d' x).length ∨ 2 ≤ (outOf d' x).length

theorem GatewayKind.congr {d d' : Diagram} {x : String} (h : bareOf d' x = bareOf d x) : GatewayKind d' x ↔ GatewayKind d x := by
  unfold GatewayKind; rw [kind_eq, kind_eq, h]

theorem Cleaned.kept {pd : Dict String Line} {todo : List String} {d d' : Diagram} (h : Cleaned pd todo d d') : Inv d → CleanedKeep todo d d' := by
  induction h with
  | nil => intro i; exact ⟨i, fun x hx => hx, fun x hx _ => hx, fun _ _ w _ _ => w, fun _ _ => rfl, fun _ _ => rfl, fun _ _ => rfl, by simp⟩
  | @keep n r d d' hk _ ih =>
    intro i
    have k := ih i
    refine ⟨k.inv, k.sub, k.stays, k.wired, k.bare, k.outLength, k.inLength, ?_⟩
    intro x hx hm hg
    simp only [List.mem_cons] at hx
    rcases hx with rfl | hx
    · rw [k.inLength _ hm, k.outLength _ hm]
      exact hk ((GatewayKind.congr (k.bare _ hm)).1 hg)
    · exact k.busy x hx hm hg
  | @cut n src tgt r d d1 d' hg hi ho b _ ih =>
    intro i
    have k := ih (b.inv i)
    have hne : ∀ x ∈ ids d', x ≠ n := by
      rintro x hx rfl
      have := k.sub x hx
      rw [b.ids] at this
      exact (List.Nodup.not_mem_erase i.nodup) this
    refine ⟨k.inv, ?_, ?_, ?_, ?_, ?_, ?_, ?_⟩
    · intro x hx
      have := k.sub x hx
      rw [b.ids] at this
      exact List.mem_of_mem_erase this
    · intro x hx hn
      have ne : x ≠ n := by rintro rfl; exact hn ⟨hg, hi, ho⟩
      refine k.stays x (by rw [b.ids]; exact (List.mem_erase_of_ne ne).2 hx) ?_
      rw [GatewayKind.congr (b.bare ne), b.inLength ne, b.outLength ne]
      exact hn
    · intro x y w hx hy
      exact k.wired x y (b.wired i w (hne x hx) (hne y hy)) hx hy
    · intro x hx
      rw [k.bare x hx, b.bare (hne x hx)]
    · intro x hx
      rw [k.outLength x hx, b.outLength (hne x hx)]
    · intro x hx
      rw [k.inLength x hx, b.inLength (hne x hx)]
    · intro x hx hm hg
      simp only [List.mem_cons] at hx
      rcases hx with rfl | hx
      · exact absurd rfl (hne _ hm)
      · exact k.busy x hx hm hg

/-! ## The whole import -/

/-- The rows as a dictionary. -/
def dictOf (rows : List Row) : Dict String Line := rows.map fun r => (r.order, ⟨r.activity, r.condition, r.who, r.subprocess, r.terminated⟩)

/-- The stages of the import of a table into a new diagram. -/
structure Imported (pd : Dict String Line) (d : Diagram) : Prop where
  nodup : pd.keys.Nodup
  under : ∀ x ∈ pd.keys, '_' ∉ x.toList
  stages : ∃ d0 F d1 d2, Planted pd d0 ∧ Rounds pd pd.keys pd.keys d0 F d1 ∧ Gotos pd pd (legacyAdjustment d1) d2 ∧
    Cleaned pd (ids d2) d2 d ∧ d0.planeElement = some processId ∧ d0.processElements.keys = [processId]

theorem importNodes_procs (pd : Dict String Line) : ∀ d, (importNodes pd d).planeElement = d.planeElement ∧
    (importNodes pd d).processElements = d.processElements := by
  induction pd with
  | nil => intro d; exact ⟨rfl, rfl⟩
  | cons p pd ih =>
    intro d
    obtain ⟨f, e, _⟩ := addNodeInfo_eq p.1 (some (nodeType p.1 p.2)) p.2.activity d
    have := ih (addNodeInfo p.1 (some (nodeType p.1 p.2)) p.2.activity d)
    rw [e] at this
    simp only [importNodes, List.foldl_cons] at this ⊢
    rw [e]; exact this

theorem imported_of_dict {pd : Dict String Line} {d1 d d2 : Diagram} {pd2 : Dict String Line} (nd : pd.keys.Nodup) (hu : ∀ x ∈ pd.keys, '_' ∉ x.toList)
    (h1 : fillConnections pd (importNodes pd (populate pd {})) = .ok d1) (h2 : removeGotos pd pd (legacyAdjustment d1) = .ok (pd2, d2))
    (h3 : removeGateways d2.graph.nodes.keys pd2 d2 = .ok d) : Imported pd d := by
  have hP : Planted pd (importNodes pd (populate pd {})) := by
    have h0 : Planted [] (populate pd {}) :=
      ⟨Inv.empty rfl rfl, rfl, by simp, fun x => rfl, fun x => rfl, rfl, rfl⟩
    have := importNodes_planted pd h0 (by simpa using nd) (fun x hx => plain_of_no_underscore (hu x hx))
    simpa using this
  refine ⟨nd, hu, importNodes pd (populate pd {}), ?_⟩
  unfold fillConnections at h1
  rw [show (importNodes pd (populate pd {})).graph.nodes.keys = pd.keys from hP.ids] at h1
  have hn : ∀ x ∈ ids (importNodes pd (populate pd {})), Named pd.keys [] x := by
    intro x hx; rw [hP.ids] at hx; exact Or.inl hx
  obtain ⟨F, hF⟩ := fill_rounds hu h1 hP.inv hn (fun _ h => h) nd (by simp)
  obtain ⟨i1, g1, n1, w1⟩ := hF.step hu hP.inv hn (fun _ h => h)
  obtain ⟨k1, k2, k3⟩ := removeGotos_gotos (pd := pd) h2 i1.legacy (Within.refl _ _) nd
  have i2 : Inv d2 := (k1.keep i1.legacy).inv
  have k4 := removeGateways_cleaned h3 i2 k2 k3
  obtain ⟨e1, e2⟩ := importNodes_procs pd (populate pd {})
  exact ⟨F, d1, d2, hP, hF, k1, k4, by rw [e1]; rfl, by rw [e2]; rfl⟩

end Bpmn.Csv

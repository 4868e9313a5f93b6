import Verif.Lemmas.CsvClean
/-! Which tables without `goto` are imported, and that the result is consistent. -/
set_option linter.unusedSimpArgs false
set_option linter.unusedVariables false

namespace Bpmn.Csv
open Bpmn.Spec Bpmn.Spec.Csv

theorem Exact.legacy {d : Diagram} (x : Exact d) : Exact (legacyAdjustment d) := by
  refine ⟨x.inv.legacy, ?_, ?_, ?_, ?_⟩
  · intro y; rw [legacy_out]; exact x.outNd y
  · intro y; rw [legacy_inn]; exact x.inNd y
  · intro y t; rw [legacy_out]; exact x.back y t
  · intro y s; rw [legacy_inn]; exact x.backIn y s

theorem legacy_listed (d : Diagram) : Listed (legacyAdjustment d) := by
  intro x a ha
  rw [legacy_get?] at ha
  obtain ⟨b, _, rfl⟩ := Option.map_eq_some_iff.1 ha
  simp

/-- After the loop over the rows. -/
structure Filled (rows : List Row) (d0 : Diagram) (F : List (String × String)) (d1 : Diagram) : Prop where
  planted : Planted (dictOf rows) d0
  rounds : Rounds (dictOf rows) (rows.map Row.order) (rows.map Row.order) d0 F d1

theorem Stages.filled {rows : List Row} {d0 d1 d2 d : Diagram} {F : List (String × String)} (s : Stages rows d0 F d1 d2 d) : Filled rows d0 F d1 :=
  ⟨s.planted, s.rounds⟩

theorem tableUnder {rows : List Row} (t : Table rows) : ∀ x ∈ rows.map Row.order, '_' ∉ x.toList := by
  have := t.under
  rw [keys_dictOf] at this
  exact this

theorem tableAlnum {rows : List Row} (t : Table rows) : ∀ x ∈ rows.map Row.order, ∀ c ∈ x.toList, c.isAlphanum = true := by
  intro x hx
  obtain ⟨r, hr, rfl⟩ := List.mem_map.1 hx
  exact t.alnum r hr

theorem Filled.named0 {rows : List Row} {d0 d1 : Diagram} {F : List (String × String)} (s : Filled rows d0 F d1) :
    ∀ x ∈ ids d0, Named (rows.map Row.order) [] x := by
  intro x hx
  rw [s.planted.ids, keys_dictOf] at hx
  exact Or.inl hx

theorem Filled.exact {rows : List Row} (t : Table rows) {d0 d1 : Diagram} {F : List (String × String)} (s : Filled rows d0 F d1) :
    Exact d1 ∧ ∀ a b, Plain a → EdgeOf d1 a b → (a, b) ∈ F := by
  have hu := tableUnder t
  have x0 : Exact d0 := by
    refine ⟨s.planted.inv, ?_, ?_, ?_, ?_⟩
    · intro y; rw [s.planted.out]; simp
    · intro y; rw [s.planted.inn]; simp
    · intro y u; rw [s.planted.out]; simp
    · intro y u _; rw [s.planted.inn]; simp
  have sh := s.rounds.shape (fun _ h => h) (tableAlnum t)
  have := s.rounds.exact hu (done := []) (P := []) s.named0 (fun _ h => h) x0 (by
    rintro a b _ ⟨e, he, -⟩
    rw [s.planted.edges] at he; simp at he)
    (by simpa using (s.rounds.nodup hu t.orders s.planted.inv s.named0 (fun _ h => h) t.orders).1)
    (by
      intro a b h1 h2
      exact (sh _ (by simpa using h1)).asymm hu (tableAlnum t) (sh _ (by simpa using h2)))
  simpa using this

theorem Filled.row_out {rows : List Row} (t : Table rows) {d0 d1 : Diagram} {F : List (String × String)} (s : Filled rows d0 F d1)
    {r : Row} (hr : r ∈ rows) : (outOf d1 r.order).length = if r.terminated = "yes" then 0 else 1 := by
  rw [s.rounds.out, s.planted.out, List.nil_append]
  obtain ⟨a, b, F1, l, F2, g, e1, e2, h1, h2, h3, h4, h5⟩ := s.rounds.around r.order (List.mem_map_of_mem hr)
  have hu := tableUnder t
  have nd := t.orders
  rw [h1, List.nodup_append] at nd
  have hno := hu _ (List.mem_map_of_mem hr)
  rw [h5, leaving_append, leaving_append, h2.leaving_row hu hno (fun hm => nd.2.2 _ hm _ (by simp) rfl),
    h4.leaving_row hu hno (List.nodup_cons.1 nd.2.1).1]
  have := h3.plan.leaving_self hno (get?_dictOf t hr)
  simp only at this
  split at this
  · rename_i e; rw [this, if_pos e]; rfl
  · rename_i e
    obtain ⟨y, h6, _⟩ := this
    rw [h6, if_neg e]; rfl

theorem Filled.fit {rows : List Row} (t : Table rows) {d0 d1 : Diagram} {F : List (String × String)} (s : Filled rows d0 F d1) :
    Fit (rows.map Row.order) (legacyAdjustment d1) := by
  have hu := tableUnder t
  obtain ⟨x1, p1⟩ := s.exact t
  obtain ⟨i1, g1, n1, w1⟩ := s.rounds.step hu s.planted.inv s.named0 (fun _ h => h)
  have sh := s.rounds.shape (fun _ h => h) (tableAlnum t)
  have notg : ∀ x ∈ rows.map Row.order, ¬GatewayKind (legacyAdjustment d1) x := by
    intro x hx
    obtain ⟨r, hr, rfl⟩ := List.mem_map.1 hx
    have h0 : r.order ∈ ids d0 := by rw [s.planted.ids, keys_dictOf]; exact hx
    have l0 := s.planted.looks _ _ (mem_dictOf hr)
    rw [nodeType_row] at l0
    have := ((l0.of_bare (g1.bare _ h0)).legacy).kind
    rw [kindOf_row] at this
    exact row_not_gateway this
  refine ⟨x1.legacy, fun a b pa h => sh _ (p1 a b pa h), ?_, notg, legacy_listed _, ?_⟩
  · intro x hx
    obtain ⟨r, hr, rfl⟩ := List.mem_map.1 hx
    rw [legacy_out, s.row_out t hr]
    split <;> omega
  · intro x hx hg
    rw [legacy_ids] at hx
    have h0 : x ∉ ids d0 := by
      rw [s.planted.ids, keys_dictOf]
      exact fun h => notg x h hg
    have := s.rounds.alive x hx h0
    rw [legacy_inn, legacy_out, s.rounds.out, s.rounds.inn, s.planted.out, s.planted.inn]
    simpa using this

/-! ## Consistency -/

/-- Lists and flows that agree make a consistent diagram. -/
theorem Exact.consistent {d : Diagram} (x : Exact d) (hl : Listed d) (ht : ∀ x ∈ ids d, (kind d x).isSome = true) : Consistent d := by
  have i := x.inv
  have hu : (d.graph.edges.map (·.attrs.id)).Nodup := by
    unfold List.Nodup
    rw [List.pairwise_map]
    refine i.sane.onePerPair.imp_of_mem ?_
    intro e e' he he' hne heq
    obtain ⟨s, t, h1, _, _, _, h5, h6⟩ := i.edgeI e he
    obtain ⟨s', t', h1', _, _, _, h5', h6'⟩ := i.edgeI e' he'
    rw [h1, h1'] at heq
    obtain ⟨rfl, rfl⟩ := flowId_inj (i.plain _ h6.src) (i.plain _ h6'.src) (Option.some.inj heq)
    apply hne
    unfold SamePair at *
    rcases h5 with ⟨a1, a2⟩ | ⟨a1, a2⟩ <;> rcases h5' with ⟨b1, b2⟩ | ⟨b1, b2⟩ <;> simp [a1, a2, b1, b2]
  refine consistent_of_edges i.sane hu ?_ ?_ ?_ ?_
  · intro n hn
    obtain ⟨h1, h2, h3, -⟩ := id_of_node i hn
    have ha : d.graph.nodes.get? n.1 = some n.2 := Dict.get?_of_mem i.nodup hn
    obtain ⟨l1, l2⟩ := hl _ _ ha
    exact ⟨l1, l2, by rw [h3]; exact x.inNd _, by rw [h2]; exact x.outNd _⟩
  · intro n hn
    obtain ⟨h1, -, -, h2, -⟩ := id_of_node i hn
    rw [h2]; exact ht _ h1
  · intro n hn k
    obtain ⟨h1, h2, h3, -⟩ := id_of_node i hn
    rw [h2]
    constructor
    · intro hk
      obtain ⟨u, rfl⟩ := i.outI _ _ hk
      obtain ⟨_, e, he, h4, h5, -⟩ := i.edge (i.plain _ h1) (x.back _ _ hk)
      exact ⟨e, he, h4, h5⟩
    · rintro ⟨e, he, h4, h5⟩
      obtain ⟨s, u, k1, k2, _, _, _, w⟩ := i.edgeI e he
      rw [h5] at k2; cases k2
      rw [h4] at k1; cases k1
      exact w.out
  · intro n hn k
    obtain ⟨h1, h2, h3, -⟩ := id_of_node i hn
    rw [h3]
    constructor
    · intro hk
      obtain ⟨u, pu, rfl⟩ := i.inI _ _ hk
      obtain ⟨_, e, he, h4, _, h5, -⟩ := i.edge pu (x.backIn _ _ pu hk)
      exact ⟨e, he, h4, h5⟩
    · rintro ⟨e, he, h4, h5⟩
      obtain ⟨s, u, k1, _, k2, _, _, w⟩ := i.edgeI e he
      rw [h5] at k2; cases k2
      rw [h4] at k1; cases k1
      exact w.inn

theorem Fit.consistent {nodes : List String} {d : Diagram} (f : Fit nodes d) (ht : ∀ x ∈ ids d, (kind d x).isSome = true) : Consistent d :=
  f.exact.consistent f.listed ht

theorem Stages.fit {rows : List Row} (t : Table rows) {d0 d1 d2 d : Diagram} {F : List (String × String)} (s : Stages rows d0 F d1 d2 d)
    (hn : ∀ r ∈ rows, ¬GotoRow r) : Fit (rows.map Row.order) d :=
  s.cleaned.fit (tableUnder t) (tableAlnum t) (by rw [s.no_goto hn]; exact s.filled.fit t)

theorem Stages.kinds {rows : List Row} (t : Table rows) {d0 d1 d2 d : Diagram} {F : List (String × String)} (s : Stages rows d0 F d1 d2 d) :
    ∀ x ∈ ids d, (kind d x).isSome = true := by
  intro x hx
  rcases s.nodes t hx with ⟨r, hr, hg, rfl⟩ | ⟨_, hg⟩
  · rw [(s.stays t hr hg).2.kind]; rfl
  · obtain ⟨ty, h1, _⟩ := gatewayKind_iff.1 hg
    rw [h1]; rfl

/-! ## Success -/

/-- A row that the loop can handle. -/
inductive GoesOn (nodes : List String) (r : String) : Prop where
  | sequence : anyPresent (sequenceSuccessors r) nodes = true → GoesOn nodes r
  | split : anyPresent (splitCandidates r) nodes = true → GoesOn nodes r
  | merge {cs : List String} {s : String} : mergeSuccessors r = .ok cs → onlyPresent cs nodes = .ok s →
      (∀ pre n, trailingNumber s = some (pre, n) → 2 ≤ n) → GoesOn nodes r

theorem nodeConditions_ok {pd : Dict String Line} : ∀ {l : List String}, (∀ x ∈ l, x ∈ pd.keys) → ∃ c, nodeConditions pd l = .ok c
  | [], _ => ⟨[], rfl⟩
  | x :: l, h => by
    obtain ⟨a, ha⟩ := Option.isSome_iff_exists.1 ((Dict.get?_isSome_iff _ _).2 (h x (by simp)))
    obtain ⟨c, hc⟩ := nodeConditions_ok fun y hy => h y (List.mem_cons_of_mem _ hy)
    exact ⟨strip a.condition :: c, by simp only [nodeConditions, ha, need_some, except_bind_ok, hc, except_pure]⟩

theorem onlyPresent_single {x : String} {nodes : List String} (h : anyPresent [x] nodes = true) : onlyPresent [x] nodes = .ok x := by
  have : x ∈ nodes := by simpa [anyPresent] using h
  simp [onlyPresent, this]

theorem sequence_only {r : String} {nodes : List String} (h : anyPresent (sequenceSuccessors r) nodes = true) :
    ∃ s, onlyPresent (sequenceSuccessors r) nodes = .ok s := by
  unfold sequenceSuccessors at h ⊢
  split at h
  · exact ⟨_, onlyPresent_single h⟩
  · simp [anyPresent] at h

theorem connect_all_ok {pd : Dict String Line} {g : String} : ∀ {succ : List String} {d : Diagram}, g ∈ ids d → (∀ s ∈ succ, s ∈ ids d) →
    ∃ d', succ.foldlM (fun d s => addConnection pd g s d) d = .ok d'
  | [], d, _, _ => ⟨d, rfl⟩
  | s :: succ, d, hg, hs => by
    obtain ⟨d1, h1⟩ := addConnection_ok (pd := pd) hg (hs s (by simp))
    have c := addConnection_connected h1
    obtain ⟨d2, h2⟩ := connect_all_ok (pd := pd) (g := g) (succ := succ) (d := d1) (by rw [c.ids]; exact hg)
      (fun x hx => by rw [c.ids]; exact hs x (List.mem_cons_of_mem _ hx))
    exact ⟨d2, by rw [List.foldlM_cons, h1]; exact h2⟩

theorem fillNode_ok {pd : Dict String Line} {nodes : List String} (hu : ∀ x ∈ nodes, '_' ∉ x.toList) (hk : pd.keys = nodes) {r : String} (hr : r ∈ nodes)
    {d : Diagram} (hs : ∀ x ∈ nodes, x ∈ ids d) (ht : Typed nodes d) {l : Line} (hl : pd.get? r = some l)
    (hg : r ++ "_split" ∉ ids d) (h : l.terminated ≠ "yes" → GoesOn nodes r) : ∃ d', fillNode pd nodes r d = .ok d' := by
  unfold fillNode
  simp only [hl, need_some, except_bind_ok]
  by_cases ht' : l.terminated = "yes"
  · rw [if_pos ht']; exact ⟨d, rfl⟩
  rw [if_neg ht']
  by_cases hp : anyPresent (sequenceSuccessors r) nodes = true
  · rw [if_pos hp]
    obtain ⟨s, h1⟩ := sequence_only hp
    rw [h1]
    exact addConnection_ok (hs r hr) (hs s (onlyPresent_mem h1).2)
  rw [if_neg hp]
  by_cases hq : anyPresent (splitCandidates r) nodes = true
  · rw [if_pos hq]
    have : ∃ succ, splitSuccessors r nodes = .ok succ ∧ ∀ s ∈ succ, s ∈ nodes := by
      unfold splitCandidates at hq
      unfold splitSuccessors
      split at hq
      · rename_i e; rw [e]; exact ⟨_, rfl, fun s hs => (List.mem_filter.1 hs).1⟩
      · simp [anyPresent] at hq
    obtain ⟨succ, h1, h2⟩ := this
    obtain ⟨c, h3⟩ := nodeConditions_ok (pd := pd) (l := succ) (fun x hx => by rw [hk]; exact h2 x hx)
    have : ∃ ty, gatewayType pd r nodes = .ok ty := by
      unfold gatewayType
      simp only [h1, h3, except_bind_ok, except_pure]
      split
      · exact ⟨_, rfl⟩
      · split <;> exact ⟨_, rfl⟩
    obtain ⟨ty, h4⟩ := this
    have a := addNodeInfo_added (some ty) "" hg
    obtain ⟨d2, h5⟩ := addConnection_ok (pd := pd) (s := r) (t := r ++ "_split") (d := addNodeInfo (r ++ "_split") (some ty) "" d)
      (by rw [a.ids]; simp [hs r hr]) (by rw [a.ids]; simp)
    have c2 := addConnection_connected h5
    unfold fillSplit
    simp only [h1, h4, h5, except_bind_ok]
    exact connect_all_ok (by rw [c2.ids, a.ids]; simp) (fun x hx => by rw [c2.ids, a.ids]; simp [hs x (h2 x hx)])
  rw [if_neg hq]
  cases h ht' with
  | sequence h1 => exact absurd h1 hp
  | split h1 => exact absurd h1 hq
  | @merge cs s h1 h2 h3 =>
    obtain ⟨m1, m2⟩ := onlyPresent_mem h2
    simp only [h1, except_bind_ok]
    rw [if_pos (anyPresent_iff.2 ⟨s, m1, m2⟩)]
    unfold fillMerge
    simp only [h2, except_bind_ok]
    by_cases hj : d.graph.nodes.has (s ++ "_join") = true
    · rw [if_pos hj]
      exact addConnection_ok (hs r hr) ((Dict.has_iff _ _).1 hj)
    · rw [if_neg hj]
      have hj : s ++ "_join" ∉ ids d := (Dict.has_false_iff _ _).1 (by simpa using hj)
      have : ∃ ty, mergeNodeType s d = .ok ty := by
        unfold mergeNodeType
        split
        · exact ⟨_, rfl⟩
        · rename_i pre n e
          have := h3 _ _ e
          rw [if_neg (by omega)]
          split
          · exact ⟨_, rfl⟩
          · rename_i a ha
            rcases ht _ (Dict.mem_keys_of_get? ha) with hn | hn
            · exact absurd (underscore_split _) (hu _ hn)
            · obtain ⟨t', k1, _⟩ := gatewayKind_iff.1 hn
              unfold kind at k1
              rw [ha, Option.bind_some] at k1
              rw [k1]
              exact ⟨_, rfl⟩
      obtain ⟨ty, h4⟩ := this
      have a := addNodeInfo_added ty "" hj
      obtain ⟨d2, h5⟩ := addConnection_ok (pd := pd) (s := s ++ "_join") (t := s) (d := addNodeInfo (s ++ "_join") ty "" d)
        (by rw [a.ids]; simp) (by rw [a.ids]; simp [hs s m2])
      have c2 := addConnection_connected h5
      simp only [h4, h5, except_bind_ok]
      exact addConnection_ok (by rw [c2.ids, a.ids]; simp [hs r hr]) (by rw [c2.ids, a.ids]; simp)

theorem fill_ok {pd : Dict String Line} {nodes : List String} (hu : ∀ x ∈ nodes, '_' ∉ x.toList) (hal : ∀ x ∈ nodes, ∀ c ∈ x.toList, c.isAlphanum = true)
    (hk : pd.keys = nodes) : ∀ {rs done : List String} {d : Diagram}, Inv d → (∀ x ∈ ids d, Named nodes done x) → (∀ x ∈ nodes, x ∈ ids d) →
      Typed nodes d → (∀ r ∈ rs, r ∈ nodes) → rs.Nodup → (∀ r ∈ rs, r ∉ done) →
      (∀ r ∈ rs, ∀ l, pd.get? r = some l → l.terminated ≠ "yes" → GoesOn nodes r) →
      ∃ d', rs.foldlM (fun e n => fillNode pd nodes n e) d = .ok d'
  | [], done, d, _, _, _, _, _, _, _, _ => ⟨d, rfl⟩
  | r :: rs, done, d, i, hn, hs, ht, hr, nd, dj, hg => by
    have hrn := hr r (by simp)
    obtain ⟨l, hl⟩ := Option.isSome_iff_exists.1 ((Dict.get?_isSome_iff _ _).2 (show r ∈ pd.keys from hk ▸ hrn))
    have nsp : r ++ "_split" ∉ ids d := fun hm => not_named_split hu (dj r (by simp)) (hn _ hm)
    obtain ⟨d1, h1⟩ := fillNode_ok hu hk hrn hs ht hl nsp (hg r (by simp) l hl)
    obtain ⟨g, fl, hR⟩ := fillNode_round h1 nsp
    obtain ⟨i1, g1, hn1, _⟩ := hR.step hu hrn i hn
    rw [List.nodup_cons] at nd
    obtain ⟨d2, h2⟩ := fill_ok hu hal hk i1 hn1 (fun x hx => g1.ids x (hs x hx)) (hR.typed hu (hal r hrn) g1 ht)
      (fun x hx => hr x (List.mem_cons_of_mem _ hx)) nd.2 (by
        intro x hx hm
        simp only [List.mem_cons] at hm
        rcases hm with rfl | hm
        · exact nd.1 hx
        · exact dj x (List.mem_cons_of_mem _ hx) hm) (fun x hx => hg x (List.mem_cons_of_mem _ hx))
    exact ⟨d2, by rw [List.foldlM_cons, h1]; exact h2⟩

theorem planted_start {rows : List Row} (t : Table rows) : Planted (dictOf rows) (importNodes (dictOf rows) (populate (dictOf rows) {})) := by
  have h0 : Planted [] (populate (dictOf rows) {}) := ⟨Inv.empty rfl rfl, rfl, by simp, fun x => rfl, fun x => rfl, rfl, rfl⟩
  have := importNodes_planted (dictOf rows) h0 (by rw [List.nil_append, keys_dictOf]; exact t.orders) (fun x hx => plain_of_no_underscore (t.under x hx))
  simpa using this

theorem removeGotos_none : ∀ {todo : List (String × Line)} {p : Dict String Line} {d : Diagram}, (∀ q ∈ todo, isGoto q.2.activity = false) →
    removeGotos todo p d = .ok (p, d)
  | [], p, d, _ => rfl
  | (o, l) :: r, p, d, h => by
    unfold removeGotos
    have := h (o, l) (by simp)
    simp only at this
    rw [this]
    exact removeGotos_none fun q hq => h q (List.mem_cons_of_mem _ hq)

/-- Without `goto`, rows that can be handled are enough. -/
theorem load_ok {rows : List Row} (t : Table rows) (hn : ∀ r ∈ rows, ¬GotoRow r)
    (hg : ∀ r ∈ rows, r.terminated ≠ "yes" → GoesOn (rows.map Row.order) r.order) : ∃ d, loadCsv rows {} = .ok d := by
  have hu := tableUnder t
  have hP := planted_start t
  have n0 : ∀ x ∈ ids (importNodes (dictOf rows) (populate (dictOf rows) {})), Named (rows.map Row.order) [] x := by
    intro x hx
    rw [hP.ids, keys_dictOf] at hx
    exact Or.inl hx
  have key : (importNodes (dictOf rows) (populate (dictOf rows) {})).graph.nodes.keys = rows.map Row.order := by
    have := hP.ids
    rw [keys_dictOf] at this
    exact this
  obtain ⟨d1, h1⟩ := fill_ok hu (tableAlnum t) (keys_dictOf rows) hP.inv n0 (fun x hx => by rw [hP.ids, keys_dictOf]; exact hx)
    (fun x hx => by rw [hP.ids, keys_dictOf] at hx; exact Or.inl hx) (fun _ h => h) t.orders (by simp) (by
      intro x hx l hl
      obtain ⟨r, hr, rfl⟩ := List.mem_map.1 hx
      rw [get?_dictOf t hr] at hl
      cases hl
      exact hg r hr)
  obtain ⟨F, hF⟩ := fill_rounds hu h1 hP.inv n0 (fun _ h => h) t.orders (by simp)
  have f := (Filled.mk hP hF).fit t
  obtain ⟨d, h2⟩ := f.clean_ok hu (tableAlnum t) (todo := ids (legacyAdjustment d1)) (p := dictOf rows) f.exact.inv.nodup (fun _ h => h)
    (by rw [keys_dictOf]; exact t.orders)
  refine ⟨d, ?_⟩
  unfold loadCsv fillConnections
  rw [t.dict]
  simp only [except_bind_ok, key, h1]
  rw [removeGotos_none]
  · exact h2
  · intro p hp
    obtain ⟨r, hr, rfl⟩ := List.mem_map.1 hp
    cases e : isGoto r.activity with
    | false => rfl
    | true => exact absurd ((isGoto_iff r).1 e) (hn r hr)

/-! ## Necessity -/

theorem Rounds.goes {pd : Dict String Line} {nodes : List String} {rs : List String} {d d' : Diagram} {F : List (String × String)}
    (h : Rounds pd nodes rs d F d') : (∀ s, s ++ "_join" ∈ ids d → ∀ pre n, trailingNumber s = some (pre, n) → 2 ≤ n) →
      ∀ r ∈ rs, ∀ l, pd.get? r = some l → l.terminated ≠ "yes" → GoesOn nodes r := by
  induction h with
  | nil => intro _ r hr; simp at hr
  | @cons r rs d d1 d2 g l F hR _ ih =>
    intro hj
    have two : ∀ {s : String} {ty : Option String} {d : Diagram}, mergeNodeType s d = .ok ty → ∀ pre n, trailingNumber s = some (pre, n) → 2 ≤ n := by
      intro s ty d h pre n e
      unfold mergeNodeType at h
      rw [e] at h
      simp only at h
      split at h
      · cases h
      · omega
    have hj1 : ∀ s, s ++ "_join" ∈ ids d1 → ∀ pre n, trailingNumber s = some (pre, n) → 2 ≤ n := by
      obtain ⟨hP, dm, hc, hch⟩ := hR
      intro s hs
      rw [hch.ids] at hs
      rcases hc with ⟨rfl, rfl⟩ | ⟨n, ty, rfl, hno, ha⟩
      · exact hj s hs
      · rw [ha.ids] at hs
        simp only [List.mem_append, List.mem_singleton] at hs
        rcases hs with hs | hs
        · exact hj s hs
        · cases hP with
          | split => exact absurd hs.symm (split_ne_join _ _)
          | newJoin _ _ _ _ _ _ _ h8 => have := join_inj hs; subst this; exact two h8
    intro x hx k hk ht
    simp only [List.mem_cons] at hx
    rcases hx with rfl | hx
    · cases hR.plan with
      | stop h1 h2 => rw [hk] at h1; cases h1; exact absurd h2 ht
      | sequence _ _ h3 _ => exact GoesOn.sequence h3
      | split _ _ _ h4 => exact GoesOn.split h4
      | join _ _ _ _ h5 h6 h7 => exact GoesOn.merge h5 h6 (hj _ h7)
      | newJoin _ _ _ _ h5 h6 h7 h8 => exact GoesOn.merge h5 h6 (two h8)
    · exact ih hj1 x hx k hk ht

theorem Stages.goes {rows : List Row} (t : Table rows) {d0 d1 d2 d : Diagram} {F : List (String × String)} (s : Stages rows d0 F d1 d2 d) :
    ∀ r ∈ rows, r.terminated ≠ "yes" → GoesOn (rows.map Row.order) r.order := by
  intro r hr ht
  refine s.rounds.goes ?_ r.order (List.mem_map_of_mem hr) _ (get?_dictOf t hr) ht
  intro x hx
  rw [s.planted.ids] at hx
  exact absurd (underscore_join x) (t.under _ hx)

end Bpmn.Csv

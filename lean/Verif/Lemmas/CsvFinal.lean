import Verif.Lemmas.CsvShape
/-! The diagram made of a table. -/
set_option linter.unusedSimpArgs false
set_option linter.unusedVariables false

namespace Bpmn.Csv
open Bpmn.Spec Bpmn.Spec.Csv

theorem nodeType_row (r : Row) : nodeType r.order ⟨r.activity, r.condition, r.who, r.subprocess, r.terminated⟩ = rowType r := rfl

theorem rowType_cases (r : Row) : rowType r = "startEvent" ∨ rowType r = "endEvent" ∨ rowType r = "subProcess" ∨ rowType r = "task" := by
  unfold rowType; split
  · simp
  · split
    · simp
    · split <;> simp

theorem kindOf_row (r : Row) : kindOf (some (rowType r)) = rowType r := by
  rcases rowType_cases r with h | h | h | h <;> rw [h] <;> decide

theorem nameFor_row (r : Row) : nameFor (some (rowType r)) r.activity = if rowType r = "endEvent" then "" else r.activity := by
  unfold nameFor
  rw [kindOf_row]
  rcases rowType_cases r with h | h | h | h <;> rw [h] <;> simp

theorem row_not_gateway {d : Diagram} {r : Row} (h : kind d r.order = some (rowType r)) : ¬GatewayKind d r.order := by
  intro hg
  obtain ⟨ty, h1, h2⟩ := gatewayKind_iff.1 hg
  rw [h] at h1
  cases h1
  rcases rowType_cases r with h | h | h | h <;> rw [h] at h2 <;> simp at h2

/-- The stages, with what is known in between: the diagram `d1` after the rounds, `d2` after the loop for `goto`. -/
structure Stages (rows : List Row) (d0 : Diagram) (F : List (String × String)) (d1 d2 d : Diagram) : Prop where
  planted : Planted (dictOf rows) d0
  rounds : Rounds (dictOf rows) (rows.map Row.order) (rows.map Row.order) d0 F d1
  gotos : Gotos (dictOf rows) (dictOf rows) (legacyAdjustment d1) d2
  cleaned : Cleaned (dictOf rows) (ids d2) d2 d
  inv1 : Inv d1
  grows1 : Grows d0 d1
  named1 : ∀ x ∈ ids d1, Named (rows.map Row.order) (rows.map Row.order) x
  wired1 : ∀ p ∈ F, Wired d1 p.1 p.2
  typed1 : Typed (rows.map Row.order) d1
  keep2 : GotosKeep (dictOf rows) (legacyAdjustment d1) d2
  keep : CleanedKeep (ids d2) d2 d
  out1 : ∀ x, outOf d1 x = leaving x F
  inn1 : ∀ x, inOf d1 x = entering x F
  plane : d0.planeElement = some processId
  procs : d0.processElements.keys = [processId]

theorem stages {rows : List Row} (t : Table rows) {d : Diagram} (h : loadCsv rows {} = .ok d) : ∃ d0 F d1 d2, Stages rows d0 F d1 d2 d := by
  have im := imported t h
  obtain ⟨d0, F, d1, d2, hp, hr, hg, hc, h5, h6⟩ := im.stages
  have hu := t.under
  rw [keys_dictOf] at hr hu
  have n0 : ∀ x ∈ ids d0, Named (rows.map Row.order) [] x := by
    intro x hx
    rw [hp.ids, keys_dictOf] at hx
    exact Or.inl hx
  obtain ⟨i1, g1, n1, w1⟩ := hr.step hu hp.inv n0 (fun _ h => h)
  have ty := hr.typed hu (by
    intro x hx
    obtain ⟨r, hr, rfl⟩ := List.mem_map.1 hx
    exact t.alnum r hr) hp.inv n0 (fun _ h => h) (by
      intro x hx
      rw [hp.ids, keys_dictOf] at hx
      exact Or.inl hx)
  have k2 := hg.keep i1.legacy
  refine ⟨d0, F, d1, d2, hp, hr, hg, hc, i1, g1, ?_, w1, ty, k2, hc.kept k2.inv, ?_, ?_, h5, h6⟩
  · intro x hx
    exact (n1 x hx).mono (by simp)
  · intro x; rw [hr.out, hp.out]; rfl
  · intro x; rw [hr.inn, hp.inn]; rfl

theorem legacy_bare_kind {d d2 : Diagram} {x : String} (h : bareOf d2 x = bareOf (legacyAdjustment d) x) : kind d2 x = kind d x := by
  rw [kind_eq, h, ← kind_eq, legacy_kind]

theorem Stages.looks2 {rows : List Row} (t : Table rows) {d0 d1 d2 d : Diagram} {F : List (String × String)} (s : Stages rows d0 F d1 d2 d)
    {r : Row} (hr : r ∈ rows) (hg : ¬GotoRow r) : r.order ∈ ids d2 ∧ Looks d2 r.order (some (rowType r)) r.activity := by
  have h0 : r.order ∈ ids d0 := by rw [s.planted.ids, keys_dictOf]; exact List.mem_map_of_mem hr
  have l0 := s.planted.looks _ _ (mem_dictOf hr)
  rw [nodeType_row] at l0
  have l1 := (l0.of_bare (s.grows1.bare _ h0)).legacy
  have ng := notGoto_row t hr hg
  exact ⟨s.keep2.stays _ (by rw [legacy_ids]; exact s.grows1.ids _ h0) ng, l1.of_bare (s.keep2.bare _ ng)⟩

theorem Stages.stays {rows : List Row} (t : Table rows) {d0 d1 d2 d : Diagram} {F : List (String × String)} (s : Stages rows d0 F d1 d2 d)
    {r : Row} (hr : r ∈ rows) (hg : ¬GotoRow r) : r.order ∈ ids d ∧ Looks d r.order (some (rowType r)) r.activity := by
  obtain ⟨h2, l2⟩ := s.looks2 t hr hg
  have hk := l2.kind
  rw [kindOf_row] at hk
  have hd := s.keep.stays _ h2 (fun hh => row_not_gateway hk hh.1)
  exact ⟨hd, l2.of_bare (s.keep.bare _ hd)⟩

/-- What the nodes of the result are. -/
theorem Stages.nodes {rows : List Row} (t : Table rows) {d0 d1 d2 d : Diagram} {F : List (String × String)} (s : Stages rows d0 F d1 d2 d)
    {x : String} (hx : x ∈ ids d) : (∃ r ∈ rows, ¬GotoRow r ∧ r.order = x) ∨ x ∉ rows.map Row.order ∧ GatewayKind d x := by
  obtain ⟨h2, ng⟩ := s.keep2.sub x (s.keep.sub x hx)
  rw [legacy_ids] at h2
  by_cases e : x ∈ rows.map Row.order
  · left
    obtain ⟨r, hr, rfl⟩ := List.mem_map.1 e
    refine ⟨r, hr, ?_, rfl⟩
    intro hgr
    have := ng _ (mem_dictOf hr)
    rw [(isGoto_iff r).2 hgr] at this
    cases this
  · right
    refine ⟨e, ?_⟩
    have h1 := (s.typed1 x h2).resolve_left e
    have : kind d x = kind d1 x := by
      rw [kind_eq, s.keep.bare x hx, ← kind_eq]
      exact legacy_bare_kind (s.keep2.bare x ng)
    unfold GatewayKind at h1 ⊢
    rw [this]; exact h1

theorem Stages.row_out {rows : List Row} (t : Table rows) {d0 d1 d2 d : Diagram} {F : List (String × String)} (s : Stages rows d0 F d1 d2 d)
    {r : Row} (hr : r ∈ rows) (hg : ¬GotoRow r) : (outOf d r.order).length = if r.terminated = "yes" then 0 else 1 := by
  have ng := notGoto_row t hr hg
  rw [s.keep.outLength _ (s.stays t hr hg).1, s.keep2.outLength _ ng, legacy_out, s.out1]
  obtain ⟨a, b, F1, l, F2, g, e1, e2, h1, h2, h3, h4, h5⟩ := s.rounds.around r.order (List.mem_map_of_mem hr)
  have hu := t.under
  rw [keys_dictOf] at hu
  have nd := t.orders
  rw [h1, List.nodup_append] at nd
  have hno := hu _ (List.mem_map_of_mem hr)
  rw [h5, leaving_append, leaving_append, h2.leaving_row hu hno (fun hm => nd.2.2 _ hm _ (by simp) rfl),
    h4.leaving_row hu hno (List.nodup_cons.1 nd.2.1).1]
  have := h3.plan.leaving_self hno (get?_dictOf t hr)
  simp only at this
  split at this
  · rename_i e; rw [this, if_pos e]; rfl
  · rename_i e
    obtain ⟨y, h6, _⟩ := this
    rw [h6, if_neg e]; rfl

/-- The plan of a row. -/
theorem Stages.plan {rows : List Row} (t : Table rows) {d0 d1 d2 d : Diagram} {F : List (String × String)} (s : Stages rows d0 F d1 d2 d)
    {r : Row} (hr : r ∈ rows) : ∃ dr g l, Plan (dictOf rows) (rows.map Row.order) dr r.order g l ∧ (∀ p ∈ l, p ∈ F) ∧
      leaving (r.order ++ "_split") F = leaving (r.order ++ "_split") l ∧ (∀ n ty, g = some (n, ty) → n ∈ ids d1 ∧ kind d1 n = some (kindOf ty)) := by
  obtain ⟨a, b, F1, l, F2, g, e1, e2, h1, h2, h3, h4, h5⟩ := s.rounds.around r.order (List.mem_map_of_mem hr)
  have hu := t.under
  rw [keys_dictOf] at hu
  have nd := t.orders
  have hin : ∀ x ∈ a, x ∈ rows.map Row.order := fun x hx => by rw [h1]; simp [hx]
  have hin2 : ∀ x ∈ b, x ∈ rows.map Row.order := fun x hx => by rw [h1]; simp [hx]
  rw [h1, List.nodup_append] at nd
  have n0 : ∀ x ∈ ids d0, Named (rows.map Row.order) [] x := by
    intro x hx
    rw [s.planted.ids, keys_dictOf] at hx
    exact Or.inl hx
  refine ⟨e1, g, l, h3.plan, fun p hp => by rw [h5]; simp [hp], ?_, ?_⟩
  · rw [h5, leaving_append, leaving_append, h2.leaving_split hu hin (fun hm => nd.2.2 _ hm _ (by simp) rfl),
      h4.leaving_split hu hin2 (List.nodup_cons.1 nd.2.1).1]
    simp
  · intro n ty hg
    obtain ⟨i1, g1, n1, w1⟩ := h2.step hu s.planted.inv n0 hin
    obtain ⟨_, dm, hc, hch⟩ := h3
    subst hg
    rcases hc with ⟨h, _⟩ | ⟨n', ty', he, hno, ha⟩
    · cases h
    · cases he
      have h3' : Round (dictOf rows) (rows.map Row.order) r.order e1 (some (n, ty)) l e2 := ⟨‹_›, dm, Or.inr ⟨n, ty, rfl, hno, ha⟩, hch⟩
      obtain ⟨i2, g2, n2, w2⟩ := h3'.step hu (List.mem_map_of_mem hr) i1 n1
      obtain ⟨i3, g3, n3, w3⟩ := h4.step hu i2 n2 hin2
      have hn : n ∈ ids e2 := by rw [hch.ids, ha.ids]; simp
      refine ⟨g3.ids _ hn, ?_⟩
      have hb : ∀ {l : List (String × String)} {a b : Diagram}, Chained (dictOf rows) a l b → bareOf b n = bareOf a n := by
        intro l a b hh
        induction hh with
        | nil => rfl
        | cons h _ ih => rw [ih, h.bare]
      rw [kind_eq, g3.bare _ hn, hb hch, ← kind_eq]
      exact ha.looks.kind

/-- Flows between nodes that are not those of a `goto` row reach the last loop. -/
theorem Stages.wired2 {rows : List Row} {d0 d1 d2 d : Diagram} {F : List (String × String)} (s : Stages rows d0 F d1 d2 d)
    {x y : String} (h : (x, y) ∈ F) (hx : NotGoto (dictOf rows) x) (hy : NotGoto (dictOf rows) y) : Wired d2 x y :=
  s.keep2.wired _ _ (s.wired1 _ h).legacy hx hy

/-- A split gateway with several ways on remains. -/
theorem Stages.split_stays {rows : List Row} (t : Table rows) {d0 d1 d2 d : Diagram} {F : List (String × String)} (s : Stages rows d0 F d1 d2 d)
    {x : String} (hx : '_' ∈ x.toList) (h1 : x ∈ ids d1) (h2 : 2 ≤ (leaving x F).length) : x ∈ ids d ∧ kind d x = kind d1 x := by
  have ng := notGoto_gateway t.under hx
  have m2 := s.keep2.stays _ (by rw [legacy_ids]; exact h1) ng
  have hl : (outOf d2 x).length = (leaving x F).length := by rw [s.keep2.outLength _ ng, legacy_out, s.out1]
  have m := s.keep.stays _ m2 (fun hh => by omega)
  refine ⟨m, ?_⟩
  rw [kind_eq, s.keep.bare x m, ← kind_eq]
  exact legacy_bare_kind (s.keep2.bare x ng)

/-! ## Orders of rows -/

theorem order_eq {r : Row} {l : List Char} (h : r.order.toList = l) : r.order = String.ofList l := by
  apply String.toList_injective; simpa using h

theorem hasOrder_iff {rows : List Row} {o : List Char} : HasOrder rows o ↔ String.ofList o ∈ rows.map Row.order := by
  constructor
  · rintro ⟨r, hr, h⟩
    exact List.mem_map.2 ⟨r, hr, order_eq h⟩
  · intro h
    obtain ⟨r, hr, e⟩ := List.mem_map.1 h
    exact ⟨r, hr, by rw [e, String.toList_ofList]⟩

theorem anyPresent_iff {c nodes : List String} : anyPresent c nodes = true ↔ ∃ x ∈ c, x ∈ nodes := by
  simp [anyPresent]

theorem anyPresent_false {c nodes : List String} : anyPresent c nodes = false ↔ ∀ x ∈ c, x ∉ nodes := by
  simp [anyPresent]

theorem mem_ofList_append (p : List Char) (s : String) : String.ofList p ++ s = String.ofList (p ++ s.toList) := by
  apply String.toList_injective; simp

theorem splitSuccessors_decimal {p : List Char} (n : Nat) (hp : Ends p) (nodes : List String) :
    splitSuccessors (String.ofList (p ++ decimal n)) nodes = .ok (nodes.filter (matchesSplit (String.ofList (p ++ decimal (n + 1))))) := by
  simp only [splitSuccessors, trailingNumber_decimal n hp, append_toString]

theorem matchesSplit_start {rows : List Row} (t : Table rows) {o : List Char} {r : Row} (hr : r ∈ rows) :
    matchesSplit (String.ofList o) r.order = true ↔ BranchStart o r.order.toList := by
  rw [matchesSplit_iff]
  constructor
  · rintro ⟨c, l, h1, h2, h3⟩
    rw [String.toList_ofList] at h3
    have ha := t.alnum r hr c (by rw [h3]; simp)
    have hb : c ≠ '|' := by rintro rfl; revert ha; decide
    exact ⟨c, l, h3, letter_alpha h1 hb, h2⟩
  · rintro ⟨c, l, h1, h2, h3⟩
    exact ⟨c, l, alpha_letter h2, h3, by rw [String.toList_ofList]; exact h1⟩

/-- The branches of a split, as rows. -/
theorem branches_eq {rows : List Row} (t : Table rows) (o : List Char) :
    (rows.map Row.order).filter (matchesSplit (String.ofList o)) = (rows.filter fun r => matchesSplit (String.ofList o) r.order).map Row.order := by
  rw [List.filter_map]; rfl

theorem nodeConditions_rows {rows : List Row} (t : Table rows) : ∀ {bs : List Row}, (∀ b ∈ bs, b ∈ rows) →
    nodeConditions (dictOf rows) (bs.map Row.order) = .ok (bs.map fun b => strip b.condition)
  | [], _ => rfl
  | b :: bs, h => by
    simp only [List.map_cons, nodeConditions, get?_dictOf t (h b (by simp)), need_some, except_bind_ok,
      nodeConditions_rows t (fun x hx => h x (List.mem_cons_of_mem _ hx)), except_pure]

/-! ## The plan for each kind of order -/

/-- A row with a number at the end and a row with the next number. -/
theorem Plan.of_sequence {rows : List Row} (t : Table rows) {dr : Diagram} {r : Row} (hr : r ∈ rows) {g : Option (String × Option String)} {l : List (String × String)}
    (h : Plan (dictOf rows) (rows.map Row.order) dr r.order g l) {p : List Char} {n : Nat} (hp : Ends p) (ho : r.order.toList = p ++ decimal n)
    (ht : r.terminated ≠ "yes") (hn : HasOrder rows (p ++ decimal (n + 1))) : l = [(r.order, String.ofList (p ++ decimal (n + 1)))] := by
  have e := order_eq ho
  have hs : sequenceSuccessors r.order = [String.ofList (p ++ decimal (n + 1))] := by rw [e]; exact sequenceSuccessors_decimal n hp
  have any : anyPresent (sequenceSuccessors r.order) (rows.map Row.order) = true := by
    rw [hs, anyPresent_iff]; exact ⟨_, by simp, hasOrder_iff.1 hn⟩
  have hk := get?_dictOf t hr
  cases h with
  | stop h1 h2 => rw [hk] at h1; cases h1; exact absurd h2 ht
  | sequence _ _ _ h4 =>
    have := onlyPresent_mem h4
    rw [hs, List.mem_singleton] at this
    rw [this.1]
  | split _ _ h3 => rw [any] at h3; cases h3
  | join _ _ h3 => rw [any] at h3; cases h3
  | newJoin _ _ h3 => rw [any] at h3; cases h3

/-- A row with a number at the end, without a row with the next number, and a first branch. -/
theorem Plan.of_split {rows : List Row} (t : Table rows) {dr : Diagram} {r : Row} (hr : r ∈ rows) {g : Option (String × Option String)} {l : List (String × String)}
    (h : Plan (dictOf rows) (rows.map Row.order) dr r.order g l) {p : List Char} {n : Nat} (hp : Ends p) (ho : r.order.toList = p ++ decimal n)
    (ht : r.terminated ≠ "yes") (hn : ¬HasOrder rows (p ++ decimal (n + 1)))
    (ha : HasOrder rows (p ++ decimal (n + 1) ++ ['a']) ∨ HasOrder rows (p ++ decimal (n + 1) ++ ['a', '1'])) :
    ∃ ty, g = some (r.order ++ "_split", some ty) ∧ gatewayType (dictOf rows) r.order (rows.map Row.order) = .ok ty ∧
      l = (r.order, r.order ++ "_split") :: ((rows.filter fun b => matchesSplit (String.ofList (p ++ decimal (n + 1))) b.order).map
        fun b => (r.order ++ "_split", b.order)) := by
  have e := order_eq ho
  have hs : sequenceSuccessors r.order = [String.ofList (p ++ decimal (n + 1))] := by rw [e]; exact sequenceSuccessors_decimal n hp
  have none : anyPresent (sequenceSuccessors r.order) (rows.map Row.order) = false := by
    rw [hs, anyPresent_false]; intro x hx
    rw [List.mem_singleton] at hx; subst hx
    exact fun hm => hn (hasOrder_iff.2 hm)
  have any : anyPresent (splitCandidates r.order) (rows.map Row.order) = true := by
    rw [e, splitCandidates_decimal n hp, anyPresent_iff]
    rcases ha with ha | ha
    · exact ⟨_, by simp, hasOrder_iff.1 ha⟩
    · exact ⟨String.ofList (p ++ decimal (n + 1) ++ ['a', '1']), by simp only [List.mem_cons, true_or, or_true], hasOrder_iff.1 ha⟩
  have hk := get?_dictOf t hr
  cases h with
  | stop h1 h2 => rw [hk] at h1; cases h1; exact absurd h2 ht
  | sequence _ _ h3 _ => rw [none] at h3; cases h3
  | @split k ty succ _ _ _ _ h5 h6 =>
    refine ⟨ty, rfl, h5, ?_⟩
    rw [e, splitSuccessors_decimal n hp, branches_eq t] at h6
    cases h6
    simp
  | join _ _ _ h4 => rw [any] at h4; cases h4
  | newJoin _ _ _ h4 => rw [any] at h4; cases h4

/-- A row at the end of a branch of the main line. -/
theorem Plan.of_merge {rows : List Row} (t : Table rows) {dr : Diagram} {r : Row} (hr : r ∈ rows) {g : Option (String × Option String)} {l : List (String × String)}
    (h : Plan (dictOf rows) (rows.map Row.order) dr r.order g l) {k : String} (hm : mergeSuccessors r.order = .ok [k])
    (hs : anyPresent (sequenceSuccessors r.order) (rows.map Row.order) = false)
    (hq : anyPresent (splitCandidates r.order) (rows.map Row.order) = false) (ht : r.terminated ≠ "yes") :
    (r.order, k ++ "_join") ∈ l ∧ k ∈ rows.map Row.order := by
  have hk := get?_dictOf t hr
  cases h with
  | stop h1 h2 => rw [hk] at h1; cases h1; exact absurd h2 ht
  | sequence _ _ h3 _ => rw [hs] at h3; cases h3
  | split _ _ _ h4 => rw [hq] at h4; cases h4
  | join _ _ _ _ h5 h6 _ =>
    rw [hm] at h5; cases h5
    obtain ⟨a, b⟩ := onlyPresent_mem h6
    simp at a; subst a
    exact ⟨by simp, b⟩
  | newJoin _ _ _ _ h5 h6 _ =>
    rw [hm] at h5; cases h5
    obtain ⟨a, b⟩ := onlyPresent_mem h6
    simp at a; subst a
    exact ⟨by simp, b⟩

/-- Behind a join gateway comes its row. -/
theorem Rounds.join_next {pd : Dict String Line} {nodes : List String} (hu : ∀ x ∈ nodes, '_' ∉ x.toList) {rs : List String} {d d' : Diagram}
    {F : List (String × String)} (h : Rounds pd nodes rs d F d') : ∀ {done : List String}, Inv d → (∀ x ∈ ids d, Named nodes done x) →
      (∀ r ∈ rs, r ∈ nodes) → ∀ k, k ++ "_join" ∈ ids d' → k ++ "_join" ∉ ids d → (k ++ "_join", k) ∈ F := by
  induction h with
  | nil => intro _ _ _ _ k h1 h2; exact absurd h1 h2
  | @cons r rs d d1 d2 g l F hR _ ih =>
    intro done i hn hr k h1 h2
    obtain ⟨i1, g1, hn1, w1⟩ := hR.step hu (hr _ (by simp)) i hn
    by_cases e : k ++ "_join" ∈ ids d1
    · rw [List.mem_append]; left
      obtain ⟨hP, dm, hc, hch⟩ := hR
      rw [hch.ids] at e
      rcases hc with ⟨rfl, rfl⟩ | ⟨n, ty, rfl, hno, ha⟩
      · exact absurd e h2
      · rw [ha.ids] at e
        simp [h2] at e
        cases hP with
        | split => exact absurd e.symm (split_ne_join _ _)
        | newJoin => have := join_inj e; subst this; simp
    · exact List.mem_append_right _ (ih i1 hn1 (fun x hx => hr x (List.mem_cons_of_mem _ hx)) k h1 e)

theorem Stages.join_next {rows : List Row} (t : Table rows) {d0 d1 d2 d : Diagram} {F : List (String × String)} (s : Stages rows d0 F d1 d2 d)
    {k : String} (h : k ++ "_join" ∈ ids d1) : (k ++ "_join", k) ∈ F := by
  have hu := t.under
  rw [keys_dictOf] at hu
  refine s.rounds.join_next hu s.planted.inv (done := []) ?_ (fun _ h => h) k h ?_
  · intro x hx
    rw [s.planted.ids, keys_dictOf] at hx
    exact Or.inl hx
  · rw [s.planted.ids, keys_dictOf]
    exact fun hm => hu _ hm (underscore_join k)

end Bpmn.Csv

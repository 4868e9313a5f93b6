import Verif.Lemmas.CsvFinal
/-! The types of the gateways at the end of branches. -/
set_option linter.unusedSimpArgs false
set_option linter.unusedVariables false

namespace Bpmn.Csv
open Bpmn.Spec Bpmn.Spec.Csv

theorem mergeScan_text : ∀ (r sk ds : List Char), (∀ w x, sk = w ++ [x] → x.isDigit = false) →
    ∀ m ∈ mergeScan sk ds r, ∃ u v, sk ++ ds ++ r = u ++ m.2.1 ++ m.2.2 :: v ∧ ∀ w x, u = w ++ [x] → x.isDigit = false
  | [], _, _, _ => by simp [mergeScan]
  | c :: r, sk, ds, h1 => by
    unfold mergeScan
    split
    · intro m hm
      obtain ⟨u, v, e, hu⟩ := mergeScan_text r sk (ds ++ [c]) h1 m hm
      exact ⟨u, v, by rw [← e]; simp, hu⟩
    · rename_i hc
      have hc : c.isDigit = false := by simpa using hc
      split
      · intro m hm
        simp only [List.mem_cons] at hm
        rcases hm with rfl | hm
        · exact ⟨sk, r, rfl, h1⟩
        · obtain ⟨u, v, e, hu⟩ := mergeScan_text r [] [] (by simp) m hm
          refine ⟨sk ++ ds ++ c :: u, v, ?_, ?_⟩
          · simp only [List.nil_append] at e
            rw [e]; simp
          · intro w x hx
            rcases List.eq_nil_or_concat u with rfl | ⟨u', y, rfl⟩
            · obtain ⟨-, h⟩ := List.append_inj' (s₁ := sk ++ ds) (t₁ := [c]) hx rfl
              cases h; exact hc
            · have hx : (sk ++ ds ++ c :: u') ++ [y] = w ++ [x] := by rw [← hx]; simp
              obtain ⟨-, h⟩ := List.append_inj' hx rfl
              cases h; exact hu u' x (by simp)
      · intro m hm
        obtain ⟨u, v, e, hu⟩ := mergeScan_text r (sk ++ ds ++ [c]) [] (by
          intro w x hx
          obtain ⟨-, h⟩ := List.append_inj' hx rfl
          cases h; exact hc) m hm
        exact ⟨u, v, by rw [← e]; simp, hu⟩

/-- A row that merges into the row p n has the number n-1 before a letter. -/
theorem merge_number {r : String} (ha : ∀ c ∈ r.toList, c.isAlphanum = true) {cs : List String} (h : mergeSuccessors r = .ok cs) {p : List Char} {n : Nat}
    (hp : Ends p) (hs : String.ofList (p ++ decimal n) ∈ cs) : ∃ k, n = k + 1 ∧ NumberBefore r.toList k := by
  obtain ⟨sk, ds, c, hm, hl, e⟩ := merge_candidate ha h hs
  obtain ⟨t, ht, _⟩ := stem_sub r
  have h1 := mergeScan_letters (stem r) [] [] (by simp [Letters]) (by simp) (fun c hc => ha c (by rw [ht]; simp [hc])) _ hm
  obtain ⟨u, v, e2, hu⟩ := mergeScan_text (stem r) [] [] (by simp) _ hm
  simp only [List.nil_append] at e2
  have hc : c.isAlphanum = true := ha c (by rw [ht, e2]; simp)
  have hb : c ≠ '|' := by rintro rfl; revert hc; decide
  have e3 : trailingNumber (String.ofList (p ++ decimal n)) = trailingNumber (String.ofList (sk ++ decimal (Nat.ofDigitChars 10 ds 0 + 1))) := by rw [e]
  rw [trailingNumber_decimal _ hp, trailingNumber_decimal _ hl.ends] at e3
  simp only [Option.some.injEq, Prod.mk.injEq] at e3
  exact ⟨_, e3.2, u, ds, c, v ++ t, by rw [ht, e2]; simp, h1.2.1, h1.2.2.1, letter_alpha h1.2.2.2 hb, hu, rfl⟩

theorem Chained.bare_eq {pd : Dict String Line} {l : List (String × String)} {a b : Diagram} (h : Chained pd a l b) (x : String) : bareOf b x = bareOf a x := by
  induction h with
  | nil => rfl
  | cons h _ ih => rw [ih, h.bare]

/-- Which round made a join gateway, and how. -/
theorem Rounds.join_origin {pd : Dict String Line} {nodes : List String} (hu : ∀ x ∈ nodes, '_' ∉ x.toList) {rs : List String} {d d' : Diagram}
    {F : List (String × String)} (h : Rounds pd nodes rs d F d') : ∀ {done : List String}, Inv d → (∀ x ∈ ids d, Named nodes done x) →
      (∀ r ∈ rs, r ∈ nodes) → ∀ k, k ++ "_join" ∈ ids d' → k ++ "_join" ∉ ids d →
      ∃ a q b F1 dq cands ty, rs = a ++ q :: b ∧ Rounds pd nodes a d F1 dq ∧ Grows dq d' ∧ mergeSuccessors q = .ok cands ∧ k ∈ cands ∧ k ∈ nodes ∧
        anyPresent (sequenceSuccessors q) nodes = false ∧ anyPresent (splitCandidates q) nodes = false ∧
        mergeNodeType k dq = .ok ty ∧ kind d' (k ++ "_join") = some (kindOf ty) := by
  induction h with
  | nil => intro _ _ _ _ k h1 h2; exact absurd h1 h2
  | @cons r rs d d1 d2 g l F hR hRs ih =>
    intro done i hn hr k h1 h2
    obtain ⟨i1, g1, hn1, w1⟩ := hR.step hu (hr _ (by simp)) i hn
    obtain ⟨i2, g2, -, -⟩ := hRs.step hu i1 hn1 (fun x hx => hr x (List.mem_cons_of_mem _ hx))
    by_cases e : k ++ "_join" ∈ ids d1
    · have hk := g2.bare _ e
      obtain ⟨hP, dm, hc, hch⟩ := hR
      rw [hch.ids] at e
      rcases hc with ⟨rfl, rfl⟩ | ⟨n, ty, rfl, hno, hadd⟩
      · exact absurd e h2
      · rw [hadd.ids] at e
        simp [h2] at e
        cases hP with
        | split => exact absurd e.symm (split_ne_join _ _)
        | newJoin _ _ h3 h4 h5 h6 _ h7 =>
          have := join_inj e; subst this
          refine ⟨[], r, rs, [], d, _, _, rfl, Rounds.nil _, g1.trans g2, h5, (onlyPresent_mem h6).1, (onlyPresent_mem h6).2, h3, h4, h7, ?_⟩
          rw [kind_eq, hk, hch.bare_eq, ← kind_eq]
          exact hadd.looks.kind
    · obtain ⟨a, q, b, F1, dq, cands, ty, e1, e2, e3⟩ := ih i1 hn1 (fun x hx => hr x (List.mem_cons_of_mem _ hx)) k h1 e
      exact ⟨r :: a, q, b, _, dq, cands, ty, by rw [e1]; rfl, Rounds.cons hR e2, e3⟩

/-- Which rows get a split gateway. -/
theorem Rounds.split_origin {pd : Dict String Line} {nodes : List String} {rs : List String} {d d' : Diagram}
    {F : List (String × String)} (h : Rounds pd nodes rs d F d') : ∀ k, k ++ "_split" ∈ ids d' → k ++ "_split" ∉ ids d →
      k ∈ rs ∧ (∃ l, pd.get? k = some l ∧ l.terminated ≠ "yes") ∧ anyPresent (sequenceSuccessors k) nodes = false ∧
        anyPresent (splitCandidates k) nodes = true := by
  induction h with
  | nil => intro k h1 h2; exact absurd h1 h2
  | @cons r rs d d1 d2 g l F hR hRs ih =>
    intro k h1 h2
    by_cases e : k ++ "_split" ∈ ids d1
    · obtain ⟨hP, dm, hc, hch⟩ := hR
      rw [hch.ids] at e
      rcases hc with ⟨rfl, rfl⟩ | ⟨n, ty, rfl, hno, hadd⟩
      · exact absurd e h2
      · rw [hadd.ids] at e
        simp [h2] at e
        cases hP with
        | split h3 h4 h5 h6 => have := split_inj e; subst this; exact ⟨by simp, ⟨_, h3, h4⟩, h5, h6⟩
        | newJoin => exact absurd e (split_ne_join _ _)
    · obtain ⟨h3, h4⟩ := ih k h1 e
      exact ⟨List.mem_cons_of_mem _ h3, h4⟩

theorem mergeNodeType_at {p : List Char} {n : Nat} (hp : Ends p) {d : Diagram} {ty : Option String}
    (h : mergeNodeType (String.ofList (p ++ decimal n)) d = .ok ty) : 2 ≤ n ∧
      ((String.ofList (p ++ decimal (n - 2)) ++ "_split" ∉ ids d ∧ ty = some "inclusiveGateway") ∨
       String.ofList (p ++ decimal (n - 2)) ++ "_split" ∈ ids d ∧
        ∃ t, kind d (String.ofList (p ++ decimal (n - 2)) ++ "_split") = some t ∧ (t ≠ "" → ty = some t)) := by
  unfold mergeNodeType at h
  rw [trailingNumber_decimal n hp] at h
  dsimp only at h
  rw [append_toString] at h
  split at h
  · cases h
  · rename_i h2
    refine ⟨by omega, ?_⟩
    split at h
    · rename_i hg
      cases h
      refine Or.inl ⟨?_, rfl⟩
      exact (Dict.get?_eq_none_iff _ _).1 hg
    · rename_i a ha
      obtain ⟨t, h1, h⟩ := except_bind_eq_ok h
      have h1 := need_ok h1
      cases h
      refine Or.inr ⟨Dict.mem_keys_of_get? ha, t, ?_, ?_⟩
      · unfold kind; rw [ha, Option.bind_some, h1]
      · intro hn; rw [if_pos hn]

/-- A join gateway of the result. -/
theorem Stages.join_type {rows : List Row} (t : Table rows) {d0 d1 d2 d : Diagram} {F : List (String × String)} (s : Stages rows d0 F d1 d2 d)
    {p : List Char} {n : Nat} (hp : Ends p) (hj : String.ofList (p ++ decimal n) ++ "_join" ∈ ids d) :
    2 ≤ n ∧ ∃ a q b F1 dq ty, rows = a ++ q :: b ∧ Rounds (dictOf rows) (rows.map Row.order) (a.map Row.order) d0 F1 dq ∧ Grows dq d1 ∧
      NumberBefore q.order.toList (n - 1) ∧ anyPresent (splitCandidates q.order) (rows.map Row.order) = false ∧
      kind d (String.ofList (p ++ decimal n) ++ "_join") = some (kindOf ty) ∧
      ((String.ofList (p ++ decimal (n - 2)) ++ "_split" ∉ ids dq ∧ ty = some "inclusiveGateway") ∨
       String.ofList (p ++ decimal (n - 2)) ++ "_split" ∈ ids dq ∧
        ∃ t, kind dq (String.ofList (p ++ decimal (n - 2)) ++ "_split") = some t ∧ (t ≠ "" → ty = some t)) := by
  have hu := t.under
  rw [keys_dictOf] at hu
  have ng := notGoto_gateway t.under (underscore_join (String.ofList (p ++ decimal n)))
  have h2 := (s.keep2.sub _ (s.keep.sub _ hj)).1
  rw [legacy_ids] at h2
  have n0 : ∀ x ∈ ids d0, Named (rows.map Row.order) [] x := by
    intro x hx
    rw [s.planted.ids, keys_dictOf] at hx
    exact Or.inl hx
  obtain ⟨a, q, b, F1, dq, cands, ty, e1, e2, e3, e4, e5, e6, e7, e8, e9, e10⟩ := s.rounds.join_origin hu s.planted.inv n0 (fun _ h => h) _ h2 (by
    rw [s.planted.ids, keys_dictOf]
    exact fun hm => hu _ hm (underscore_join _))
  obtain ⟨a', b', e1a, rfl, e1b⟩ := List.map_eq_append_iff.1 e1
  obtain ⟨q', b'', rfl, rfl, rfl⟩ := List.map_eq_cons_iff.1 e1b
  obtain ⟨m1, m2⟩ := mergeNodeType_at hp e9
  obtain ⟨k, hk, hnb⟩ := merge_number (t.alnum q' (by rw [e1a]; simp)) e4 hp e5
  refine ⟨m1, a', q', b'', F1, dq, ty, e1a, e2, e3, by rw [show n - 1 = k by omega]; exact hnb, e8, ?_, m2⟩
  rw [kind_eq, s.keep.bare _ hj, ← kind_eq, legacy_bare_kind (s.keep2.bare _ ng)]
  exact e10

end Bpmn.Csv

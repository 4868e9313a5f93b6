import Verif.Lemmas.CsvCond
/-! Which rows can follow each other, and the list of all flows of the rounds. -/
set_option linter.unusedSimpArgs false
set_option linter.unusedVariables false

namespace Bpmn.Csv
open Bpmn.Spec Bpmn.Spec.Csv

theorem trailing_ends {s pre : String} {n : Nat} (ha : ∀ c ∈ s.toList, c.isAlphanum = true) (h : trailingNumber s = some (pre, n)) : Ends pre.toList := by
  have h0 := h
  simp only [trailingNumber] at h
  split at h
  · simp only [Option.some.injEq, Prod.mk.injEq] at h
    obtain ⟨rfl, -⟩ := h
    rw [String.toList_ofList]
    match hd : s.toList.reverse.dropWhile Char.isDigit with
    | [] => exact Or.inl rfl
    | c :: r =>
      right
      refine ⟨r.reverse, c, by simp, ?_⟩
      have hc : c.isDigit = false := by
        have := List.head?_dropWhile_not Char.isDigit s.toList.reverse
        rw [hd] at this
        simpa using this
      have hm : c ∈ s.toList := by
        have : c ∈ s.toList.reverse.dropWhile Char.isDigit := by rw [hd]; simp
        have := (List.dropWhile_sublist _).subset this
        simpa using this
      have := ha c hm
      simp only [Char.isAlphanum, hc, Bool.or_false] at this
      exact alpha_letter this
  · cases h

theorem mergeScan_skip : ∀ (l sk r : List Char), Letters l → mergeScan sk [] (l ++ r) = mergeScan (sk ++ l) [] r
  | [], _, _, _ => by simp
  | c :: l, sk, r, h => by
    have hc := h c (by simp)
    rw [List.cons_append, mergeScan]
    simp only [alpha_not_digit hc, Bool.false_eq_true, if_false, ne_eq, not_true_eq_false, and_false, List.append_nil]
    rw [mergeScan_skip l _ r fun x hx => h x (List.mem_cons_of_mem _ hx)]
    simp

theorem mergeScan_only_letters {l : List Char} (h : Letters l) : mergeScan [] [] l = [] := by
  have := mergeScan_skip l [] [] h
  simpa [mergeScan] using this

theorem mergeScan_one {l : List Char} (h : Letters l) (n : Nat) {c : Char} (hc : isLetter c = true) :
    mergeScan [] [] (l ++ (decimal n ++ [c])) = [(l, decimal n, c)] := by
  rw [mergeScan_skip l [] _ h, List.nil_append, mergeScan_digits _ _ _ _ (fun _ => decimal_isDigit)]
  simp [mergeScan, isLetter_not_digit hc, hc, decimal_ne_nil]

theorem value_decimal (n : Nat) : Nat.ofDigitChars 10 (decimal n) 0 = n := by rw [decimal_eq, Nat.ofDigitChars_ten_toDigits]

/-- The rows that the import may put behind a row. -/
inductive NextRow (r s : String) : Prop where
  | sequence {p : String} {n : Nat} : trailingNumber r = some (p, n) → s = p ++ toString (n + 1) → NextRow r s
  | split {p : String} {n : Nat} {c : Char} {ones : List Char} : trailingNumber r = some (p, n) → isLetter c = true → (∀ x ∈ ones, x = '1') →
      s.toList = (p ++ toString (n + 1)).toList ++ c :: ones → NextRow r s
  | merge {sk ds : List Char} {c : Char} : (sk, ds, c) ∈ mergeScan [] [] (stem r) → Letters sk →
      s = String.ofList (sk ++ decimal (Nat.ofDigitChars 10 ds 0 + 1)) → NextRow r s

theorem trailing_succ {r p : String} {n : Nat} (ha : ∀ c ∈ r.toList, c.isAlphanum = true) (h : trailingNumber r = some (p, n)) (m : Nat) :
    trailingNumber (p ++ toString m) = some (p, m) := by
  have := trailingNumber_decimal m (trailing_ends ha h)
  rw [← append_toString, String.ofList_toList] at this
  exact this

theorem trailing_split {s q : String} {c : Char} {ones : List Char} (hc : isLetter c = true) (h1 : ∀ x ∈ ones, x = '1')
    (h : s.toList = q.toList ++ c :: ones) : stem s = q.toList ++ [c] ∧ ∀ p n, trailingNumber s = some (p, n) → p.toList = q.toList ++ [c] := by
  by_cases e : ones = []
  · subst e
    have : trailingNumber s = none := by
      have := trailingNumber_letter q.toList hc
      rw [← h, String.ofList_toList] at this
      exact this
    refine ⟨?_, ?_⟩
    · unfold stem; rw [this]; exact h
    · intro p n hp; rw [this] at hp; cases hp
  · have := trailingNumber_digits (p := q.toList ++ [c]) (ds := ones) (Or.inr ⟨_, c, rfl, hc⟩) (fun x hx => by rw [h1 x hx]; rfl) e
    rw [show String.ofList (q.toList ++ [c] ++ ones) = s by apply String.toList_injective; rw [h]; simp] at this
    refine ⟨?_, ?_⟩
    · unfold stem; rw [this]; simp
    · intro p n hp
      rw [this] at hp
      simp only [Option.some.injEq, Prod.mk.injEq] at hp
      rw [← hp.1, String.toList_ofList]

theorem NextRow.asymm {r s : String} (hr : ∀ c ∈ r.toList, c.isAlphanum = true) (hs : ∀ c ∈ s.toList, c.isAlphanum = true)
    (h : NextRow r s) (k : NextRow s r) : False := by
  -- a sequence step, then something back
  have seqCase : ∀ {r s : String}, (∀ c ∈ r.toList, c.isAlphanum = true) → (∀ c ∈ s.toList, c.isAlphanum = true) → ∀ {p : String} {n : Nat},
      trailingNumber r = some (p, n) → s = p ++ toString (n + 1) → NextRow s r → False := by
    intro r s hr hs p n h1 h2 k
    have ts : trailingNumber s = some (p, n + 1) := by rw [h2]; exact trailing_succ hr h1 _
    cases k with
    | sequence k1 k2 =>
      rw [ts] at k1; cases k1
      have := trailing_succ hr h1 (n + 1 + 1)
      rw [← k2, h1] at this
      simp at this
      omega
    | split k1 kc ko k2 =>
      rw [ts] at k1; cases k1
      have := (trailing_split kc ko k2).2 _ _ h1
      have := congrArg List.length this
      simp at this
    | @merge sk ds c k1 k2 k3 =>
      have : stem s = p.toList := by unfold stem; rw [ts]
      rw [this] at k1
      have tr := trailingNumber_decimal (Nat.ofDigitChars 10 ds 0 + 1) k2.ends
      rw [← k3, h1] at tr
      simp only [Option.some.injEq, Prod.mk.injEq] at tr
      rw [tr.1, String.toList_ofList, mergeScan_only_letters k2] at k1
      simp at k1
  -- a split step, then a split or a merge back
  have splitCase : ∀ {r s : String}, ∀ {p : String} {n : Nat} {c : Char} {ones : List Char},
      trailingNumber r = some (p, n) → isLetter c = true → (∀ x ∈ ones, x = '1') → s.toList = (p ++ toString (n + 1)).toList ++ c :: ones →
      (∃ p' n' c' ones', trailingNumber s = some (p', n') ∧ isLetter c' = true ∧ (∀ x ∈ ones', x = '1') ∧
        r.toList = (p' ++ toString (n' + 1)).toList ++ c' :: ones') ∨
      (∃ sk ds c, (sk, ds, c) ∈ mergeScan [] [] (stem s) ∧ Letters sk ∧ r = String.ofList (sk ++ decimal (Nat.ofDigitChars 10 ds 0 + 1))) → False := by
    intro r s p n c ones h1 hc ho h2 k
    obtain ⟨st, tt⟩ := trailing_split hc ho h2
    rcases k with ⟨p', n', c', ones', k1, kc, ko, k2⟩ | ⟨sk, ds, c', k1, k2, k3⟩
    · have e1 := tt _ _ k1
      have e2 := (trailing_split kc ko k2).2 _ _ h1
      have l1 := congrArg List.length e1
      have l2 := congrArg List.length e2
      simp at l1 l2
      omega
    · have tr := trailingNumber_decimal (Nat.ofDigitChars 10 ds 0 + 1) k2.ends
      rw [← k3, h1] at tr
      simp only [Option.some.injEq, Prod.mk.injEq] at tr
      obtain ⟨rfl, rfl⟩ := tr
      rw [st, String.toList_append, String.toList_ofList, List.append_assoc] at k1
      have := mergeScan_one k2 (Nat.ofDigitChars 10 ds 0 + 1 + 1) hc
      rw [decimal] at this
      rw [this, List.mem_singleton] at k1
      simp only [Prod.mk.injEq] at k1
      have := value_decimal (Nat.ofDigitChars 10 ds 0 + 1 + 1)
      rw [decimal, ← k1.2.1] at this
      omega
  cases h with
  | sequence h1 h2 => exact seqCase hr hs h1 h2 k
  | split h1 h2 h3 h4 =>
    cases k with
    | sequence k1 k2 => exact seqCase hs hr k1 k2 (NextRow.split h1 h2 h3 h4)
    | split k1 k2 k3 k4 => exact splitCase h1 h2 h3 h4 (Or.inl ⟨_, _, _, _, k1, k2, k3, k4⟩)
    | merge k1 k2 k3 => exact splitCase h1 h2 h3 h4 (Or.inr ⟨_, _, _, k1, k2, k3⟩)
  | @merge sk ds c h1 h2 h3 =>
    cases k with
    | sequence k1 k2 => exact seqCase hs hr k1 k2 (NextRow.merge h1 h2 h3)
    | split k1 k2 k3 k4 => exact splitCase k1 k2 k3 k4 (Or.inr ⟨_, _, _, h1, h2, h3⟩)
    | merge k1 k2 k3 =>
      have : stem s = sk := by
        unfold stem
        rw [h3, trailingNumber_decimal _ h2.ends, String.toList_ofList]
      rw [this, mergeScan_only_letters h2] at k1
      simp at k1

/-! ## The flows of the rounds -/

/-- What a flow looks like. -/
inductive Shape (nodes : List String) : String × String → Prop where
  | direct {r s : String} : r ∈ nodes → s ∈ nodes → NextRow r s → Shape nodes (r, s)
  | toSplit {r : String} : r ∈ nodes → Shape nodes (r, r ++ "_split")
  | fromSplit {r s : String} : r ∈ nodes → s ∈ nodes → NextRow r s → Shape nodes (r ++ "_split", s)
  | toJoin {r s : String} : r ∈ nodes → s ∈ nodes → NextRow r s → Shape nodes (r, s ++ "_join")
  | fromJoin {s : String} : s ∈ nodes → Shape nodes (s ++ "_join", s)

theorem nextRow_sequence {r s : String} (h : s ∈ sequenceSuccessors r) : NextRow r s := by
  unfold sequenceSuccessors at h
  cases ht : trailingNumber r with
  | none => rw [ht] at h; simp at h
  | some a => rw [ht] at h; exact NextRow.sequence ht (List.mem_singleton.1 h)

theorem nextRow_split {r s : String} {nodes succ : List String} (h : splitSuccessors r nodes = .ok succ) (hs : s ∈ succ) : s ∈ nodes ∧ NextRow r s := by
  unfold splitSuccessors at h
  cases ht : trailingNumber r with
  | none => rw [ht] at h; cases h
  | some a =>
    rw [ht] at h; cases h
    obtain ⟨h1, h2⟩ := List.mem_filter.1 hs
    obtain ⟨c, l, h3, h4, h5⟩ := (matchesSplit_iff _ _).1 h2
    exact ⟨h1, NextRow.split ht h3 h4 h5⟩

theorem nextRow_merge {r s : String} (ha : ∀ c ∈ r.toList, c.isAlphanum = true) {cs : List String} (h : mergeSuccessors r = .ok cs) (hs : s ∈ cs) :
    NextRow r s := by
  obtain ⟨sk, ds, c, h1, h2, h3⟩ := merge_candidate ha h hs
  exact NextRow.merge h1 h2 h3

theorem Plan.shape {pd : Dict String Line} {nodes : List String} {d : Diagram} {r : String} {g : Option (String × Option String)}
    {l : List (String × String)} (h : Plan pd nodes d r g l) (hr : r ∈ nodes) (ha : ∀ c ∈ r.toList, c.isAlphanum = true) : ∀ p ∈ l, Shape nodes p := by
  cases h with
  | stop => simp
  | sequence _ _ _ h4 =>
    intro p hp
    rw [List.mem_singleton] at hp; subst hp
    exact Shape.direct hr (onlyPresent_mem h4).2 (nextRow_sequence (onlyPresent_mem h4).1)
  | split _ _ _ _ _ h6 =>
    intro p hp
    rcases List.mem_cons.1 hp with rfl | hp
    · exact Shape.toSplit hr
    · obtain ⟨s, hs, rfl⟩ := List.mem_map.1 hp
      obtain ⟨a, b⟩ := nextRow_split h6 hs
      exact Shape.fromSplit hr a b
  | join _ _ _ _ h5 h6 =>
    intro p hp
    rw [List.mem_singleton] at hp; subst hp
    exact Shape.toJoin hr (onlyPresent_mem h6).2 (nextRow_merge ha h5 (onlyPresent_mem h6).1)
  | newJoin _ _ _ _ h5 h6 =>
    intro p hp
    simp only [List.mem_cons, List.not_mem_nil, or_false] at hp
    rcases hp with rfl | rfl
    · exact Shape.fromJoin (onlyPresent_mem h6).2
    · exact Shape.toJoin hr (onlyPresent_mem h6).2 (nextRow_merge ha h5 (onlyPresent_mem h6).1)

/-- Splits and joins, without cases on strings. -/
theorem Shape.cases {nodes : List String} (hu : ∀ x ∈ nodes, '_' ∉ x.toList) {a b : String} (h : Shape nodes (a, b)) :
    (a ∈ nodes ∧ b ∈ nodes ∧ NextRow a b) ∨ (a ∈ nodes ∧ b = a ++ "_split") ∨ (∃ r ∈ nodes, a = r ++ "_split" ∧ b ∈ nodes ∧ NextRow r b) ∨
      (a ∈ nodes ∧ ∃ s ∈ nodes, b = s ++ "_join" ∧ NextRow a s) ∨ (b ∈ nodes ∧ a = b ++ "_join") := by
  generalize hp : (a, b) = p at h
  cases h with
  | direct h1 h2 h3 => cases hp; exact Or.inl ⟨h1, h2, h3⟩
  | toSplit h1 => cases hp; exact Or.inr (Or.inl ⟨h1, rfl⟩)
  | fromSplit h1 h2 h3 => cases hp; exact Or.inr (Or.inr (Or.inl ⟨_, h1, rfl, h2, h3⟩))
  | toJoin h1 h2 h3 => cases hp; exact Or.inr (Or.inr (Or.inr (Or.inl ⟨h1, _, h2, rfl, h3⟩)))
  | fromJoin h1 => cases hp; exact Or.inr (Or.inr (Or.inr (Or.inr ⟨h1, rfl⟩)))

/-- No flow has a flow back. -/
theorem Shape.asymm {nodes : List String} (hu : ∀ x ∈ nodes, '_' ∉ x.toList) (ha : ∀ x ∈ nodes, ∀ c ∈ x.toList, c.isAlphanum = true)
    {a b : String} (h : Shape nodes (a, b)) (k : Shape nodes (b, a)) : False := by
  have ns : ∀ {x y : String}, x ∈ nodes → x = y ++ "_split" → False := fun h e => hu _ h (e ▸ underscore_split _)
  have nj : ∀ {x y : String}, x ∈ nodes → x = y ++ "_join" → False := fun h e => hu _ h (e ▸ underscore_join _)
  have irr : ∀ {x : String}, x ∈ nodes → NextRow x x → False := fun hx h => h.asymm (ha _ hx) (ha _ hx) h
  rcases h.cases hu with ⟨h1, h2, h3⟩ | ⟨h1, h2⟩ | ⟨r, h1, h2, h3, h4⟩ | ⟨h1, s, h2, h3, h4⟩ | ⟨h1, h2⟩ <;>
  rcases k.cases hu with ⟨k1, k2, k3⟩ | ⟨k1, k2⟩ | ⟨r', k1, k2, k3, k4⟩ | ⟨k1, s', k2, k3, k4⟩ | ⟨k1, k2⟩
  · exact h3.asymm (ha _ h1) (ha _ h2) k3
  · exact ns h1 k2
  · exact ns h2 k2
  · exact nj h1 k3
  · exact nj h2 k2
  · exact ns k1 h2
  · exact ns h1 k2
  · rw [h2] at k2; have := split_inj k2; subst this; exact irr h1 k4
  · exact nj h1 k3
  · exact split_ne_join _ _ (h2.symm.trans k2)
  · exact ns k2 h2
  · rw [h2] at k2; have := split_inj k2; subst this; exact irr h1 h4
  · exact ns k3 h2
  · exact split_ne_join _ _ (h2.symm.trans k3)
  · exact ns k1 h2
  · exact nj k1 h3
  · exact ns h1 k2
  · exact split_ne_join _ _ (k2.symm.trans h3)
  · exact nj h1 k3
  · rw [h3] at k2; have := join_inj k2; subst this; exact irr h1 h4
  · exact nj k2 h2
  · exact split_ne_join _ _ (k2.symm.trans h2)
  · exact ns h1 k2
  · rw [h2] at k3; have := join_inj k3; subst this; exact irr h1 k4
  · exact nj h1 k2

theorem Rounds.shape {pd : Dict String Line} {nodes rs : List String} {d d' : Diagram} {F : List (String × String)} (h : Rounds pd nodes rs d F d')
    (hr : ∀ r ∈ rs, r ∈ nodes) (ha : ∀ x ∈ nodes, ∀ c ∈ x.toList, c.isAlphanum = true) : ∀ p ∈ F, Shape nodes p := by
  intro p hp
  obtain ⟨r, h1, dr, g, l, hP, hl⟩ := h.origin p hp
  exact hP.shape (hr r h1) (ha r (hr r h1)) p hl

/-- No flow is added twice. -/
theorem Plan.nodup {pd : Dict String Line} {nodes : List String} (nd : nodes.Nodup) {d : Diagram} {r : String} {g : Option (String × Option String)}
    {l : List (String × String)} (hu : '_' ∉ r.toList) (h : Plan pd nodes d r g l) : l.Nodup := by
  cases h with
  | stop => simp
  | sequence => simp
  | split _ _ _ _ _ h6 =>
    rw [List.nodup_cons]
    constructor
    · intro hm
      obtain ⟨s, _, e⟩ := List.mem_map.1 hm
      simp only [Prod.mk.injEq] at e
      exact ne_split r e.1.symm
    · unfold splitSuccessors at h6
      split at h6
      · cases h6
      · cases h6
        exact (nd.filter _).map _ (fun a b h e => h (by simpa using e))
  | join => simp
  | newJoin _ _ _ _ _ h6 =>
    simp only [List.nodup_cons, List.mem_singleton, Prod.mk.injEq, List.not_mem_nil, not_false_iff, List.nodup_nil, and_true]
    rintro ⟨e, -⟩
    exact hu (e ▸ underscore_join _)

theorem Rounds.nodup {pd : Dict String Line} {nodes : List String} (hu : ∀ x ∈ nodes, '_' ∉ x.toList) (nd : nodes.Nodup) {rs : List String}
    {d d' : Diagram} {F : List (String × String)} (h : Rounds pd nodes rs d F d') : ∀ {done : List String}, Inv d → (∀ x ∈ ids d, Named nodes done x) →
      (∀ r ∈ rs, r ∈ nodes) → rs.Nodup →
      F.Nodup ∧ ∀ p ∈ F, p.1 ∈ rs ∨ (∃ r ∈ rs, p.1 = r ++ "_split") ∨ (p.1 = p.2 ++ "_join" ∧ p.1 ∉ ids d) := by
  induction h with
  | nil => intro _ _ _ _ _; simp
  | @cons r rs d d1 d2 g l F hR k ih =>
    intro done i hn hr ndr
    rw [List.nodup_cons] at ndr
    have hrn := hr r (by simp)
    obtain ⟨i1, g1, hn1, w1⟩ := hR.step hu hrn i hn
    obtain ⟨ih1, ih2⟩ := ih i1 hn1 (fun x hx => hr x (List.mem_cons_of_mem _ hx)) ndr.2
    have own : ∀ p ∈ l, p.1 = r ∨ p.1 = r ++ "_split" ∨ (p.1 = p.2 ++ "_join" ∧ p.1 ∉ ids d ∧ p.1 ∈ ids d1) := by
      obtain ⟨hP, dm, hc, hch⟩ := hR
      intro p hp
      have hw := w1 p hp
      have := hw.src
      cases hP with
      | newJoin _ _ _ _ _ _ h7 =>
        simp only [List.mem_cons, List.not_mem_nil, or_false] at hp
        rcases hp with rfl | rfl
        · exact Or.inr (Or.inr ⟨rfl, h7, this⟩)
        · exact Or.inl rfl
      | stop => simp at hp
      | sequence => simp at hp; subst hp; exact Or.inl rfl
      | split =>
        simp at hp
        rcases hp with rfl | ⟨s, _, rfl⟩
        · exact Or.inl rfl
        · exact Or.inr (Or.inl rfl)
      | join => simp at hp; subst hp; exact Or.inl rfl
    constructor
    · rw [List.nodup_append]
      refine ⟨hR.plan.nodup nd (hu r hrn), ih1, ?_⟩
      rintro p hp _ hq rfl
      rcases own p hp with o | o | ⟨o, _, o2⟩ <;> rcases ih2 p hq with q | ⟨r', q, q2⟩ | ⟨q, q2⟩
      · exact ndr.1 (o ▸ q)
      · exact hu r hrn (o ▸ q2 ▸ underscore_split _)
      · exact hu r hrn (o ▸ q ▸ underscore_join _)
      · exact hu _ (hr _ (List.mem_cons_of_mem _ q)) (o ▸ underscore_split _)
      · exact ndr.1 (split_inj (o.symm.trans q2) ▸ q)
      · exact split_ne_join _ _ (o.symm.trans q)
      · exact hu _ (hr _ (List.mem_cons_of_mem _ q)) (o ▸ underscore_join _)
      · exact split_ne_join _ _ (q2.symm.trans o)
      · exact q2 o2
    · intro p hp
      rw [List.mem_append] at hp
      rcases hp with hp | hp
      · rcases own p hp with o | o | ⟨o, o1, _⟩
        · exact Or.inl (o ▸ List.mem_cons_self)
        · exact Or.inr (Or.inl ⟨r, List.mem_cons_self, o⟩)
        · exact Or.inr (Or.inr ⟨o, o1⟩)
      · rcases ih2 p hp with q | ⟨r', q, q2⟩ | ⟨q, q2⟩
        · exact Or.inl (List.mem_cons_of_mem _ q)
        · exact Or.inr (Or.inl ⟨r', List.mem_cons_of_mem _ q, q2⟩)
        · exact Or.inr (Or.inr ⟨q, fun hm => q2 (g1.ids _ hm)⟩)

end Bpmn.Csv

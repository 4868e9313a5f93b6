import Verif.Lemmas.CsvTable
/-! What the rounds of the CSV import add up to. -/
set_option linter.unusedSimpArgs false
set_option linter.unusedVariables false

namespace Bpmn.Csv
open Bpmn.Spec Bpmn.Spec.Csv

/-! ## Candidates for a merge, in general -/

/-- Not a digit among them, and all of them letters or digits. -/
def Letters (l : List Char) : Prop := ∀ c ∈ l, c.isAlpha = true

theorem alpha_not_digit {c : Char} (h : c.isAlpha = true) : c.isDigit = false := isLetter_not_digit (alpha_letter h)

theorem Letters.ends {l : List Char} (h : Letters l) : Ends l := by
  rcases List.eq_nil_or_concat l with rfl | ⟨q, c, rfl⟩
  · exact Or.inl rfl
  · exact Or.inr ⟨q, c, by simp, alpha_letter (h c (by simp))⟩

theorem mergeScan_letters : ∀ (r sk ds : List Char), Letters sk → (∀ c ∈ ds, c.isDigit = true) → (∀ c ∈ r, c.isAlphanum = true) →
    ∀ m ∈ mergeScan sk ds r, Letters m.1 ∧ m.2.1 ≠ [] ∧ (∀ c ∈ m.2.1, c.isDigit = true) ∧ isLetter m.2.2 = true
  | [], _, _, _, _, _ => by simp [mergeScan]
  | c :: r, sk, ds, h1, h2, h3 => by
    have hr : ∀ c ∈ r, c.isAlphanum = true := fun x hx => h3 x (List.mem_cons_of_mem _ hx)
    unfold mergeScan
    split
    · rename_i hc
      refine mergeScan_letters r sk (ds ++ [c]) h1 ?_ hr
      intro x hx
      simp at hx
      rcases hx with hx | rfl
      · exact h2 x hx
      · exact hc
    · rename_i hc
      have ha : c.isAlpha = true := by
        have := h3 c (by simp)
        simp only [Char.isAlphanum, Bool.or_eq_true] at this
        rcases this with h | h
        · exact h
        · exact absurd h hc
      split
      · rename_i hd
        intro m hm
        simp only [List.mem_cons] at hm
        rcases hm with rfl | hm
        · exact ⟨h1, hd.2, h2, hd.1⟩
        · exact mergeScan_letters r [] [] (by simp [Letters]) (by simp) hr m hm
      · rename_i hd
        have : ds = [] := by
          by_cases e : ds = []
          · exact e
          · exact absurd ⟨alpha_letter ha, e⟩ hd
        subst this
        refine mergeScan_letters r _ [] ?_ (by simp) hr
        intro x hx
        simp at hx
        rcases hx with hx | rfl
        · exact h1 x hx
        · exact ha

theorem mergeLoop_mem : ∀ {ms : List (List Char × List Char × Char)} {cs : List String}, mergeLoop ms = .ok cs → ∀ s ∈ cs,
    ∃ m ∈ ms, s = String.ofList (m.1 ++ decimal (Nat.ofDigitChars 10 m.2.1 0 + 1))
  | [], cs, h => by cases h; simp
  | (pre, ds, c) :: ms, cs, h => by
    unfold mergeLoop at h
    split at h
    · cases h
    · obtain ⟨rest, h1, h⟩ := except_bind_eq_ok h
      cases h
      intro s hs
      simp only [List.mem_cons] at hs
      rcases hs with rfl | hs
      · exact ⟨_, List.mem_cons_self, append_toString _ _⟩
      · obtain ⟨m, hm, e⟩ := mergeLoop_mem h1 s hs
        exact ⟨m, List.mem_cons_of_mem _ hm, e⟩

/-- The part of an order in which a merge looks for numbers. -/
def stem (s : String) : List Char := (match trailingNumber s with | some (p, _) => p | none => s).toList

theorem stem_sub (s : String) : ∃ ds, s.toList = stem s ++ ds ∧ ∀ c ∈ ds, c.isDigit = true := by
  unfold stem
  cases h : trailingNumber s with
  | none => exact ⟨[], by simp, by simp⟩
  | some p =>
    obtain ⟨ds, h1, h2, h3, h4⟩ := trailingNumber_some (p := p.1) (n := p.2) h
    exact ⟨ds, h1, h3⟩

theorem mergeSuccessors_mem {r : String} {cs : List String} (h : mergeSuccessors r = .ok cs) {s : String} (hs : s ∈ cs) :
    ∃ m ∈ mergeScan [] [] (stem r), s = String.ofList (m.1 ++ decimal (Nat.ofDigitChars 10 m.2.1 0 + 1)) := by
  unfold mergeSuccessors at h
  unfold stem
  cases ht : trailingNumber r with
  | none =>
    simp only [ht] at h ⊢
    split at h
    · exact mergeLoop_mem h s hs
    · cases h; simp at hs
  | some p =>
    simp only [ht] at h ⊢
    split at h
    · exact mergeLoop_mem h s hs
    · cases h; simp at hs

/-- The candidates of an order made of letters and digits: some letters and a number. -/
theorem merge_candidate {r : String} (ha : ∀ c ∈ r.toList, c.isAlphanum = true) {cs : List String} (h : mergeSuccessors r = .ok cs) {s : String}
    (hs : s ∈ cs) : ∃ sk ds c, (sk, ds, c) ∈ mergeScan [] [] (stem r) ∧ Letters sk ∧
      s = String.ofList (sk ++ decimal (Nat.ofDigitChars 10 ds 0 + 1)) := by
  obtain ⟨⟨sk, ds, c⟩, hm, e⟩ := mergeSuccessors_mem h hs
  obtain ⟨t, ht, _⟩ := stem_sub r
  have := mergeScan_letters (stem r) [] [] (by simp [Letters]) (by simp) (fun c hc => ha c (by rw [ht]; simp [hc])) _ hm
  exact ⟨sk, ds, c, hm, this.1, e⟩

/-! ## Types of gateways -/

theorem gatewayType_cases {pd : Dict String Line} {r : String} {nodes : List String} {ty : String} (h : gatewayType pd r nodes = .ok ty) :
    ty = "exclusiveGateway" ∨ ty = "parallelGateway" ∨ ty = "inclusiveGateway" := by
  unfold gatewayType at h
  obtain ⟨succ, _, h⟩ := except_bind_eq_ok h
  obtain ⟨cs, _, h⟩ := except_bind_eq_ok h
  split at h
  · cases h; simp
  · split at h
    · cases h; simp
    · cases h; simp

theorem kindOf_gateway {ty : String} (h : ty = "exclusiveGateway" ∨ ty = "parallelGateway" ∨ ty = "inclusiveGateway") : kindOf (some ty) = ty := by
  rcases h with rfl | rfl | rfl <;> decide

theorem gatewayKind_of {d : Diagram} {x ty : String} (hk : kind d x = some ty) (h : ty = "exclusiveGateway" ∨ ty = "parallelGateway" ∨ ty = "inclusiveGateway") :
    GatewayKind d x := by
  unfold GatewayKind
  rw [hk]
  rcases h with rfl | rfl | rfl <;> simp

theorem gatewayKind_iff {d : Diagram} {x : String} :
    GatewayKind d x ↔ ∃ ty, kind d x = some ty ∧ (ty = "exclusiveGateway" ∨ ty = "parallelGateway" ∨ ty = "inclusiveGateway") := by
  constructor
  · intro h
    simp [GatewayKind] at h
    rcases h with h | h | h <;> exact ⟨_, h, by simp⟩
  · rintro ⟨ty, h1, h2⟩; exact gatewayKind_of h1 h2

/-- Every node that is not one of a row is a gateway. -/
def Typed (nodes : List String) (d : Diagram) : Prop := ∀ x ∈ ids d, x ∈ nodes ∨ GatewayKind d x

theorem mergeNodeType_gateway {nodes : List String} (hu : ∀ x ∈ nodes, '_' ∉ x.toList) {d : Diagram} (ht : Typed nodes d) {s : String}
    {sk : List Char} {k : Nat} (hs : s = String.ofList (sk ++ decimal k)) (hl : Letters sk) {ty : Option String}
    (h : mergeNodeType s d = .ok ty) : ∃ t, ty = some t ∧ (t = "exclusiveGateway" ∨ t = "parallelGateway" ∨ t = "inclusiveGateway") := by
  unfold mergeNodeType at h
  rw [hs, trailingNumber_decimal k hl.ends] at h
  dsimp only at h
  split at h
  · cases h
  · split at h
    · cases h; exact ⟨_, rfl, by simp⟩
    · rename_i a ha
      obtain ⟨t, h1, h⟩ := except_bind_eq_ok h
      have h1 := need_ok h1
      cases h
      have hm := Dict.mem_keys_of_get? ha
      rcases ht _ hm with hn | hn
      · exact absurd (underscore_split _) (hu _ hn)
      · obtain ⟨t', h2, h3⟩ := gatewayKind_iff.1 hn
        have : t = t' := by
          unfold kind at h2; rw [ha, Option.bind_some, h1] at h2; exact Option.some.inj h2
        subst this
        refine ⟨t, ?_, h3⟩
        rcases h3 with rfl | rfl | rfl <;> decide

theorem Round.typed {pd : Dict String Line} {nodes : List String} (hu : ∀ x ∈ nodes, '_' ∉ x.toList) {r : String}
    (ha : ∀ c ∈ r.toList, c.isAlphanum = true) {d d' : Diagram} {g : Option (String × Option String)} {l : List (String × String)}
    (h : Round pd nodes r d g l d') (gr : Grows d d') (ht : Typed nodes d) : Typed nodes d' := by
  have old : ∀ x ∈ ids d, x ∈ nodes ∨ GatewayKind d' x := by
    intro x hx
    rcases ht x hx with h1 | h1
    · exact Or.inl h1
    · exact Or.inr ((GatewayKind.congr (gr.bare x hx)).2 h1)
  obtain ⟨hp, d1, h1, hc⟩ := h
  intro x hx
  rw [hc.ids] at hx
  rcases h1 with ⟨rfl, rfl⟩ | ⟨n, ty, rfl, hno, had⟩
  · exact old x hx
  · rw [had.ids] at hx
    simp at hx
    rcases hx with hx | rfl
    · exact old x hx
    · right
      have hk : kind d' x = some (kindOf ty) := by
        have : ∀ {l : List (String × String)} {a b : Diagram}, Chained pd a l b → bareOf b x = bareOf a x := by
          intro l a b hh
          induction hh with
          | nil => rfl
          | cons h _ ih => rw [ih, h.bare]
        rw [kind_eq, this hc, ← kind_eq]
        exact had.looks.kind
      cases hp with
      | split _ _ _ _ h5 _ =>
        have := gatewayType_cases h5
        rw [kindOf_gateway this] at hk
        exact gatewayKind_of hk this
      | newJoin _ _ _ _ h5 h6 _ h7 =>
        obtain ⟨sk, ds, c, _, hl, e⟩ := merge_candidate ha h5 (onlyPresent_mem h6).1
        obtain ⟨t, rfl, h8⟩ := mergeNodeType_gateway hu ht e hl h7
        rw [kindOf_gateway h8] at hk
        exact gatewayKind_of hk h8

theorem Rounds.typed {pd : Dict String Line} {nodes : List String} (hu : ∀ x ∈ nodes, '_' ∉ x.toList)
    (ha : ∀ r ∈ nodes, ∀ c ∈ r.toList, c.isAlphanum = true) {rs : List String} {d d' : Diagram}
    {F : List (String × String)} (h : Rounds pd nodes rs d F d') : ∀ {done : List String}, Inv d → (∀ x ∈ ids d, Named nodes done x) →
      (∀ r ∈ rs, r ∈ nodes) → Typed nodes d → Typed nodes d' := by
  induction h with
  | nil => intro _ _ _ _ h; exact h
  | cons hR _ ih =>
    intro done i hn hr ht
    obtain ⟨i1, g1, hn1, w1⟩ := hR.step hu (hr _ (by simp)) i hn
    exact ih i1 hn1 (fun x hx => hr x (List.mem_cons_of_mem _ hx)) (hR.typed hu (ha _ (hr _ (by simp))) g1 ht)

/-! ## Which flows a round adds -/

/-- The round of a row, and those before and behind it. -/
theorem Rounds.around {pd : Dict String Line} {nodes : List String} {rs : List String} {d d' : Diagram} {F : List (String × String)}
    (h : Rounds pd nodes rs d F d') : ∀ r ∈ rs, ∃ a b F1 l F2 g d1 d2, rs = a ++ r :: b ∧ Rounds pd nodes a d F1 d1 ∧ Round pd nodes r d1 g l d2 ∧
      Rounds pd nodes b d2 F2 d' ∧ F = F1 ++ (l ++ F2) := by
  induction h with
  | nil => intro r hr; simp at hr
  | @cons q rs d d1 d2 g l F hR k ih =>
    intro r hr
    simp only [List.mem_cons] at hr
    by_cases e : r = q
    · subst e
      exact ⟨[], rs, [], l, F, g, d, d1, rfl, Rounds.nil _, hR, k, rfl⟩
    · obtain ⟨a, b, F1, l', F2, g', e1, e2, h1, h2, h3, h4, h5⟩ := ih r (by simpa [e] using hr)
      exact ⟨q :: a, b, l ++ F1, l', F2, g', e1, e2, by rw [h1]; rfl, Rounds.cons hR h2, h3, h4, by rw [h5]; simp⟩

theorem ne_split (a : String) : a ≠ a ++ "_split" := by
  intro e
  have := congrArg (fun s : String => s.toList.length) e
  simp at this

theorem ne_join (a : String) : a ≠ a ++ "_join" := by
  intro e
  have := congrArg (fun s : String => s.toList.length) e
  simp at this

/-- Where the flows of a round start. -/
theorem Plan.sources {pd : Dict String Line} {nodes : List String} {d : Diagram} {r : String} {g : Option (String × Option String)}
    {l : List (String × String)} (h : Plan pd nodes d r g l) : ∀ p ∈ l, p.1 = r ∨ p.1 = r ++ "_split" ∨ p.1 = p.2 ++ "_join" := by
  cases h <;> simp

theorem leaving_nil {x : String} {l : List (String × String)} (h : ∀ p ∈ l, p.1 ≠ x) : leaving x l = [] := by
  simp only [leaving, List.map_eq_nil_iff, List.filter_eq_nil_iff]
  intro p hp; simpa using h p hp

theorem entering_nil {x : String} {l : List (String × String)} (h : ∀ p ∈ l, p.2 ≠ x) : entering x l = [] := by
  simp only [entering, List.map_eq_nil_iff, List.filter_eq_nil_iff]
  intro p hp; simpa using h p hp

theorem mem_leaving {x f : String} {l : List (String × String)} : f ∈ leaving x l ↔ ∃ t, (x, t) ∈ l ∧ f = flowId x t := by
  simp only [leaving, List.mem_map, List.mem_filter, decide_eq_true_eq]
  constructor
  · rintro ⟨⟨a, b⟩, ⟨h1, rfl⟩, rfl⟩; exact ⟨b, h1, rfl⟩
  · rintro ⟨t, h, rfl⟩; exact ⟨(x, t), ⟨h, rfl⟩, rfl⟩

theorem mem_entering {x f : String} {l : List (String × String)} : f ∈ entering x l ↔ ∃ s, (s, x) ∈ l ∧ f = flowId s x := by
  simp only [entering, List.mem_map, List.mem_filter, decide_eq_true_eq]
  constructor
  · rintro ⟨⟨a, b⟩, ⟨h1, rfl⟩, rfl⟩; exact ⟨a, h1, rfl⟩
  · rintro ⟨t, h, rfl⟩; exact ⟨(t, x), ⟨h, rfl⟩, rfl⟩

/-- Every flow belongs to the plan of some row. -/
theorem Rounds.origin {pd : Dict String Line} {nodes : List String} {rs : List String} {d d' : Diagram} {F : List (String × String)}
    (h : Rounds pd nodes rs d F d') : ∀ p ∈ F, ∃ r ∈ rs, ∃ dr g l, Plan pd nodes dr r g l ∧ p ∈ l := by
  induction h with
  | nil => simp
  | cons hR _ ih =>
    intro p hp
    rw [List.mem_append] at hp
    rcases hp with hp | hp
    · exact ⟨_, List.mem_cons_self, _, _, _, hR.plan, hp⟩
    · obtain ⟨r, hr, rest⟩ := ih p hp
      exact ⟨r, List.mem_cons_of_mem _ hr, rest⟩

/-- The flows that leave the node of a row are added in its round. -/
theorem Rounds.leaving_row {pd : Dict String Line} {nodes : List String} (hu : ∀ x ∈ nodes, '_' ∉ x.toList) {rs : List String} {d d' : Diagram}
    {F : List (String × String)} (h : Rounds pd nodes rs d F d') {x : String} (hx : '_' ∉ x.toList) (hr : x ∉ rs) : leaving x F = [] := by
  refine leaving_nil fun p hp e => ?_
  obtain ⟨r, h1, dr, g, l, hP, hl⟩ := h.origin p hp
  rcases hP.sources p hl with e2 | e2 | e2
  · exact hr (e ▸ e2 ▸ h1)
  · exact hx (e ▸ e2 ▸ underscore_split _)
  · exact hx (e ▸ e2 ▸ underscore_join _)

/-- The flows that leave a split gateway are added in the round of its row. -/
theorem Rounds.leaving_split {pd : Dict String Line} {nodes : List String} (hu : ∀ x ∈ nodes, '_' ∉ x.toList) {rs : List String} {d d' : Diagram}
    {F : List (String × String)} (h : Rounds pd nodes rs d F d') (hn : ∀ r ∈ rs, r ∈ nodes) {x : String} (hr : x ∉ rs) : leaving (x ++ "_split") F = [] := by
  refine leaving_nil fun p hp e => ?_
  obtain ⟨r, h1, dr, g, l, hP, hl⟩ := h.origin p hp
  rcases hP.sources p hl with e2 | e2 | e2
  · exact hu _ (hn r h1) (e2 ▸ e ▸ underscore_split x)
  · exact hr (split_inj (e.symm.trans e2) ▸ h1)
  · exact split_ne_join _ _ (e.symm.trans e2)

theorem leaving_one (a b : String) {l : List (String × String)} (h : ∀ p ∈ l, p.1 ≠ a) : leaving a ((a, b) :: l) = [flowId a b] := by
  have := leaving_nil h
  simp only [leaving, List.filter_cons, decide_true, if_true, List.map_cons] at this ⊢
  rw [this]

/-- A row that is not terminated has one way on. -/
theorem Plan.leaving_self {pd : Dict String Line} {nodes : List String} {d : Diagram} {r : String} {g : Option (String × Option String)}
    {l : List (String × String)} (hu : '_' ∉ r.toList) (h : Plan pd nodes d r g l) {k : Line} (hk : pd.get? r = some k) :
    if k.terminated = "yes" then leaving r l = [] else ∃ t, leaving r l = [flowId r t] ∧ (r, t) ∈ l := by
  cases h with
  | stop h1 h2 =>
    rw [hk] at h1; cases h1
    simp [h2, leaving]
  | @sequence k' s h1 h2 _ _ =>
    rw [hk] at h1; cases h1
    rw [if_neg h2]
    exact ⟨s, leaving_one r s (by simp), by simp⟩
  | split h1 h2 _ _ _ _ =>
    rw [hk] at h1; cases h1
    rw [if_neg h2]
    refine ⟨_, leaving_one r _ ?_, by simp⟩
    intro p hp
    simp at hp
    obtain ⟨s, _, rfl⟩ := hp
    exact (ne_split r).symm
  | join h1 h2 _ _ _ _ _ =>
    rw [hk] at h1; cases h1
    rw [if_neg h2]
    exact ⟨_, leaving_one r _ (by simp), by simp⟩
  | @newJoin k' s _ _ h1 h2 _ _ _ _ _ _ =>
    rw [hk] at h1; cases h1
    rw [if_neg h2]
    refine ⟨s ++ "_join", ?_, by simp⟩
    have : s ++ "_join" ≠ r := fun e => hu (e ▸ underscore_join s)
    simp [leaving, this]

/-! ## Through a gateway -/

/-- A way over a node stays, or the node is bypassed. -/
theorem Cleaned.through {pd : Dict String Line} {todo : List String} {d d' : Diagram} (h : Cleaned pd todo d d') : Inv d → ∀ {x n y : String},
    Wired d x n → Wired d n y → x ∈ ids d' → y ∈ ids d' → Wired d' x n ∧ Wired d' n y ∨ Wired d' x y := by
  induction h with
  | nil => intro _ x n y w1 w2 _ _; exact Or.inl ⟨w1, w2⟩
  | keep _ _ ih => intro i x n y w1 w2 hx hy; exact ih i w1 w2 hx hy
  | @cut m src tgt r d d1 d' hg hi ho b k ih =>
    intro i x n y w1 w2 hx hy
    have kk := k.kept (b.inv i)
    have hne : ∀ z ∈ ids d', z ≠ m := by
      rintro z hz rfl
      have := kk.sub z hz
      rw [b.ids] at this
      exact (List.Nodup.not_mem_erase i.nodup) this
    by_cases e : n = m
    · subst e
      right
      obtain ⟨e1, pd', _, hr, _⟩ := b.step
      have one : ∀ {l : List String} {a c : String}, l.length < 2 → l.head? = some a → c ∈ l → c = a := by
        intro l a c h1 h2 h3
        match l, h1, h2, h3 with
        | [z], _, h2, h3 => simp at h2 h3; rw [h3, h2]
      have h1 := one hi hr.inHead w1.inn
      have h2 := one ho (hr.outHead.resolve_right (b.src_ne i).1) w2.out
      have e1 := (flowId_inj (i.plain _ w1.src) (i.plain _ hr.hasSrc) h1).1
      have e2 := (flowId_inj (i.plain _ w1.tgt) (i.plain _ w1.tgt) h2).2
      subst e1; subst e2
      exact kk.wired _ _ b.new hx hy
    · exact ih (b.inv i) (b.wired i w1 (hne x hx) e) (b.wired i w2 e (hne y hy)) hx hy

end Bpmn.Csv

import Verif.Lemmas.CsvSteps
/-! The loop that makes the flows. -/
set_option linter.unusedSimpArgs false
set_option linter.unusedVariables false

namespace Bpmn.Csv
open Bpmn.Spec Bpmn.Spec.Csv

/-! ## Growth -/

/-- Nothing is lost. -/
structure Grows (d d' : Diagram) : Prop where
  ids : ∀ x ∈ ids d, x ∈ ids d'
  bare : ∀ x ∈ Csv.ids d, bareOf d' x = bareOf d x
  wired : ∀ s t, Wired d s t → Wired d' s t
  out : ∀ x ∈ Csv.ids d, outOf d x <+: outOf d' x
  inn : ∀ x ∈ Csv.ids d, inOf d x <+: inOf d' x
  procs : d'.processElements = d.processElements
  plane : d'.planeElement = d.planeElement

theorem Grows.refl (d : Diagram) : Grows d d :=
  ⟨fun _ h => h, fun _ _ => rfl, fun _ _ h => h, fun _ _ => List.prefix_rfl, fun _ _ => List.prefix_rfl, rfl, rfl⟩

theorem Grows.trans {a b c : Diagram} (h : Grows a b) (k : Grows b c) : Grows a c :=
  ⟨fun x hx => k.ids x (h.ids x hx), fun x hx => (k.bare x (h.ids x hx)).trans (h.bare x hx), fun s t w => k.wired s t (h.wired s t w),
    fun x hx => (h.out x hx).trans (k.out x (h.ids x hx)), fun x hx => (h.inn x hx).trans (k.inn x (h.ids x hx)),
    k.procs.trans h.procs, k.plane.trans h.plane⟩

theorem Added.grows {d d' : Diagram} {o : String} {ty : Option String} {act : String} (h : Added d d' o ty act) (ho : o ∉ Csv.ids d) : Grows d d' := by
  refine ⟨?_, ?_, fun s t w => w.added h ho, ?_, ?_, h.procs, h.plane⟩
  · intro x hx; rw [h.ids]; simp [hx]
  · intro x hx; exact h.bare (fun e => ho (e ▸ hx))
  · intro x hx
    have ne : x ≠ o := fun e => ho (e ▸ hx)
    rw [h.out, if_neg ne]; exact List.prefix_rfl
  · intro x hx
    have ne : x ≠ o := fun e => ho (e ▸ hx)
    rw [h.inn, if_neg ne]; exact List.prefix_rfl

theorem Connected.grows {pd : Dict String Line} {d d' : Diagram} (i : Inv d) {s t : String} (h : Connected pd d d' s t) : Grows d d' := by
  refine ⟨?_, fun x _ => h.bare x, fun x y w => w.connected i h, ?_, ?_, h.procs, h.plane⟩
  · intro x hx; rw [h.ids]; exact hx
  · intro x hx; rw [h.out]; split
    · exact List.prefix_append _ _
    · exact List.prefix_rfl
  · intro x hx; rw [h.inn]; split
    · exact List.prefix_append _ _
    · exact List.prefix_rfl

/-! ## Several flows -/

/-- The flows of a list are added one after the other. -/
inductive Chained (pd : Dict String Line) : Diagram → List (String × String) → Diagram → Prop where
  | nil (d : Diagram) : Chained pd d [] d
  | cons {d d1 d2 : Diagram} {s t : String} {l : List (String × String)} :
      Connected pd d d1 s t → Chained pd d1 l d2 → Chained pd d ((s, t) :: l) d2

theorem Chained.append {pd : Dict String Line} {a b c : Diagram} {l m : List (String × String)} (h : Chained pd a l b) (k : Chained pd b m c) :
    Chained pd a (l ++ m) c := by
  induction h with
  | nil => exact k
  | cons h _ ih => exact Chained.cons h (ih k)

theorem Chained.inv {pd : Dict String Line} {d d' : Diagram} {l : List (String × String)} (h : Chained pd d l d') (i : Inv d) : Inv d' := by
  induction h with
  | nil => exact i
  | cons h _ ih => exact ih (i.connected h)

theorem Chained.grows {pd : Dict String Line} {d d' : Diagram} {l : List (String × String)} (h : Chained pd d l d') (i : Inv d) : Grows d d' := by
  induction h with
  | nil => exact Grows.refl _
  | cons h _ ih => exact (h.grows i).trans (ih (i.connected h))

theorem Chained.ids {pd : Dict String Line} {d d' : Diagram} {l : List (String × String)} (h : Chained pd d l d') : ids d' = ids d := by
  induction h with
  | nil => rfl
  | cons h _ ih => exact ih.trans h.ids

theorem Chained.wired {pd : Dict String Line} {d d' : Diagram} {l : List (String × String)} (h : Chained pd d l d') (i : Inv d) :
    ∀ p ∈ l, Wired d' p.1 p.2 := by
  induction h with
  | nil => simp
  | cons h k ih =>
    intro p hp
    simp only [List.mem_cons] at hp
    rcases hp with rfl | hp
    · exact (k.grows (i.connected h)).wired _ _ h.wired
    · exact ih (i.connected h) p hp

/-- Ids of the flows of a list that leave a node. -/
def leaving (x : String) (l : List (String × String)) : List String := (l.filter (·.1 = x)).map fun p => flowId p.1 p.2
/-- Ids of the flows of a list that enter a node. -/
def entering (x : String) (l : List (String × String)) : List String := (l.filter (·.2 = x)).map fun p => flowId p.1 p.2

theorem leaving_append (x : String) (l m : List (String × String)) : leaving x (l ++ m) = leaving x l ++ leaving x m := by simp [leaving]
theorem entering_append (x : String) (l m : List (String × String)) : entering x (l ++ m) = entering x l ++ entering x m := by simp [entering]

theorem Chained.out {pd : Dict String Line} {d d' : Diagram} {l : List (String × String)} (h : Chained pd d l d') (x : String) :
    outOf d' x = outOf d x ++ leaving x l := by
  induction h with
  | nil => simp [leaving]
  | @cons _ _ _ s t _ h _ ih =>
    rw [ih, h.out]
    by_cases e : x = s
    · subst e; simp [leaving]
    · simp [leaving, e, Ne.symm e]

theorem Chained.inn {pd : Dict String Line} {d d' : Diagram} {l : List (String × String)} (h : Chained pd d l d') (x : String) :
    inOf d' x = inOf d x ++ entering x l := by
  induction h with
  | nil => simp [entering]
  | @cons _ _ _ s t _ h _ ih =>
    rw [ih, h.inn]
    by_cases e : x = t
    · subst e; simp [entering]
    · simp [entering, e, Ne.symm e]

/-! ## One round -/

/-- What a round does with a row: a gateway it adds, and the flows it adds. -/
inductive Plan (pd : Dict String Line) (nodes : List String) (d : Diagram) (r : String) :
    Option (String × Option String) → List (String × String) → Prop where
  | stop {l : Line} : pd.get? r = some l → l.terminated = "yes" → Plan pd nodes d r none []
  | sequence {l : Line} {s : String} : pd.get? r = some l → l.terminated ≠ "yes" →
      anyPresent (sequenceSuccessors r) nodes = true → onlyPresent (sequenceSuccessors r) nodes = .ok s →
      Plan pd nodes d r none [(r, s)]
  | split {l : Line} {ty : String} {succ : List String} : pd.get? r = some l → l.terminated ≠ "yes" →
      anyPresent (sequenceSuccessors r) nodes = false → anyPresent (splitCandidates r) nodes = true →
      gatewayType pd r nodes = .ok ty → splitSuccessors r nodes = .ok succ →
      Plan pd nodes d r (some (r ++ "_split", some ty)) ((r, r ++ "_split") :: succ.map fun s => (r ++ "_split", s))
  | join {l : Line} {s : String} {cands : List String} : pd.get? r = some l → l.terminated ≠ "yes" →
      anyPresent (sequenceSuccessors r) nodes = false → anyPresent (splitCandidates r) nodes = false →
      mergeSuccessors r = .ok cands → onlyPresent cands nodes = .ok s → s ++ "_join" ∈ ids d →
      Plan pd nodes d r none [(r, s ++ "_join")]
  | newJoin {l : Line} {s : String} {cands : List String} {ty : Option String} : pd.get? r = some l → l.terminated ≠ "yes" →
      anyPresent (sequenceSuccessors r) nodes = false → anyPresent (splitCandidates r) nodes = false →
      mergeSuccessors r = .ok cands → onlyPresent cands nodes = .ok s → s ++ "_join" ∉ ids d → mergeNodeType s d = .ok ty →
      Plan pd nodes d r (some (s ++ "_join", ty)) [(s ++ "_join", s), (r, s ++ "_join")]

/-- A plan is carried out. -/
structure Round (pd : Dict String Line) (nodes : List String) (r : String) (d : Diagram) (g : Option (String × Option String))
    (l : List (String × String)) (d' : Diagram) : Prop where
  plan : Plan pd nodes d r g l
  done : ∃ d1, (g = none ∧ d1 = d ∨ ∃ n ty, g = some (n, ty) ∧ n ∉ ids d ∧ Added d d1 n ty "") ∧ Chained pd d1 l d'

theorem foldlM_chained {pd : Dict String Line} {g : String} : ∀ {succ : List String} {d d' : Diagram},
    succ.foldlM (fun d s => addConnection pd g s d) d = .ok d' → Chained pd d (succ.map fun s => (g, s)) d'
  | [], d, d', h => by cases h; exact Chained.nil _
  | s :: succ, d, d', h => by
    rw [List.foldlM_cons] at h
    obtain ⟨d1, h1, h⟩ := except_bind_eq_ok h
    exact Chained.cons (addConnection_connected h1) (foldlM_chained h)

theorem fillNode_round {pd : Dict String Line} {nodes : List String} {r : String} {d d' : Diagram} (h : fillNode pd nodes r d = .ok d')
    (hs : r ++ "_split" ∉ ids d) : ∃ g l, Round pd nodes r d g l d' := by
  obtain ⟨l, hl, h⟩ := except_bind_eq_ok h
  have hl := need_ok hl
  split at h
  · rename_i ht
    cases h
    exact ⟨none, [], Plan.stop hl ht, d, Or.inl ⟨rfl, rfl⟩, Chained.nil _⟩
  rename_i ht
  split at h
  · rename_i hp
    obtain ⟨s, h1, h⟩ := except_bind_eq_ok h
    exact ⟨none, [(r, s)], Plan.sequence hl ht hp h1, d, Or.inl ⟨rfl, rfl⟩, Chained.cons (addConnection_connected h) (Chained.nil _)⟩
  rename_i hp
  have hp : anyPresent (sequenceSuccessors r) nodes = false := by simpa using hp
  split at h
  · rename_i hq
    obtain ⟨ty, h1, h⟩ := except_bind_eq_ok h
    obtain ⟨d2, h2, h⟩ := except_bind_eq_ok h
    obtain ⟨succ, h3, h⟩ := except_bind_eq_ok h
    exact ⟨_, _, Plan.split hl ht hp hq h1 h3, _, Or.inr ⟨_, _, rfl, hs, addNodeInfo_added _ _ hs⟩,
      Chained.cons (addConnection_connected h2) (foldlM_chained h)⟩
  rename_i hq
  have hq : anyPresent (splitCandidates r) nodes = false := by simpa using hq
  obtain ⟨cands, h1, h⟩ := except_bind_eq_ok h
  split at h
  · obtain ⟨s, h2, h⟩ := except_bind_eq_ok h
    dsimp only at h
    split at h
    · rename_i hj
      exact ⟨none, _, Plan.join hl ht hp hq h1 h2 ((Dict.has_iff _ _).1 hj), d, Or.inl ⟨rfl, rfl⟩,
        Chained.cons (addConnection_connected h) (Chained.nil _)⟩
    · rename_i hj
      have hj : s ++ "_join" ∉ ids d := (Dict.has_false_iff _ _).1 (by simpa using hj)
      obtain ⟨ty, h3, h⟩ := except_bind_eq_ok h
      obtain ⟨d2, h4, h⟩ := except_bind_eq_ok h
      exact ⟨_, _, Plan.newJoin hl ht hp hq h1 h2 hj h3, _, Or.inr ⟨_, _, rfl, hj, addNodeInfo_added _ _ hj⟩,
        Chained.cons (addConnection_connected h4) (Chained.cons (addConnection_connected h) (Chained.nil _))⟩
  · cases h

/-! ## All rounds -/

/-- The rounds for the rows of a list; the list of all flows added. -/
inductive Rounds (pd : Dict String Line) (nodes : List String) : List String → Diagram → List (String × String) → Diagram → Prop where
  | nil (d : Diagram) : Rounds pd nodes [] d [] d
  | cons {r : String} {rs : List String} {d d1 d2 : Diagram} {g : Option (String × Option String)} {l F : List (String × String)} :
      Round pd nodes r d g l d1 → Rounds pd nodes rs d1 F d2 → Rounds pd nodes (r :: rs) d (l ++ F) d2

theorem onlyPresent_mem {c nodes : List String} {s : String} (h : onlyPresent c nodes = .ok s) : s ∈ c ∧ s ∈ nodes := by
  unfold onlyPresent at h
  split at h
  · cases h
  · rename_i x r e
    split at h
    · cases h
      have : s ∈ c.filter (· ∈ nodes) := by rw [e]; simp
      rw [List.mem_filter] at this
      simpa using this
    · cases h

theorem onlyPresent_unique {c nodes : List String} {s x : String} (h : onlyPresent c nodes = .ok s) (hx : x ∈ c) (hn : x ∈ nodes) : x = s := by
  unfold onlyPresent at h
  have hm : x ∈ c.filter (· ∈ nodes) := by rw [List.mem_filter]; simpa using ⟨hx, hn⟩
  split at h
  · cases h
  · rename_i y r e
    split at h
    · rename_i ha
      cases h
      rw [e] at hm
      simp only [List.mem_cons] at hm
      rcases hm with hm | hm
      · exact hm
      · have := List.all_eq_true.1 ha x hm
        simpa using this
    · cases h

/-- The ids of the nodes are those of the rows and of the gateways. -/
def Named (nodes done : List String) (x : String) : Prop :=
  x ∈ nodes ∨ (∃ r ∈ done, x = r ++ "_split") ∨ ∃ s ∈ nodes, x = s ++ "_join"

theorem Named.mono {nodes done done' : List String} {x : String} (h : Named nodes done x) (hd : ∀ r ∈ done, r ∈ done') : Named nodes done' x := by
  rcases h with h | ⟨r, h, e⟩ | h
  · exact Or.inl h
  · exact Or.inr (Or.inl ⟨r, hd r h, e⟩)
  · exact Or.inr (Or.inr h)

theorem split_ne_join (a b : String) : a ++ "_split" ≠ b ++ "_join" := by
  intro e
  have := congrArg (fun s : String => s.toList.reverse.head?) e
  simp at this

theorem split_inj {a b : String} (h : a ++ "_split" = b ++ "_split") : a = b := by
  have := congrArg String.toList h
  simp at this
  exact String.toList_injective this

theorem join_inj {a b : String} (h : a ++ "_join" = b ++ "_join") : a = b := by
  have := congrArg String.toList h
  simp at this
  exact String.toList_injective this

theorem underscore_split (a : String) : '_' ∈ (a ++ "_split").toList := by simp
theorem underscore_join (a : String) : '_' ∈ (a ++ "_join").toList := by simp

theorem not_named_split {nodes done : List String} (hu : ∀ x ∈ nodes, '_' ∉ x.toList) {r : String} (hr : r ∉ done) : ¬Named nodes done (r ++ "_split") := by
  rintro (h | ⟨q, hq, e⟩ | ⟨s, hs, e⟩)
  · exact hu _ h (underscore_split r)
  · exact hr (split_inj e ▸ hq)
  · exact split_ne_join _ _ e

theorem Named.plain {nodes done : List String} (hu : ∀ x ∈ nodes, '_' ∉ x.toList) (hd : ∀ r ∈ done, r ∈ nodes) {x : String} (h : Named nodes done x) : Plain x := by
  rcases h with h | ⟨r, h, rfl⟩ | ⟨s, h, rfl⟩
  · exact plain_of_no_underscore (hu _ h)
  · exact plain_split (hu _ (hd _ h))
  · exact plain_join (hu _ h)

/-- After a round. -/
theorem Round.step {pd : Dict String Line} {nodes : List String} (hu : ∀ x ∈ nodes, '_' ∉ x.toList) {r : String} (hr : r ∈ nodes)
    {d d' : Diagram} {g : Option (String × Option String)} {l : List (String × String)}
    (h : Round pd nodes r d g l d') {done : List String} (i : Inv d) (hn : ∀ x ∈ ids d, Named nodes done x) :
    Inv d' ∧ Grows d d' ∧ (∀ x ∈ ids d', Named nodes (r :: done) x) ∧ (∀ p ∈ l, Wired d' p.1 p.2) := by
  obtain ⟨hp, d1, h1, hc⟩ := h
  rcases h1 with ⟨rfl, rfl⟩ | ⟨n, ty, rfl, hno, ha⟩
  · refine ⟨hc.inv i, hc.grows i, ?_, hc.wired i⟩
    intro x hx
    rw [hc.ids] at hx
    exact (hn x hx).mono (by simp +contextual)
  · have name : Named nodes (r :: done) n ∧ Plain n := by
      cases hp with
      | split => exact ⟨Or.inr (Or.inl ⟨r, by simp, rfl⟩), plain_split (hu _ hr)⟩
      | newJoin _ _ _ _ _ h2 => exact ⟨Or.inr (Or.inr ⟨_, (onlyPresent_mem h2).2, rfl⟩), plain_join (hu _ (onlyPresent_mem h2).2)⟩
    have i1 := i.added ha hno name.2
    refine ⟨hc.inv i1, (ha.grows hno).trans (hc.grows i1), ?_, hc.wired i1⟩
    intro x hx
    rw [hc.ids, ha.ids] at hx
    simp at hx
    rcases hx with hx | rfl
    · exact (hn x hx).mono (by simp +contextual)
    · exact name.1

theorem fill_rounds {pd : Dict String Line} {nodes : List String} (hu : ∀ x ∈ nodes, '_' ∉ x.toList) :
    ∀ {rs done : List String} {d d' : Diagram}, rs.foldlM (fun e n => fillNode pd nodes n e) d = .ok d' → Inv d →
      (∀ x ∈ ids d, Named nodes done x) → (∀ r ∈ rs, r ∈ nodes) → rs.Nodup → (∀ r ∈ rs, r ∉ done) →
      ∃ F, Rounds pd nodes rs d F d'
  | [], done, d, d', h, _, _, _, _, _ => by cases h; exact ⟨[], Rounds.nil _⟩
  | r :: rs, done, d, d', h, i, hn, hr, nd, dj => by
    rw [List.foldlM_cons] at h
    obtain ⟨d1, h1, h⟩ := except_bind_eq_ok h
    obtain ⟨g, l, hR⟩ := fillNode_round h1 (fun hm => not_named_split hu (dj r (by simp)) (hn _ hm))
    obtain ⟨i1, _, hn1, _⟩ := hR.step hu (hr r (by simp)) i hn
    rw [List.nodup_cons] at nd
    obtain ⟨F, hF⟩ := fill_rounds hu h i1 hn1 (fun x hx => hr x (List.mem_cons_of_mem _ hx)) nd.2 (by
      intro x hx hm
      simp only [List.mem_cons] at hm
      rcases hm with rfl | hm
      · exact nd.1 hx
      · exact dj x (List.mem_cons_of_mem _ hx) hm)
    exact ⟨_, Rounds.cons hR hF⟩

theorem Rounds.step {pd : Dict String Line} {nodes : List String} (hu : ∀ x ∈ nodes, '_' ∉ x.toList) {rs : List String} {d d' : Diagram}
    {F : List (String × String)} (h : Rounds pd nodes rs d F d') : ∀ {done : List String}, Inv d → (∀ x ∈ ids d, Named nodes done x) →
      (∀ r ∈ rs, r ∈ nodes) → Inv d' ∧ Grows d d' ∧ (∀ x ∈ ids d', Named nodes (rs.reverse ++ done) x) ∧ (∀ p ∈ F, Wired d' p.1 p.2) := by
  induction h with
  | nil => intro done i hn _; exact ⟨i, Grows.refl _, by simpa using hn, by simp⟩
  | cons hR _ ih =>
    intro done i hn hr
    obtain ⟨i1, g1, hn1, w1⟩ := hR.step hu (hr _ (by simp)) i hn
    obtain ⟨i2, g2, hn2, w2⟩ := ih i1 hn1 (fun x hx => hr x (List.mem_cons_of_mem _ hx))
    refine ⟨i2, g1.trans g2, ?_, ?_⟩
    · intro x hx
      exact (hn2 x hx).mono (by simp +contextual)
    · intro p hp
      rw [List.mem_append] at hp
      rcases hp with hp | hp
      · exact g2.wired _ _ (w1 p hp)
      · exact w2 p hp

/-- The round of a row, within all rounds. -/
theorem Rounds.mem {pd : Dict String Line} {nodes : List String} (hu : ∀ x ∈ nodes, '_' ∉ x.toList) {rs : List String} {d d' : Diagram}
    {F : List (String × String)} (h : Rounds pd nodes rs d F d') : ∀ {done : List String}, Inv d → (∀ x ∈ ids d, Named nodes done x) →
      (∀ r ∈ rs, r ∈ nodes) → ∀ r ∈ rs, ∃ dr dr' g l, Round pd nodes r dr g l dr' ∧ Grows d dr ∧ Grows dr' d' ∧ (∀ p ∈ l, p ∈ F) := by
  induction h with
  | nil => intro done _ _ _ r hr; simp at hr
  | @cons _ _ _ _ _ _ l F hR k ih =>
    intro done i hn hr r hm
    obtain ⟨i1, g1, hn1, w1⟩ := hR.step hu (hr _ (by simp)) i hn
    have hr' := fun x hx => hr x (List.mem_cons_of_mem _ hx)
    simp only [List.mem_cons] at hm
    rcases hm with rfl | hm
    · exact ⟨_, _, _, _, hR, Grows.refl _, (k.step hu i1 hn1 hr').2.1, fun p hp => List.mem_append_left _ hp⟩
    · obtain ⟨dr, dr', g, l', h1, h2, h3, h4⟩ := ih i1 hn1 hr' r hm
      exact ⟨dr, dr', g, l', h1, g1.trans h2, h3, fun p hp => List.mem_append_right _ (h4 p hp)⟩

theorem Round.out {pd : Dict String Line} {nodes : List String} {r : String} {d d' : Diagram} {g : Option (String × Option String)}
    {l : List (String × String)} (h : Round pd nodes r d g l d') (x : String) : outOf d' x = outOf d x ++ leaving x l := by
  obtain ⟨_, d1, h1, hc⟩ := h
  rw [hc.out]
  rcases h1 with ⟨rfl, rfl⟩ | ⟨n, ty, rfl, hno, ha⟩
  · rfl
  · rw [ha.out]
    split
    · rename_i ex
      have : outOf d x = [] := by
        cases e : outOf d x with
        | nil => rfl
        | cons f _ => exact absurd (outOf_mem (d := d) (x := x) (f := f) (by simp [e])) (ex ▸ hno)
      rw [this]
    · rfl

theorem Round.inn {pd : Dict String Line} {nodes : List String} {r : String} {d d' : Diagram} {g : Option (String × Option String)}
    {l : List (String × String)} (h : Round pd nodes r d g l d') (x : String) : inOf d' x = inOf d x ++ entering x l := by
  obtain ⟨_, d1, h1, hc⟩ := h
  rw [hc.inn]
  rcases h1 with ⟨rfl, rfl⟩ | ⟨n, ty, rfl, hno, ha⟩
  · rfl
  · rw [ha.inn]
    split
    · rename_i ex
      have : inOf d x = [] := by
        cases e : inOf d x with
        | nil => rfl
        | cons f _ => exact absurd (inOf_mem (d := d) (x := x) (f := f) (by simp [e])) (ex ▸ hno)
      rw [this]
    · rfl

theorem Rounds.out {pd : Dict String Line} {nodes : List String} {rs : List String} {d d' : Diagram} {F : List (String × String)}
    (h : Rounds pd nodes rs d F d') (x : String) : outOf d' x = outOf d x ++ leaving x F := by
  induction h with
  | nil => simp [leaving]
  | cons hR _ ih => rw [ih, hR.out, leaving_append, List.append_assoc]

theorem Rounds.inn {pd : Dict String Line} {nodes : List String} {rs : List String} {d d' : Diagram} {F : List (String × String)}
    (h : Rounds pd nodes rs d F d') (x : String) : inOf d' x = inOf d x ++ entering x F := by
  induction h with
  | nil => simp [entering]
  | cons hR _ ih => rw [ih, hR.inn, entering_append, List.append_assoc]

end Bpmn.Csv

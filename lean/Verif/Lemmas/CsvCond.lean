import Verif.Lemmas.CsvFinal
/-! Conditions on flows, and the incoming flows of a row. -/
set_option linter.unusedSimpArgs false
set_option linter.unusedVariables false

namespace Bpmn.Csv
open Bpmn.Spec Bpmn.Spec.Csv

/-- Every condition on a flow is the condition of the row of one of its ends. -/
def Conditions (pd : Dict String Line) (d : Diagram) : Prop :=
  ∀ e ∈ d.graph.edges, ∀ c, e.attrs.conditionExpression = some c → c.expr ≠ "" ∧ (conditionOf pd e.u = c.expr ∨ conditionOf pd e.v = c.expr)

theorem joins_ends {e : Edge} {s t : String} (h : e.joins s t = true) : e.u = t ∨ e.v = t := by
  simp only [Edge.joins, Bool.or_eq_true, Bool.and_eq_true, beq_iff_eq, decide_eq_true_eq] at h
  rcases h with h | h
  · exact Or.inr h.2
  · exact Or.inl h.1

theorem Connected.conditions {pd pd' : Dict String Line} (hs : Sub pd' pd) {d d' : Diagram} {s t : String} (h : Connected pd' d d' s t)
    (hc : Conditions pd d) : Conditions pd d' := by
  have new : ∀ (a : EdgeAttrs) (u v : String) (c : CondExpr), (u = t ∨ v = t) → (newAttrs pd' s t a).conditionExpression = some c →
      (a.conditionExpression = some c → c.expr ≠ "" ∧ (conditionOf pd u = c.expr ∨ conditionOf pd v = c.expr)) →
      c.expr ≠ "" ∧ (conditionOf pd u = c.expr ∨ conditionOf pd v = c.expr) := by
    intro a u v c huv hn hold
    simp only [newAttrs] at hn
    split at hn
    · rename_i hne
      cases hn
      refine ⟨hne, ?_⟩
      rcases huv with rfl | rfl
      · left; exact hs.conditionOf hne
      · right; exact hs.conditionOf hne
    · exact hold hn
  intro e he c hcc
  rw [h.edges, List.mem_append] at he
  rcases he with he | he
  · obtain ⟨e', he', rfl⟩ := List.mem_map.1 he
    split at hcc
    · rename_i hj
      simp only [hj, if_true]
      exact new _ _ _ c (joins_ends hj) hcc (hc e' he' c)
    · rename_i hj
      simp only [hj, if_false]
      exact hc e' he' c hcc
  · split at he
    · simp at he
    · rw [List.mem_singleton] at he
      subst he
      exact new {} s t c (Or.inr rfl) hcc (by simp)

theorem Added.conditions {pd : Dict String Line} {d d' : Diagram} {o : String} {ty : Option String} {act : String} (h : Added d d' o ty act)
    (hc : Conditions pd d) : Conditions pd d' := by
  unfold Conditions; rw [h.edges]; exact hc

theorem Chained.conditions {pd : Dict String Line} {d d' : Diagram} {l : List (String × String)} (h : Chained pd d l d') (hc : Conditions pd d) :
    Conditions pd d' := by
  induction h with
  | nil => exact hc
  | cons h _ ih => exact ih (h.conditions (fun _ _ h => h) hc)

theorem Rounds.conditions {pd : Dict String Line} {nodes rs : List String} {d d' : Diagram} {F : List (String × String)}
    (h : Rounds pd nodes rs d F d') (hc : Conditions pd d) : Conditions pd d' := by
  induction h with
  | nil => exact hc
  | cons hR _ ih =>
    apply ih
    obtain ⟨_, d1, h1, hch⟩ := hR
    rcases h1 with ⟨_, rfl⟩ | ⟨n, ty, _, _, ha⟩
    · exact hch.conditions hc
    · exact hch.conditions (ha.conditions hc)

theorem Bypass.conditions {pd : Dict String Line} {d d' : Diagram} {n src tgt t : String} (h : Bypass pd d n src tgt t d') (hc : Conditions pd d) :
    Conditions pd d' := by
  obtain ⟨d1, pd', hs, hr, hcn⟩ := h.step
  refine hcn.conditions hs.sub ?_
  unfold Conditions
  rw [hr.edges]
  exact fun e he => hc e (List.mem_filter.1 he).1

theorem Gotos.conditions {pd : Dict String Line} {todo : List (String × Line)} {d d' : Diagram} (h : Gotos pd todo d d') : Conditions pd d → Conditions pd d' := by
  induction h with
  | nil => exact id
  | skip _ _ ih => exact ih
  | cut _ _ b _ ih => exact fun hc => ih (b.conditions hc)

theorem Cleaned.conditions {pd : Dict String Line} {todo : List String} {d d' : Diagram} (h : Cleaned pd todo d d') : Conditions pd d → Conditions pd d' := by
  induction h with
  | nil => exact id
  | keep _ _ ih => exact ih
  | cut _ _ _ b _ ih => exact fun hc => ih (b.conditions hc)

theorem Stages.conditions {rows : List Row} {d0 d1 d2 d : Diagram} {F : List (String × String)} (s : Stages rows d0 F d1 d2 d) :
    Conditions (dictOf rows) d := by
  refine s.cleaned.conditions (s.gotos.conditions ?_)
  have : Conditions (dictOf rows) d1 := s.rounds.conditions (by
    unfold Conditions; rw [s.planted.edges]; simp)
  exact this

/-! ## Every condition is carried -/

/-- Every flow into the node of a row with a condition carries that condition. -/
def Conditioned (pd : Dict String Line) (d : Diagram) : Prop :=
  ∀ e ∈ d.graph.edges, ∀ s t, e.attrs.sourceRef = some s → e.attrs.targetRef = some t → conditionOf pd t ≠ "" →
    e.attrs.conditionExpression = some ⟨flowId s t ++ "_cond", conditionOf pd t⟩

theorem Connected.conditioned {pd pd' : Dict String Line} {d d' : Diagram} {s t : String} (h : Connected pd' d d' s t) (w : Within pd' pd d)
    (hc : Conditioned pd d) : Conditioned pd d' := by
  have new : ∀ (a : EdgeAttrs) x y, (newAttrs pd' s t a).sourceRef = some x → (newAttrs pd' s t a).targetRef = some y → conditionOf pd y ≠ "" →
      (newAttrs pd' s t a).conditionExpression = some ⟨flowId x y ++ "_cond", conditionOf pd y⟩ := by
    intro a x y h1 h2 h3
    simp only [newAttrs, Option.some.injEq] at h1 h2
    subst h1; subst h2
    rw [← w.conditionOf h.tgt] at h3 ⊢
    simp only [newAttrs]
    rw [if_pos h3]
  intro e he x y
  rw [h.edges, List.mem_append] at he
  rcases he with he | he
  · obtain ⟨e', he', rfl⟩ := List.mem_map.1 he
    split
    · exact new _ x y
    · exact hc e' he' x y
  · split at he
    · simp at he
    · rw [List.mem_singleton] at he
      subst he
      exact new {} x y

theorem Chained.conditioned {pd : Dict String Line} {d d' : Diagram} {l : List (String × String)} (h : Chained pd d l d') (hc : Conditioned pd d) :
    Conditioned pd d' := by
  induction h with
  | nil => exact hc
  | cons h _ ih => exact ih (h.conditioned (Within.refl _ _) hc)

theorem Rounds.conditioned {pd : Dict String Line} {nodes rs : List String} {d d' : Diagram} {F : List (String × String)}
    (h : Rounds pd nodes rs d F d') (hc : Conditioned pd d) : Conditioned pd d' := by
  induction h with
  | nil => exact hc
  | cons hR _ ih =>
    apply ih
    obtain ⟨_, d1, h1, hch⟩ := hR
    rcases h1 with ⟨_, rfl⟩ | ⟨n, ty, _, _, ha⟩
    · exact hch.conditioned hc
    · exact hch.conditioned (by unfold Conditioned; rw [ha.edges]; exact hc)

theorem Bypass.conditioned {pd : Dict String Line} {d d' : Diagram} {n src tgt t : String} (h : Bypass pd d n src tgt t d') (hc : Conditioned pd d) :
    Conditioned pd d' := by
  obtain ⟨d1, pd', hs, hr, hcn⟩ := h.step
  refine hcn.conditioned hs ?_
  unfold Conditioned
  rw [hr.edges]
  exact fun e he => hc e (List.mem_filter.1 he).1

theorem Gotos.conditioned {pd : Dict String Line} {todo : List (String × Line)} {d d' : Diagram} (h : Gotos pd todo d d') : Conditioned pd d → Conditioned pd d' := by
  induction h with
  | nil => exact id
  | skip _ _ ih => exact ih
  | cut _ _ b _ ih => exact fun hc => ih (b.conditioned hc)

theorem Cleaned.conditioned {pd : Dict String Line} {todo : List String} {d d' : Diagram} (h : Cleaned pd todo d d') : Conditioned pd d → Conditioned pd d' := by
  induction h with
  | nil => exact id
  | keep _ _ ih => exact ih
  | cut _ _ _ b _ ih => exact fun hc => ih (b.conditioned hc)

theorem Stages.conditioned {rows : List Row} {d0 d1 d2 d : Diagram} {F : List (String × String)} (s : Stages rows d0 F d1 d2 d) :
    Conditioned (dictOf rows) d := by
  refine s.cleaned.conditioned (s.gotos.conditioned ?_)
  have : Conditioned (dictOf rows) d1 := s.rounds.conditioned (by
    unfold Conditioned; rw [s.planted.edges]; simp)
  exact this

/-! ## Without `goto` -/

theorem Gotos.none {pd : Dict String Line} {todo : List (String × Line)} {d d' : Diagram} (h : Gotos pd todo d d')
    (hn : ∀ p ∈ todo, isGoto p.2.activity = false) : d' = d := by
  induction h with
  | nil => rfl
  | skip _ _ ih => exact ih fun p hp => hn p (List.mem_cons_of_mem _ hp)
  | cut hg _ _ _ _ => have := hn _ List.mem_cons_self; rw [hg] at this; cases this

theorem Stages.no_goto {rows : List Row} {d0 d1 d2 d : Diagram} {F : List (String × String)} (s : Stages rows d0 F d1 d2 d)
    (hn : ∀ r ∈ rows, ¬GotoRow r) : d2 = legacyAdjustment d1 := by
  refine s.gotos.none fun p hp => ?_
  obtain ⟨r, hr, rfl⟩ := List.mem_map.1 hp
  cases e : isGoto r.activity with
  | false => rfl
  | true => exact absurd ((isGoto_iff r).1 e) (hn r hr)

/-- The number of incoming flows of a row in a table without `goto`. -/
theorem Stages.row_in {rows : List Row} (t : Table rows) {d0 d1 d2 d : Diagram} {F : List (String × String)} (s : Stages rows d0 F d1 d2 d)
    (hn : ∀ r ∈ rows, ¬GotoRow r) {x : String} (hx : x ∈ ids d) : (inOf d x).length = (entering x F).length := by
  rw [s.keep.inLength _ hx, s.no_goto hn, legacy_inn, s.inn1]

/-- Where the flows into the node of a row come from. -/
theorem Plan.targets {pd : Dict String Line} {nodes : List String} {d : Diagram} {r : String} {g : Option (String × Option String)}
    {l : List (String × String)} (h : Plan pd nodes d r g l) {x y : String} (hl : (x, y) ∈ l) (hy : '_' ∉ y.toList) :
    y ∈ sequenceSuccessors r ∨ (∃ succ, splitSuccessors r nodes = .ok succ ∧ y ∈ succ) ∨ ∃ cs, mergeSuccessors r = .ok cs ∧ y ∈ cs := by
  cases h with
  | stop => simp at hl
  | sequence _ _ _ h4 =>
    simp at hl
    obtain ⟨rfl, rfl⟩ := hl
    exact Or.inl (onlyPresent_mem h4).1
  | split _ _ _ _ _ h6 =>
    simp at hl
    rcases hl with ⟨rfl, rfl⟩ | ⟨h7, rfl⟩
    · exact absurd (underscore_split _) hy
    · exact Or.inr (Or.inl ⟨_, h6, h7⟩)
  | join =>
    simp at hl
    obtain ⟨rfl, rfl⟩ := hl
    exact absurd (underscore_join _) hy
  | newJoin _ _ _ _ h5 h6 =>
    simp at hl
    rcases hl with ⟨rfl, rfl⟩ | ⟨rfl, rfl⟩
    · exact Or.inr (Or.inr ⟨_, h5, (onlyPresent_mem h6).1⟩)
    · exact absurd (underscore_join _) hy

end Bpmn.Csv

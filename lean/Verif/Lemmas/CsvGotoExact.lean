import Verif.Lemmas.CsvGotoAccept
/-! `goto` rows after which lists and flows still agree. -/
set_option linter.unusedSimpArgs false
set_option linter.unusedVariables false

namespace Bpmn.Csv
open Bpmn.Spec Bpmn.Spec.Csv

theorem Inv.noEdge {d : Diagram} (i : Inv d) {x y : String} (h1 : ¬EdgeOf d x y) (h2 : ¬EdgeOf d y x) : d.graph.hasEdge x y = false := by
  cases hh : d.graph.hasEdge x y with
  | false => rfl
  | true => rcases i.has_edge hh with h | h
            · exact absurd h h1
            · exact absurd h h2

/-- What every `goto` that is still there needs: one flow in and one flow out, to and from nodes that stay; between the node before it and the row that it
names there is no flow, and no other `goto` makes one. -/
structure Turning (todo : List (String × Line)) (d : Diagram) : Prop where
  exact : Exact d
  short : ∀ o l, (o, l) ∈ todo → isGoto l.activity = true → (inOf d o).length < 2 ∧ (outOf d o).length < 2
  tgt : ∀ o l, (o, l) ∈ todo → isGoto l.activity = true → ∀ t, pyIndex (words (strip l.activity)) 1 = .ok t → NotGoto todo t ∧ Plain t
  src : ∀ o l, (o, l) ∈ todo → isGoto l.activity = true → ∀ x, Plain x → flowId x o ∈ inOf d o → NotGoto todo x
  nxt : ∀ o l, (o, l) ∈ todo → isGoto l.activity = true → ∀ y, flowId o y ∈ outOf d o → NotGoto todo y
  free : ∀ o l, (o, l) ∈ todo → isGoto l.activity = true → ∀ t, pyIndex (words (strip l.activity)) 1 = .ok t → ∀ x, Plain x → flowId x o ∈ inOf d o →
    ¬EdgeOf d x t ∧ ¬EdgeOf d t x
  apart : ∀ o l o' l', (o, l) ∈ todo → (o', l') ∈ todo → isGoto l.activity = true → isGoto l'.activity = true → o ≠ o' →
    ∀ t t', pyIndex (words (strip l.activity)) 1 = .ok t → pyIndex (words (strip l'.activity)) 1 = .ok t' →
    ∀ x x', Plain x → Plain x' → flowId x o ∈ inOf d o → flowId x' o' ∈ inOf d o' → ¬(x = x' ∧ t = t') ∧ ¬(x = t' ∧ t = x')

theorem Turning.skip {p : String × Line} {todo : List (String × Line)} {d : Diagram} (h : Turning (p :: todo) d) : Turning todo d :=
  ⟨h.exact, fun o l hm => h.short o l (List.mem_cons_of_mem _ hm), fun o l hm hg t ht => ⟨(h.tgt o l (List.mem_cons_of_mem _ hm) hg t ht).1.tail, (h.tgt o l (List.mem_cons_of_mem _ hm) hg t ht).2⟩,
    fun o l hm hg x px hx => (h.src o l (List.mem_cons_of_mem _ hm) hg x px hx).tail, fun o l hm hg y hy => (h.nxt o l (List.mem_cons_of_mem _ hm) hg y hy).tail,
    fun o l hm => h.free o l (List.mem_cons_of_mem _ hm),
    fun o l o' l' hm hm' => h.apart o l o' l' (List.mem_cons_of_mem _ hm) (List.mem_cons_of_mem _ hm')⟩

theorem Turning.bypass {pd : Dict String Line} {o : String} {k : Line} {r : List (String × Line)} {d d1 : Diagram} {src tgt t : String}
    (h : Turning ((o, k) :: r) d) (nd : (((o, k) :: r).map (·.1)).Nodup) (hg : isGoto k.activity = true) (hw : pyIndex (words (strip k.activity)) 1 = .ok t)
    (b : Bypass pd d o src tgt t d1) : Turning r d1 ∧ flowId src o ∈ inOf d o ∧ Plain src ∧
      (∀ a b, Plain a → (EdgeOf d1 a b ↔ (EdgeOf d a b ∧ a ≠ o ∧ b ≠ o) ∨ (a = src ∧ b = t))) ∧
      ∀ g l, (g, l) ∈ r → isGoto l.activity = true → inOf d1 g = inOf d g := by
  simp only [List.map_cons, List.nodup_cons] at nd
  have i := h.exact.inv
  have no : ∀ k, (o, k) ∉ r := fun k hk => nd.1 (List.mem_map.2 ⟨_, hk, rfl⟩)
  have hne := b.src_ne i
  obtain ⟨e1, pd', _, rr, c⟩ := b.step
  have psrc := i.plain _ rr.hasSrc
  have hin := List.mem_of_head? rr.inHead
  have hsrc := h.src o k (by simp) hg src psrc hin
  have hoh := rr.outHead.resolve_right hne.1
  have htgt := h.nxt o k (by simp) hg tgt (List.mem_of_head? hoh)
  obtain ⟨ht', pt⟩ := h.tgt o k (by simp) hg t hw
  have hfree := h.free o k (by simp) hg t hw src psrc hin
  have hsh := h.short o k (by simp) hg
  have x1 := h.exact.removed rr hsh.1 hsh.2 hne.1
  have hno : e1.graph.hasEdge src t = false := x1.inv.noEdge (fun he => hfree.1 ((rr.edgeOf i psrc).1 he).1) (fun he => hfree.2 ((rr.edgeOf i pt).1 he).1)
  have x2 := x1.connected c hno
  have ne : ∀ g l, (g, l) ∈ r → isGoto l.activity = true → ∀ x, NotGoto ((o, k) :: r) x → g ≠ x := by
    rintro g l hm hl x hx rfl
    have := hx l (List.mem_cons_of_mem _ hm)
    rw [hl] at this; cases this
  have hgo : ∀ g l, (g, l) ∈ r → g ≠ o := by rintro g l hm rfl; exact no l hm
  have li : ∀ g l, (g, l) ∈ r → isGoto l.activity = true → inOf d1 g = inOf d g ∧ outOf d1 g = outOf d g := by
    intro g l hm hl
    constructor
    · rw [c.inn, if_neg (ne g l hm hl t ht'), rr.inn g (hgo g l hm), if_neg (ne g l hm hl tgt htgt)]
    · rw [c.out, if_neg (ne g l hm hl src hsrc), rr.out g (hgo g l hm), if_neg (ne g l hm hl src hsrc)]
  have ed : ∀ a b, Plain a → (EdgeOf d1 a b ↔ (EdgeOf d a b ∧ a ≠ o ∧ b ≠ o) ∨ (a = src ∧ b = t)) := by
    intro a b pa
    rw [c.edgeOf hno x1.inv pa, rr.edgeOf i pa]
  have s := h.skip
  refine ⟨⟨x2, ?_, s.tgt, ?_, ?_, ?_, ?_⟩, hin, psrc, ed, fun g l hm hl => (li g l hm hl).1⟩
  · intro g l hm hl
    rw [(li g l hm hl).1, (li g l hm hl).2]; exact s.short g l hm hl
  · intro g l hm hl x px hx
    rw [(li g l hm hl).1] at hx; exact s.src g l hm hl x px hx
  · intro g l hm hl y hy
    rw [(li g l hm hl).2] at hy; exact s.nxt g l hm hl y hy
  · intro g l hm hl t' ht x px hx
    rw [(li g l hm hl).1] at hx
    have hf := s.free g l hm hl t' ht x px hx
    obtain ⟨a1, a2⟩ := h.apart o k g l (by simp) (List.mem_cons_of_mem _ hm) hg hl (Ne.symm (hgo g l hm)) t t' hw ht src x psrc px hin hx
    have pt' := (s.tgt g l hm hl t' ht).2
    constructor
    · intro he
      rcases (ed _ _ px).1 he with ⟨q, -, -⟩ | ⟨q1, q2⟩
      · exact hf.1 q
      · exact a1 ⟨q1.symm, q2.symm⟩
    · intro he
      rcases (ed _ _ pt').1 he with ⟨q, -, -⟩ | ⟨q1, q2⟩
      · exact hf.2 q
      · exact a2 ⟨q1.symm, q2.symm⟩
  · intro g l g' l' hm hm' hl hl' hn t1 t2 h1 h2 x x' px px' hx hx'
    rw [(li g l hm hl).1] at hx
    rw [(li g' l' hm' hl').1] at hx'
    exact s.apart g l g' l' hm hm' hl hl' hn t1 t2 h1 h2 x x' px px' hx hx'

/-- After the loop for `goto` rows, lists and flows still agree; the flows are the old ones, or lead to the row named by a `goto`. -/
theorem Gotos.exact {pd : Dict String Line} {todo : List (String × Line)} {d d' : Diagram} (h : Gotos pd todo d d') : Turning todo d → (todo.map (·.1)).Nodup →
    Exact d' ∧ ∀ a b, Plain a → EdgeOf d' a b → EdgeOf d a b ∨
      ∃ o l, (o, l) ∈ todo ∧ isGoto l.activity = true ∧ pyIndex (words (strip l.activity)) 1 = .ok b ∧ flowId a o ∈ inOf d o := by
  induction h with
  | nil => exact fun h _ => ⟨h.exact, fun a b _ he => Or.inl he⟩
  | @skip o k r d d' hg _ ih =>
    intro h nd
    obtain ⟨h1, h2⟩ := ih h.skip (List.nodup_cons.1 nd).2
    refine ⟨h1, fun a b pa he => (h2 a b pa he).imp_right ?_⟩
    rintro ⟨o, l, h3, h4⟩
    exact ⟨o, l, List.mem_cons_of_mem _ h3, h4⟩
  | @cut o src tgt t k r d d1 d' hg hw b _ ih =>
    intro h nd
    obtain ⟨h1, h2, h3, h4, h5⟩ := h.bypass nd hg hw b
    obtain ⟨k1, k2⟩ := ih h1 (List.nodup_cons.1 nd).2
    refine ⟨k1, fun a b pa he => ?_⟩
    rcases k2 a b pa he with q | ⟨g, l, q1, q2, q3, q4⟩
    · rcases (h4 a b pa).1 q with ⟨q, -⟩ | ⟨rfl, rfl⟩
      · exact Or.inl q
      · exact Or.inr ⟨o, k, by simp, hg, hw, h2⟩
    · rw [h5 g l q1 q2] at q4
      exact Or.inr ⟨g, l, List.mem_cons_of_mem _ q1, q2, q3, q4⟩

/-! ## How often a flow is listed -/

theorem Bypass.count {pd : Dict String Line} {d d' : Diagram} {n src tgt t : String} (b : Bypass pd d n src tgt t d') (i : Inv d) {x y : String} (px : Plain x)
    (hx : x ≠ n) (hy : y ≠ n) : (outOf d x).count (flowId x y) ≤ (outOf d' x).count (flowId x y) ∧
      (x = src → y = t → (outOf d x).count (flowId x y) + 1 ≤ (outOf d' x).count (flowId x y)) := by
  obtain ⟨e1, pd', _, rr, c⟩ := b.step
  rw [c.out, rr.out x hx]
  by_cases e : x = src
  · subst e
    have hne : flowId x y ≠ flowId x n := fun h => hy (flowId_inj px px h).2
    rw [if_pos rfl, if_pos rfl, List.count_append, List.count_erase_of_ne hne]
    refine ⟨by omega, ?_⟩
    rintro - rfl
    simp
  · rw [if_neg e, if_neg e]
    exact ⟨Nat.le_refl _, fun h => absurd h e⟩

theorem Cleaned.count {pd : Dict String Line} {todo : List String} {d d' : Diagram} (h : Cleaned pd todo d d') : Inv d → ∀ {x y : String}, x ∈ ids d' → y ∈ ids d' →
    (outOf d x).count (flowId x y) ≤ (outOf d' x).count (flowId x y) := by
  induction h with
  | nil => intro _ x y _ _; exact Nat.le_refl _
  | keep _ _ ih => exact ih
  | @cut n src tgt r d d1 d' _ _ _ b rest ih =>
    intro i x y hx hy
    have k := rest.kept (b.inv i)
    have ne : ∀ {z : String}, z ∈ ids d' → z ≠ n := by
      rintro z hz rfl
      have := k.sub _ hz
      rw [b.ids] at this
      exact (List.Nodup.not_mem_erase i.nodup) this
    have hx1 := k.sub _ hx
    rw [b.ids] at hx1
    exact Nat.le_trans (b.count i (i.plain _ (List.mem_of_mem_erase hx1)) (ne hx) (ne hy)).1 (ih (b.inv i) hx hy)

/-- A `goto` behind the node `x` that names `y`. -/
def LeadsBy (d : Diagram) (x y : String) (p : String × Line) : Prop :=
  isGoto p.2.activity = true ∧ pyIndex (words (strip p.2.activity)) 1 = .ok y ∧ (inOf d p.1).head? = some (flowId x p.1)

open Classical in
theorem Gotos.count {pd : Dict String Line} {todo : List (String × Line)} {d d' : Diagram} (h : Gotos pd todo d d') {x y : String} (px : Plain x) :
    NotGoto todo x → NotGoto todo y → (todo.map (·.1)).Nodup → Inv d →
    (outOf d x).count (flowId x y) + todo.countP (fun p => decide (LeadsBy d x y p)) ≤ (outOf d' x).count (flowId x y) := by
  induction h with
  | nil => intro _ _ _ _; simp
  | @skip o k r d d' hk _ ih =>
    intro hx hy nd i
    rw [List.countP_cons_of_neg (by simp [LeadsBy, hk])]
    exact ih hx.tail hy.tail (List.nodup_cons.1 nd).2 i
  | @cut o src tgt t k r d d1 d' hk ht bp rest ih =>
    intro hx hy nd i
    have := ih hx.tail hy.tail (List.nodup_cons.1 nd).2 (bp.inv i)
    have hc := bp.count i px (hx.ne hk) (hy.ne hk)
    have mono : r.countP (fun p => decide (LeadsBy d x y p)) ≤ r.countP (fun p => decide (LeadsBy d1 x y p)) := by
      refine List.countP_mono_left fun p hp hd => ?_
      simp only [decide_eq_true_eq] at hd ⊢
      obtain ⟨h1, h2, h3⟩ := hd
      refine ⟨h1, h2, ?_⟩
      have hne : p.1 ≠ o := by
        intro e
        exact (List.nodup_cons.1 nd).1 (List.mem_map.2 ⟨p, hp, e⟩)
      obtain ⟨d2, pd', _, rm, c⟩ := bp.step
      have h4 : (inOf d2 p.1).head? = some (flowId x p.1) := by
        rw [rm.inn _ hne]
        split
        · rename_i e
          rw [← e]
          refine head?_erase_ne h3 fun e => ?_
          exact hx.ne hk (flowId_inj px (i.plain _ rm.node) e).1
        · exact h3
      rw [c.inn]
      split
      · exact head?_append_some h4
      · exact h4
    by_cases hl : LeadsBy d x y (o, k)
    · rw [List.countP_cons_of_pos (by simpa using hl)]
      obtain ⟨h1, h2, h3⟩ := hl
      simp only at h2 h3
      rw [ht] at h2; cases h2
      have hsrc : x = src := by
        obtain ⟨d2, pd', _, rm, c⟩ := bp.step
        have := rm.inHead
        rw [h3] at this
        exact (flowId_inj px (i.plain _ rm.hasSrc) (Option.some.inj this)).1
      have := hc.2 hsrc rfl
      omega
    · rw [List.countP_cons_of_neg (by simpa using hl)]
      have := hc.1
      omega

end Bpmn.Csv

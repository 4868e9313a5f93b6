import Verif.Props.CsvImport
import Verif.Lemmas.CsvCond
/-! Where `goto` rows lead. -/
set_option linter.unusedSimpArgs false
set_option linter.unusedVariables false

namespace Bpmn.Csv
open Bpmn.Spec Bpmn.Spec.Csv Bpmn.Props

theorem wordsFrom_white {b : List Char} (hb : ∀ x ∈ b, isWhite x = true) (w : List Char) : wordsFrom w b = wordsFrom w [] := by
  induction b generalizing w with
  | nil => rfl
  | cons c b ih =>
    have h1 := hb c List.mem_cons_self
    have h2 := fun w => ih (fun x hx => hb x (List.mem_cons_of_mem _ hx)) w
    have e : wordsFrom w (c :: b) = if w = [] then wordsFrom [] b else String.ofList w :: wordsFrom [] b := by rw [wordsFrom, if_pos h1]
    rw [e, h2]
    by_cases hw : w = [] <;> simp [hw, wordsFrom]

theorem wordsFrom_trailing {b : List Char} (hb : ∀ x ∈ b, isWhite x = true) (l w : List Char) : wordsFrom w (l ++ b) = wordsFrom w l := by
  induction l generalizing w with
  | nil => exact wordsFrom_white hb w
  | cons c l ih => simp only [List.cons_append, wordsFrom, ih]

theorem wordsFrom_leading {a : List Char} (ha : ∀ x ∈ a, isWhite x = true) (l : List Char) : wordsFrom [] (a ++ l) = wordsFrom [] l := by
  induction a with
  | nil => rfl
  | cons c a ih =>
    rw [List.cons_append, wordsFrom, if_pos (ha c List.mem_cons_self), if_pos rfl, ih fun x hx => ha x (List.mem_cons_of_mem _ hx)]

theorem wordsFrom_word {a : List Char} (ha : ∀ x ∈ a, isWhite x = false) (l w : List Char) : wordsFrom w (a ++ l) = wordsFrom (w ++ a) l := by
  induction a generalizing w with
  | nil => simp
  | cons c a ih =>
    rw [List.cons_append, wordsFrom, if_neg (by rw [ha c List.mem_cons_self]; simp), ih (fun x hx => ha x (List.mem_cons_of_mem _ hx))]
    simp

theorem words_strip (s : String) : words (strip s) = words s := by
  obtain ⟨a, b, h1, h2, h3⟩ := strip_white s
  unfold words
  conv => rhs; rw [h1]
  rw [wordsFrom_trailing fun x hx => (isWhite_iff x).2 (h3 x hx), wordsFrom_leading fun x hx => (isWhite_iff x).2 (h2 x hx)]

theorem white_false {x : Char} (h : ¬White x) : isWhite x = false := by
  rw [← isWhite_iff] at h; simpa using h

theorem second_word {r : Row} {target : String} (h : GoesTo r target) : pyIndex (words (strip r.activity)) 1 = .ok target := by
  obtain ⟨a, b, c, h1, h2, h3, h4, h5, h6, h7, h8⟩ := h
  rw [words_strip, words, h1, List.append_assoc, List.append_assoc, wordsFrom_word (fun x hx => white_false (h3 x hx))]
  obtain ⟨w, b, rfl⟩ := List.exists_cons_of_ne_nil h4
  rw [List.cons_append, wordsFrom, if_pos ((isWhite_iff w).2 (h5 w List.mem_cons_self)), if_neg (by simpa using h2),
    wordsFrom_leading (fun x hx => (isWhite_iff x).2 (h5 x (List.mem_cons_of_mem _ hx))), wordsFrom_word (fun x hx => white_false (h7 x hx))]
  have ht : target.toList ≠ [] := fun e => h6 (String.toList_injective (by rw [e]; rfl))
  simp only [List.nil_append]
  cases c with
  | nil => simp [wordsFrom, ht, pyIndex]
  | cons x c =>
    rw [wordsFrom, if_pos ((isWhite_iff x).2 (h8 x rfl)), if_neg ht]
    simp [pyIndex]

theorem head?_erase_ne {l : List String} {a b : String} (h : l.head? = some a) (hab : a ≠ b) : (l.erase b).head? = some a := by
  cases l with
  | nil => simp at h
  | cons x l =>
    simp at h; subst h
    rw [List.erase_cons_tail (by simpa using hab)]; rfl

theorem head?_append_some {l m : List String} {a : String} (h : l.head? = some a) : (l ++ m).head? = some a := by
  cases l with
  | nil => simp at h
  | cons x l => simpa using h

/-- A `goto` row whose first incoming flow comes from `x` connects `x` with its target. -/
theorem Gotos.lead {pd : Dict String Line} {todo : List (String × Line)} {d d' : Diagram} (h : Gotos pd todo d d') {b x y : String} {l : Line}
    (hx : NotGoto todo x) (hy : NotGoto todo y) (hpx : Plain x) (hl : (b, l) ∈ todo) (hg : isGoto l.activity = true) (hw : pyIndex (words (strip l.activity)) 1 = .ok y)
    (nd : (todo.map (·.1)).Nodup) : Inv d → (inOf d b).head? = some (flowId x b) → Wired d' x y := by
  induction h with
  | nil => simp at hl
  | @skip o k r d d' hk _ ih =>
    intro i hh
    simp only [List.mem_cons, Prod.mk.injEq] at hl
    rcases hl with ⟨rfl, rfl⟩ | hl
    · rw [hg] at hk; cases hk
    · exact ih hx.tail hy.tail hl (List.nodup_cons.1 nd).2 i hh
  | @cut o src tgt t k r d d1 d' hk ht bp rest ih =>
    intro i hh
    simp only [List.mem_cons, Prod.mk.injEq] at hl
    rcases hl with ⟨rfl, rfl⟩ | hl
    · have hsrc : src = x := by
        obtain ⟨d2, pd', _, rm, c⟩ := bp
        have := rm.inHead
        rw [hh] at this
        exact (flowId_inj hpx (i.plain _ rm.hasSrc) (Option.some.inj this)).1.symm
      subst hsrc
      rw [hw] at ht; cases ht
      exact (rest.keep (bp.inv i)).wired _ _ bp.new hx.tail hy.tail
    · have hne : b ≠ o := by
        rintro rfl
        exact (List.nodup_cons.1 nd).1 (List.mem_map.2 ⟨_, hl, rfl⟩)
      refine ih hx.tail hy.tail hl (List.nodup_cons.1 nd).2 (bp.inv i) ?_
      obtain ⟨d2, pd', _, rm, c⟩ := bp
      have h1 : (inOf d2 b).head? = some (flowId x b) := by
        rw [rm.inn b hne]
        split
        · subst_vars
          refine head?_erase_ne hh fun e => ?_
          exact hx.ne hk (flowId_inj hpx (i.plain _ rm.node) e).1
        · exact hh
      rw [c.inn]
      split
      · exact head?_append_some h1
      · exact h1

/-- Where the flows into the node of a row come from, and from which node. -/
theorem Plan.targets' {pd : Dict String Line} {nodes : List String} {d : Diagram} {r : String} {g : Option (String × Option String)}
    {l : List (String × String)} (h : Plan pd nodes d r g l) {x y : String} (hl : (x, y) ∈ l) (hy : '_' ∉ y.toList) :
    x = r ∧ y ∈ sequenceSuccessors r ∨ (x = r ++ "_split" ∧ ∃ succ, splitSuccessors r nodes = .ok succ ∧ y ∈ succ) ∨ ∃ cs, mergeSuccessors r = .ok cs ∧ y ∈ cs := by
  cases h with
  | stop => simp at hl
  | sequence _ _ _ h4 =>
    simp at hl
    obtain ⟨rfl, rfl⟩ := hl
    exact Or.inl ⟨rfl, (onlyPresent_mem h4).1⟩
  | split _ _ _ _ _ h6 =>
    simp at hl
    rcases hl with ⟨rfl, rfl⟩ | ⟨h7, rfl⟩
    · exact absurd (underscore_split _) hy
    · exact Or.inr (Or.inl ⟨rfl, _, h6, h7⟩)
  | join =>
    simp at hl
    obtain ⟨rfl, rfl⟩ := hl
    exact absurd (underscore_join _) hy
  | newJoin _ _ _ _ h5 h6 =>
    simp at hl
    rcases hl with ⟨rfl, rfl⟩ | ⟨rfl, rfl⟩
    · exact Or.inr (Or.inr ⟨_, h5, (onlyPresent_mem h6).1⟩)
    · exact absurd (underscore_join _) hy

/-- The one predecessor of a `goto` row leads to the target. -/
theorem Stages.goto_leads {rows : List Row} (t : Table rows) {d0 d1 d2 d : Diagram} {F : List (String × String)} (s : Stages rows d0 F d1 d2 d)
    {b q : Row} (hb : b ∈ rows) (hg : GotoRow b) (hq : q ∈ rows) (hgq : ¬GotoRow q) (hto : GoesTo b q.order) {x : String} (hx : NotGoto (dictOf rows) x)
    (hin : (x, b.order) ∈ F) (hone : ∀ z, (z, b.order) ∈ F → z = x) (hxd : x ∈ ids d) : Leads d x q.order := by
  have w : Wired d2 x q.order := by
    refine s.gotos.lead hx (notGoto_row t hq hgq) (s.inv1.plain _ (s.wired1 _ hin).src) (mem_dictOf hb) ((isGoto_iff b).2 hg) (second_word hto) ?_ s.inv1.legacy ?_
    · show (dictOf rows).keys.Nodup
      rw [keys_dictOf]; exact t.orders
    · rw [legacy_inn, s.inn1]
      have hm : flowId x b.order ∈ entering b.order F := mem_entering.2 ⟨x, hin, rfl⟩
      cases e : entering b.order F with
      | nil => rw [e] at hm; simp at hm
      | cons f r =>
        obtain ⟨z, h1, h2⟩ := mem_entering.1 (show f ∈ entering b.order F by rw [e]; exact List.mem_cons_self)
        rw [h2, hone z h1]; rfl
  exact (s.keep.wired _ _ w hxd (s.stays t hq hgq).1).leads s.keep.inv

/-- The orders of steps have numbers without leading zeros. -/
theorem StepOf.digits {o pre : List Char} (hs : ∃ p, StepOf p o) (hp : Ends pre) {ds : List Char} (hd : ∀ c ∈ ds, c.isDigit = true) (hne : ds ≠ [])
    (ho : o = pre ++ ds) : ds = decimal (Nat.ofDigitChars 10 ds 0) := by
  obtain ⟨p, hbp, h⟩ := hs
  have h1 := trailingNumber_digits hp hd hne
  rcases h with h | ⟨n, h⟩
  · exfalso
    cases hbp with
    | nil => rw [h] at ho; exact hne (List.append_eq_nil_iff.1 ho.symm).2
    | @step q n c _ hc1 hc2 =>
      have := trailingNumber_letter (q ++ decimal n) (letter_range hc1 hc2).1
      rw [← h, ho, h1] at this
      cases this
  · have he : Ends p := by
      cases hbp with
      | nil => exact Or.inl rfl
      | step n _ hc1 hc2 => exact Or.inr ⟨_, _, rfl, (letter_range hc1 hc2).1⟩
    have h2 := trailingNumber_decimal n he
    rw [← h, ho, h1] at h2
    simp only [Option.some.injEq, Prod.mk.injEq] at h2
    have e := String.ofList_injective h2.1
    rw [ho, e] at h
    rw [h2.2]
    exact List.append_cancel_left h

end Bpmn.Csv

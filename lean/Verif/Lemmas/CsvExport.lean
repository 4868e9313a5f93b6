import Verif.Spec.Csv
import Verif.Lemmas.Dict
/-! Lemmas about the labels written by the CSV export. -/
set_option linter.unusedSimpArgs false
set_option linter.unusedVariables false

namespace Bpmn.Csv
open Bpmn.Spec.Csv

theorem decimal_eq (n : Nat) : decimal n = Nat.toDigits 10 n := by simp [decimal]

theorem decimal_ne_nil (n : Nat) : decimal n ≠ [] := by rw [decimal_eq]; exact Nat.toDigits_ne_nil

theorem decimal_isDigit {n : Nat} {c : Char} (h : c ∈ decimal n) : c.isDigit = true := by
  rw [decimal_eq] at h
  exact Nat.isDigit_of_mem_toDigits (by omega) (by omega) h

theorem decimal_inj {m n : Nat} (h : decimal m = decimal n) : m = n := by
  rw [decimal_eq, decimal_eq] at h
  rw [← Nat.ofDigitChars_ten_toDigits (n := m), h, Nat.ofDigitChars_ten_toDigits]

/-- Nothing, or something that does not start with a digit. -/
def Stops (r : List Char) : Prop := ∀ c ∈ r.head?, c.isDigit = false

/-- Digits followed by a non-digit are uniquely split. -/
theorem digits_split : ∀ {a b r s : List Char}, (∀ c ∈ a, c.isDigit = true) → (∀ c ∈ b, c.isDigit = true) → Stops r → Stops s →
    a ++ r = b ++ s → a = b ∧ r = s
  | [], [], _, _, _, _, _, _, h => ⟨rfl, h⟩
  | [], c :: b, r, s, _, hb, hr, _, h => by
    simp only [List.nil_append, List.cons_append] at h
    subst h
    have := hr c (by simp)
    simp [hb c (by simp)] at this
  | c :: a, [], r, s, ha, _, _, hs, h => by
    simp only [List.nil_append, List.cons_append] at h
    subst h
    have := hs c (by simp)
    simp [ha c (by simp)] at this
  | c :: a, d :: b, r, s, ha, hb, hr, hs, h => by
    simp only [List.cons_append, List.cons.injEq] at h
    obtain ⟨e, h⟩ := h
    obtain ⟨h1, h2⟩ := digits_split (fun x hx => ha x (List.mem_cons_of_mem _ hx)) (fun x hx => hb x (List.mem_cons_of_mem _ hx)) hr hs h
    exact ⟨by rw [e, h1], h2⟩

theorem decimal_split {m n : Nat} {r s : List Char} (hr : Stops r) (hs : Stops s) (h : decimal m ++ r = decimal n ++ s) :
    m = n ∧ r = s := by
  obtain ⟨h1, h2⟩ := digits_split (fun _ => decimal_isDigit) (fun _ => decimal_isDigit) hr hs h
  exact ⟨decimal_inj h1, h2⟩

/-- The label is `p`, a number from `o` on, and possibly a branch part. -/
def Under (p : List Char) (o : Nat) (s : String) : Prop :=
  ∃ k rest, o ≤ k ∧ Stops rest ∧ s.toList = p ++ decimal k ++ rest

/-- The letter of branch `i`. -/
def Letter (i : Nat) (c : Char) : Prop := "abcdefghijklmnopqrstuvwxyz".toList[i]? = some c

theorem Letter.range {i : Nat} {c : Char} (h : Letter i c) : 'a' ≤ c ∧ c ≤ 'z' := by
  have : c ∈ "abcdefghijklmnopqrstuvwxyz".toList := List.mem_of_getElem? h
  revert this
  have key : ∀ c ∈ "abcdefghijklmnopqrstuvwxyz".toList, 'a' ≤ c ∧ c ≤ 'z' := by decide
  exact key c

theorem Letter.notDigit {i : Nat} {c : Char} (h : Letter i c) : c.isDigit = false := by
  have : c ∈ "abcdefghijklmnopqrstuvwxyz".toList := List.mem_of_getElem? h
  revert this
  have key : ∀ c ∈ "abcdefghijklmnopqrstuvwxyz".toList, c.isDigit = false := by decide
  exact key c

theorem Letter.inj {i j : Nat} {c : Char} (h : Letter i c) (h' : Letter j c) : i = j := by
  have nd : "abcdefghijklmnopqrstuvwxyz".toList.Nodup := by decide
  obtain ⟨hi, _⟩ := List.getElem?_eq_some_iff.1 h
  exact (List.getElem?_inj hi nd).1 (h.trans h'.symm)

theorem asciiLower_ok {i : Nat} {s : String} (h : asciiLower i = .ok s) : ∃ c, Letter i c ∧ s.toList = [c] := by
  obtain ⟨c, hc, h⟩ := except_bind_eq_ok h
  cases h
  refine ⟨c, ?_, by simp⟩
  simp only [pyIndex] at hc
  split at hc
  · cases hc; assumption
  · simp at hc

/-- The label belongs to a branch with number at least `i` of the split at `p`, `o`. -/
def InBranch (p : List Char) (o i : Nat) (s : String) : Prop :=
  ∃ j c, i ≤ j ∧ Letter j c ∧ Under (p ++ decimal o ++ [c]) 1 s

theorem Under.inBranch {p : List Char} {o i : Nat} {s : String} (h : InBranch p o i s) :
    ∃ c rest, c.isDigit = false ∧ rest ≠ [] ∧ s.toList = p ++ decimal o ++ (c :: rest) := by
  obtain ⟨j, c, _, hl, k, rest, _, _, e⟩ := h
  refine ⟨c, decimal k ++ rest, hl.notDigit, by simp [decimal_ne_nil], by simp [e]⟩

theorem InBranch.under {p : List Char} {o i : Nat} {s : String} (h : InBranch p o i s) : Under p o s := by
  obtain ⟨c, rest, hd, _, e⟩ := Under.inBranch h
  exact ⟨o, c :: rest, Nat.le_refl _, by intro x hx; simp at hx; exact hx ▸ hd, e⟩

theorem Under.mono {p : List Char} {o o' : Nat} {s : String} (h : Under p o s) (ho : o' ≤ o) : Under p o' s := by
  obtain ⟨k, rest, h1, h2, h3⟩ := h
  exact ⟨k, rest, Nat.le_trans ho h1, h2, h3⟩

theorem own_not_under {p : List Char} {o : Nat} {s t : String} (hs : s.toList = p ++ decimal o) (ht : Under p (o + 1) t) : s ≠ t := by
  rintro rfl
  obtain ⟨k, rest, h1, h2, h3⟩ := ht
  rw [hs, List.append_assoc] at h3
  have := List.append_cancel_left h3
  have := decimal_split (m := o) (n := k) (r := []) (by simp [Stops]) h2 (by simpa using this)
  omega

theorem branch_not_under {p : List Char} {o i : Nat} {s t : String} (hs : InBranch p o i s) (ht : Under p (o + 1) t) : s ≠ t := by
  rintro rfl
  obtain ⟨c, r, hd, _, e⟩ := Under.inBranch hs
  obtain ⟨k, rest, h1, h2, h3⟩ := ht
  rw [e, List.append_assoc, List.append_assoc] at h3
  have := List.append_cancel_left h3
  have := decimal_split (m := o) (n := k) (r := c :: r) (by intro x hx; simp at hx; exact hx ▸ hd) h2 this
  omega

theorem own_not_branch {p : List Char} {o i : Nat} {s t : String} (hs : s.toList = p ++ decimal o) (ht : InBranch p o i t) : s ≠ t := by
  rintro rfl
  obtain ⟨c, r, _, _, e⟩ := Under.inBranch ht
  rw [hs] at e
  have := congrArg List.length e
  simp at this

theorem letter_not_later {p : List Char} {o i : Nat} {c : Char} {s t : String} (hl : Letter i c)
    (hs : Under (p ++ decimal o ++ [c]) 1 s) (ht : InBranch p o (i + 1) t) : s ≠ t := by
  rintro rfl
  obtain ⟨k, rest, _, _, e⟩ := hs
  obtain ⟨j, c', hj, hl', k', rest', _, _, e'⟩ := ht
  rw [e] at e'
  simp only [List.append_assoc, List.append_cancel_left_eq, List.cons_append, List.nil_append, List.cons.injEq] at e'
  have := hl.inj (e'.1 ▸ hl')
  omega

/-- What is to be shown of a call of `export_node`: the new rows have different labels, all of the right form. -/
def RecOk (rec : Rec) : Prop :=
  ∀ node o pre cond who j rows rows' nx, rec node o pre cond who j rows = .ok (rows', nx) →
    ∃ new, rows' = rows ++ new ∧ (new.map Row.order).Nodup ∧ (∀ r ∈ new, Under pre.toList o r.order) ∧
      (BranchPrefix pre.toList → ∀ r ∈ new, IsOrder r.order)

theorem toList_order (pre : String) (o : Nat) : (pre ++ toString o).toList = pre.toList ++ decimal o := by simp [decimal_eq]

theorem order_under (pre : String) (o : Nat) : Under pre.toList o (pre ++ toString o) :=
  ⟨o, [], Nat.le_refl _, by simp [Stops], by rw [toList_order, List.append_nil]⟩

theorem order_isOrder {pre : String} (h : BranchPrefix pre.toList) (o : Nat) : IsOrder (pre ++ toString o) :=
  ⟨pre.toList, o, h, toList_order pre o⟩

theorem nodup_append {l m : List Row} (hl : (l.map Row.order).Nodup) (hm : (m.map Row.order).Nodup)
    (h : ∀ r ∈ l, ∀ s ∈ m, r.order ≠ s.order) : ((l ++ m).map Row.order).Nodup := by
  rw [List.map_append, List.nodup_append]
  refine ⟨hl, hm, ?_⟩
  intro a ha b hb
  obtain ⟨r, hr, rfl⟩ := List.mem_map.1 ha
  obtain ⟨s, hs, rfl⟩ := List.mem_map.1 hb
  exact h r hr s hs

theorem splitLoop_ok {d : Diagram} {cls : Dict String (List String)} {rec : Rec} (hrec : RecOk rec) {ty : String} {df : Option String}
    {o : Nat} {pre who : String} : ∀ (fs : List String) (i : Nat) (rows rows' : List Row) (next nx : Option Node),
    splitLoop d cls rec ty df o pre who fs i rows next = .ok (rows', nx) →
    ∃ new, rows' = rows ++ new ∧ (new.map Row.order).Nodup ∧ (∀ r ∈ new, InBranch pre.toList o i r.order) ∧
      (BranchPrefix pre.toList → ∀ r ∈ new, IsOrder r.order)
  | [], i, rows, rows', next, nx, h => by
    simp only [splitLoop, Except.ok.injEq, Prod.mk.injEq] at h
    exact ⟨[], by simp [h.1]⟩
  | f :: fs, i, rows, rows', next, nx, h => by
    simp only [splitLoop] at h
    obtain ⟨⟨flow, target⟩, h1, h⟩ := except_bind_eq_ok h
    obtain ⟨suffix, h2, h⟩ := except_bind_eq_ok h
    obtain ⟨t, h3, h⟩ := except_bind_eq_ok h
    obtain ⟨labels, h4, h⟩ := except_bind_eq_ok h
    obtain ⟨c, hc, hsuf⟩ := asciiLower_ok h2
    have hpre : (pre ++ toString o ++ suffix).toList = pre.toList ++ decimal o ++ [c] := by
      simp [hsuf, decimal_eq]
    have hbp : BranchPrefix pre.toList → BranchPrefix (pre ++ toString o ++ suffix).toList := by
      intro h; rw [hpre]; exact .step o h hc.range.1 hc.range.2
    have fin : ∀ (mid : List Row) (nx' : Option Node), (mid.map Row.order).Nodup →
        (∀ r ∈ mid, Under (pre ++ toString o ++ suffix).toList 1 r.order) →
        (BranchPrefix pre.toList → ∀ r ∈ mid, IsOrder r.order) →
        splitLoop d cls rec ty df o pre who fs (i + 1) (rows ++ mid) nx' = .ok (rows', nx) →
        ∃ new, rows' = rows ++ new ∧ (new.map Row.order).Nodup ∧ (∀ r ∈ new, InBranch pre.toList o i r.order) ∧
          (BranchPrefix pre.toList → ∀ r ∈ new, IsOrder r.order) := by
      intro mid nx' hn hu ho hcall
      obtain ⟨new, e, hn', hb', ho'⟩ := splitLoop_ok hrec fs (i + 1) _ _ _ _ hcall
      refine ⟨mid ++ new, by rw [e, List.append_assoc], nodup_append hn hn' ?_, ?_, ?_⟩
      · intro r hr s hs
        exact letter_not_later hc (hpre ▸ hu r hr) (hb' s hs)
      · intro r hr
        rcases List.mem_append.1 hr with hr | hr
        · exact ⟨i, c, Nat.le_refl _, hc, hpre ▸ hu r hr⟩
        · obtain ⟨j, c', hj, rest⟩ := hb' r hr
          exact ⟨j, c', by omega, rest⟩
      · intro hp r hr
        rcases List.mem_append.1 hr with hr | hr
        · exact ho hp r hr
        · exact ho' hp r hr
    split at h
    · refine fin _ _ (by simp) ?_ ?_ h
      · intro r hr
        simp at hr
        subst hr
        exact order_under _ 1
      · intro hp r hr
        simp at hr
        subst hr
        exact order_isOrder (hbp hp) 1
    · obtain ⟨⟨rows1, tmp⟩, h5, h⟩ := except_bind_eq_ok h
      obtain ⟨mid, e, hn, hu, ho⟩ := hrec _ _ _ _ _ _ _ _ _ h5
      subst e
      exact fin mid _ hn hu (fun hp => ho (hbp hp)) h

/-- One row with the given order, then the rest. -/
theorem row_then {pre : String} {o : Nat} {rows rows' new : List Row} {r : Row} (hr : r.order = pre ++ toString o)
    (e : rows' = rows ++ [r] ++ new) (hn : (new.map Row.order).Nodup) (hu : ∀ r ∈ new, Under pre.toList (o + 1) r.order)
    (ho : BranchPrefix pre.toList → ∀ r ∈ new, IsOrder r.order) :
    ∃ new, rows' = rows ++ new ∧ (new.map Row.order).Nodup ∧ (∀ r ∈ new, Under pre.toList o r.order) ∧
      (BranchPrefix pre.toList → ∀ r ∈ new, IsOrder r.order) := by
  refine ⟨r :: new, by simp [e], ?_, ?_, ?_⟩
  · refine nodup_append (l := [r]) (by simp) hn ?_
    intro a ha b hb
    simp at ha
    subst ha
    exact own_not_under (by rw [hr, toList_order]) (hu b hb)
  · intro a ha
    rcases List.mem_cons.1 ha with rfl | ha
    · rw [hr]; exact order_under pre o
    · exact (hu a ha).mono (by omega)
  · intro hp a ha
    rcases List.mem_cons.1 ha with rfl | ha
    · rw [hr]; exact order_isOrder hp o
    · exact ho hp a ha

theorem exportElement_ok {d : Diagram} {cls : Dict String (List String)} {rec : Rec} (hrec : RecOk rec) {node : Node} {o : Nat}
    {pre cond who : String} {j : Bool} {rows rows' : List Row} {nx : Option Node}
    (h : exportElement d cls rec node o pre cond who j rows = .ok (rows', nx)) :
    ∃ new, rows' = rows ++ new ∧ (new.map Row.order).Nodup ∧ (∀ r ∈ new, Under pre.toList o r.order) ∧
      (BranchPrefix pre.toList → ∀ r ∈ new, IsOrder r.order) := by
  unfold exportElement at h
  obtain ⟨ty, h1, h⟩ := except_bind_eq_ok h
  obtain ⟨labels, h2, h⟩ := except_bind_eq_ok h
  split at h
  · obtain ⟨next, _, h⟩ := except_bind_eq_ok h
    simp only [pure, Except.pure, Except.ok.injEq, Prod.mk.injEq] at h
    exact ⟨[], by simp [h.1]⟩
  · obtain ⟨own, h3, h⟩ := except_bind_eq_ok h
    unfold exportNext at h
    obtain ⟨out, h4, h⟩ := except_bind_eq_ok h
    -- the rest, whatever the own row
    have rest : ∃ br new, rows' = rows ++ own ++ br ++ new ∧ (br.map Row.order).Nodup ∧ (new.map Row.order).Nodup ∧
        (∀ r ∈ br, InBranch pre.toList o 0 r.order) ∧ (∀ r ∈ new, Under pre.toList (o + 1) r.order) ∧
        (BranchPrefix pre.toList → ∀ r ∈ br ++ new, IsOrder r.order) := by
      split at h
      · obtain ⟨⟨rows2, next⟩, h5, h⟩ := except_bind_eq_ok h
        obtain ⟨br, e, hn, hb, ho⟩ := splitLoop_ok hrec _ _ _ _ _ _ h5
        subst e
        cases next with
        | none =>
          simp only [pure, Except.pure, Except.ok.injEq, Prod.mk.injEq] at h
          exact ⟨br, [], by simp [h.1], hn, by simp, hb, by simp, by simpa using ho⟩
        | some n =>
          obtain ⟨new, e, hn', hu, ho'⟩ := hrec _ _ _ _ _ _ _ _ _ h
          refine ⟨br, new, e, hn, hn', hb, hu, fun hp r hr => ?_⟩
          rcases List.mem_append.1 hr with hr | hr
          · exact ho hp r hr
          · exact ho' hp r hr
      · split at h
        · obtain ⟨fid, _, h⟩ := except_bind_eq_ok h
          obtain ⟨⟨fl, t⟩, _, h⟩ := except_bind_eq_ok h
          obtain ⟨new, e, hn', hu, ho'⟩ := hrec _ _ _ _ _ _ _ _ _ h
          exact ⟨[], new, by simpa using e, by simp, hn', by simp, hu, by simpa using ho'⟩
        · simp only [pure, Except.pure, Except.ok.injEq, Prod.mk.injEq] at h
          exact ⟨[], [], by simp [h.1]⟩
    obtain ⟨br, new, e, hnb, hnn, hb, hu, ho⟩ := rest
    have hbn : ((br ++ new).map Row.order).Nodup := nodup_append hnb hnn fun r hr s hs => branch_not_under (hb r hr) (hu s hs)
    have own : own = [] ∨ ∃ r : Row, r.order = pre ++ toString o ∧ own = [r] := by
      unfold ownRow at h3
      split at h3
      · obtain ⟨name, _, h3⟩ := except_bind_eq_ok h3
        cases h3; exact .inr ⟨_, rfl, rfl⟩
      · split at h3
        · obtain ⟨name, _, h3⟩ := except_bind_eq_ok h3
          cases h3; exact .inr ⟨_, rfl, rfl⟩
        · cases h3; exact .inl rfl
    rcases own with rfl | ⟨r, hr, rfl⟩
    · refine ⟨br ++ new, by simp [e], hbn, ?_, ho⟩
      intro a ha
      rcases List.mem_append.1 ha with ha | ha
      · exact (hb a ha).under
      · exact (hu a ha).mono (by omega)
    · refine ⟨r :: (br ++ new), by simp [e], ?_, ?_, ?_⟩
      · refine nodup_append (l := [r]) (by simp) hbn ?_
        intro a ha b hb'
        simp at ha
        subst ha
        have hs : a.order.toList = pre.toList ++ decimal o := by rw [hr, toList_order]
        rcases List.mem_append.1 hb' with hb' | hb'
        · exact own_not_branch hs (hb b hb')
        · exact own_not_under hs (hu b hb')
      · intro a ha
        rcases List.mem_cons.1 ha with rfl | ha
        · rw [hr]; exact order_under pre o
        · rcases List.mem_append.1 ha with ha | ha
          · exact (hb a ha).under
          · exact (hu a ha).mono (by omega)
      · intro hp a ha
        rcases List.mem_cons.1 ha with rfl | ha
        · rw [hr]; exact order_isOrder hp o
        · exact ho hp a ha

theorem exportNode_ok (d : Diagram) (cls : Dict String (List String)) : ∀ fuel, RecOk (exportNode d cls fuel)
  | 0 => by intro _ _ _ _ _ _ _ _ _ h; simp [exportNode] at h
  | fuel + 1 => by
    intro node o pre cond who j rows rows' nx h
    have ih := exportNode_ok d cls fuel
    simp only [exportNode] at h
    obtain ⟨n, h1, h⟩ := except_bind_eq_ok h
    obtain ⟨ty, h2, h⟩ := except_bind_eq_ok h
    split at h
    · unfold exportStart at h
      obtain ⟨name, _, h⟩ := except_bind_eq_ok h
      obtain ⟨out, _, h⟩ := except_bind_eq_ok h
      obtain ⟨fid, _, h⟩ := except_bind_eq_ok h
      obtain ⟨⟨fl, t⟩, _, h⟩ := except_bind_eq_ok h
      obtain ⟨new, e, hn, hu, ho⟩ := ih _ _ _ _ _ _ _ _ _ h
      exact row_then (rows' := rows') rfl e hn hu ho
    · split at h
      · unfold exportEnd at h
        obtain ⟨name, _, h⟩ := except_bind_eq_ok h
        cases h
        exact row_then (new := []) (o := o) (pre := pre) rfl (by simp; rfl) (by simp) (by simp) (by simp)
      · exact exportElement_ok ih h

end Bpmn.Csv

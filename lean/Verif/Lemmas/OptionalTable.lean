import Verif.Spec.OptionalTable
import Verif.Lemmas.LoopTable
/-!
# The orders and flows of a table with optional steps
-/
set_option linter.unusedSimpArgs false
set_option linter.unusedVariables false

namespace Bpmn.Props.OptRows
open Bpmn Spec Csv Spec.Csv Props

variable {rows : List Row} {items : List Entry} (T : OptionalTable rows items)

/-- Where a row stands: the number of its item, and its order, a prefix and a number. -/
inductive Sp (items : List Entry) (r : Row) : Nat → List Char → Nat → Prop where
  | line {n : Nat} : items[n]? = some (.line r) → Sp items r n [] n
  | branch {n : Nat} {c : Char} {y : Row} : (items[n]? = some (.optional r y) ∨ items[n]? = some (.optional y r)) → (c = 'a' ∨ c = 'b') →
      r.order.toList = decimal n ++ [c] ++ decimal 1 → Sp items r n (decimal n ++ [c]) 1

theorem dec1 : decimal 1 = ['1'] := by decide

include T in
theorem letters {n : Nat} {x g : Row} (h : items[n]? = some (.optional x g)) :
    ∃ c c', (c = 'a' ∧ c' = 'b' ∨ c = 'b' ∧ c' = 'a') ∧ x.order.toList = decimal n ++ [c] ++ decimal 1 ∧ g.order.toList = decimal n ++ [c'] ++ decimal 1 := by
  rcases (T.optional n x g h).1 with ⟨h1, h2⟩ | ⟨h1, h2⟩
  · exact ⟨'a', 'b', .inl ⟨rfl, rfl⟩, by rw [h1, dec1]; simp, by rw [h2, dec1]; simp⟩
  · exact ⟨'b', 'a', .inr ⟨rfl, rfl⟩, by rw [h1, dec1]; simp, by rw [h2, dec1]; simp⟩

include T in
theorem sp_item {n : Nat} {it : Entry} (h : items[n]? = some it) {r : Row} (hr : r ∈ it.rows) : ∃ p m, Sp items r n p m := by
  cases it with
  | line x =>
    simp only [Entry.rows, List.mem_singleton] at hr
    subst hr
    exact ⟨_, _, .line h⟩
  | optional x g =>
    obtain ⟨c, c', hc, h1, h2⟩ := letters T h
    simp only [Entry.rows, List.mem_cons, List.not_mem_nil, or_false] at hr
    rcases hr with rfl | rfl
    · exact ⟨_, _, .branch (.inl h) (by rcases hc with hc | hc <;> simp [hc.1]) h1⟩
    · exact ⟨_, _, .branch (.inr h) (by rcases hc with hc | hc <;> simp [hc.2]) h2⟩

theorem prefAB (n : Nat) {c : Char} (h : c = 'a' ∨ c = 'b') : BranchPrefix (decimal n ++ [c]) := by
  rcases h with rfl | rfl
  · exact LoopRows.prefA n
  · exact LoopRows.prefB n

theorem inAB {n k : Nat} {c : Char} (h : c = 'a' ∨ c = 'b') (hk : NumberIn (decimal n ++ [c]) k) : k = n := by
  rcases h with rfl | rfl
  · exact LoopRows.inA hk
  · exact LoopRows.inB hk

theorem numAB (n : Nat) {c : Char} (h : c = 'a' ∨ c = 'b') : NumberIn (decimal n ++ [c]) n := by
  rcases h with rfl | rfl
  · exact LoopRows.numA n
  · exact LoopRows.numB n

theorem Sp.pref {r : Row} {n : Nat} {p : List Char} {m : Nat} (h : Sp items r n p m) : BranchPrefix p := by
  cases h with
  | line h => exact .nil
  | branch _ hc _ => exact prefAB _ hc

theorem Sp.index {r r' : Row} {n n' : Nat} {p : List Char} {m : Nat} (h : Sp items r n p m) (h' : Sp items r' n' p m) : n = n' := by
  generalize hq : p = q at h'
  generalize hm : m = k at h'
  cases h with
  | line h =>
    cases h' with
    | line h' => exact hm
    | branch _ _ _ => simp at hq
  | branch h _ _ =>
    cases h' with
    | line h' => simp at hq
    | branch _ _ _ => exact decimal_inj (List.append_inj' hq rfl).1

include T in
theorem sp_order {r : Row} {n : Nat} {p : List Char} {m : Nat} (h : Sp items r n p m) : r ∈ rows ∧ r.order.toList = p ++ decimal m := by
  cases h with
  | line h =>
    refine ⟨T.all.mem_iff.2 (List.mem_flatMap.2 ⟨_, List.mem_of_getElem? h, by simp [Entry.rows]⟩), ?_⟩
    rw [(T.line _ _ h).1]; rfl
  | branch h hc e =>
    refine ⟨T.all.mem_iff.2 (List.mem_flatMap.2 ?_), e⟩
    rcases h with h | h
    · exact ⟨_, List.mem_of_getElem? h, by simp [Entry.rows]⟩
    · exact ⟨_, List.mem_of_getElem? h, by simp [Entry.rows]⟩

include T in
theorem sp_of {r : Row} (h : r ∈ rows) : ∃ n p m, Sp items r n p m := by
  obtain ⟨it, hit, hr⟩ := List.mem_flatMap.1 (T.all.mem_iff.1 h)
  obtain ⟨n, hn, e⟩ := List.getElem_of_mem hit
  obtain ⟨p, m, hs⟩ := sp_item T (n := n) (it := it) (by simp [hn, e]) hr
  exact ⟨n, p, m, hs⟩

include T in
theorem sp_at {r : Row} (h : r ∈ rows) {p : List Char} {m : Nat} (hp : BranchPrefix p) (e : r.order.toList = p ++ decimal m) : ∃ n, Sp items r n p m := by
  obtain ⟨n, q, k, s⟩ := sp_of T h
  obtain ⟨rfl, rfl⟩ := step_eq s.pref hp (sp_order T s).2 e
  exact ⟨n, s⟩

include T in
theorem orders_nodup : (rows.map Row.order).Nodup := by
  rw [(T.all.map Row.order).nodup_iff, List.map_flatMap, List.nodup_flatMap]
  constructor
  · intro it hit
    cases it with
    | line r => simp [Entry.rows]
    | optional x g =>
      obtain ⟨n, hn, e⟩ := List.getElem_of_mem hit
      obtain ⟨c, c', hc, h1, h2⟩ := letters T (n := n) (x := x) (g := g) (by simp [hn, e])
      simp only [Entry.rows, List.map_cons, List.map_nil, List.nodup_cons, List.mem_singleton, List.not_mem_nil, not_false_eq_true, List.nodup_nil, and_true]
      intro e
      rw [e, h2] at h1
      have := (List.append_inj' (List.append_inj' h1 rfl).1 rfl).2
      rcases hc with ⟨rfl, rfl⟩ | ⟨rfl, rfl⟩ <;> simp at this
  · refine List.pairwise_iff_getElem.2 fun i k hi hk hlt => ?_
    intro o h1 h2
    obtain ⟨r, hr, rfl⟩ := List.mem_map.1 h1
    obtain ⟨r', hr', e⟩ := List.mem_map.1 h2
    obtain ⟨p, m, s⟩ := sp_item T (List.getElem?_eq_getElem hi) hr
    obtain ⟨p', m', s'⟩ := sp_item T (List.getElem?_eq_getElem hk) hr'
    obtain ⟨rfl, rfl⟩ := step_eq s.pref s'.pref (sp_order T s).2 ((congrArg String.toList e).symm.trans (sp_order T s').2)
    have := s.index s'
    omega

include T in
theorem table : Table rows := by
  refine ⟨orders_nodup T, ?_⟩
  intro r hr c hc
  obtain ⟨n, p, m, s⟩ := sp_of T hr
  rw [(sp_order T s).2] at hc
  replace hc := List.mem_append.1 hc
  have key : c ∈ p → c.isAlphanum = true := by
    clear hc
    intro k0
    cases s with
    | line h => exact absurd k0 List.not_mem_nil
    | branch h hl e =>
      rcases List.mem_append.1 k0 with k | k
      · exact LoopRows.digit_alnum (decimal_isDigit k)
      · rw [List.mem_singleton] at k
        subst k
        rcases hl with rfl | rfl <;> decide
  exact hc.elim key fun k => LoopRows.digit_alnum (decimal_isDigit k)

include T in
theorem same {r r' : Row} (h : r ∈ rows) (h' : r' ∈ rows) (e : r.order = r'.order) : r = r' := List.inj_on_of_nodup_map (orders_nodup T) h h' e

include T in
theorem no_letter {q : List Char} {c : Char} (hc : c.isDigit = false) : ¬HasOrder rows (q ++ [c]) := by
  rintro ⟨r, hr, e⟩
  obtain ⟨i, p, n, s⟩ := sp_of T hr
  rw [(sp_order T s).2] at e
  obtain ⟨l, x, hx⟩ := List.eq_nil_or_concat (decimal n) |>.resolve_left (decimal_ne_nil n)
  have hd : x.isDigit = true := decimal_isDigit (n := n) (by rw [hx]; simp)
  rw [hx, List.concat_eq_append, ← List.append_assoc] at e
  have := (List.append_inj' e rfl).2
  simp at this
  rw [this, hc] at hd
  cases hd

include T in
theorem at_line {k : Nat} {r : Row} (hr : r ∈ rows) (e : r.order.toList = decimal k) : items[k]? = some (.line r) := by
  obtain ⟨n, s⟩ := sp_at (p := []) T hr .nil e
  generalize hq : ([] : List Char) = q at s
  cases s with
  | line h => exact h
  | branch _ _ _ => simp at hq

include T in
/-- Behind a prefix that is not empty there is the number 1 only. -/
theorem only_one {p : List Char} {m : Nat} (hp : BranchPrefix p) (hne : p ≠ []) (h : HasOrder rows (p ++ decimal m)) : m = 1 := by
  obtain ⟨r, hr, e⟩ := h
  obtain ⟨n, s⟩ := sp_at T hr hp e
  cases s with
  | line h => exact absurd rfl hne
  | branch _ _ _ => rfl

include T in
theorem splits {p : List Char} {n : Nat} (hp : BranchPrefix p) (h : HasOrder rows (p ++ decimal n ++ ['a']) ∨ HasOrder rows (p ++ decimal n ++ ['a', '1'])) :
    p = [] ∧ ∃ x g, items[n]? = some (.optional x g) := by
  rcases h with h | h
  · exact absurd h (no_letter T (by decide))
  · obtain ⟨r, hr, e⟩ := h
    have e : r.order.toList = (p ++ decimal n ++ ['a']) ++ decimal 1 := by rw [e, dec1]; simp
    obtain ⟨k, s⟩ := sp_at T hr (.step n hp (by decide) (by decide)) e
    generalize hq : p ++ decimal n ++ ['a'] = q at s
    cases s with
    | line h => simp at hq
    | branch h hc e =>
      have h1 := (List.append_inj' hq rfl).1
      obtain ⟨e1, e2⟩ := step_eq (o := decimal k) (q := []) (n := k) hp .nil h1.symm rfl
      subst e1 e2
      rcases h with h | h
      · exact ⟨rfl, _, _, h⟩
      · exact ⟨rfl, _, _, h⟩

include T in
theorem opens {w o : List Char} (h : OpensSplit rows w o) : ∃ n x g, w = decimal n ∧ o = decimal (n + 1) ∧ items[n + 1]? = some (.optional x g) := by
  obtain ⟨p, n, hp, rfl, rfl, -, h⟩ := h
  obtain ⟨rfl, x, g, e⟩ := splits T hp h
  exact ⟨n, x, g, by simp, by simp, e⟩

include T in
/-- Where a branch begins. -/
theorem starts_at {r : Row} (hr : r ∈ rows) {o : List Char} (h : BranchStart o r.order.toList) :
    ∃ n y, o = decimal n ∧ (items[n]? = some (.optional r y) ∨ items[n]? = some (.optional y r)) := by
  obtain ⟨n, p, m, s⟩ := sp_of T hr
  obtain ⟨c, ones, e, hc, h1⟩ := h
  rw [(sp_order T s).2] at e
  have dig : ∀ x ∈ ones, x.isDigit = true := fun x hx => by rw [h1 x hx]; decide
  cases s with
  | line h =>
    have : c ∈ decimal n := by
      rw [List.nil_append] at e; rw [e]; simp
    have := decimal_isDigit this
    rw [alpha_not_digit hc] at this
    cases this
  | @branch a y h ha e0 =>
    rw [List.append_assoc, List.singleton_append] at e
    obtain ⟨e1, -, -⟩ := after_letter (by rcases ha with rfl | rfl <;> decide) (alpha_not_digit hc) (fun x => decimal_isDigit) dig e
    exact ⟨n, y, e1.symm, h⟩

include T in
theorem start_of {n : Nat} {x g : Row} (h : items[n]? = some (.optional x g)) :
    x ∈ rows ∧ BranchStart (decimal n) x.order.toList ∧ g ∈ rows ∧ BranchStart (decimal n) g.order.toList ∧ x ≠ g := by
  obtain ⟨c, c', hc, h1, h2⟩ := letters T h
  have k1 : c = 'a' ∨ c = 'b' := by rcases hc with hc | hc <;> simp [hc.1]
  have k2 : c' = 'a' ∨ c' = 'b' := by rcases hc with hc | hc <;> simp [hc.2]
  refine ⟨(sp_order T (.branch (.inl h) k1 h1)).1, ⟨c, ['1'], by rw [h1, dec1]; simp, by rcases k1 with rfl | rfl <;> decide, by simp⟩,
    (sp_order T (.branch (.inr h) k2 h2)).1, ⟨c', ['1'], by rw [h2, dec1]; simp, by rcases k2 with rfl | rfl <;> decide, by simp⟩, ?_⟩
  rintro rfl
  exact (T.optional n x x h).2.1 (T.optional n x x h).2.2.2.1

include T in
/-- The `goto` rows. -/
theorem is_goto {g : Row} (hg : g ∈ rows) (h : GotoRow g) : ∃ (n : Nat) (x : Row), items[n]? = some (.optional x g) := by
  obtain ⟨n, p, m, s⟩ := sp_of T hg
  cases s with
  | line k => exact absurd h (T.line _ _ k).2.1
  | branch k _ _ =>
    rcases k with k | k
    · exact absurd h (T.optional _ _ _ k).2.1
    · exact ⟨n, _, k⟩

include T in
theorem goes_to {n : Nat} {x g q : Row} (h : items[n]? = some (.optional x g)) (hq : q ∈ rows) (hto : GoesTo g q.order) : items[n + 1]? = some (.line q) := by
  obtain ⟨q', h1, h2⟩ := (T.optional n x g h).2.2.2.2.2
  have e1 := second_word hto
  rw [second_word h2] at e1
  injection e1 with e1
  rw [h1, same T (sp_order T (.line h1)).1 hq e1]

include T in
/-- An optional step stands behind a row. -/
theorem line_before {n : Nat} {x g : Row} (h : items[n]? = some (.optional x g)) : ∃ k w, n = k + 1 ∧ items[k]? = some (.line w) := by
  cases n with
  | zero =>
    obtain ⟨r, hr⟩ := T.first
    rw [hr] at h
    cases h
  | succ k =>
    have hk : k < items.length := by
      have := (List.getElem?_eq_some_iff.1 h).1
      omega
    cases e : items[k] with
    | line w => exact ⟨k, w, rfl, by rw [List.getElem?_eq_getElem hk, e]⟩
    | optional x' g' =>
      obtain ⟨q, hq, -⟩ := (T.optional k x' g' (by rw [List.getElem?_eq_getElem hk, e])).2.2.2.2.2
      rw [hq] at h
      cases h

include T in
/-- The rows of optional steps are in one item only. -/
theorem one_item {n n' : Nat} {r y y' : Row} (h : items[n]? = some (.optional r y) ∨ items[n]? = some (.optional y r))
    (h' : items[n']? = some (.optional r y') ∨ items[n']? = some (.optional y' r)) : n = n' := by
  obtain ⟨p, m, s⟩ : ∃ p m, Sp items r n p m := by
    rcases h with h | h <;> exact sp_item T h (by simp [Entry.rows])
  obtain ⟨p', m', s'⟩ : ∃ p m, Sp items r n' p m := by
    rcases h' with h | h <;> exact sp_item T h (by simp [Entry.rows])
  obtain ⟨rfl, rfl⟩ := step_eq s.pref s'.pref (sp_order T s).2 (sp_order T s').2
  exact s.index s'

include T in
/-- The next number. -/
theorem next_lines {w b : Row} (hw : w ∈ rows) (hb : b ∈ rows) (h : NextNumber w.order.toList b.order.toList) :
    ∃ n, items[n]? = some (.line w) ∧ items[n + 1]? = some (.line b) := by
  obtain ⟨p, n, hp, e1, e2⟩ := h
  by_cases hne : p = []
  · subst hne
    exact ⟨n, at_line T hw e1, at_line T hb e2⟩
  · have h1 := only_one T hp hne ⟨w, hw, e1⟩
    have h2 := only_one T hp hne ⟨b, hb, e2⟩
    omega

include T in
theorem next_not_goto {w g : Row} (hw : w ∈ rows) (hg : g ∈ rows) (hgo : GotoRow g) : ¬NextNumber w.order.toList g.order.toList := by
  intro h
  obtain ⟨n, -, h2⟩ := next_lines T hw hg h
  exact (T.line _ _ h2).2.1 hgo

include T in
theorem opens_here {n : Nat} {w x g : Row} (hw : items[n]? = some (.line w)) (h : items[n + 1]? = some (.optional x g)) :
    w ∈ rows ∧ w.terminated ≠ "yes" ∧ OpensSplit rows w.order.toList (decimal (n + 1)) := by
  obtain ⟨h1, h2⟩ := sp_order T (.line hw)
  have hl := (List.getElem?_eq_some_iff.1 h).1
  refine ⟨h1, fun ht => ?_, [], n, .nil, h2, rfl, ?_, .inr ?_⟩
  · have := (T.line _ _ hw).2.2.1 ht
    omega
  · rintro ⟨r, hr, e⟩
    have := at_line T hr e
    rw [h] at this
    cases this
  · rcases (T.optional _ _ _ h).1 with ⟨k, -⟩ | ⟨-, k⟩
    · exact ⟨x, (start_of T h).1, k⟩
    · exact ⟨g, (start_of T h).2.2.1, k⟩

include T in
theorem last_branch {n : Nat} {r y : Row} (h : items[n]? = some (.optional r y) ∨ items[n]? = some (.optional y r)) :
    ∃ c, (c = 'a' ∨ c = 'b') ∧ r ∈ rows ∧ r.order.toList = decimal n ++ [c] ++ decimal 1 ∧ LastStep rows (decimal n ++ [c]) r.order.toList := by
  obtain ⟨c, hc, e⟩ : ∃ c, (c = 'a' ∨ c = 'b') ∧ r.order.toList = decimal n ++ [c] ++ decimal 1 := by
    rcases h with h | h
    · obtain ⟨c, c', hc, h1, h2⟩ := letters T h
      exact ⟨c, by rcases hc with hc | hc <;> simp [hc.1], h1⟩
    · obtain ⟨c, c', hc, h1, h2⟩ := letters T h
      exact ⟨c', by rcases hc with hc | hc <;> simp [hc.2], h2⟩
  have hne : decimal n ++ [c] ≠ [] := by simp
  refine ⟨c, hc, (sp_order T (.branch h hc e)).1, e, .inr ⟨1, e, ?_, ?_, ?_⟩⟩
  · intro h
    have := only_one T (prefAB n hc) hne h
    omega
  · exact fun k => hne (splits T (prefAB n hc) (.inl k)).1
  · exact fun k => hne (splits T (prefAB n hc) (.inr k)).1

include T in
/-- What comes back where. -/
theorem comes {y s : Row} (h : ComesBack rows y s) : ∃ n g, items[n]? = some (.optional y g) ∧ items[n + 1]? = some (.line s) := by
  obtain ⟨hy, hs, hg, hn, p, k, hp, hl, hk, h1, e, -⟩ := h
  obtain ⟨n, q, m, sp⟩ := sp_of T hy
  have := stepOf_unique (lastStep_stepOf hp hl) ⟨sp.pref, .inr ⟨m, (sp_order T sp).2⟩⟩
  subst this
  cases sp with
  | line h => exact absurd rfl (numberIn_ne hk)
  | @branch c z h hc e0 =>
    obtain rfl := inAB hc hk
    rcases h with h | h
    · exact ⟨k, z, h, at_line T hs e⟩
    · exact absurd (T.optional _ _ _ h).2.2.2.1 hg

include T in
/-- One branch only comes back to a row. -/
theorem one_back {y z s : Row} (h : ComesBack rows y s) (h' : ComesBack rows z s) : y = z := by
  obtain ⟨n, g, h1, h2⟩ := comes T h
  obtain ⟨n', g', h1', h2'⟩ := comes T h'
  have := decimal_inj ((T.line _ _ h2).1.symm.trans (T.line _ _ h2').1)
  obtain rfl : n = n' := by omega
  rw [h1] at h1'
  injection h1' with h1'
  injection h1'

include T in
theorem returns {n : Nat} {r y q : Row} (h : items[n]? = some (.optional r y) ∨ items[n]? = some (.optional y r)) (hq : items[n + 1]? = some (.line q)) :
    ReturnsTo rows r.order.toList q.order.toList := by
  obtain ⟨c, hc, -, e, hl⟩ := last_branch T h
  obtain ⟨k, w, rfl, -⟩ : ∃ k w, n = k + 1 ∧ items[k]? = some (.line w) := by rcases h with h | h <;> exact line_before T h
  have := sp_order T (.line hq)
  exact ⟨_, k + 1, prefAB _ hc, hl, numAB _ hc, by omega, this.2, ⟨q, this.1, rfl⟩⟩

include T in
theorem comes_back {n : Nat} {x g q : Row} (h : items[n]? = some (.optional x g)) (hq : items[n + 1]? = some (.line q)) : ComesBack rows x q :=
  ⟨(start_of T h).1, (sp_order T (.line hq)).1, (T.optional _ _ _ h).2.1, (T.optional _ _ _ h).2.2.1, returns T (.inl h) hq⟩

/-! ## What the table is like -/

include T in
theorem goto_table : GotoTable rows := by
  refine ⟨table T, ?_, ?_, ?_, ?_, ?_⟩
  · intro r hr
    obtain ⟨n, p, m, s⟩ := sp_of T hr
    exact ⟨p, s.pref, .inr ⟨m, (sp_order T s).2⟩⟩
  · intro g hg hgo
    obtain ⟨n, x, h⟩ := is_goto T hg hgo
    exact (T.optional _ _ _ h).2.2.2.2.1
  · intro g hg hgo
    obtain ⟨n, x, h⟩ := is_goto T hg hgo
    obtain ⟨c, hc, -, -, hl⟩ := last_branch T (.inr h)
    exact ⟨_, by simp, prefAB _ hc, hl⟩
  · intro g hg hgo
    obtain ⟨n, x, h⟩ := is_goto T hg hgo
    obtain ⟨q, h1, h2⟩ := (T.optional _ _ _ h).2.2.2.2.2
    exact ⟨q, (sp_order T (.line h1)).1, (T.line _ _ h1).2.1, h2⟩
  · intro g hg hgo o hb
    obtain ⟨n, y, rfl, h⟩ := starts_at T hg hb
    rcases h with h | h
    · exact absurd hgo (T.optional _ _ _ h).2.1
    · obtain ⟨h1, h2, -, -, h5⟩ := start_of T h
      exact ⟨y, h1, h5, h2⟩

include T in
/-- What stands before a `goto` row. -/
theorem before_goto {w g : Row} (hw : w ∈ rows) (hg : g ∈ rows) (hgo : GotoRow g) (h : ComesAfter rows w.order.toList g.order.toList) :
    ∃ n x, items[n]? = some (.line w) ∧ items[n + 1]? = some (.optional x g) := by
  cases h with
  | next h1 h2 h3 => exact absurd ⟨_, _, h1, h2, h3⟩ (next_not_goto T hw hg hgo)
  | @branch p n h1 h2 h3 h4 h5 =>
    obtain ⟨rfl, -⟩ := splits T h1 h4
    obtain ⟨m, y, e, h⟩ := starts_at T hg h5
    obtain rfl : n + 1 = m := decimal_inj e
    rcases h with h | h
    · exact absurd hgo (T.optional _ _ _ h).2.1
    · exact ⟨n, y, at_line T hw h2, h⟩

include T in
theorem split_table : SplitTable rows := by
  constructor
  · intro b hb o h
    obtain ⟨n, y, rfl, k⟩ := starts_at T hb h
    rcases k with k | k
    · obtain ⟨h1, h2, h3, h4, h5⟩ := start_of T k
      exact ⟨y, h3, h5.symm, h4⟩
    · obtain ⟨h1, h2, h3, h4, h5⟩ := start_of T k
      exact ⟨y, h1, h5, h2⟩
  · intro g hg hgo w hw w' hw' _ _ h h'
    obtain ⟨n, x, h1, h2⟩ := before_goto T hw hg hgo h
    obtain ⟨n', x', h1', h2'⟩ := before_goto T hw' hg hgo h'
    have := one_item T (.inr h2) (.inr h2')
    obtain rfl : n = n' := by omega
    rw [h1] at h1'
    injection h1' with h1'
    injection h1'

include T in
theorem no_turn : NoTurn rows := by
  constructor
  · intro g hg hgo q hq hto w hw ht hn hqt
    exact absurd hn (next_not_goto T hw hg hgo)
  · intro g hg hgo q hq hto w hw ht o ho hb
    obtain ⟨n, x, h⟩ := is_goto T hg hgo
    have eq := goes_to T h hq hto
    obtain ⟨m, y, rfl, h'⟩ := starts_at T hg hb
    have := one_item T (.inr h) h'
    subst this
    refine ⟨?_, ?_, ?_⟩
    · rintro rfl
      obtain ⟨k, x', g', e1, e2, e3⟩ := opens T ho
      have := at_line T hw e1
      have h1 := decimal_inj e2
      have h2 := decimal_inj (e1.symm.trans (T.line _ _ eq).1)
      omega
    · intro hs
      obtain ⟨k, y', e, h2⟩ := starts_at T hq hs
      obtain ⟨h3, h4⟩ := sp_order T (.line eq)
      obtain ⟨p, j, s⟩ : ∃ p j, Sp items q k p j := by rcases h2 with h2 | h2 <;> exact sp_item T h2 (by simp [Entry.rows])
      have hp := s.pref
      obtain ⟨e1, e2⟩ := step_eq (p := []) .nil hp h4 (sp_order T s).2
      subst e1
      generalize hz : ([] : List Char) = z at s
      cases s with
      | line h5 => rcases h2 with h2 | h2 <;> rw [h2] at h5 <;> cases h5
      | branch _ _ _ => simp at hz
    · intro g' hg' hne hgo' hb' hto'
      obtain ⟨k, x', h2⟩ := is_goto T hg' hgo'
      have := goes_to T h2 hq hto'
      have e := decimal_inj ((T.line _ _ this).1.symm.trans (T.line _ _ eq).1)
      obtain rfl : k = n := by omega
      rw [h] at h2
      injection h2 with h2
      injection h2 with h2 h3
      exact hne h3.symm

include T in
theorem imported : ∃ d, loadCsv rows {} = .ok d := by
  have G := goto_table T
  refine (C110_exactly G).2 ⟨?_, ?_, ?_⟩
  · intro r hr ht
    obtain ⟨n, p, m, s⟩ := sp_of T hr
    have e := (sp_order T s).2
    cases s with
    | line h =>
      have hl := (List.getElem?_eq_some_iff.1 h).1
      have : n + 1 < items.length := by
        have := mt (T.line _ _ h).2.2.2 ht
        omega
      cases e' : items[n + 1] with
      | line q =>
        have hq : items[n + 1]? = some (.line q) := by rw [List.getElem?_eq_getElem this, e']
        exact .next .nil e (.inl ⟨q, sp_order T (.line hq)⟩)
      | optional x g =>
        have hq : items[n + 1]? = some (.optional x g) := by rw [List.getElem?_eq_getElem this, e']
        refine .next .nil e (.inr (.inr ?_))
        rcases (T.optional _ _ _ hq).1 with ⟨k, -⟩ | ⟨-, k⟩
        · exact ⟨x, (start_of T hq).1, k⟩
        · exact ⟨g, (start_of T hq).2.2.1, k⟩
    | @branch c y h hc e0 =>
      obtain ⟨k, w, hk, -⟩ : ∃ k w, n = k + 1 ∧ items[k]? = some (.line w) := by rcases h with h | h <;> exact line_before T h
      obtain ⟨q, hq, -⟩ : ∃ q, items[n + 1]? = some (.line q) ∧ True := by
        rcases h with h | h
        · obtain ⟨q, hq, -⟩ := (T.optional _ _ _ h).2.2.2.2.2; exact ⟨q, hq, trivial⟩
        · obtain ⟨q, hq, -⟩ := (T.optional _ _ _ h).2.2.2.2.2; exact ⟨q, hq, trivial⟩
      exact .back ⟨prefAB _ hc, .inr ⟨_, e⟩⟩ (numAB _ hc) (by omega) ⟨q, sp_order T (.line hq)⟩ fun j h _ => inAB hc h
  · intro g hg hgo
    obtain ⟨n, x, h⟩ := is_goto T hg hgo
    obtain ⟨k, w, rfl, hw⟩ := line_before T h
    obtain ⟨h1, h2, h3⟩ := opens_here T hw h
    exact ⟨w, h1, h2, comesAfter_branch h3 (start_of T h).2.2.2.1⟩
  · intro g hg hgo u hu
    obtain ⟨n, x, h⟩ := is_goto T hg hgo
    obtain ⟨p, k, hp, hl, hk, h1, rfl, hh⟩ := hu
    obtain ⟨c, hc, -, e, -⟩ := last_branch T (.inr h)
    have := stepOf_unique (lastStep_stepOf hp hl) ⟨prefAB _ hc, .inr ⟨_, e⟩⟩
    subst this
    obtain rfl := inAB hc hk
    obtain ⟨q, hq, -⟩ := (T.optional _ _ _ h).2.2.2.2.2
    obtain ⟨c1, -, c3, c4, c5⟩ := comes_back T h hq
    exact ⟨x, c1, c3, c4, (T.line _ _ hq).1 ▸ c5⟩

end Bpmn.Props.OptRows

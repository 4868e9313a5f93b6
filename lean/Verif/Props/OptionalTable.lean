import Verif.Lemmas.OptionalTable
import Verif.Props.LoopTable
import Verif.Props.Optional
import Mathlib.Tactic.IntervalCases
/-!
# Tables with optional steps: the import and the drawing (C136)
-/
set_option linter.unusedSimpArgs false
set_option linter.unusedVariables false

namespace Bpmn.Props
open Bpmn Spec Layouter Csv Spec.Csv

namespace OptRows
variable {rows : List Row} {items : List Entry} (T : OptionalTable rows items)

/-- Where the node with the given id stands. -/
inductive Key (items : List Entry) : String → Nat → Prop where
  | line {n : Nat} {r : Row} : items[n]? = some (.line r) → Key items r.order (3 * n)
  | split {n : Nat} {w : Row} : items[n]? = some (.line w) → Key items (w.order ++ "_split") (3 * n + 1)
  | step {n : Nat} {x g : Row} : items[n + 1]? = some (.optional x g) → Key items x.order (3 * n + 2)

include T in
theorem key_unique {s s' : String} {m m' : Nat} (h : Key items s m) (h' : Key items s' m') (e : s = s') : m = m' := by
  have under : ∀ {r : Row} {w : String}, r ∈ rows → r.order ≠ w ++ "_split" := fun hr e =>
    absurd (e ▸ underscore_split _) (tableUnder (table T) _ (List.mem_map_of_mem hr))
  have ls : ∀ {n n' : Nat} {r x g : Row}, items[n]? = some (.line r) → items[n' + 1]? = some (.optional x g) → r.order ≠ x.order := by
    intro n n' r x g h h' e
    obtain ⟨c, c', -, h1, -⟩ := letters T h'
    have := at_line T (start_of T h').1 (k := n) (by rw [← e]; exact (T.line _ _ h).1)
    obtain ⟨p, j, s⟩ := sp_item T h' (r := x) (by simp [Entry.rows])
    obtain ⟨e1, e2⟩ := step_eq (s.pref) .nil (sp_order T s).2 (sp_order T (.line this)).2
    subst e1
    generalize hz : ([] : List Char) = z at s
    cases s with
    | line h5 => rw [h'] at h5; cases h5
    | branch _ _ _ => simp at hz
  cases h with
  | line h =>
    cases h' with
    | line h' => rw [decimal_inj ((T.line _ _ h).1.symm.trans ((congrArg String.toList e).trans (T.line _ _ h').1))]
    | split h' => exact absurd e (under (sp_order T (.line h)).1)
    | step h' => exact absurd e (ls h h')
  | split h =>
    cases h' with
    | line h' => exact absurd e.symm (under (sp_order T (.line h')).1)
    | split h' =>
      have e := congrArg String.toList e
      rw [String.toList_append, String.toList_append] at e
      have e := List.append_cancel_right e
      rw [decimal_inj ((T.line _ _ h).1.symm.trans (e.trans (T.line _ _ h').1))]
    | step h' => exact absurd e.symm (under (start_of T h').1)
  | step h =>
    cases h' with
    | line h' => exact absurd e.symm (ls h' h)
    | split h' => exact absurd e (under (start_of T h).1)
    | step h' =>
      have := same T (start_of T h).1 (start_of T h').1 e
      subst this
      have := one_item T (.inl h) (.inl h')
      omega

include T in
theorem flow_iff (a b : String) : TableFlow rows a b ↔ OptionalFlow items a b := by
  constructor
  · intro h
    cases h with
    | next h1 h2 h3 h4 h5 =>
      obtain ⟨n, k1, k2⟩ := next_lines T h1 h2 h5
      exact .next k1 k2
    | nextGoto h1 h2 h3 h4 h5 h6 h7 => exact absurd h7 (next_not_goto T h1 h2 h3)
    | split h1 h2 h3 =>
      obtain ⟨n, x, g, e1, e2, e3⟩ := opens T h3
      exact .split (at_line T h1 e1) e3
    | branch h1 h2 h3 h4 h5 h6 =>
      obtain ⟨n, x, g, e1, rfl, e3⟩ := opens T h3
      obtain ⟨m, y, e, k⟩ := starts_at T h4 h6
      obtain rfl := decimal_inj e
      rcases k with k | k
      · exact .take (at_line T h1 e1) k
      · exact absurd (T.optional _ _ _ k).2.2.2.1 h5
    | branchGoto h1 h2 h3 h4 h5 h6 h7 h8 =>
      obtain ⟨n, x, g, e1, rfl, e3⟩ := opens T h3
      obtain ⟨m, y, e, k⟩ := starts_at T h4 h6
      obtain rfl := decimal_inj e
      rcases k with k | k
      · exact absurd h5 (T.optional _ _ _ k).2.1
      · exact .skip (at_line T h1 e1) k (goes_to T k h7 h8)
    | toJoin h1 h2 h3 => exact absurd (one_back T h1 h2) h3
    | join h1 h2 h3 => exact absurd (one_back T h1 h2) h3
    | alone h1 h2 =>
      obtain ⟨n, g, k1, k2⟩ := comes T h1
      exact .back k1 k2
  · intro h
    cases h with
    | @next n r q h1 h2 =>
      obtain ⟨k1, k2⟩ := sp_order T (.line h1)
      obtain ⟨k3, k4⟩ := sp_order T (.line h2)
      refine .next k1 k3 (T.line _ _ h2).2.1 (fun ht => ?_) ⟨[], n, .nil, k2, k4⟩
      have := (T.line _ _ h1).2.2.1 ht
      have := (List.getElem?_eq_some_iff.1 h2).1
      omega
    | split h1 h2 =>
      obtain ⟨k1, k2, k3⟩ := opens_here T h1 h2
      exact .split k1 k2 k3
    | take h1 h2 =>
      obtain ⟨k1, k2, k3⟩ := opens_here T h1 h2
      obtain ⟨s1, s2, -⟩ := start_of T h2
      exact .branch k1 k2 k3 s1 (T.optional _ _ _ h2).2.1 s2
    | @skip n w x g q h1 h2 h3 =>
      obtain ⟨k1, k2, k3⟩ := opens_here T h1 h2
      obtain ⟨-, -, s1, s2, -⟩ := start_of T h2
      obtain ⟨q', e1, e2⟩ := (T.optional _ _ _ h2).2.2.2.2.2
      rw [h3] at e1
      injection e1 with e1
      injection e1 with e1
      subst e1
      exact .branchGoto k1 k2 k3 s1 (T.optional _ _ _ h2).2.2.2.1 s2 (sp_order T (.line h3)).1 e2
    | back h1 h2 => exact .alone (comes_back T h1 h2) fun z hz => one_back T hz (comes_back T h1 h2)

include T in
theorem node_iff (a : String) : TableNode rows a ↔ (∃ (n : Nat) (r : Row), items[n]? = some (.line r) ∧ a = r.order) ∨
    ∃ (n : Nat) (w x g : Row), items[n]? = some (.line w) ∧ items[n + 1]? = some (.optional x g) ∧ (a = w.order ++ "_split" ∨ a = x.order) := by
  constructor
  · intro h
    cases h with
    | row h1 h2 =>
      obtain ⟨n, p, m, s⟩ := sp_of T h1
      cases s with
      | line h => exact .inl ⟨_, _, h, rfl⟩
      | branch h _ _ =>
        rcases h with h | h
        · obtain ⟨k, w, rfl, hw⟩ := line_before T h
          exact .inr ⟨k, w, _, _, hw, h, .inr rfl⟩
        · exact absurd (T.optional _ _ _ h).2.2.2.1 h2
    | split h1 h2 h3 =>
      obtain ⟨n, x, g, e1, e2, e3⟩ := opens T h3
      exact .inr ⟨n, _, x, g, at_line T h1 e1, e3, .inl rfl⟩
    | join h1 h2 h3 => exact absurd (one_back T h1 h2) h3
  · rintro (⟨n, r, h, rfl⟩ | ⟨n, w, x, g, h1, h2, rfl | rfl⟩)
    · exact .row (sp_order T (.line h)).1 (T.line _ _ h).2.1
    · obtain ⟨k1, k2, k3⟩ := opens_here T h1 h2
      exact .split k1 k2 k3
    · exact .row (start_of T h2).1 (T.optional _ _ _ h2).2.1

include T in
theorem no_join (a : String) : ¬TableNode rows (a ++ "_join") := by
  intro h
  have under : ∀ {r : Row}, r ∈ rows → a ++ "_join" ≠ r.order := fun hr e => absurd (e ▸ underscore_join a) (tableUnder (table T) _ (List.mem_map_of_mem hr))
  rcases (node_iff T _).1 h with ⟨n, r, h1, h2⟩ | ⟨n, w, x, g, h1, h2, h3 | h3⟩
  · exact under (sp_order T (.line h1)).1 h2
  · exact split_ne_join _ _ h3.symm
  · exact under (start_of T h2).1 h3

include T in
theorem into_line {m : Nat} {q : Row} (hq : items[m]? = some (.line q)) {a : String} (h : OptionalFlow items a q.order) :
    ∃ k, m = k + 1 ∧ ((∃ r, items[k]? = some (.line r) ∧ a = r.order) ∨
      ∃ n w x g, k = n + 1 ∧ items[n]? = some (.line w) ∧ items[n + 1]? = some (.optional x g) ∧ (a = w.order ++ "_split" ∨ a = x.order)) := by
  generalize e : q.order = b at h
  have key : ∀ {j : Nat}, Key items b j → 3 * m = j := fun h' => key_unique T (.line hq) h' e
  cases h with
  | @next n r s h1 h2 =>
    have := key (.line h2)
    exact ⟨n, by omega, .inl ⟨r, h1, rfl⟩⟩
  | split h1 h2 => have := key (.split h1); omega
  | take h1 h2 => have := key (.step h2); omega
  | @skip n w x g s h1 h2 h3 =>
    have := key (.line h3)
    exact ⟨n + 1, by omega, .inr ⟨n, w, x, g, rfl, h1, h2, .inl rfl⟩⟩
  | @back n x g s h1 h2 =>
    have := key (.line h2)
    obtain ⟨k, w, rfl, hw⟩ := line_before T h1
    exact ⟨k + 1, by omega, .inr ⟨k, w, x, g, rfl, hw, h1, .inr rfl⟩⟩

include T in
theorem into_step {m : Nat} {w x g : Row} (hw : items[m]? = some (.line w)) (hx : items[m + 1]? = some (.optional x g)) {a : String} (h : OptionalFlow items a x.order) :
    a = w.order ++ "_split" := by
  generalize e : x.order = b at h
  have key : ∀ {j : Nat}, Key items b j → 3 * m + 2 = j := fun h' => key_unique T (.step hx) h' e
  cases h with
  | next h1 h2 => have := key (.line h2); omega
  | split h1 h2 => have := key (.split h1); omega
  | @take n v y z h1 h2 =>
    have := key (.step h2)
    obtain rfl : m = n := by omega
    rw [hw] at h1
    injection h1 with h1
    injection h1 with h1
    rw [h1]
  | skip h1 h2 h3 => have := key (.line h3); omega
  | back h1 h2 => have := key (.line h2); omega

include T in
theorem out_split {m : Nat} {w x g q : Row} (hw : items[m]? = some (.line w)) (hx : items[m + 1]? = some (.optional x g)) (hq : items[m + 2]? = some (.line q)) {b : String}
    (h : OptionalFlow items (w.order ++ "_split") b) : b = x.order ∨ b = q.order := by
  generalize e : w.order ++ "_split" = a at h
  have key : ∀ {j : Nat}, Key items a j → 3 * m + 1 = j := fun h' => key_unique T (.split hw) h' e
  cases h with
  | next h1 h2 => have := key (.line h1); omega
  | split h1 h2 => have := key (.line h1); omega
  | @take n v y z h1 h2 =>
    have := key (.split h1)
    obtain rfl : m = n := by omega
    rw [hx] at h2
    injection h2 with h2
    injection h2 with h2
    exact .inl (by rw [h2])
  | @skip n v y z u h1 h2 h3 =>
    have := key (.split h1)
    obtain rfl : m = n := by omega
    rw [hq] at h3
    injection h3 with h3
    injection h3 with h3
    exact .inr (by rw [h3])
  | @back n y z u h1 h2 =>
    obtain ⟨k, v, rfl, hv⟩ := line_before T h1
    have := key (.step h1)
    omega

/-! ## The parts of the diagram -/

/-- The parts behind the row `p`. -/
def partsOf (d : Diagram) : Row → List Entry → List Part
  | _, [] => []
  | _, .line r :: t => .step (nodeNamed d r.order) :: partsOf d r t
  | p, .optional x _ :: .line q :: t => .optional (nodeNamed d (p.order ++ "_split")) (nodeNamed d x.order) (nodeNamed d q.order) :: partsOf d q t
  | _, .optional _ _ :: _ => []

/-- Their ids. -/
def idsOf : Row → List Entry → List String
  | _, [] => []
  | _, .line r :: t => r.order :: idsOf r t
  | p, .optional x _ :: .line q :: t => (p.order ++ "_split") :: x.order :: q.order :: idsOf q t
  | _, .optional _ _ :: _ => []

/-- Row `p` is item `k`, and `es` are the items behind it. -/
def Tail (items : List Entry) (k : Nat) (p : Row) (es : List Entry) : Prop := items[k]? = some (.line p) ∧ ∀ i, items[k + 1 + i]? = es[i]?

include T in
theorem tail_induction {motive : Nat → Row → List Entry → Prop} (nil : ∀ k p, Tail items k p [] → motive k p [])
    (line : ∀ k p r t, Tail items k p (.line r :: t) → Tail items (k + 1) r t → motive (k + 1) r t → motive k p (.line r :: t))
    (opt : ∀ k p x g q t, Tail items k p (.optional x g :: .line q :: t) → Tail items (k + 2) q t → motive (k + 2) q t → motive k p (.optional x g :: .line q :: t)) :
    ∀ es k p, Tail items k p es → motive k p es
  | [], k, p, h => nil k p h
  | .line r :: t, k, p, h => by
    have h' : Tail items (k + 1) r t := ⟨h.2 0, fun i => by rw [show k + 1 + 1 + i = k + 1 + (i + 1) by omega, h.2 (i + 1)]; rfl⟩
    exact line k p r t h h' (tail_induction nil line opt t (k + 1) r h')
  | .optional x g :: .line q :: t, k, p, h => by
    have h' : Tail items (k + 2) q t := ⟨h.2 1, fun i => by rw [show k + 2 + 1 + i = k + 1 + (i + 2) by omega, h.2 (i + 2)]; rfl⟩
    exact opt k p x g q t h h' (tail_induction nil line opt t (k + 2) q h')
  | [.optional x g], k, p, h => by
    obtain ⟨q, hq, -⟩ := (T.optional _ _ _ (h.2 0)).2.2.2.2.2
    have := h.2 1
    rw [show k + 1 + 1 = k + 1 + 0 + 1 by omega, hq] at this
    simp at this
  | .optional x g :: .optional x' g' :: t, k, p, h => by
    obtain ⟨q, hq, -⟩ := (T.optional _ _ _ (h.2 0)).2.2.2.2.2
    have := h.2 1
    rw [show k + 1 + 1 = k + 1 + 0 + 1 by omega, hq] at this
    simp at this

include T in
theorem parts_ids (d : Diagram) : ∀ es k p, Tail items k p es → (partsOf d p es).flatMap Part.nodes = (idsOf p es).map (nodeNamed d) := by
  refine tail_induction T ?_ ?_ ?_
  · intro k p h; simp [partsOf, idsOf]
  · intro k p r t h h' ih; simp [partsOf, idsOf, Part.nodes, ih]
  · intro k p x g q t h h' ih; simp [partsOf, idsOf, Part.nodes, ih]

include T in
theorem ids_chain : ∀ es k p, Tail items k p es → (p.order :: idsOf p es).IsChain (OptionalFlow items) := by
  refine tail_induction T ?_ ?_ ?_
  · intro k p h; simp [idsOf]
  · intro k p r t h h' ih
    simp only [idsOf, List.isChain_cons_cons]
    exact ⟨.next h.1 h'.1, ih⟩
  · intro k p x g q t h h' ih
    simp only [idsOf, List.isChain_cons_cons]
    have hx : items[k + 1]? = some (.optional x g) := h.2 0
    exact ⟨.split h.1 hx, .take h.1 hx, .back hx h'.1, ih⟩

include T in
theorem ids_nodup : ∀ es k p, Tail items k p es → (p.order :: idsOf p es).Nodup ∧ ∀ s ∈ idsOf p es, ∃ m > 3 * k, Key items s m := by
  refine tail_induction T ?_ ?_ ?_
  · intro k p h; simp [idsOf]
  · intro k p r t h h' ih
    have key : ∀ s ∈ idsOf p (.line r :: t), ∃ m > 3 * k, Key items s m := by
      intro s hs
      simp only [idsOf, List.mem_cons] at hs
      rcases hs with rfl | hs
      · exact ⟨_, by omega, .line h'.1⟩
      · obtain ⟨m, hm, hk⟩ := ih.2 s hs
        exact ⟨m, by omega, hk⟩
    refine ⟨List.nodup_cons.2 ⟨fun hin => ?_, ih.1⟩, key⟩
    obtain ⟨m, hm, hk⟩ := key _ hin
    have := key_unique T (.line h.1) hk rfl
    omega
  · intro k p x g q t h h' ih
    have hx : items[k + 1]? = some (.optional x g) := h.2 0
    have k3 : ∀ s ∈ q.order :: idsOf q t, ∃ m > 3 * k + 2, Key items s m := by
      intro s hs
      rcases List.mem_cons.1 hs with rfl | hs
      · exact ⟨_, by omega, .line h'.1⟩
      · obtain ⟨m, hm, hk⟩ := ih.2 s hs
        exact ⟨m, by omega, hk⟩
    have k2 : ∀ s ∈ x.order :: q.order :: idsOf q t, ∃ m > 3 * k + 1, Key items s m := by
      intro s hs
      rcases List.mem_cons.1 hs with rfl | hs
      · exact ⟨_, by omega, .step hx⟩
      · obtain ⟨m, hm, hk⟩ := k3 s hs
        exact ⟨m, by omega, hk⟩
    have k1 : ∀ s ∈ (p.order ++ "_split") :: x.order :: q.order :: idsOf q t, ∃ m > 3 * k, Key items s m := by
      intro s hs
      rcases List.mem_cons.1 hs with rfl | hs
      · exact ⟨_, by omega, .split h.1⟩
      · obtain ⟨m, hm, hk⟩ := k2 s hs
        exact ⟨m, by omega, hk⟩
    refine ⟨List.nodup_cons.2 ⟨fun hin => ?_, List.nodup_cons.2 ⟨fun hin => ?_, List.nodup_cons.2 ⟨fun hin => ?_, ih.1⟩⟩⟩, k1⟩
    · obtain ⟨m, hm, hk⟩ := k1 _ hin
      have := key_unique T (.line h.1) hk rfl
      omega
    · obtain ⟨m, hm, hk⟩ := k2 _ hin
      have := key_unique T (.split h.1) hk rfl
      omega
    · obtain ⟨m, hm, hk⟩ := k3 _ hin
      have := key_unique T (.step hx) hk rfl
      omega

include T in
theorem ids_all : ∀ es k p, Tail items k p es → (∀ n r, k < n → items[n]? = some (.line r) → r.order ∈ idsOf p es) ∧
    ∀ n w x g, k ≤ n → items[n]? = some (.line w) → items[n + 1]? = some (.optional x g) → (w.order ++ "_split") ∈ idsOf p es ∧ x.order ∈ idsOf p es := by
  refine tail_induction T ?_ ?_ ?_
  · intro k p h
    have none : ∀ n, k < n → items[n]? = none := fun n hn => by
      have := h.2 (n - (k + 1))
      rw [show k + 1 + (n - (k + 1)) = n by omega] at this
      simpa using this
    refine ⟨fun n r hn e => ?_, fun n w x g hn _ e => ?_⟩
    · rw [none n hn] at e; cases e
    · rw [none (n + 1) (by omega)] at e; cases e
  · intro k p r t h h' ih
    simp only [idsOf, List.mem_cons]
    refine ⟨fun n s hn e => ?_, fun n w x g hn e1 e2 => ?_⟩
    · by_cases hk : n = k + 1
      · subst hk
        rw [h'.1] at e
        injection e with e
        injection e with e
        exact .inl (by rw [e])
      · exact .inr (ih.1 n s (by omega) e)
    · by_cases hk : n = k
      · subst hk
        rw [h'.1] at e2
        cases e2
      · have := ih.2 n w x g (by omega) e1 e2
        exact ⟨.inr this.1, .inr this.2⟩
  · intro k p x g q t h h' ih
    have hx : items[k + 1]? = some (.optional x g) := h.2 0
    simp only [idsOf, List.mem_cons]
    refine ⟨fun n s hn e => ?_, fun n w y z hn e1 e2 => ?_⟩
    · by_cases hk : n = k + 1
      · subst hk
        rw [hx] at e
        cases e
      · by_cases hk' : n = k + 2
        · subst hk'
          rw [h'.1] at e
          injection e with e
          injection e with e
          exact .inr (.inr (.inl (by rw [e])))
        · exact .inr (.inr (.inr (ih.1 n s (by omega) e)))
    · by_cases hk : n = k
      · subst hk
        rw [h.1] at e1
        rw [hx] at e2
        injection e1 with e1
        injection e1 with e1
        injection e2 with e2
        injection e2 with e2
        exact ⟨.inl (by rw [e1]), .inr (.inl (by rw [e2]))⟩
      · by_cases hk' : n = k + 1
        · subst hk'
          rw [hx] at e1
          cases e1
        · have := ih.2 n w y z (by omega) e1 e2
          exact ⟨.inr (.inr (.inr this.1)), .inr (.inr (.inr this.2))⟩

include T in
theorem ids_nodes : ∀ es k p, Tail items k p es → ∀ s ∈ idsOf p es, TableNode rows s := by
  refine tail_induction T ?_ ?_ ?_
  · intro k p h s hs; simp [idsOf] at hs
  · intro k p r t h h' ih s hs
    simp only [idsOf, List.mem_cons] at hs
    rcases hs with rfl | hs
    · exact (node_iff T _).2 (.inl ⟨_, _, h'.1, rfl⟩)
    · exact ih s hs
  · intro k p x g q t h h' ih s hs
    have hx : items[k + 1]? = some (.optional x g) := h.2 0
    simp only [idsOf, List.mem_cons] at hs
    rcases hs with rfl | rfl | rfl | hs
    · exact (node_iff T _).2 (.inr ⟨_, _, _, _, h.1, hx, .inl rfl⟩)
    · exact (node_iff T _).2 (.inr ⟨_, _, _, _, h.1, hx, .inr rfl⟩)
    · exact (node_iff T _).2 (.inl ⟨_, _, h'.1, rfl⟩)
    · exact ih s hs

include T in
theorem parts_mem (d : Diagram) : ∀ es k p, Tail items k p es →
    (∀ n, .step n ∈ partsOf d p es → ∃ m v r, items[m]? = some (.line v) ∧ items[m + 1]? = some (.line r) ∧ n = nodeNamed d r.order) ∧
    ∀ g a j, .optional g a j ∈ partsOf d p es → ∃ m w x z q, items[m]? = some (.line w) ∧ items[m + 1]? = some (.optional x z) ∧ items[m + 2]? = some (.line q) ∧
      g = nodeNamed d (w.order ++ "_split") ∧ a = nodeNamed d x.order ∧ j = nodeNamed d q.order := by
  refine tail_induction T ?_ ?_ ?_
  · intro k p h; simp [partsOf]
  · intro k p r t h h' ih
    simp only [partsOf, List.mem_cons, reduceCtorEq, false_or, Part.step.injEq]
    refine ⟨fun n hn => ?_, ih.2⟩
    rcases hn with rfl | hn
    · exact ⟨k, p, r, h.1, h'.1, rfl⟩
    · exact ih.1 n hn
  · intro k p x z q t h h' ih
    simp only [partsOf, List.mem_cons, reduceCtorEq, false_or, Part.optional.injEq]
    refine ⟨ih.1, fun g a j hn => ?_⟩
    rcases hn with ⟨rfl, rfl, rfl⟩ | hn
    · exact ⟨k, p, x, z, q, h.1, h.2 0, h'.1, rfl, rfl, rfl⟩
    · exact ih.2 g a j hn

include T in
theorem whole : ∃ p es, items = .line p :: es ∧ Tail items 0 p es := by
  obtain ⟨p, hp⟩ := T.first
  cases items with
  | nil => simp at hp
  | cons e es =>
    simp at hp
    subst hp
    exact ⟨p, es, rfl, by simp, fun i => by rw [Nat.add_comm (0 + 1) i]; simp⟩

include T in
/-- The diagram of the table. -/
theorem optional_line {d : Diagram} (hd : loadCsv rows {} = .ok d) {p : Row} {es : List Entry} (ht : Tail items 0 p es) :
    (∀ x, TableNode rows x → nodeNamed d x ∈ d.getNodes ∧ (nodeNamed d x).1 = x) ∧ OptionalLine d (nodeNamed d p.order) (partsOf d p es) := by
  have TT := goto_table T
  have S := split_table T
  have N := no_turn T
  obtain ⟨G, g1, g2, g3, g4⟩ := TT.ground S N hd
  have c := G.consistent
  have named : ∀ x, TableNode rows x → nodeNamed d x ∈ d.getNodes ∧ (nodeNamed d x).1 = x := by
    intro x hx
    obtain ⟨n, hn, rfl⟩ := (C113_nodes TT S N d hd x).2 hx
    rw [nodeNamed, c.getNodeById hn]
    exact ⟨hn, rfl⟩
  refine ⟨named, ?_⟩
  have lineNode : ∀ {n : Nat} {r : Row}, items[n]? = some (.line r) → TableNode rows r.order := fun h => (node_iff T _).2 (.inl ⟨_, _, h, rfl⟩)
  have optNode : ∀ {n : Nat} {w x g : Row}, items[n]? = some (.line w) → items[n + 1]? = some (.optional x g) → TableNode rows (w.order ++ "_split") ∧ TableNode rows x.order :=
    fun h1 h2 => ⟨(node_iff T _).2 (.inr ⟨_, _, _, _, h1, h2, .inl rfl⟩), (node_iff T _).2 (.inr ⟨_, _, _, _, h1, h2, .inr rfl⟩)⟩
  have allNodes : ∀ x ∈ p.order :: idsOf p es, TableNode rows x := by
    intro x hx
    rcases List.mem_cons.1 hx with rfl | hx
    · exact lineNode ht.1
    · exact ids_nodes T es 0 p ht x hx
  have elist : nodeNamed d p.order :: (partsOf d p es).flatMap Part.nodes = (p.order :: idsOf p es).map (nodeNamed d) := by
    rw [parts_ids T d es 0 p ht]; rfl
  have feeds : ∀ {a b : String}, TableNode rows a → TableNode rows b → OptionalFlow items a b → Feeds (nodeNamed d a) (nodeNamed d b) := by
    intro a b ha hb h
    refine (TT.feeds S N hd (named a ha).1 (named b hb).1).2 ?_
    rw [(named a ha).2, (named b hb).2]
    exact (flow_iff T a b).2 h
  have rowOut : ∀ {r : Row}, r ∈ rows → ¬GotoRow r → (outs (nodeNamed d r.order)).length = if r.terminated = "yes" then 0 else 1 := by
    intro r hr hg
    obtain ⟨n', k1, k2, k3⟩ := C62_one_way_on rows TT.table d hd _ hr hg
    obtain ⟨h1, h2⟩ := named _ (.row hr hg)
    rw [c.node_eq h1 k1 (h2.trans k2.symm), k3]
  have rowOut1 : ∀ {n : Nat} {r : Row}, items[n]? = some (.line r) → (outs (nodeNamed d r.order)).length ≤ 1 := by
    intro n r h
    rw [rowOut (sp_order T (.line h)).1 (T.line _ _ h).2.1]
    split <;> omega
  have one : ∀ {x a : String}, TableNode rows x → OptionalFlow items a x → (∀ b, OptionalFlow items b x → b = a) → (ins (nodeNamed d x)).length = 1 := by
    intro x a hx ha hu
    obtain ⟨k1, k2⟩ := named x hx
    have le := g1 _ k1 (by
      rw [k2]
      intro b b' hb hb'
      rw [hu b ((flow_iff T _ _).1 hb), hu b' ((flow_iff T _ _).1 hb')])
    have ne : ins (nodeNamed d x) ≠ [] := by
      intro e
      have := (g4 _ k1).1 e a
      rw [k2] at this
      exact this ((flow_iff T _ _).2 ha)
    have := List.length_pos_iff.2 ne
    omega
  refine ⟨?_, ?_, ?_, ?_, ?_⟩
  · rw [elist]
    refine (List.perm_ext_iff_of_nodup ?_ (List.Nodup.of_map _ c.ids)).2 ?_
    · refine List.Nodup.map_on ?_ (ids_nodup T es 0 p ht).1
      intro x hx y hy e
      rw [← (named x (allNodes x hx)).2, e, (named y (allNodes y hy)).2]
    · intro n
      rw [List.mem_map]
      constructor
      · rintro ⟨x, hx, rfl⟩
        exact (named x (allNodes x hx)).1
      · intro hn
        refine ⟨n.1, ?_, by rw [nodeNamed, c.getNodeById hn]; rfl⟩
        rcases (node_iff T _).1 ((C113_nodes TT S N d hd n.1).1 ⟨n, hn, rfl⟩) with ⟨m, r, h1, h2⟩ | ⟨m, w, x, g, h1, h2, h3⟩
        · rw [h2]
          by_cases hm : m = 0
          · subst hm
            rw [ht.1] at h1
            injection h1 with h1
            injection h1 with h1
            simp [h1]
          · exact List.mem_cons_of_mem _ ((ids_all T es 0 p ht).1 m r (by omega) h1)
        · obtain ⟨k1, k2⟩ := (ids_all T es 0 p ht).2 m w x g (by omega) h1 h2
          rcases h3 with h3 | h3
          · rw [h3]; exact List.mem_cons_of_mem _ k1
          · rw [h3]; exact List.mem_cons_of_mem _ k2
  · rw [elist, List.isChain_map]
    refine List.IsChain.imp_of_mem_imp ?_ (ids_chain T es 0 p ht)
    intro a b ha hb h
    exact feeds (allNodes a ha) (allNodes b hb) h
  · refine ⟨?_, rowOut1 ht.1⟩
    obtain ⟨k1, k2⟩ := named _ (lineNode ht.1)
    rw [g4 _ k1]
    intro a ha
    rw [k2] at ha
    obtain ⟨k, h, -⟩ := into_line T ht.1 ((flow_iff T _ _).1 ha)
    omega
  · intro n hn
    obtain ⟨m, v, r, h1, h2, rfl⟩ := (parts_mem T d es 0 p ht).1 n hn
    refine ⟨one (lineNode h2) (.next h1 h2) ?_, rowOut1 h2⟩
    intro b hb
    obtain ⟨k, e, hb⟩ := into_line T h2 hb
    obtain rfl : m = k := by omega
    rcases hb with ⟨u, hu, rfl⟩ | ⟨i, w, x, g, rfl, -, hx, -⟩
    · rw [h1] at hu
      injection hu with hu
      injection hu with hu
      rw [hu]
    · rw [h1] at hx
      cases hx
  · intro g a j hn
    obtain ⟨m, w, x, z, q, h1, h2, h3, rfl, rfl, rfl⟩ := (parts_mem T d es 0 p ht).2 g a j hn
    obtain ⟨n1, n2⟩ := optNode h1 h2
    have n3 := lineNode h3
    have xq : x.order ≠ q.order := fun e => by
      have := key_unique T (.step h2) (.line h3) e
      omega
    refine ⟨feeds n1 n3 (.skip h1 h2 h3), one n1 (.split h1 h2) (fun b hb => TT.to_split ((flow_iff T _ _).2 hb)), ?_, one n2 (.take h1 h2) (fun b hb => into_step T h1 h2 hb), ?_, ?_, rowOut1 h3⟩
    · obtain ⟨k1, k2⟩ := named _ n1
      have le : (outs (nodeNamed d (w.order ++ "_split"))).length ≤ [x.order, q.order].length := by
        refine table_outs_le TT S N hd k1 fun b hb => ?_
        rw [k2] at hb
        rcases out_split T h1 h2 h3 ((flow_iff T _ _).1 hb) with rfl | rfl <;> simp
      have ge := table_outs_ge TT S N hd k1 (a := x.order) (b := q.order) (by rw [k2]; exact (flow_iff T _ _).2 (.take h1 h2))
        (by rw [k2]; exact (flow_iff T _ _).2 (.skip h1 h2 h3)) xq
      simp at le
      omega
    · rw [rowOut (start_of T h2).1 (T.optional _ _ _ h2).2.1, if_neg (T.optional _ _ _ h2).2.2.1]
    · obtain ⟨k1, k2⟩ := named _ n3
      have le : (ins (nodeNamed d q.order)).length ≤ [w.order ++ "_split", x.order].length := by
        refine table_ins_le TT S N hd k1 fun b hb => ?_
        rw [k2] at hb
        obtain ⟨k, e, hb⟩ := into_line T h3 ((flow_iff T _ _).1 hb)
        obtain rfl : k = m + 1 := by omega
        rcases hb with ⟨u, hu, rfl⟩ | ⟨i, w', x', g', e, hw', hx', hb⟩
        · rw [h2] at hu
          cases hu
        · obtain rfl : m = i := by omega
          rw [h1] at hw'
          rw [h2] at hx'
          injection hw' with hw'
          injection hw' with hw'
          injection hx' with hx'
          injection hx' with hx'
          subst hw' hx'
          rcases hb with rfl | rfl <;> simp
      have ge := g2 _ k1 (w.order ++ "_split") x.order (by rw [k2]; exact (flow_iff T _ _).2 (.skip h1 h2 h3)) (by rw [k2]; exact (flow_iff T _ _).2 (.back h2 h3))
        fun e => by
          have := key_unique T (.split h1) (.step h2) e
          omega
      simp at le
      omega

theorem nodesIn_append (a b : List Part) : nodesIn (a ++ b) = nodesIn a + nodesIn b := by simp [nodesIn]

theorem optionals_append : ∀ a b : List Part, optionals (a ++ b) = optionals a + optionals b
  | [], b => by simp [optionals]
  | .step _ :: a, b => by simp [optionals, optionals_append a b]
  | .optional _ _ _ :: a, b => by simp [optionals, optionals_append a b]; omega

/-- What is drawn where, for a part that stands at a given place. -/
def Drawn (d : Diagram) (d' : Diagram) (parts : List Part) : Prop :=
  (∀ pre n post, parts = pre ++ .step n :: post → DrawnAt d' n (150 * (nodesIn pre + 2) + 50) (100 * lineRow (optionals pre) + 50)) ∧
  ∀ pre g a j post, parts = pre ++ .optional g a j :: post →
    DrawnAt d' g (150 * (nodesIn pre + 2) + 50) (100 * lineRow (optionals pre) + 50) ∧
    DrawnAt d' a (150 * (nodesIn pre + 3) + 50) (100 * (lineRow (optionals pre) + 2) + 50) ∧
    DrawnAt d' j (150 * (nodesIn pre + 4) + 50) (100 * lineRow (optionals pre + 1) + 50)

include T in
theorem drawn_tail {d d' : Diagram} (named : ∀ x, TableNode rows x → (nodeNamed d x).1 = x) {parts : List Part} (hD : Drawn d d' parts) : ∀ es k p, Tail items k p es →
    ∀ done, parts = done ++ partsOf d p es →
      (∀ pre r post, es = pre ++ .line r :: post → DrawnId d' r.order (150 * (nodesIn done + Entry.width pre + 2) + 50) (100 * lineRow (optionals done + Entry.skips pre) + 50)) ∧
      ∀ pre w x g post, .line p :: es = pre ++ .line w :: .optional x g :: post →
        DrawnId d' (w.order ++ "_split") (150 * (nodesIn done + Entry.width pre + 2) + 50) (100 * lineRow (optionals done + Entry.skips pre) + 50) ∧
        DrawnId d' x.order (150 * (nodesIn done + Entry.width pre + 3) + 50) (100 * (lineRow (optionals done + Entry.skips pre) + 2) + 50) := by
  have at_ : ∀ {s : String} {x y : Int}, TableNode rows s → DrawnAt d' (nodeNamed d s) x y → DrawnId d' s x y := by
    intro s x y hs h
    unfold DrawnAt at h
    rw [named s hs] at h
    exact h
  refine tail_induction T ?_ ?_ ?_
  · intro k p h done e
    refine ⟨fun pre r post e => by simp at e, fun pre w x g post e => ?_⟩
    cases pre with
    | nil => simp at e
    | cons a pre => simp at e
  · intro k p r t h h' ih done e
    have e' : parts = (done ++ [.step (nodeNamed d r.order)]) ++ partsOf d r t := by rw [e]; simp [partsOf]
    obtain ⟨i1, i2⟩ := ih _ e'
    have n1 : nodesIn (done ++ [.step (nodeNamed d r.order)]) = nodesIn done + 1 := by rw [nodesIn_append]; rfl
    have o1 : optionals (done ++ [.step (nodeNamed d r.order)]) = optionals done := by rw [optionals_append]; rfl
    rw [n1, o1] at i1 i2
    refine ⟨fun pre s post e0 => ?_, fun pre w x g post e0 => ?_⟩
    · cases pre with
      | nil =>
        simp at e0
        obtain ⟨rfl, rfl⟩ := e0
        have := hD.1 done _ _ (by rw [e]; rfl)
        simpa [Entry.width, Entry.skips] using at_ ((node_iff T _).2 (.inl ⟨_, _, h'.1, rfl⟩)) this
      | cons a pre =>
        simp at e0
        obtain ⟨rfl, rfl⟩ := e0
        have := i1 pre s post rfl
        simp only [Entry.width, Entry.skips]
        convert this using 1
        push_cast; ring
    · cases pre with
      | nil => simp at e0
      | cons a pre =>
        rw [List.cons_append, List.cons.injEq] at e0
        obtain ⟨rfl, e0⟩ := e0
        have := i2 pre w x g post e0
        simp only [Entry.width, Entry.skips]
        refine ⟨?_, ?_⟩
        · convert this.1 using 1
          push_cast; ring
        · convert this.2 using 1
          push_cast; ring
  · intro k p x g q t h h' ih done e
    have hx : items[k + 1]? = some (.optional x g) := h.2 0
    have e' : parts = (done ++ [.optional (nodeNamed d (p.order ++ "_split")) (nodeNamed d x.order) (nodeNamed d q.order)]) ++ partsOf d q t := by rw [e]; simp [partsOf]
    obtain ⟨i1, i2⟩ := ih _ e'
    have n1 : nodesIn (done ++ [.optional (nodeNamed d (p.order ++ "_split")) (nodeNamed d x.order) (nodeNamed d q.order)]) = nodesIn done + 3 := by rw [nodesIn_append]; rfl
    have o1 : optionals (done ++ [.optional (nodeNamed d (p.order ++ "_split")) (nodeNamed d x.order) (nodeNamed d q.order)]) = optionals done + 1 := by rw [optionals_append]; rfl
    rw [n1, o1] at i1 i2
    obtain ⟨d1, d2, d3⟩ := hD.2 done _ _ _ _ (by rw [e]; rfl)
    refine ⟨fun pre s post e0 => ?_, fun pre w y z post e0 => ?_⟩
    · rcases pre with _ | ⟨a, _ | ⟨b, pre⟩⟩
      · simp at e0
      · simp at e0
        obtain ⟨rfl, rfl, rfl⟩ := e0
        have := at_ ((node_iff T _).2 (.inl ⟨_, _, h'.1, rfl⟩)) d3
        simp only [Entry.width, Entry.skips]
        convert this using 1
        push_cast; ring
      · simp at e0
        obtain ⟨rfl, rfl, rfl⟩ := e0
        have := i1 pre s post rfl
        simp only [Entry.width, Entry.skips]
        convert this using 1
        · push_cast; ring
        · rw [show optionals done + (Entry.skips pre + 1) = optionals done + 1 + Entry.skips pre by omega]
    · rcases pre with _ | ⟨a, _ | ⟨b, pre⟩⟩
      · simp at e0
        obtain ⟨rfl, ⟨rfl, rfl⟩, rfl⟩ := e0
        simp only [Entry.width, Entry.skips, Nat.add_zero, Nat.cast_zero, add_zero]
        exact ⟨at_ ((node_iff T _).2 (.inr ⟨_, _, _, _, h.1, hx, .inl rfl⟩)) d1, at_ ((node_iff T _).2 (.inr ⟨_, _, _, _, h.1, hx, .inr rfl⟩)) d2⟩
      · simp at e0
      · simp only [List.cons_append, List.cons.injEq] at e0
        obtain ⟨rfl, rfl, e0⟩ := e0
        have := i2 pre w y z post e0
        simp only [Entry.width, Entry.skips]
        rw [show optionals done + (Entry.skips pre + 1) = optionals done + 1 + Entry.skips pre by omega]
        refine ⟨?_, ?_⟩
        · convert this.1 using 1
          push_cast; ring
        · convert this.2 using 1
          push_cast; ring

include T in
theorem last_line : ∃ r, items.getLast? = some (.line r) := by
  obtain ⟨p, hp⟩ := T.first
  have hl := (List.getElem?_eq_some_iff.1 hp).1
  have e : items[items.length - 1]? = some (items[items.length - 1]'(by omega)) := List.getElem?_eq_getElem (by omega)
  rw [List.getLast?_eq_getElem?]
  cases h : items[items.length - 1]'(by omega) with
  | line r => exact ⟨r, by rw [e, h]⟩
  | optional x g =>
    rw [h] at e
    obtain ⟨q, hq, -⟩ := (T.optional _ _ _ e).2.2.2.2.2
    have := (List.getElem?_eq_some_iff.1 hq).1
    omega

theorem skips_line : ∀ (pre : List Entry) (r : Row), Entry.skips (pre ++ [.line r]) = Entry.skips pre
  | [], r => rfl
  | .line _ :: t, r => skips_line t r
  | .optional _ _ :: t, r => by simp only [List.cons_append, Entry.skips, skips_line t r]

end OptRows

open OptRows in
/-- **C136 (flows).** A table with optional steps is imported, and the diagram has the flows `OptionalFlow` and no others: a gateway before each optional step, from which one flow leads to the step and
one to the row behind it, and the step leads to this row too. There is no gateway where the two meet. -/
theorem C136_flows (rows : List Row) (items : List Entry) (T : OptionalTable rows items) :
    ∃ d, loadCsv rows {} = .ok d ∧ Consistent d ∧ (∀ a b, Leads d a b ↔ OptionalFlow items a b) ∧ ∀ a, d.getNodeById (a ++ "_join") = none := by
  obtain ⟨d, hd⟩ := imported T
  have c := ((OptRows.goto_table T).ground (OptRows.split_table T) (OptRows.no_turn T) hd).1.consistent
  refine ⟨d, hd, c, fun a b => (C113_flows (OptRows.goto_table T) (OptRows.split_table T) (OptRows.no_turn T) d hd a b).trans (flow_iff T a b), fun a => ?_⟩
  cases h : d.getNodeById (a ++ "_join") with
  | none => rfl
  | some n => exact absurd ((C113_nodes (OptRows.goto_table T) (OptRows.split_table T) (OptRows.no_turn T) d hd _).1 ⟨n, Consistent.mem_of_getNodeById h⟩) (no_join T a)

open OptRows in
/-- **C136 (drawing).** A table with optional steps is imported and its diagram is always laid out. A row is drawn right of the nodes of all items before it, and so is the gateway of an optional step; the
step is drawn right of its gateway, two rows below it. The main line is in row 2 up to the first optional step, in row 3 behind it, and goes up by two rows with every further one. -/
theorem C136_drawn (rows : List Row) (items : List Entry) (T : OptionalTable rows items) :
    ∃ d, loadCsv rows {} = .ok d ∧ ∃ bound, ∀ fuel ≥ bound, ∃ d', generateLayout fuel d = .ok d' ∧
      (∀ pre r post, items = pre ++ .line r :: post → DrawnId d' r.order (150 * (Entry.width pre + 1) + 50) (100 * lineRow (Entry.skips pre) + 50)) ∧
      ∀ pre w x g post, items = pre ++ .line w :: .optional x g :: post →
        DrawnId d' (w.order ++ "_split") (150 * (Entry.width pre + 2) + 50) (100 * lineRow (Entry.skips pre) + 50) ∧
        DrawnId d' x.order (150 * (Entry.width pre + 3) + 50) (100 * (lineRow (Entry.skips pre) + 2) + 50) := by
  obtain ⟨d, hd⟩ := imported T
  obtain ⟨p, es, rfl, ht⟩ := whole T
  obtain ⟨named, O⟩ := optional_line T hd ht
  have G := ((OptRows.goto_table T).ground (OptRows.split_table T) (OptRows.no_turn T) hd).1
  obtain ⟨bound, hb⟩ := C135_layout d G.consistent G.supported _ _ O
  refine ⟨d, hd, bound, fun fuel hf => ?_⟩
  obtain ⟨d', h0, h1, h2, h3⟩ := hb fuel hf
  obtain ⟨k1, k2⟩ := drawn_tail T (fun x hx => (named x hx).2) (d := d) ⟨h2, h3⟩ es 0 p ht [] rfl
  refine ⟨d', h0, ?_, ?_⟩
  · intro pre r post e
    cases pre with
    | nil =>
      simp at e
      obtain ⟨rfl, rfl⟩ := e
      unfold DrawnAt at h1
      rw [(named _ ((node_iff T _).2 (.inl ⟨0, p, rfl, rfl⟩))).2] at h1
      simpa [Entry.width, Entry.skips, lineRow, DrawnId] using h1
    | cons a pre =>
      simp at e
      obtain ⟨rfl, rfl⟩ := e
      have := k1 pre r post rfl
      simp only [Entry.width, Entry.skips]
      convert this using 1
      · simp [nodesIn]; ring
      · simp [optionals]
  · intro pre w x g post e
    have := k2 pre w x g post e
    simpa [nodesIn, optionals] using this

open OptRows in
/-- **C136 (off the page).** With three or more optional steps the last row of the table is drawn above the top of the page. -/
theorem C136_negative (rows : List Row) (items : List Entry) (T : OptionalTable rows items) (hk : 3 ≤ Entry.skips items) :
    ∃ d, loadCsv rows {} = .ok d ∧ ∃ bound, ∀ fuel ≥ bound, ∃ d', generateLayout fuel d = .ok d' ∧
      ∃ r, items.getLast? = some (.line r) ∧ ∃ x y, DrawnId d' r.order x y ∧ y < 0 := by
  obtain ⟨d, hd, bound, h⟩ := C136_drawn rows items T
  refine ⟨d, hd, bound, fun fuel hf => ?_⟩
  obtain ⟨d', h0, h1, -⟩ := h fuel hf
  obtain ⟨r, hr⟩ := last_line T
  obtain ⟨pre, e⟩ := List.getLast?_eq_some_iff.1 hr
  have := h1 pre r [] e
  refine ⟨d', h0, r, hr, _, _, this, ?_⟩
  have es : Entry.skips items = Entry.skips pre := by rw [e]; exact skips_line pre r
  simp only [lineRow, if_neg (show Entry.skips pre ≠ 0 by omega)]
  omega

/-! ## Examples -/

/-- A letter is written, perhaps checked, sent, perhaps filed, entered, perhaps copied, and the matter is closed. -/
def letterItems : List Entry :=
  [.line (Row.mk "0" "asked" "" "" "" ""), .line (Row.mk "1" "write" "" "clerk" "" ""), .optional (Row.mk "2b1" "check" "long" "" "" "") (Row.mk "2a1" "goto 3" "short" "" "" ""),
    .line (Row.mk "3" "send" "" "" "" ""), .optional (Row.mk "4a1" "file" "" "" "" "") (Row.mk "4b1" "goto 5" "" "" "" ""),
    .line (Row.mk "5" "enter" "" "" "" ""), .optional (Row.mk "6a1" "copy" "" "" "" "") (Row.mk "6b1" "Goto 7 now" "" "" "" ""), .line (Row.mk "7" "closed" "" "" "" "yes")]

def letterOptions : List Row :=
  [Row.mk "0" "asked" "" "" "" "", Row.mk "1" "write" "" "clerk" "" "", Row.mk "2a1" "goto 3" "short" "" "" "", Row.mk "2b1" "check" "long" "" "" "", Row.mk "3" "send" "" "" "" "",
    Row.mk "4a1" "file" "" "" "" "", Row.mk "4b1" "goto 5" "" "" "" "", Row.mk "7" "closed" "" "" "" "yes", Row.mk "5" "enter" "" "" "" "",
    Row.mk "6b1" "Goto 7 now" "" "" "" "", Row.mk "6a1" "copy" "" "" "" ""]

theorem letter_options : OptionalTable letterOptions letterItems := by
  have small : ∀ {n : Nat} {e : Entry}, letterItems[n]? = some e → n < 8 := fun h => (List.getElem?_eq_some_iff.1 h).1
  refine ⟨by simp only [letterItems, letterOptions, List.flatMap_cons, List.flatMap_nil, Entry.rows]; decide, ⟨_, rfl⟩, ?_, ?_⟩
  · intro n r h
    have hn := small h
    interval_cases n <;> simp [letterItems] at h <;> subst h <;>
      exact ⟨by decide, goto_no (by decide), by simp [letterItems]⟩
  · intro n x g h
    have hn := small h
    interval_cases n <;> simp [letterItems] at h
    · obtain ⟨rfl, rfl⟩ := h
      refine ⟨by decide, goto_no (by decide), by decide, (isGoto_iff _).1 (by decide), by decide, _, rfl, ?_⟩
      exact ⟨['g', 'o', 't', 'o'], [' '], [], by decide, by decide, by unfold White; decide, by decide, by unfold White; decide, by decide, by unfold White; decide, by simp⟩
    · obtain ⟨rfl, rfl⟩ := h
      refine ⟨by decide, goto_no (by decide), by decide, (isGoto_iff _).1 (by decide), by decide, _, rfl, ?_⟩
      exact ⟨['g', 'o', 't', 'o'], [' '], [], by decide, by decide, by unfold White; decide, by decide, by unfold White; decide, by decide, by unfold White; decide, by simp⟩
    · obtain ⟨rfl, rfl⟩ := h
      refine ⟨by decide, goto_no (by decide), by decide, (isGoto_iff _).1 (by decide), by decide, _, rfl, ?_⟩
      exact ⟨['G', 'o', 't', 'o'], [' '], [' ', 'n', 'o', 'w'], by decide, by decide, by unfold White; decide, by decide, by unfold White; decide, by decide, by unfold White; decide,
        by unfold White; decide⟩

example : ∃ d, loadCsv letterOptions {} = .ok d ∧ ∃ bound, ∀ fuel ≥ bound, ∃ d', generateLayout fuel d = .ok d' ∧
    DrawnId d' "0" 200 250 ∧ DrawnId d' "1_split" 500 250 ∧ DrawnId d' "2b1" 650 450 ∧ DrawnId d' "3" 800 350 ∧ DrawnId d' "3_split" 950 350 ∧ DrawnId d' "4a1" 1100 550 ∧
    DrawnId d' "5" 1250 150 ∧ DrawnId d' "7" 1700 (-50) := by
  obtain ⟨d, hd, bound, h⟩ := C136_drawn _ _ letter_options
  refine ⟨d, hd, bound, fun fuel hf => ?_⟩
  obtain ⟨d', h0, h1, h2⟩ := h fuel hf
  have a := h2 [_] _ _ _ _ rfl
  have b := h2 [_, _, _] _ _ _ _ rfl
  exact ⟨d', h0, h1 [] _ _ rfl, a.1, a.2, h1 [_, _, _] _ _ rfl, b.1, b.2, h1 [_, _, _, _, _] _ _ rfl, h1 [_, _, _, _, _, _, _] _ _ rfl⟩

example : 3 ≤ Entry.skips letterItems := by decide

example : ∃ d, loadCsv letterOptions {} = .ok d ∧ Leads d "1_split" "3" ∧ Leads d "2b1" "3" ∧ ¬Leads d "1" "3" := by
  obtain ⟨d, hd, -, h, -⟩ := C136_flows _ _ letter_options
  refine ⟨d, hd, (h _ _).2 (.skip (n := 1) (w := Row.mk "1" "write" "" "clerk" "" "") (q := Row.mk "3" "send" "" "" "" "") rfl rfl rfl), (h _ _).2 (.back (n := 2) (x := Row.mk "2b1" "check" "long" "" "" "") (q := Row.mk "3" "send" "" "" "" "") rfl rfl), fun k => ?_⟩
  obtain ⟨k, e, hk⟩ := OptRows.into_line letter_options (m := 3) rfl ((h _ _).1 k)
  obtain rfl : k = 2 := by omega
  rcases hk with ⟨r, hr, -⟩ | ⟨n, w, x, g, e, h1, h2, hk⟩
  · simp [letterItems] at hr
  · obtain rfl : n = 1 := by omega
    simp [letterItems] at h1 h2
    obtain ⟨rfl, -⟩ := h2
    subst h1
    revert hk
    decide

end Bpmn.Props

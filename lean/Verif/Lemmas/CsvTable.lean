import Verif.Lemmas.CsvFinish
import Verif.Spec.CsvImport
/-! From the import of a table to its stages. -/
set_option linter.unusedSimpArgs false
set_option linter.unusedVariables false

namespace Bpmn.Csv
open Bpmn.Spec Bpmn.Spec.Csv

theorem alnum_bounds {c : Char} (h : c.isAlphanum = true) : 48 ≤ c.toNat ∧ c.toNat ≤ 122 ∧ c.toNat ≠ 95 ∧ c.toNat ≠ 124 := by
  simp only [Char.isAlphanum, Char.isAlpha, Char.isUpper, Char.isLower, Char.isDigit, Bool.or_eq_true, Bool.and_eq_true, decide_eq_true_eq, ge_iff_le,
    UInt32.le_iff_toNat_le] at h
  have e : c.val.toNat = c.toNat := rfl
  simp only [e] at h
  simp at h
  omega

theorem alnum_not_white {c : Char} (h : c.isAlphanum = true) : isWhite c = false := by
  obtain ⟨h1, h2, _⟩ := alnum_bounds h
  simp only [isWhite, Bool.or_eq_false_iff, Bool.and_eq_false_iff, decide_eq_false_iff_not, beq_eq_false_iff_ne, ne_eq]
  omega

theorem alnum_not_underscore {c : Char} (h : c.isAlphanum = true) : c ≠ '_' := by
  rintro rfl; revert h; decide

theorem alpha_letter {c : Char} (h : c.isAlpha = true) : isLetter c = true := by
  simp only [Char.isAlpha, Char.isUpper, Char.isLower, Bool.or_eq_true, Bool.and_eq_true, decide_eq_true_eq, ge_iff_le] at h
  simp only [isLetter, Bool.or_eq_true, Bool.and_eq_true, decide_eq_true_eq, Char.le_def]
  rcases h with h | h
  · exact Or.inr h
  · exact Or.inl (Or.inl h)

theorem letter_alpha {c : Char} (h : isLetter c = true) (hb : c ≠ '|') : c.isAlpha = true := by
  simp only [isLetter, Bool.or_eq_true, Bool.and_eq_true, decide_eq_true_eq, Char.le_def, beq_iff_eq, hb, or_false] at h
  simp only [Char.isAlpha, Char.isUpper, Char.isLower, Bool.or_eq_true, Bool.and_eq_true, decide_eq_true_eq, ge_iff_le]
  exact h.symm

theorem alpha_not_bar {c : Char} (h : c.isAlpha = true) : c ≠ '|' := by
  rintro rfl; revert h; decide

theorem prefix_ends {p : List Char} (h : Prefix p) : Ends p := by
  rcases h with h | ⟨q, c, h1, h2⟩
  · exact Or.inl h
  · exact Or.inr ⟨q, c, h1, alpha_letter h2⟩

theorem isWhite_iff (c : Char) : isWhite c = true ↔ White c := by
  unfold isWhite White
  simp only [Bool.or_eq_true, Bool.and_eq_true, decide_eq_true_eq, beq_iff_eq, List.mem_cons, List.not_mem_nil, or_false]
  omega

/-- Blanks around a text without blanks are stripped. -/
theorem strip_pad {w v core : List Char} (hw : ∀ c ∈ w, isWhite c = true) (hv : ∀ c ∈ v, isWhite c = true) (hc : ∀ c ∈ core, isWhite c = false) :
    strip (String.ofList (w ++ core ++ v)) = String.ofList core := by
  by_cases e : core = []
  · subst e
    have h1 : (w ++ v).dropWhile isWhite = [] := by
      have := (takeWhile_all_append (q := isWhite) (l := w ++ v) (r := []) (by
        intro c hc
        rw [List.mem_append] at hc
        rcases hc with h | h
        · exact hw c h
        · exact hv c h) (by simp)).2
      simpa using this
    simp only [strip, String.toList_ofList, List.append_nil, h1]
    rfl
  · have h1 := takeWhile_all_append (q := isWhite) (l := w) (r := core ++ v) hw (by
      intro c h
      obtain ⟨x, r, rfl⟩ := List.exists_cons_of_ne_nil e
      simp at h; subst h; exact hc _ (by simp))
    have h2 := takeWhile_all_append (q := isWhite) (l := v.reverse) (r := core.reverse) (by simpa using hv) (by
      intro c h
      refine hc c ?_
      have := List.mem_of_head? h
      simpa using this)
    simp only [strip, String.toList_ofList, List.append_assoc, h1.2, List.reverse_append, h2.2, List.reverse_reverse]

theorem strip_clean {s : String} (h : ∀ c ∈ s.toList, isWhite c = false) : strip s = s := by
  have := strip_pad (w := []) (v := []) (core := s.toList) (by simp) (by simp) h
  simpa using this

/-- Orders with blanks around become orders without. -/
theorem stripOrders_eq (pd : Dict String Line) (nd : (pd.map fun p => strip p.1).Nodup) (hc : ∀ p ∈ pd, strip (strip p.1) = strip p.1) :
    stripOrders pd = pd.map fun p => (strip p.1, p.2) := by
  suffices h : ∀ (todo done : Dict String Line), ((done ++ todo).map fun p => strip p.1).Nodup → (∀ p ∈ done ++ todo, strip (strip p.1) = strip p.1) →
      todo.foldl (fun t p => (t.erase p.1).set (strip p.1) p.2) (todo ++ done.map fun p => (strip p.1, p.2)) =
        (done ++ todo).map fun p => (strip p.1, p.2) by
    have := h pd [] (by simpa using nd) (by simpa using hc)
    simpa [stripOrders] using this
  intro todo
  induction todo with
  | nil => intro done _ _; simp
  | cons p todo ih =>
    obtain ⟨o, l⟩ := p
    intro done nd hc
    simp only [List.foldl_cons, List.cons_append, Dict.erase, if_true]
    rw [Dict.set_of_not_mem]
    · have := ih (done ++ [(o, l)]) (by simpa using nd) (by simpa using hc)
      simp only [List.map_append, List.append_assoc, List.map_cons, List.map_nil, List.cons_append, List.nil_append] at this ⊢
      exact this
    · intro hm
      simp only [Dict.keys_append, List.mem_append] at hm
      rw [List.map_append, List.nodup_append] at nd
      rcases hm with hm | hm
      · obtain ⟨v, hv⟩ := Dict.mem_keys_iff_exists.1 hm
        have e := hc (o, l) (by simp)
        have : strip o ∈ todo.map fun p => strip p.1 := List.mem_map.2 ⟨_, hv, e⟩
        have nd2 := nd.2.1
        simp only [List.map_cons, List.nodup_cons] at nd2
        exact nd2.1 this
      · have : strip o ∈ done.map fun p => strip p.1 := by
          simpa [Dict.keys, Function.comp_def] using hm
        exact nd.2.2 _ this _ (by simp) rfl

theorem processDict_eq {rows : List Row} (nd : (rows.map fun r => strip r.order).Nodup) (hc : ∀ r ∈ rows, strip (strip r.order) = strip r.order) :
    processDict rows = .ok (rows.map fun r => (strip r.order, ⟨r.activity, r.condition, r.who, r.subprocess, r.terminated⟩)) := by
  have nd' : (rows.map Row.order).Nodup := by
    have : (rows.map fun r => strip r.order) = (rows.map Row.order).map strip := by simp
    rw [this] at nd
    exact List.Pairwise.of_map _ (fun a b h e => h (by rw [e])) nd
  unfold processDict
  rw [if_pos nd', stripOrders_eq]
  · simp
  · simpa [Function.comp_def] using nd
  · intro p hp
    obtain ⟨r, hr, rfl⟩ := List.mem_map.1 hp
    exact hc r hr

theorem _root_.Bpmn.Spec.Csv.Table.strip {rows : List Row} (h : Table rows) : ∀ r ∈ rows, Csv.strip r.order = r.order :=
  fun r hr => strip_clean fun c hc => alnum_not_white (h.alnum r hr c hc)

theorem _root_.Bpmn.Spec.Csv.Table.dict {rows : List Row} (h : Table rows) : processDict rows = .ok (dictOf rows) := by
  have e : (rows.map fun r => Csv.strip r.order) = rows.map Row.order := List.map_congr_left h.strip
  rw [processDict_eq (by rw [e]; exact h.orders) (by intro r hr; rw [h.strip r hr, h.strip r hr])]
  congr 1
  exact List.map_congr_left fun r hr => by rw [h.strip r hr]

theorem keys_dictOf (rows : List Row) : (dictOf rows).keys = rows.map Row.order := by simp [dictOf, Dict.keys, Function.comp_def]

theorem mem_dictOf {rows : List Row} {r : Row} (h : r ∈ rows) :
    (r.order, (⟨r.activity, r.condition, r.who, r.subprocess, r.terminated⟩ : Line)) ∈ dictOf rows := List.mem_map.2 ⟨r, h, rfl⟩

theorem get?_dictOf {rows : List Row} (t : Table rows) {r : Row} (h : r ∈ rows) :
    (dictOf rows).get? r.order = some ⟨r.activity, r.condition, r.who, r.subprocess, r.terminated⟩ :=
  Dict.get?_of_mem (by rw [keys_dictOf]; exact t.orders) (mem_dictOf h)

theorem loadCsv_stages {rows : List Row} {d0 d : Diagram} (h : loadCsv rows d0 = .ok d) {pd : Dict String Line} (hp : processDict rows = .ok pd) :
    ∃ d1 pd2 d2, fillConnections pd (importNodes pd (populate pd d0)) = .ok d1 ∧ removeGotos pd pd (legacyAdjustment d1) = .ok (pd2, d2) ∧
      removeGateways d2.graph.nodes.keys pd2 d2 = .ok d := by
  unfold loadCsv at h
  rw [hp] at h
  simp only [except_bind_ok] at h
  obtain ⟨d1, h1, h⟩ := except_bind_eq_ok h
  obtain ⟨⟨pd2, d2⟩, h2, h⟩ := except_bind_eq_ok h
  exact ⟨d1, pd2, d2, h1, h2, h⟩

theorem _root_.Bpmn.Spec.Csv.Table.under {rows : List Row} (h : Table rows) : ∀ x ∈ (dictOf rows).keys, '_' ∉ x.toList := by
  intro x hx
  rw [keys_dictOf] at hx
  obtain ⟨r, hr, rfl⟩ := List.mem_map.1 hx
  intro hm
  exact alnum_not_underscore (h.alnum r hr _ hm) rfl

/-- The import of a table, stage by stage. -/
theorem imported {rows : List Row} (t : Table rows) {d : Diagram} (h : loadCsv rows {} = .ok d) : Imported (dictOf rows) d := by
  obtain ⟨d1, pd2, d2, h1, h2, h3⟩ := loadCsv_stages h t.dict
  exact imported_of_dict (by rw [keys_dictOf]; exact t.orders) t.under h1 h2 h3

/-! ## Reading the views off the nodes -/

theorem node_of_id {d : Diagram} (i : Inv d) {x : String} (h : x ∈ ids d) : ∃ n ∈ d.getNodes, n.1 = x ∧ outs n = outOf d x ∧ ins n = inOf d x ∧
    n.2.type = kind d x ∧ n.2.nodeName = title d x := by
  obtain ⟨a, ha⟩ := Option.isSome_iff_exists.1 ((Dict.get?_isSome_iff _ _).2 h)
  exact ⟨(x, a), Dict.mem_of_get? ha, rfl, by simp [outs, outOf, ha], by simp [ins, inOf, ha], by simp [kind, ha], by simp [title, ha]⟩

theorem id_of_node {d : Diagram} (i : Inv d) {n : Node} (h : n ∈ d.getNodes) : n.1 ∈ ids d ∧ outs n = outOf d n.1 ∧ ins n = inOf d n.1 ∧
    n.2.type = kind d n.1 ∧ n.2.nodeName = title d n.1 := by
  have ha : d.graph.nodes.get? n.1 = some n.2 := Dict.get?_of_mem i.nodup h
  exact ⟨Dict.mem_keys_of_get? ha, by simp [outs, outOf, ha], by simp [ins, inOf, ha], by simp [kind, ha], by simp [title, ha]⟩

theorem Wired.leads {d : Diagram} (i : Inv d) {s t : String} (w : Wired d s t) : Leads d s t := by
  obtain ⟨n, hn, e1, e2, -⟩ := node_of_id i w.src
  obtain ⟨m, hm, e3, -, e4, -⟩ := node_of_id i w.tgt
  exact ⟨flowId s t, _, n, hn, m, hm, e1, e3, by rw [e2]; exact w.out, by rw [e4]; exact w.inn, w.flow, rfl, rfl⟩

theorem isGoto_iff (r : Row) : isGoto r.activity = true ↔ GotoRow r := by
  have low : ∀ (c : Char) (x X : Char), (x.toNat = X.toNat + 32) → 65 ≤ X.toNat → X.toNat ≤ 90 → (c.toLower = x ↔ c = x ∨ c = X) := by
    intro c x X hx h1 h2
    have key : ∀ c : Char, c.toLower.toNat = if 65 ≤ c.toNat ∧ c.toNat ≤ 90 then c.toNat + 32 else c.toNat := by
      intro c
      unfold Char.toLower
      split
      · rename_i hc
        have h' : 65 ≤ c.toNat ∧ c.toNat ≤ 90 := by
          simp only [ge_iff_le, UInt32.le_iff_toNat_le] at hc
          simpa using hc
        rw [if_pos h']
        simp only [Char.toNat]
        have : c.val.toNat ≤ 90 := h'.2
        simp only [UInt32.toNat_add]
        have e : ('a'.val - 'A'.val).toNat = 32 := rfl
        rw [e]
        omega
      · rename_i hc
        have h' : ¬(65 ≤ c.toNat ∧ c.toNat ≤ 90) := by
          simp only [ge_iff_le, UInt32.le_iff_toNat_le] at hc
          simpa using hc
        rw [if_neg h']
    have inj : ∀ a b : Char, a = b ↔ a.toNat = b.toNat := fun a b => Char.toNat_inj.symm
    rw [inj, key, inj, inj]
    split <;> omega
  have lg : ∀ c : Char, c.toLower = 'g' ↔ c = 'g' ∨ c = 'G' := fun c => low c 'g' 'G' (by decide) (by decide) (by decide)
  have lo : ∀ c : Char, c.toLower = 'o' ↔ c = 'o' ∨ c = 'O' := fun c => low c 'o' 'O' (by decide) (by decide) (by decide)
  have lt : ∀ c : Char, c.toLower = 't' ↔ c = 't' ∨ c = 'T' := fun c => low c 't' 'T' (by decide) (by decide) (by decide)
  unfold isGoto GotoRow
  rw [beq_iff_eq]
  constructor
  · intro h
    match hl : r.activity.toList with
    | [] => rw [hl] at h; simp at h
    | [_] => rw [hl] at h; simp at h
    | [_, _] => rw [hl] at h; simp at h
    | [_, _, _] => rw [hl] at h; simp at h
    | a :: b :: c :: e :: rest =>
      rw [hl] at h
      simp [lg, lo, lt] at h
      exact ⟨a, b, c, e, rest, rfl, h⟩
  · rintro ⟨a, b, c, e, rest, hl, h1, h2, h3, h4⟩
    rw [hl]
    simp [lg, lo, lt, h1, h2, h3, h4]

theorem notGoto_row {rows : List Row} (t : Table rows) {r : Row} (h : r ∈ rows) (hg : ¬GotoRow r) : NotGoto (dictOf rows) r.order := by
  intro l hl
  have := Dict.get?_of_mem (by rw [keys_dictOf]; exact t.orders) hl
  rw [get?_dictOf t h] at this
  cases this
  cases e : isGoto r.activity with
  | false => rfl
  | true => exact absurd ((isGoto_iff r).1 e) hg

theorem notGoto_gateway {pd : Dict String Line} (hu : ∀ x ∈ pd.keys, '_' ∉ x.toList) {x : String} (h : '_' ∈ x.toList) : NotGoto pd x :=
  fun l hl => absurd h (hu x (Dict.mem_keys_of_mem hl))

end Bpmn.Csv

import Verif.Lemmas.FlatProcess
import Verif.Props.Structured
import Verif.Props.CsvResult
import Verif.Props.CsvImport
import Verif.Props.CsvKinds
import Verif.Lemmas.CsvFiled
/-! # C97: a flat process comes back from its table -/
set_option linter.unusedSimpArgs false
set_option linter.unusedVariables false

namespace Bpmn.Csv
open Bpmn.Spec Bpmn.Spec.Csv

section
variable {d : Diagram} {p : FlatProcess} (f : p.Flat d) (c : Consistent d)
include f

theorem FlatP.place_target {x y : Id} (h : Link (tableOf d p) x y) : ∃ n, Place p y n := by
  cases h with
  | step h h' => exact FlatP.place_of f h'
  | enter h => obtain ⟨s, ls, j, h1, -⟩ := (FlatP.block_in f).1 h; exact ⟨s, .split h1⟩
  | branch h hj => exact FlatP.place_of f (branch_cell (FlatP.good f) h hj)
  | inside h h' => exact FlatP.place_of f h'
  | close h => obtain ⟨s, ls, j, h1, -⟩ := (FlatP.block_in f).1 h; exact ⟨j, .join h1⟩
  | @leave k legs h =>
    obtain ⟨s, ls, j, h1, -⟩ := (FlatP.block_in f).1 h
    have hk := (List.getElem?_eq_some_iff.1 h1).1
    obtain ⟨m, -, hm⟩ := FlatP.head f (k := k + 1) (by omega)
    unfold nextId at hm
    split at hm
    · rename_i legs' e
      exact absurd e ((FlatP.good f).apart k _ legs' h)
    · exact ⟨m, hm⟩

/-- Every place has a node in the imported diagram. -/
theorem FlatP.image {d' : Diagram} {F : List (String × String)} (m : Made (tableOf d p) d' F) {x : Id} {n : Node} (h : Place p x n) : ∃ n' ∈ d'.getNodes, n'.1 = x.name := by
  have g := FlatP.good f
  have row : ∀ {q : Pos} {n : Node}, Place p (.row q) n → ∃ n' ∈ d'.getNodes, n'.1 = (Id.row q).name := by
    intro q n h
    obtain ⟨cond, h1, -⟩ := FlatP.cell_of f h
    exact m.at (by rw [h1]; rfl)
  cases h with
  | first => exact row .first
  | step h => exact row (.step h)
  | inside h1 h2 h3 => exact row (.inside h1 h2 h3)
  | last => exact row .last
  | split h =>
    obtain ⟨fl, n', hn, e, -⟩ := m.target g (Link.enter ((FlatP.block_in f).2 ⟨_, _, _, h, rfl⟩))
    exact ⟨n', hn, e⟩
  | @join k s j legs h =>
    have h2 := f.two s legs n (List.mem_of_getElem? h)
    obtain ⟨leg, hl⟩ := List.exists_mem_of_length_pos (show 0 < (legs.filter fun l => !l.stops).length by omega)
    obtain ⟨hl, hs⟩ := List.mem_filter.1 hl
    obtain ⟨i, hi⟩ := List.mem_iff_getElem?.1 hl
    have hx := Link.close (t := tableOf d p) ((FlatP.block_in f).2 ⟨_, _, _, h, rfl⟩) (leg := legCells d s ((outs s)[i]?.getD "") leg) (j := i) (m := leg.steps.length)
      (by simp [List.getElem?_mapIdx, hi]) (by simpa [legCells] using hs) (by simp [legCells])
    obtain ⟨fl, n', hn, e, -⟩ := m.target g hx
    exact ⟨n', hn, e⟩

theorem FlatP.kept {d' : Diagram} {F : List (String × String)} (m : Made (tableOf d p) d' F) {x : Id} {n n' : Node} (h : Place p x n) (hn : n' ∈ d'.getNodes) (e : n'.1 = x.name) :
    Kept n n' := by
  have g := FlatP.good f
  have gate : ∀ (hr : ∀ q, x ≠ .row q) (hg : IsGateway n), Kept n n' := by
    intro hr hg
    obtain ⟨ty, k⟩ := m.gate g (x := x) (FlatP.small f h) hr hn e
    rw [Kept, if_neg (gateway_silent hg).1, IsGateway, k.type]
    rcases k.isGateway with h | h | h <;> simp [h]
  cases x with
  | split k => cases h with | split h => exact gate (by simp) (f.gateways _ _ _ (List.mem_of_getElem? h)).1
  | join k => cases h with | join h => exact gate (by simp) (f.gateways _ _ _ (List.mem_of_getElem? h)).2
  | row q =>
    obtain ⟨cond, h1, h2⟩ := FlatP.cell_of f h
    have k := m.row h1 hn e
    have ho : (String.ofList q.order = "0" ↔ q = .main 0) := by
      constructor
      · intro e
        refine Pos.order_inj (cell_small g (by rw [h1]; rfl)) (q := .main 0) trivial ?_
        have : String.ofList q.order = String.ofList (Pos.main 0).order := by rw [e]; rfl
        exact ofList_inj this
      · rintro rfl; rfl
    have hty : some (rowType ((cellOf n cond).row q.order (decide (n.2.type = some "endEvent")))) = n.2.type := by
      have key : q ≠ .main 0 → (IsActivity n ∨ n.2.type = some "endEvent") → some (rowType ((cellOf n cond).row q.order (decide (n.2.type = some "endEvent")))) = n.2.type := by
        intro hq ht
        have : ¬String.ofList q.order = "0" := fun e => hq (ho.1 e)
        rw [rowType, if_neg (show ¬((cellOf n cond).row q.order _).order = "0" from this)]
        rcases ht with (ht | ht) | ht <;> simp [Cell.row, cellOf, caption, ht]
      cases h with
      | first => simp [rowType, Cell.row, f.begins, ho.2 rfl]
      | step h => exact key (by simp) (.inl (f.steps _ (List.mem_of_getElem? h)))
      | @inside k i b s j n legs leg a1 a2 a3 =>
        have := f.inside _ _ _ (List.mem_of_getElem? a1) _ (List.mem_of_getElem? a2) _ _ a3
        split at this
        · exact key (by simp) (.inr this)
        · exact key (by simp) (.inl this)
      | last => exact key (by simp) (.inr f.ends)
    rw [Kept, if_pos h2, k.type, hty, k.name]
    refine ⟨rfl, ?_⟩
    have he : (rowType ((cellOf n cond).row q.order (decide (n.2.type = some "endEvent"))) = "endEvent") = (n.2.type = some "endEvent") := by
      conv_rhs => rw [← hty, Option.some.injEq]
    simp only [he]
    rfl

end

/-! ## The types of gateways -/

theorem numberBefore_pos {p : Pos} (hp : p.Small) {n : Nat} (h : NumberBefore p.order n) : ∃ j m, p = .leg n j m := by
  obtain ⟨u, ds, c, v, e, h1, h2, h3, h4, h5⟩ := h
  have nd : c.isDigit = false := by
    cases hc : c.isDigit with
    | false => rfl
    | true =>
      exfalso
      simp only [Char.isAlpha, Char.isUpper, Char.isLower, Char.isDigit, Bool.or_eq_true, Bool.and_eq_true, decide_eq_true_eq, ge_iff_le, UInt32.le_iff_toNat_le] at h3 hc
      have a1 : ('A' : Char).val.toNat = 65 := rfl
      have a2 : ('a' : Char).val.toNat = 97 := rfl
      have a3 : ('9' : Char).val.toNat = 57 := rfl
      omega
  have no : ∀ m, c ∉ decimal m := fun m hm => by have := decimal_isDigit hm; rw [nd] at this; cases this
  cases p with
  | main l => exact absurd (show c ∈ decimal l by have e : decimal l = _ := e; rw [e]; simp) (no l)
  | leg l j m =>
    have e : decimal l ++ [letter j] ++ decimal m = u ++ ds ++ c :: v := e
    rw [List.append_assoc] at e
    rcases List.append_eq_append_iff.1 e with ⟨w, k1, k2⟩ | ⟨w, k1, k2⟩
    · cases w with
      | cons x w =>
        simp at k2
        exact absurd (show c ∈ decimal m by rw [k2.2]; simp) (no m)
      | nil =>
        simp at k1
        have hu : u = [] := by
          rcases List.eq_nil_or_concat u with hu | ⟨w, x, hu⟩
          · exact hu
          · have hx := h4 w x (by simpa using hu)
            have : x ∈ decimal l := by rw [← k1, hu]; simp
            rw [decimal_isDigit this] at hx
            cases hx
        subst hu
        simp at k1
        rw [k1, value_decimal] at h5
        subst h5
        exact ⟨j, m, rfl⟩
    · cases w with
      | cons x w =>
        simp at k2
        exact absurd (show c ∈ decimal l by rw [k1, k2.1]; simp) (no l)
      | nil =>
        simp at k1
        have hu : u = [] := by
          rcases List.eq_nil_or_concat u with hu | ⟨w, x, hu⟩
          · exact hu
          · have hx := h4 w x (by simpa using hu)
            have : x ∈ decimal l := by rw [k1, hu]; simp
            rw [decimal_isDigit this] at hx
            cases hx
        subst hu
        simp at k1
        rw [← k1, value_decimal] at h5
        subst h5
        exact ⟨j, m, rfl⟩

theorem linesFrom_append : ∀ (l r : List Item) (k : Nat), linesFrom k (l ++ r) = linesFrom k l ++ linesFrom (k + l.length) r
  | [], r, k => by simp [linesFrom]
  | x :: l, r, k => by
    rw [List.cons_append, linesFrom, linesFrom_append l r, linesFrom, List.append_assoc, List.length_cons, show k + 1 + l.length = k + (l.length + 1) by omega]

/-- The rows before a row of the main line. -/
theorem rows_before {t : FlatTable} (g : t.Good) {k : Nat} {c : Cell} (h : cell t (.main k) = some (c, false)) :
    ∃ A B, t.rows = A ++ c.row (decimal k) false :: B ∧ ∀ a ∈ A, ¬NumberBefore a.order.toList (k + 1) := by
  cases k with
  | zero =>
    have : t.first = c := by simpa [cell] using h
    subst this
    exact ⟨[], _, rfl, by simp⟩
  | succ k =>
    have hk : t.items[k]? = some (.step c) := by
      rw [cell] at h
      split at h
      · simp at h
      · split at h
        · rename_i e; rw [e]; simp at h; rw [h]
        · cases h
    obtain ⟨hlt, he⟩ := List.getElem?_eq_some_iff.1 hk
    have hs : t.items = t.items.take k ++ (.step c :: t.items.drop (k + 1)) := by
      rw [← he, List.getElem_cons_drop, List.take_append_drop]
    have e1 : linesFrom 1 t.items = linesFrom 1 (t.items.take k) ++ (c.row (decimal (k + 1)) false :: linesFrom (1 + k + 1) (t.items.drop (k + 1))) := by
      conv_lhs => rw [hs, linesFrom_append, linesFrom, itemRows]
      simp [Nat.min_eq_left (Nat.le_of_lt hlt), Nat.add_comm]
    refine ⟨t.first.row (decimal 0) false :: linesFrom 1 (t.items.take k), linesFrom (1 + k + 1) (t.items.drop (k + 1)) ++ [t.last.row (decimal (t.items.length + 1)) true], ?_, ?_⟩
    · rw [FlatTable.rows, e1]
      simp
    · intro a ha hb
      rw [List.mem_cons] at ha
      rcases ha with rfl | ha
      · obtain ⟨j, m, e⟩ := numberBefore_pos (p := .main 0) trivial (n := k + 1 + 1) (by simpa [Cell.row, Pos.order] using hb)
        cases e
      · obtain ⟨i, x, h1, h2⟩ := mem_linesFrom.1 ha
        have hi : i < k := by
          have := (List.getElem?_eq_some_iff.1 h1).1
          simp at this
          omega
        have hx : x ∈ t.items := List.mem_of_mem_take (List.mem_of_getElem? h1)
        obtain ⟨p, s, o, l⟩ := itemRows_lead (fun legs e => g.few legs (e ▸ hx)) h2
        rw [o, String.toList_ofList] at hb
        obtain ⟨j, m, rfl⟩ := numberBefore_pos s hb
        rcases l with ⟨-, l⟩ | ⟨j, m, l⟩
        · cases l
        · simp only [Pos.leg.injEq] at l
          omega

end Bpmn.Csv

namespace Bpmn.Props
open Bpmn.Spec Bpmn.Spec.Csv Bpmn.Csv

/-- **C97.** A flat process is exported to a table which can be imported, and the result is a copy of the process: its nodes correspond to each other one to one, with
types and names as far as the table has them, and so do the flows, in the order in which they leave the nodes. -/
theorem C97_copy (d : Diagram) (p : FlatProcess) (c : Consistent d) (f : p.Flat d) :
    ∃ rows d' φ, (∃ N, ∀ fuel ≥ N, exportRows d fuel = .ok rows) ∧ loadCsv rows {} = .ok d' ∧ Consistent d' ∧ (d.getNodes.map φ).Perm d'.getNodes ∧
      ∀ n ∈ d.getNodes, p.At n (φ n).1 ∧ Kept n (φ n) ∧ ∀ m ∈ d.getNodes, ∀ i, Goes d n i m ↔ Goes d' (φ n) i (φ m) := by
  have g := FlatP.good f
  obtain ⟨d', hd⟩ := flat_ok g
  obtain ⟨F, m⟩ := flat_made g hd
  have ex : ∀ n : Node, ∃ n' : Node, n ∈ d.getNodes → n' ∈ d'.getNodes ∧ ∃ x, Place p x n ∧ n'.1 = x.name := by
    intro n
    by_cases h : n ∈ d.getNodes
    · obtain ⟨x, hx⟩ := FlatP.place f h
      obtain ⟨n', h1, h2⟩ := FlatP.image f m hx
      exact ⟨n', fun _ => ⟨h1, x, hx, h2⟩⟩
    · exact ⟨n, fun h' => absurd h' h⟩
  choose φ hφ using ex
  refine ⟨(tableOf d p).rows, d', φ, ?_, hd, m.consistent, ?_, ?_⟩
  · rw [← FlatP.rows_eq f]
    exact structured_rows c f.structured
  · have nd : d.getNodes.Nodup := c.ids.of_map _
    refine (List.perm_ext_iff_of_nodup ?_ (m.consistent.ids.of_map _)).2 ?_
    · refine nd.map_on ?_
      intro a ha b hb e
      obtain ⟨-, x, hx, h1⟩ := hφ a ha
      obtain ⟨-, y, hy, h2⟩ := hφ b hb
      have : x = y := Id.name_inj (FlatP.small f hx) (FlatP.small f hy) (by rw [← h1, ← h2, e])
      subst this
      exact hx.fun hy
    · intro n'
      constructor
      · intro h
        obtain ⟨n, hn, rfl⟩ := List.mem_map.1 h
        exact (hφ n hn).1
      · intro h
        obtain ⟨y, n, hy, e⟩ : ∃ y n, Place p y n ∧ n'.1 = y.name := by
          obtain ⟨e1, -⟩ := id_of_node m.inv h
          rcases m.nodes _ e1 with ⟨q, ce, b, hc, e⟩ | ⟨-, he⟩
          · obtain ⟨n, hn⟩ := FlatP.place_of f (q := q) (by rw [hc]; rfl)
            exact ⟨_, n, hn, e⟩
          · obtain ⟨i, hi⟩ := List.exists_mem_of_ne_nil _ he
            obtain ⟨z, hz, -⟩ := mem_entering.1 hi
            obtain ⟨x, y, hl, e⟩ := (m.flows _).1 hz
            obtain ⟨n, hn⟩ := FlatP.place_target f hl
            exact ⟨y, n, hn, congrArg Prod.snd e⟩
        have hn := FlatP.mem f hy
        obtain ⟨h1, x, hx, h2⟩ := hφ n hn
        refine List.mem_map.2 ⟨n, hn, m.same h1 h ?_⟩
        rw [h2, e, FlatP.place_inj f c hx hy]
  · intro n hn
    obtain ⟨h1, x, hx, h2⟩ := hφ n hn
    refine ⟨at_iff.2 ⟨x, hx, h2⟩, FlatP.kept f m hx h1 h2, ?_⟩
    intro q hq i
    obtain ⟨k1, y, hy, k2⟩ := hφ q hq
    rw [FlatP.goes_iff f c hx, m.toFormed.goes g (FlatP.small f hx) h1 h2]
    constructor
    · rintro ⟨z, a1, a2, a3⟩
      exact ⟨z, a1, a2, k1, by rw [k2, FlatP.place_inj f c a3 hy]⟩
    · rintro ⟨z, a1, a2, -, a3⟩
      have : y = z := Id.name_inj (FlatP.small f hy) (a1.small g).2 (k2.symm.trans a3)
      subst this
      exact ⟨y, a1, a2, hy⟩

/-- **C97 (gateways).** The copy of a split is parallel exactly if the conditions of its branches are blank, and the gateway where the branches meet has the same type. -/
theorem C97_gateways (d : Diagram) (p : FlatProcess) (c : Consistent d) (f : p.Flat d) (fuel : Nat) (rows : List Row) (hr : exportRows d fuel = .ok rows) (d' : Diagram)
    (hd : loadCsv rows {} = .ok d') (s j : Node) (legs : List FlatLeg) (hb : FlatPart.block s legs j ∈ p.parts) (s' j' : Node) (hs : s' ∈ d'.getNodes) (hj : j' ∈ d'.getNodes)
    (as : p.At s s'.1) (aj : p.At j j'.1) :
    (s'.2.type = some "parallelGateway" ↔ ∀ a ∈ outs s, ∀ x ∈ (splitCondition d s a).toList, White x) ∧ j'.2.type = s'.2.type := by
  have g := FlatP.good f
  have e : rows = (tableOf d p).rows := by
    obtain ⟨N, hN⟩ := structured_rows c f.structured
    rw [FlatP.rows_eq f] at hN
    have h1 := hN (max N fuel) (by omega)
    have h2 := exportRows_mono (show fuel ≤ max N fuel by omega) hr
    rw [h1] at h2
    exact (Except.ok.inj h2).symm
  subst e
  obtain ⟨F, m⟩ := flat_made g hd
  obtain ⟨k, hk⟩ := List.mem_iff_getElem?.1 hb
  obtain ⟨x, hx, ex⟩ := at_iff.1 as
  obtain ⟨y, hy, ey⟩ := at_iff.1 aj
  cases FlatP.place_inj f c hx (.split hk)
  cases FlatP.place_inj f c hy (.join hk)
  have hi := (FlatP.block_in f).2 ⟨_, _, _, hk, rfl⟩
  obtain ⟨hsp, hf, -⟩ := (parts_fit _ _ (FlatP.fit f) k).2.1 s legs j hk
  obtain ⟨hl, -⟩ := legs_fit _ _ hf
  constructor
  · have := split_parallel g hd m.toFormed hi
    rw [← ex] at this
    obtain ⟨-, -, -, e4, -⟩ := id_of_node m.inv hs
    rw [e4, this]
    constructor
    · intro h a ha
      obtain ⟨i, hi⟩ := List.mem_iff_getElem?.1 ha
      have hlt : i < legs.length := by rw [← hl]; exact (List.getElem?_eq_some_iff.1 hi).1
      have h1 := (f.short s legs j hb legs[i] (List.getElem_mem hlt)).1
      obtain ⟨n, r, hn⟩ := List.exists_cons_of_length_pos (by omega : 0 < legs[i].steps.length)
      have := h (legCells d s a legs[i]) (by
        rw [List.mem_mapIdx]
        exact ⟨i, hlt, by rw [hi]; rfl⟩) (cellOf n (splitCondition d s a)) (by simp [legCells, hn])
      exact this
    · intro h leg hleg ce hce
      rw [List.mem_mapIdx] at hleg
      obtain ⟨i, hlt, rfl⟩ := hleg
      have h1 := (f.short s legs j hb legs[i] (List.getElem_mem hlt)).1
      obtain ⟨n, r, hn⟩ := List.exists_cons_of_length_pos (by omega : 0 < legs[i].steps.length)
      have hlt' : i < (outs s).length := by omega
      simp [legCells, hn, List.getElem?_eq_getElem hlt'] at hce
      subst hce
      exact h _ (List.getElem_mem hlt')
  · obtain ⟨ce, hc, -⟩ := block_before g hi
    obtain ⟨A, B, h1, h2⟩ := rows_before g hc
    have hklt := (List.getElem?_eq_some_iff.1 hi).1
    refine C83_join_like_split (tableOf d p).rows (flat_table g) d' hd A B _ h1 (by simp [Cell.row]) [] k (Or.inl rfl) (by simp [Cell.row, Pos.order]) ?_ ?_ ?_ s' hs ?_ j' hj ?_
    · show ¬HasOrder (tableOf d p).rows (Pos.main (k + 1)).order
      rw [hasOrder_pos g (p := .main (k + 1)) trivial]
      simp only [cell, hi]
      rw [if_neg (by omega)]
      simp
    · right
      show HasOrder (tableOf d p).rows (decimal (k + 1) ++ ['a', '1'])
      rw [← first_branch, hasOrder_pos g (p := .leg (k + 1) 0 1) (by show 0 < 26; omega)]
      refine branch_cell g hi ?_
      have := hsp.2.2.1
      rw [List.length_mapIdx]
      omega
    · intro a ha
      exact h2 a ha
    · rw [ex]; rfl
    · rw [ey]; simp [Id.name]

/-- **C97 (conditions).** The flows that leave the copy of a split have exactly the conditions of the branches. -/
theorem C97_conditions (d : Diagram) (p : FlatProcess) (c : Consistent d) (f : p.Flat d) (fuel : Nat) (rows : List Row) (hr : exportRows d fuel = .ok rows) (d' : Diagram)
    (hd : loadCsv rows {} = .ok d') (s j : Node) (legs : List FlatLeg) (hb : FlatPart.block s legs j ∈ p.parts) (s' : Node) (hs : s' ∈ d'.getNodes)
    (as : p.At s s'.1) (i : Nat) (a : String) (ha : (outs s)[i]? = some a) :
    ∃ b fl, (outs s')[i]? = some b ∧ d'.getFlowById b = .ok (some fl) ∧
      fl.2.2.conditionExpression.map (·.expr) = if splitCondition d s a = "" then none else some (splitCondition d s a) := by
  have g := FlatP.good f
  have e : rows = (tableOf d p).rows := by
    obtain ⟨N, hN⟩ := structured_rows c f.structured
    rw [FlatP.rows_eq f] at hN
    have h1 := hN (max N fuel) (by omega)
    have h2 := exportRows_mono (show fuel ≤ max N fuel by omega) hr
    rw [h1] at h2
    exact (Except.ok.inj h2).symm
  subst e
  obtain ⟨F, m⟩ := flat_made g hd
  obtain ⟨k, hk⟩ := List.mem_iff_getElem?.1 hb
  obtain ⟨x, hx, ex⟩ := at_iff.1 as
  cases FlatP.place_inj f c hx (.split hk)
  have hi := (FlatP.block_in f).2 ⟨_, _, _, hk, rfl⟩
  obtain ⟨hsp, hf, -⟩ := (parts_fit _ _ (FlatP.fit f) k).2.1 s legs j hk
  obtain ⟨hl, -⟩ := legs_fit _ _ hf
  have hlt : i < legs.length := by rw [← hl]; exact (List.getElem?_eq_some_iff.1 ha).1
  have hlink : Link (tableOf d p) (.split k) (.row (.leg (k + 1) i 1)) := Link.branch hi (by simpa using hlt)
  have h1 := (f.short s legs j hb legs[i] (List.getElem_mem hlt)).1
  have hstep := List.getElem?_eq_getElem (show 0 < legs[i].steps.length by omega)
  obtain ⟨q, hq, eq⟩ := FlatP.image f m (.inside hk (List.getElem?_eq_getElem hlt) hstep)
  obtain ⟨b, hb1, q', hq', e, fl, h2, h3⟩ := (m.toFormed.goes g (x := .split k) trivial hs ex i).2 ⟨_, hlink, rfl, hq, eq⟩
  cases e
  refine ⟨b, fl, hb1, h2, ?_⟩
  have hcell : ∃ bo, cell (tableOf d p) (.leg (k + 1) i 1) = some (cellOf legs[i].steps[0] (splitCondition d s a), bo) := by
    refine ⟨legs[i].stops && decide (0 + 1 = legs[i].steps.length), ?_⟩
    simp [cell, hi, legCells, List.getElem?_eq_getElem hlt, hstep, ha]
  obtain ⟨bo, hcell⟩ := hcell
  have hrow := mem_rows.2 ⟨_, _, _, hcell, rfl⟩
  obtain ⟨f', hfl, ef⟩ : ∃ f' ∈ d'.getFlows, f'.2.2 = fl.2.2 := by
    obtain ⟨ed, k1, k2, -⟩ := getFlowById_some m.inv.sane h2
    have := (d'.graph.flows_attrs_perm m.inv.sane.wf).mem_iff.2 (List.mem_map_of_mem k1)
    obtain ⟨f', h4, h5⟩ := List.mem_map.1 this
    exact ⟨f', h4, h5.trans k2⟩
  have htgt : fl.2.2.targetRef = some ((cellOf legs[i].steps[0] (splitCondition d s a)).row (Pos.leg (k + 1) i 1).order bo).order := by
    rw [h3, eq]; rfl
  have hsrc : fl.2.2.sourceRef = some s'.1 := by
    obtain ⟨q2, -, ⟨a1, b1, e1, g1, g2, g3, g4⟩, -⟩ := m.consistent.outFlow s' hs b (List.mem_of_getElem? hb1)
    rw [h2] at g1
    cases g1
    exact g3
  have tb := flat_table g
  by_cases hcnd : splitCondition d s a = ""
  · rw [if_pos hcnd]
    cases hce : fl.2.2.conditionExpression with
    | none => rfl
    | some ce =>
      exfalso
      obtain ⟨hne, r, hr1, -, hr2, hr3⟩ := C58_conditions _ tb d' hd f' hfl ce (by rw [ef]; exact hce)
      rw [ef] at hr3
      rcases hr3 with hr3 | hr3
      · rw [hsrc] at hr3
        have e := Option.some.inj hr3
        have := tb.alnum r hr1 '_' (by rw [← e, ex, split_str]; simp)
        revert this
        decide
      · rw [htgt] at hr3
        have e := List.inj_on_of_nodup_map tb.orders hrow hr1 (Option.some.inj hr3)
        rw [← e] at hr2
        exact hne (by rw [← hr2]; exact hcnd)
  · rw [if_neg hcnd]
    obtain ⟨id, -, hce⟩ := C58_carried _ tb d' hd f' hfl _ hrow (by rw [ef]; exact htgt) hcnd
    rw [← ef, hce]
    rfl

/-! ## An example -/

/-- An order, which is packed and shipped, or refused, or fetched. -/
def flatOps : List Op :=
  [.createNew "d" "D", .addProcess "p" false true "None" "PL" "P",
   .addStartEvent "P" "begin" (some "message") false true (some "s") "u1" "u2", .addTask "P" "order" (some "t0") "u",
   .addExclusiveGateway "P" "g" "Diverging" (some "f5") none "g",
   .addTask "P" "pack" (some "t1") "u", .addTask "P" "ship" (some "t2") "u",
   .addSubprocess "P" "explain" false false (some "t3") "u", .addEndEvent "P" "refused" none (some "e2") "u" "v", .addTask "P" "fetch" (some "t5") "u",
   .addExclusiveGateway "P" "j" "Converging" none none "j", .addTask "P" "close" (some "t4") "u", .addEndEvent "P" "done" none (some "e") "u" "v",
   .addSequenceFlow "P" "s" "t0" "" "f1", .addSequenceFlow "P" "t0" "g" "" "f2",
   .addSequenceFlow "P" "g" "t1" "large" "f3", .addSequenceFlow "P" "g" "t3" "odd" "f4", .addSequenceFlow "P" "g" "t5" "small" "f5",
   .addSequenceFlow "P" "t1" "t2" "" "f6", .addSequenceFlow "P" "t2" "j" "" "f7", .addSequenceFlow "P" "t3" "e2" "" "f8", .addSequenceFlow "P" "t5" "j" "" "f9",
   .addSequenceFlow "P" "j" "t4" "" "f10", .addSequenceFlow "P" "t4" "e" "" "f11"]

theorem flat_allowed : AllowedHistory {} flatOps := by
  simp [flatOps, AllowedHistory, Allowed, step, declaredNode, declaredFlow, directionArg, directions, chosen]

/-- Its parts. -/
def flatLine (d : Diagram) : FlatProcess :=
  let n := nodeOf d
  ⟨n "s", [.step (n "t0"), .block (n "g") [⟨[n "t1", n "t2"], false⟩, ⟨[n "t3", n "e2"], true⟩, ⟨[n "t5"], false⟩] (n "j"), .step (n "t4")], n "e"⟩

instance (n : Node) : Decidable (IsGateway n) := by unfold IsGateway; infer_instance

def FlatLegOk (leg : FlatLeg) : Bool :=
  decide (1 ≤ leg.steps.length ∧ leg.steps.length ≤ 10) &&
    (leg.steps.mapIdx fun m n => if leg.stops = true ∧ m + 1 = leg.steps.length then decide (n.2.type = some "endEvent") else decide (IsActivity n)).all id

def FlatPartOk : FlatPart → Bool
  | .step n => decide (IsActivity n)
  | .block s legs j => decide (IsGateway s) && decide (IsGateway j) && decide (2 ≤ (legs.filter fun l => !l.stops).length) && legs.all FlatLegOk

def FlatApart : List FlatPart → Bool
  | .block _ _ _ :: .block _ _ _ :: _ => false
  | _ :: r => FlatApart r
  | [] => true

theorem flatApart_of : ∀ {parts : List FlatPart}, FlatApart parts = true → ∀ i s legs j s' legs' j', parts[i]? = some (.block s legs j) → parts[i + 1]? ≠ some (.block s' legs' j')
  | [], _, i, s, legs, j, s', legs', j', h => by simp at h
  | q :: r, h, i, s, legs, j, s', legs', j', h1 => by
    cases i with
    | succ i =>
      refine flatApart_of (parts := r) ?_ i s legs j s' legs' j' (by simpa using h1)
      unfold FlatApart at h
      split at h
      · cases h
      · rename_i e; cases e; exact h
      · rename_i e; cases e
    | zero =>
      simp at h1
      subst h1
      intro h2
      cases r with
      | nil => simp at h2
      | cons q r => simp at h2; subst h2; simp [FlatApart] at h

theorem flat_of_check {d : Diagram} {p : FlatProcess} (h0 : structuredB p.strand d = true)
    (h : (decide (p.first.2.type = some "startEvent") && decide (p.last.2.type = some "endEvent") && p.parts.all FlatPartOk && FlatApart p.parts &&
      d.getNodes.all fun n => !decide (HasRow n) || !isGoto (caption n).1) = true) : p.Flat d := by
  simp only [Bool.and_eq_true, decide_eq_true_eq, List.all_eq_true] at h
  obtain ⟨⟨⟨⟨h1, h2⟩, h3⟩, h4⟩, h5⟩ := h
  have block : ∀ {s legs j}, FlatPart.block s legs j ∈ p.parts → IsGateway s ∧ IsGateway j ∧ 2 ≤ (legs.filter fun l => !l.stops).length ∧ ∀ leg ∈ legs, FlatLegOk leg = true := by
    intro s legs j hb
    have := h3 _ hb
    simp only [FlatPartOk, Bool.and_eq_true, decide_eq_true_eq, List.all_eq_true] at this
    exact ⟨this.1.1.1, this.1.1.2, this.1.2, this.2⟩
  refine ⟨structured_of_check h0, h1, h2, ?_, ?_, ?_, ?_, ?_, flatApart_of h4, ?_⟩
  · intro n hn
    simpa [FlatPartOk] using h3 _ hn
  · intro s legs j hb
    exact ⟨(block hb).1, (block hb).2.1⟩
  · intro s legs j hb
    exact (block hb).2.2.1
  · intro s legs j hb leg hl
    have := (block hb).2.2.2 leg hl
    simp only [FlatLegOk, Bool.and_eq_true, decide_eq_true_eq] at this
    exact this.1
  · intro s legs j hb leg hl m n hm
    have := (block hb).2.2.2 leg hl
    simp only [FlatLegOk, Bool.and_eq_true, List.all_eq_true] at this
    have h6 := this.2 _ (List.mem_mapIdx.2 ⟨m, (List.getElem?_eq_some_iff.1 hm).1, rfl⟩)
    rw [(List.getElem?_eq_some_iff.1 hm).2] at h6
    split at h6
    · rename_i e; rw [if_pos e]; simpa using h6
    · rename_i e; rw [if_neg e]; simpa using h6
  · intro n hn hr hg
    have := h5 n hn
    simp only [hr, decide_true, Bool.not_true, Bool.false_or, Bool.not_eq_true'] at this
    rw [(isGoto_iff (Row.mk "" (caption n).1 "" "" "" "")).2 hg] at this
    cases this

set_option maxRecDepth 8000 in
theorem flat_example : (flatLine (Op.run {} flatOps)).Flat (Op.run {} flatOps) := flat_of_check (by decide +kernel) (by decide +kernel)

set_option maxRecDepth 8000 in
/-- The hypotheses hold for it; its table. -/
example : Consistent (Op.run {} flatOps) ∧ (flatLine (Op.run {} flatOps)).Flat (Op.run {} flatOps) ∧
    (∃ rows, exportRows (Op.run {} flatOps) 20 = .ok rows ∧ (rows.map (fun r => (r.order, r.activity, r.condition)) == [("0", "message begin", ""), ("1", "order", ""), ("2a1", "pack", "large"), ("2a2", "ship", ""),
      ("2b1", "explain", "odd"), ("2b2", "refused", ""), ("2c1", "fetch", "else"), ("3", "close", ""), ("4", "done", "")]) = true) ∧
    (flatLine (Op.run {} flatOps)).At (nodeOf (Op.run {} flatOps) "j") "3_join" :=
  ⟨consistent_of_allowed _ flat_allowed, flat_example, ok_of_check _ (by decide +kernel), .join (k := 1) rfl⟩

set_option maxRecDepth 8000 in
/-- **C97 (limit).** Blocks inside branches do not come back: the table of a nested process can be imported, but the step behind the inner block has lost its predecessor. -/
theorem C97_nested : ∃ d l, Consistent d ∧ Structured d l ∧ ∃ rows d', (∃ N, ∀ fuel ≥ N, exportRows d fuel = .ok rows) ∧ loadCsv rows {} = .ok d' ∧
    (∃ n ∈ d.getNodes, n.2.nodeName = some "ship" ∧ ins n ≠ []) ∧ ∃ n ∈ d'.getNodes, n.2.nodeName = some "ship" ∧ ins n = [] := by
  obtain ⟨d', h1, h2⟩ := ok_of_check (x := loadCsv ((strandLine (Op.run {} strandOps)).table (Op.run {} strandOps) false "" 0 "") {})
    (fun d' => d'.getNodes.any fun n => n.2.nodeName == some "ship" && (ins n).isEmpty) (by decide +kernel)
  refine ⟨_, _, consistent_of_allowed _ strand_allowed, strand_structured, _, d', structured_rows (consistent_of_allowed _ strand_allowed) strand_structured, h1, by decide +kernel, ?_⟩
  simp only [List.any_eq_true, Bool.and_eq_true, beq_iff_eq, List.isEmpty_iff] at h2
  exact h2

end Bpmn.Props

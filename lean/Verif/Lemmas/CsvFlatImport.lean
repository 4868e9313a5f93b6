import Verif.Lemmas.CsvFlat
import Mathlib.Data.List.Nodup
import Mathlib.Data.List.Perm.Subperm
/-! The diagram made of a flat table. -/
set_option linter.unusedSimpArgs false
set_option linter.unusedVariables false

namespace Bpmn.Csv
open Bpmn.Spec Bpmn.Spec.Csv

/-! ## What does not change -/

/-- No flow has a name and no node a default flow. -/
structure Mute (d : Diagram) : Prop where
  names : ∀ e ∈ d.graph.edges, e.attrs.name.getD "" = ""
  default : ∀ x f, defaultOf d x ≠ some (some f)

theorem Connected.mute {pd : Dict String Line} {d d' : Diagram} {s t : String} (h : Connected pd d d' s t) (m : Mute d) : Mute d' := by
  refine ⟨?_, fun x f => by rw [defaultOf_eq, h.bare, ← defaultOf_eq]; exact m.default x f⟩
  intro e he
  rw [h.edges, List.mem_append] at he
  rcases he with he | he
  · obtain ⟨e', he', rfl⟩ := List.mem_map.1 he
    split
    · simp [newAttrs]
    · exact m.names e' he'
  · split at he
    · simp at he
    · rw [List.mem_singleton] at he
      subst he
      simp [newAttrs]

theorem Added.mute {d d' : Diagram} {o : String} {ty : Option String} {act : String} (h : Added d d' o ty act) (m : Mute d) : Mute d' := by
  refine ⟨by rw [h.edges]; exact m.names, ?_⟩
  intro x f
  by_cases e : x = o
  · subst e; exact h.looks.default f
  · have := m.default x f
    simpa [defaultOf, h.other x e] using this

theorem Chained.mute {pd : Dict String Line} {d d' : Diagram} {l : List (String × String)} (h : Chained pd d l d') (m : Mute d) : Mute d' := by
  induction h with
  | nil => exact m
  | cons h _ ih => exact ih (h.mute m)

theorem Rounds.mute {pd : Dict String Line} {nodes rs : List String} {d d' : Diagram} {F : List (String × String)}
    (h : Rounds pd nodes rs d F d') (m : Mute d) : Mute d' := by
  induction h with
  | nil => exact m
  | cons hR _ ih =>
    apply ih
    obtain ⟨_, d1, h1, hch⟩ := hR
    rcases h1 with ⟨_, rfl⟩ | ⟨n, ty, _, _, ha⟩
    · exact hch.mute m
    · exact hch.mute (ha.mute m)

theorem Planted.mute {pd : Dict String Line} {d : Diagram} (h : Planted pd d) : Mute d := by
  refine ⟨by rw [h.edges]; simp, ?_⟩
  intro x f
  by_cases e : x ∈ Csv.ids d
  · rw [h.ids] at e
    obtain ⟨l, hl⟩ := Dict.mem_keys_iff_exists.1 e
    exact (h.looks x l hl).default f
  · have := (Dict.get?_eq_none_iff _ _).2 e
    simp [defaultOf, this]

theorem Mute.legacy {d : Diagram} (m : Mute d) : Mute (legacyAdjustment d) := by
  refine ⟨m.names, ?_⟩
  intro x f
  have := m.default x f
  simp only [defaultOf, legacy_get?] at this ⊢
  cases e : d.graph.nodes.get? x with
  | none => simp
  | some a => simpa [e] using this

theorem Cleaned.same {pd : Dict String Line} {todo : List String} {d d' : Diagram} (h : Cleaned pd todo d d')
    (hn : ∀ x ∈ todo, GatewayKind d x → 2 ≤ (inOf d x).length ∨ 2 ≤ (outOf d x).length) : d' = d := by
  induction h with
  | nil => rfl
  | keep _ _ ih => exact ih fun x hx => hn x (List.mem_cons_of_mem _ hx)
  | cut hg hi ho _ _ _ => have := hn _ List.mem_cons_self hg; omega

/-! ## Where a row leads -/

theorem main_way {t : FlatTable} {k : Nat} {c : Cell} (h : cell t (.main k) = some (c, false)) :
    (cell t (.main (k + 1))).isSome = true ∨ ∃ legs, t.items[k]? = some (.block legs) ∧ cell t (.main (k + 1)) = none := by
  have hk : k ≤ t.items.length := by
    cases k with
    | zero => omega
    | succ i =>
      simp only [cell] at h
      split at h
      · cases h
      · split at h
        · rename_i e; have := (List.getElem?_eq_some_iff.1 e).1; omega
        · cases h
  by_cases e : k = t.items.length
  · left; simp [cell, e]
  · have : k < t.items.length := by omega
    obtain ⟨x, hx⟩ : ∃ x, t.items[k]? = some x := ⟨_, List.getElem?_eq_getElem this⟩
    cases x with
    | step c => left; simp [cell, e, hx]
    | block legs => right; exact ⟨legs, hx, by simp [cell, e, hx]⟩

theorem leg_way {t : FlatTable} {k j m : Nat} {c : Cell} (h : cell t (.leg k j m) = some (c, false)) :
    (cell t (.leg k j (m + 1))).isSome = true ∨ ∃ i legs leg, k = i + 1 ∧ t.items[i]? = some (.block legs) ∧ legs[j]? = some leg ∧ leg.stops = false ∧
      m = leg.steps.length ∧ cell t (.leg k j (m + 1)) = none := by
  obtain ⟨i, n, legs, leg, rfl, rfl, h1, h2, h3, h4⟩ := cell_leg h
  have hn := (List.getElem?_eq_some_iff.1 h3).1
  by_cases e : n + 1 = leg.steps.length
  · right
    refine ⟨i, legs, leg, rfl, h1, h2, by simpa [e] using h4.symm, e, ?_⟩
    have : leg.steps[n + 1]? = none := by rw [List.getElem?_eq_none_iff]; omega
    simp [cell, h1, h2, this]
  · left
    have : n + 1 < leg.steps.length := by omega
    simp [cell, h1, h2, List.getElem?_eq_getElem this]

theorem block_before {t : FlatTable} (g : t.Good) {k : Nat} {legs : List Leg} (h : t.items[k]? = some (.block legs)) :
    ∃ c, cell t (.main k) = some (c, false) ∧ cell t (.main (k + 1)) = none := by
  have hk := (List.getElem?_eq_some_iff.1 h).1
  have h2 : cell t (.main (k + 1)) = none := by simp only [cell, h]; rw [if_neg (by omega)]
  cases k with
  | zero => exact ⟨t.first, rfl, h2⟩
  | succ i =>
    have : i < t.items.length := by omega
    obtain ⟨x, hx⟩ : ∃ x, t.items[i]? = some x := ⟨_, List.getElem?_eq_getElem this⟩
    cases x with
    | step c => exact ⟨c, by simp only [cell, hx]; rw [if_neg (by omega)], h2⟩
    | block legs' => exact absurd h (g.apart i legs' legs hx)

theorem block_after {t : FlatTable} (g : t.Good) {k : Nat} {legs : List Leg} (h : t.items[k]? = some (.block legs)) :
    (cell t (.main (k + 2))).isSome = true := by
  have hk := (List.getElem?_eq_some_iff.1 h).1
  simp only [cell]
  by_cases e : k + 1 = t.items.length
  · simp [e]
  · rw [if_neg e]
    have : k + 1 < t.items.length := by omega
    obtain ⟨x, hx⟩ : ∃ x, t.items[k + 1]? = some x := ⟨_, List.getElem?_eq_getElem this⟩
    cases x with
    | step c => simp [hx]
    | block legs' => exact absurd hx (g.apart k legs legs' h)

theorem first_branch (k : Nat) : (Pos.leg k 0 1).order = decimal k ++ ['a', '1'] := by
  simp only [Pos.order, List.append_assoc, List.singleton_append]; rfl

theorem leg_prefix {j : Nat} (k : Nat) (hj : j < 26) : BranchPrefix (decimal k ++ [letter j]) := by
  have := BranchPrefix.step k BranchPrefix.nil (letter_ok hj).range.1 (letter_ok hj).range.2
  simpa using this

theorem leg_numbers {j : Nat} (k : Nat) (hj : j < 26) : Numbers (decimal k ++ [letter j]) [k] :=
  Numbers.cons k (letter_ok hj).range.1 (letter_ok hj).range.2 Numbers.nil

/-- No row has an order with two letters. -/
theorem two_letters {t : FlatTable} (g : t.Good) {k j m : Nat} (hj : j < 26) (r : List Char) : ¬HasOrder t.rows (decimal k ++ [letter j] ++ decimal m ++ 'a' :: r) := by
  rintro ⟨row, hr, e⟩
  obtain ⟨p, c, b, h, rfl⟩ := mem_rows.1 hr
  have hs := cell_small g (p := p) (by rw [h]; rfl)
  simp only [Cell.row, String.toList_ofList, List.append_assoc, List.singleton_append] at e
  have sa : ∀ r, Stops ('a' :: r) := fun r => stops_letter (by decide)
  cases p with
  | main l =>
    have := decimal_split (m := l) (n := k) (r := []) (by simp [Stops]) (stops_letter (letter_isLetter hj)) (by simpa [Pos.order] using e)
    simp at this
  | leg l i n =>
    simp only [Pos.order, List.append_assoc, List.singleton_append] at e
    have h1 := (decimal_split (stops_letter (letter_isLetter hs)) (stops_letter (letter_isLetter hj)) e).2
    have h2 := (List.cons.inj h1).2
    have := decimal_split (m := n) (n := m) (r := []) (by simp [Stops]) (sa r) (by simpa using h2)
    simp at this

theorem name_str (k : Nat) : String.ofList (decimal k) = toString k := by rw [decimal, String.ofList_toList]

/-! ## The import succeeds -/

theorem row_order (c : Cell) (o : List Char) (b : Bool) : (c.row o b).order = String.ofList o := rfl
theorem row_stops (c : Cell) (o : List Char) (b : Bool) : (c.row o b).terminated = "yes" ↔ b = true := by cases b <;> simp [Cell.row]

/-- At the end of a branch. -/
theorem leg_end {t : FlatTable} (g : t.Good) {k j m : Nat} (hj : j < 26) (h : cell t (.leg k j (m + 1)) = none) :
    mergeSuccessors (String.ofList (Pos.leg k j m).order) = .ok [toString (k + 1)] ∧
    anyPresent (sequenceSuccessors (String.ofList (Pos.leg k j m).order)) (t.rows.map Row.order) = false ∧
    anyPresent (splitCandidates (String.ofList (Pos.leg k j m).order)) (t.rows.map Row.order) = false := by
  have hb := leg_prefix k hj
  refine ⟨?_, ?_, ?_⟩
  · have := (mergeSuccessors_branch (leg_numbers k hj) hb (by simp) m).1
    simpa [Pos.order] using this
  · rw [Pos.order, sequenceSuccessors_decimal m hb.ends, anyPresent_false]
    intro x hx
    rw [List.mem_singleton] at hx; subst hx
    intro hm
    have := (hasOrder_pos g (p := .leg k j (m + 1)) hj).1 (hasOrder_iff.2 hm)
    rw [h] at this; cases this
  · rw [Pos.order, splitCandidates_decimal m hb.ends, anyPresent_false]
    intro x hx hm
    simp only [List.mem_cons, List.not_mem_nil, or_false] at hx
    rcases hx with rfl | rfl
    · exact two_letters g hj [] (hasOrder_iff.2 hm)
    · exact two_letters g hj ['1'] (hasOrder_iff.2 hm)

theorem flat_goes {t : FlatTable} (g : t.Good) {r : Row} (hr : r ∈ t.rows) (ht : r.terminated ≠ "yes") : GoesOn (t.rows.map Row.order) r.order := by
  obtain ⟨p, c, b, h, rfl⟩ := mem_rows.1 hr
  rw [Ne, row_stops] at ht
  have hb : b = false := by cases b <;> simp at ht ⊢
  subst hb
  have hs := cell_small g (p := p) (by rw [h]; rfl)
  cases p with
  | main k =>
    rw [row_order]
    rcases main_way h with hn | ⟨legs, hl, _⟩
    · refine GoesOn.sequence ?_
      rw [show (Pos.main k).order = [] ++ decimal k from rfl, sequenceSuccessors_decimal k (Or.inl rfl), anyPresent_iff]
      exact ⟨_, List.mem_singleton_self _, hasOrder_iff.1 ((hasOrder_pos g (p := .main (k + 1)) trivial).2 hn)⟩
    · refine GoesOn.split ?_
      rw [show (Pos.main k).order = [] ++ decimal k from rfl, splitCandidates_decimal k (Or.inl rfl), anyPresent_iff]
      refine ⟨_, List.mem_cons_of_mem _ (List.mem_singleton_self _), hasOrder_iff.1 ?_⟩
      have two := g.two legs (List.mem_of_getElem? hl)
      have hlen := List.length_filter_le (fun l : Leg => !l.stops) legs
      obtain ⟨leg, rest, e⟩ := List.exists_cons_of_length_pos (by omega : 0 < legs.length)
      have h1 := (g.short legs (List.mem_of_getElem? hl) leg (by simp [e])).1
      have := (hasOrder_pos g (p := .leg (k + 1) 0 1) (show 0 < 26 by omega)).2 (by
        simp [cell, hl, e, List.getElem?_eq_getElem (show 0 < leg.steps.length by omega)])
      rwa [first_branch] at this
  | leg k j m =>
    rw [row_order]
    have hj : j < 26 := hs
    rcases leg_way h with hn | ⟨i, legs, leg, rfl, h1, h2, h3, rfl, hno⟩
    · refine GoesOn.sequence ?_
      rw [Pos.order, sequenceSuccessors_decimal m (leg_prefix k hj).ends, anyPresent_iff]
      exact ⟨_, List.mem_singleton_self _, hasOrder_iff.1 ((hasOrder_pos g (p := .leg k j (m + 1)) hj).2 hn)⟩
    · obtain ⟨e1, _, _⟩ := leg_end g hj hno
      refine GoesOn.merge (s := toString (i + 1 + 1)) e1 ?_ ?_
      · refine onlyPresent_single ?_
        rw [anyPresent_iff]
        refine ⟨_, List.mem_singleton_self _, ?_⟩
        rw [← name_str]
        exact hasOrder_iff.1 ((hasOrder_pos g (p := .main (i + 2)) trivial).2 (block_after g h1))
      · intro pre n e
        have := trailingNumber_decimal (p := []) (i + 1 + 1) (Or.inl rfl)
        rw [List.nil_append, name_str] at this
        rw [this] at e
        cases e
        omega

theorem flat_ok {t : FlatTable} (g : t.Good) : ∃ d, loadCsv t.rows {} = .ok d := load_ok (flat_table g) g.plain fun r hr ht => flat_goes g hr ht

/-! ## The flows -/

/-- The nodes: rows, the split behind a row, the join before a row. -/
inductive Id where
  | row (p : Pos)
  | split (k : Nat)
  | join (k : Nat)

def Id.name : Id → String
  | .row p => String.ofList p.order
  | .split k => String.ofList (decimal k) ++ "_split"
  | .join k => String.ofList (decimal k) ++ "_join"

def Id.Small : Id → Prop
  | .row p => p.Small
  | _ => True

theorem pos_plain {p : Pos} (h : p.Small) : '_' ∉ (String.ofList p.order).toList := by
  rw [String.toList_ofList]
  have dig : ∀ n, '_' ∉ decimal n := fun n h => by have := decimal_isDigit h; revert this; decide
  cases p with
  | main k => exact dig k
  | leg k j m =>
    simp only [Pos.order, List.mem_append, List.mem_singleton, not_or]
    refine ⟨⟨dig k, ?_⟩, dig m⟩
    intro e
    have := letter_alpha (letter_isLetter (show j < 26 from h)) (letter_range (letter_ok h).range.1 (letter_ok h).range.2).2
    rw [← e] at this
    revert this; decide

theorem Id.name_inj {x y : Id} (hx : x.Small) (hy : y.Small) (h : x.name = y.name) : x = y := by
  cases x with
  | row p =>
    cases y with
    | row q => rw [Pos.order_inj hx hy (ofList_inj h)]
    | split k => exact absurd ((show String.ofList p.order = _ from h) ▸ underscore_split _) (pos_plain hx)
    | join k => exact absurd ((show String.ofList p.order = _ from h) ▸ underscore_join _) (pos_plain hx)
  | split k =>
    cases y with
    | row q => exact absurd ((show _ = String.ofList q.order from h) ▸ underscore_split _) (pos_plain hy)
    | split l => rw [decimal_inj (ofList_inj (split_inj h))]
    | join l => exact absurd h (split_ne_join _ _)
  | join k =>
    cases y with
    | row q => exact absurd ((show _ = String.ofList q.order from h) ▸ underscore_join _) (pos_plain hy)
    | split l => exact absurd h.symm (split_ne_join _ _)
    | join l => rw [decimal_inj (ofList_inj (join_inj h))]

/-- The flows of a flat table. -/
inductive Link (t : FlatTable) : Id → Id → Prop where
  | step {k : Nat} {c : Cell} : cell t (.main k) = some (c, false) → (cell t (.main (k + 1))).isSome = true → Link t (.row (.main k)) (.row (.main (k + 1)))
  | enter {k : Nat} {legs : List Leg} : t.items[k]? = some (.block legs) → Link t (.row (.main k)) (.split k)
  | branch {k j : Nat} {legs : List Leg} : t.items[k]? = some (.block legs) → j < legs.length → Link t (.split k) (.row (.leg (k + 1) j 1))
  | inside {k j m : Nat} : (cell t (.leg k j m)).isSome = true → (cell t (.leg k j (m + 1))).isSome = true → Link t (.row (.leg k j m)) (.row (.leg k j (m + 1)))
  | close {k j m : Nat} {legs : List Leg} {leg : Leg} : t.items[k]? = some (.block legs) → legs[j]? = some leg → leg.stops = false →
      m = leg.steps.length → Link t (.row (.leg (k + 1) j m)) (.join (k + 2))
  | leave {k : Nat} {legs : List Leg} : t.items[k]? = some (.block legs) → Link t (.join (k + 2)) (.row (.main (k + 2)))

theorem branch_cell {t : FlatTable} (g : t.Good) {k j : Nat} {legs : List Leg} (h : t.items[k]? = some (.block legs)) (hj : j < legs.length) :
    (cell t (.leg (k + 1) j 1)).isSome = true := by
  have := (g.short legs (List.mem_of_getElem? h) legs[j] (List.getElem_mem hj)).1
  simp [cell, h, List.getElem?_eq_getElem hj, List.getElem?_eq_getElem (show 0 < legs[j].steps.length by omega)]

theorem close_cell {t : FlatTable} (g : t.Good) {k j : Nat} {legs : List Leg} {leg : Leg} (h : t.items[k]? = some (.block legs)) (hj : legs[j]? = some leg) :
    (∃ c, cell t (.leg (k + 1) j leg.steps.length) = some (c, leg.stops)) ∧ cell t (.leg (k + 1) j (leg.steps.length + 1)) = none := by
  have h1 := (g.short legs (List.mem_of_getElem? h) leg (List.mem_of_getElem? hj)).1
  obtain ⟨n, e⟩ : ∃ n, leg.steps.length = n + 1 := ⟨leg.steps.length - 1, by omega⟩
  constructor
  · obtain ⟨c, hc⟩ : ∃ c, leg.steps[n]? = some c := ⟨_, List.getElem?_eq_getElem (show n < leg.steps.length by omega)⟩
    refine ⟨c, ?_⟩
    rw [e]
    simp only [cell, h, hj, hc, e, Option.map_some, decide_true, Bool.and_true]
  · have : leg.steps[leg.steps.length]? = none := by simp
    simp [cell, h, hj, this]

theorem Link.small {t : FlatTable} (g : t.Good) {x y : Id} (h : Link t x y) : x.Small ∧ y.Small := by
  cases h with
  | step => exact ⟨trivial, trivial⟩
  | enter => exact ⟨trivial, trivial⟩
  | branch h hj => exact ⟨trivial, cell_small g (branch_cell g h hj)⟩
  | inside h h' => exact ⟨cell_small g h, cell_small g h'⟩
  | close h hj _ e =>
    subst e
    obtain ⟨c, hc⟩ := (close_cell g h hj).1
    exact ⟨cell_small g (p := .leg _ _ _) (by rw [hc]; rfl), trivial⟩
  | leave => exact ⟨trivial, trivial⟩

/-- The plan at the end of a branch. -/
theorem Plan.of_merge' {rows : List Row} (t : Table rows) {dr : Diagram} {r : Row} (hr : r ∈ rows) {g : Option (String × Option String)} {l : List (String × String)}
    (h : Plan (dictOf rows) (rows.map Row.order) dr r.order g l) {k : String} (hm : mergeSuccessors r.order = .ok [k])
    (hs : anyPresent (sequenceSuccessors r.order) (rows.map Row.order) = false)
    (hq : anyPresent (splitCandidates r.order) (rows.map Row.order) = false) (ht : r.terminated ≠ "yes") :
    l = [(r.order, k ++ "_join")] ∨ l = [(k ++ "_join", k), (r.order, k ++ "_join")] := by
  have hk := get?_dictOf t hr
  cases h with
  | stop h1 h2 => rw [hk] at h1; cases h1; exact absurd h2 ht
  | sequence _ _ h3 _ => rw [hs] at h3; cases h3
  | split _ _ _ h4 => rw [hq] at h4; cases h4
  | join _ _ _ _ h5 h6 _ =>
    rw [hm] at h5; cases h5
    obtain ⟨a, b⟩ := onlyPresent_mem h6
    simp at a; subst a
    exact Or.inl rfl
  | newJoin _ _ _ _ h5 h6 _ =>
    rw [hm] at h5; cases h5
    obtain ⟨a, b⟩ := onlyPresent_mem h6
    simp at a; subst a
    exact Or.inr rfl

/-- The flows added for a row. -/
inductive Ways (t : FlatTable) (p : Pos) (l : List (String × String)) : Prop where
  | stop {c : Cell} : cell t p = some (c, true) → l = [] → Ways t p l
  | one {x : Id} : Link t (.row p) x → (∀ k, x ≠ .split k) → l = [(String.ofList p.order, x.name)] → Ways t p l
  | first {k : Nat} : Link t (.row p) (.join k) → Link t (.join k) (.row (.main k)) →
      l = [((Id.join k).name, (Id.row (.main k)).name), (String.ofList p.order, (Id.join k).name)] → Ways t p l
  | fork {k : Nat} {legs : List Leg} : p = .main k → t.items[k]? = some (.block legs) →
      l = ((Id.row p).name, (Id.split k).name) :: ((List.range legs.length).map fun j => ((Id.split k).name, (Id.row (.leg (k + 1) j 1)).name)) → Ways t p l

theorem plan_ways {t : FlatTable} (g : t.Good) {p : Pos} {c : Cell} {b : Bool} (h : cell t p = some (c, b)) {dr : Diagram} {gw : Option (String × Option String)}
    {l : List (String × String)} (hp : Plan (dictOf t.rows) (t.rows.map Row.order) dr (String.ofList p.order) gw l) : Ways t p l := by
  have tb := flat_table g
  have hr : c.row p.order b ∈ t.rows := mem_rows.2 ⟨p, c, b, h, rfl⟩
  have hs := cell_small g (p := p) (by rw [h]; rfl)
  cases b with
  | true =>
    refine Ways.stop h ?_
    have hk := get?_dictOf tb hr
    rw [row_order] at hk
    cases hp with
    | stop => rfl
    | sequence h1 h2 => rw [hk] at h1; cases h1; exact absurd ((row_stops c p.order true).2 rfl) h2
    | split h1 h2 => rw [hk] at h1; cases h1; exact absurd ((row_stops c p.order true).2 rfl) h2
    | join h1 h2 => rw [hk] at h1; cases h1; exact absurd ((row_stops c p.order true).2 rfl) h2
    | newJoin h1 h2 => rw [hk] at h1; cases h1; exact absurd ((row_stops c p.order true).2 rfl) h2
  | false =>
    have ht : (c.row p.order false).terminated ≠ "yes" := by rw [Ne, row_stops]; simp
    have hp' : Plan (dictOf t.rows) (t.rows.map Row.order) dr (c.row p.order false).order gw l := hp
    cases p with
    | main k =>
      rcases main_way h with hn | ⟨legs, hl, hno⟩
      · refine Ways.one (Link.step h hn) (by simp) ?_
        exact Plan.of_sequence tb hr hp' (p := []) (n := k) (Or.inl rfl) (by simp [row_order, Pos.order]) ht
          ((hasOrder_pos g (p := .main (k + 1)) trivial).2 hn)
      · refine Ways.fork rfl hl ?_
        have two := g.two legs (List.mem_of_getElem? hl)
        have hlen := List.length_filter_le (fun l : Leg => !l.stops) legs
        obtain ⟨ty, -, -, e⟩ := Plan.of_split tb hr hp' (p := []) (n := k) (Or.inl rfl) (by simp [row_order, Pos.order]) ht
          (fun hh => by have := (hasOrder_pos g (p := .main (k + 1)) trivial).1 hh; rw [hno] at this; cases this)
          (Or.inr (by
            have := (hasOrder_pos g (p := .leg (k + 1) 0 1) (show 0 < 26 by omega)).2 (branch_cell g hl (by omega))
            rwa [first_branch] at this))
        rw [e]
        have st := starts_eq g hl
        rw [branches_eq tb] at st
        have := congrArg (List.map fun o => ((Id.split k).name, o)) st
        rw [List.map_map, List.map_map] at this
        rw [List.nil_append]
        exact congrArg (List.cons _) this
    | leg k j m =>
      have hj : j < 26 := hs
      rcases leg_way h with hn | ⟨i, legs, leg, rfl, h1, h2, h3, rfl, hno⟩
      · refine Ways.one (Link.inside (by rw [h]; rfl) hn) (by simp) ?_
        exact Plan.of_sequence tb hr hp' (p := decimal k ++ [letter j]) (n := m) (leg_prefix k hj).ends (by simp [row_order, Pos.order]) ht
          ((hasOrder_pos g (p := .leg k j (m + 1)) hj).2 hn)
      · obtain ⟨e1, e2, e3⟩ := leg_end g hj hno
        have nm : toString (i + 1 + 1) ++ "_join" = (Id.join (i + 2)).name := by rw [← name_str]; rfl
        have nr : toString (i + 1 + 1) = (Id.row (.main (i + 2))).name := by rw [← name_str]; rfl
        rcases Plan.of_merge' tb hr hp' e1 e2 e3 ht with e | e
        · exact Ways.one (Link.close h1 h2 h3 rfl) (by simp) (by rw [e, nm]; rfl)
        · refine Ways.first (Link.close h1 h2 h3 rfl) (Link.leave h1) ?_
          rw [e, nm, nr]; rfl

theorem Ways.link {t : FlatTable} {p : Pos} {l : List (String × String)} (h : Ways t p l) {q : String × String} (hq : q ∈ l) :
    ∃ x y, Link t x y ∧ q = (x.name, y.name) := by
  cases h with
  | stop _ e => rw [e] at hq; simp at hq
  | one hl _ e => rw [e, List.mem_singleton] at hq; exact ⟨_, _, hl, hq⟩
  | first h1 h2 e =>
    rw [e] at hq
    simp only [List.mem_cons, List.not_mem_nil, or_false] at hq
    rcases hq with rfl | rfl
    · exact ⟨_, _, h2, rfl⟩
    · exact ⟨_, _, h1, rfl⟩
  | fork hp hl e =>
    rw [e, List.mem_cons, List.mem_map] at hq
    rcases hq with rfl | ⟨j, hj, rfl⟩
    · subst hp; exact ⟨_, _, Link.enter hl, rfl⟩
    · exact ⟨_, _, Link.branch hl (List.mem_range.1 hj), rfl⟩

/-! ## The result -/

/-- The imported diagram and its flows. -/
structure Formed (t : FlatTable) (d : Diagram) (F : List (String × String)) : Prop where
  out : ∀ x, outOf d x = leaving x F
  inn : ∀ x, inOf d x = entering x F
  nodup : F.Nodup
  flows : ∀ q, q ∈ F ↔ ∃ x y, Link t x y ∧ q = (x.name, y.name)
  fork : ∀ k legs, t.items[k]? = some (.block legs) → leaving (Id.split k).name F =
    (List.range legs.length).map fun j => flowId (Id.split k).name (Id.row (.leg (k + 1) j 1)).name
  consistent : Consistent d
  inv : Inv d
  rows : ∀ p c b, cell t p = some (c, b) → String.ofList p.order ∈ ids d ∧
    Looks d (String.ofList p.order) (some (rowType (c.row p.order b))) (c.row p.order b).activity
  nodes : ∀ x ∈ ids d, (∃ p c b, cell t p = some (c, b) ∧ x = String.ofList p.order) ∨ GatewayKind d x ∧ (entering x F ≠ [])
  default : ∀ x f, defaultOf d x ≠ some (some f)

/-- In the diagram made by the import no flow has a name either. -/
structure Made (t : FlatTable) (d : Diagram) (F : List (String × String)) : Prop extends Formed t d F where
  names : ∀ e ∈ d.graph.edges, e.attrs.name.getD "" = ""

theorem leaving_length {x : String} {l : List String} {F : List (String × String)} (nd : l.Nodup) (h : ∀ y ∈ l, (x, y) ∈ F) :
    l.length ≤ (leaving x F).length := by
  rw [leaving, List.length_map]
  have : (l.map fun y => (x, y)) ⊆ F.filter (·.1 = x) := by
    intro q hq
    obtain ⟨y, hy, rfl⟩ := List.mem_map.1 hq
    exact List.mem_filter.2 ⟨h y hy, by simp⟩
  have := (List.subperm_of_subset (List.Nodup.map (f := fun y => (x, y)) (by intro a b e; simpa using e) nd) this).length_le
  simpa using this

theorem entering_length {x : String} {l : List String} {F : List (String × String)} (nd : l.Nodup) (h : ∀ y ∈ l, (y, x) ∈ F) :
    l.length ≤ (entering x F).length := by
  rw [entering, List.length_map]
  have : (l.map fun y => (y, x)) ⊆ F.filter (·.2 = x) := by
    intro q hq
    obtain ⟨y, hy, rfl⟩ := List.mem_map.1 hq
    exact List.mem_filter.2 ⟨h y hy, by simp⟩
  have := (List.subperm_of_subset (List.Nodup.map (f := fun y => (y, x)) (by intro a b e; simpa using e) nd) this).length_le
  simpa using this

theorem two_of_filter {α : Type} {p : α → Bool} : ∀ {l : List α}, 2 ≤ (l.filter p).length → ∃ (i j : Nat) (a b : α), i < j ∧ l[i]? = some a ∧ l[j]? = some b ∧ p a = true ∧ p b = true
  | [], h => by simp at h
  | x :: l, h => by
    by_cases hx : p x = true
    · rw [List.filter_cons, if_pos hx, List.length_cons] at h
      obtain ⟨b, r, e⟩ := List.exists_cons_of_length_pos (by omega : 0 < (l.filter p).length)
      have hb : b ∈ l.filter p := by rw [e]; simp
      obtain ⟨hb, pb⟩ := List.mem_filter.1 hb
      obtain ⟨j, hj⟩ := List.getElem?_of_mem hb
      exact ⟨0, j + 1, x, b, by omega, rfl, hj, hx, pb⟩
    · rw [List.filter_cons, if_neg hx] at h
      obtain ⟨i, j, a, b, h1, h2, h3, h4, h5⟩ := two_of_filter h
      exact ⟨i + 1, j + 1, a, b, by omega, h2, h3, h4, h5⟩

theorem Link.unique {t : FlatTable} (g : t.Good) {p : Pos} {x y : Id} (h : Link t (.row p) x) (h' : Link t (.row p) y) : x = y := by
  cases h with
  | step a b =>
    cases h' with
    | step => rfl
    | enter e => obtain ⟨_, _, e⟩ := block_before g e; rw [e] at b; cases b
  | enter e =>
    cases h' with
    | step a b => obtain ⟨_, _, e⟩ := block_before g e; rw [e] at b; cases b
    | enter => rfl
  | inside a b =>
    cases h' with
    | inside => rfl
    | close e1 e2 e3 e4 => subst e4; rw [(close_cell g e1 e2).2] at b; cases b
  | close e1 e2 e3 e4 =>
    cases h' with
    | inside a b => subst e4; rw [(close_cell g e1 e2).2] at b; cases b
    | close => rfl

theorem Link.not_stop {t : FlatTable} (g : t.Good) {p : Pos} {x : Id} (h : Link t (.row p) x) {c : Cell} : cell t p ≠ some (c, true) := by
  intro hc
  cases h with
  | step a b => rw [hc] at a; cases a
  | enter e => obtain ⟨_, e, _⟩ := block_before g e; rw [hc] at e; cases e
  | inside a b =>
    obtain ⟨i, n, legs, leg, rfl, rfl, h1, h2, h3, h4⟩ := cell_leg hc
    have : n + 1 = leg.steps.length := by
      have := h4.symm
      simp at this
      exact this.2
    have hn : leg.steps[n + 1]? = none := by rw [List.getElem?_eq_none_iff]; omega
    simp [cell, h1, h2, hn] at b
  | close e1 e2 e3 e4 =>
    subst e4
    obtain ⟨c', hc'⟩ := (close_cell g e1 e2).1
    rw [hc', e3] at hc; cases hc

theorem flat_made {t : FlatTable} (g : t.Good) {d : Diagram} (h : loadCsv t.rows {} = .ok d) : ∃ F, Made t d F := by
  have tb := flat_table g
  obtain ⟨d0, F, d1, d2, s⟩ := stages tb h
  have hu := tableUnder tb
  have named := s.filled.named0
  have nd : F.Nodup := (s.rounds.nodup hu tb.orders s.planted.inv (done := []) named (fun _ h => h) tb.orders).1
  have ways : ∀ p c b, cell t p = some (c, b) → ∃ l, Ways t p l ∧ (∀ q ∈ l, q ∈ F) ∧
      leaving (String.ofList p.order ++ "_split") F = leaving (String.ofList p.order ++ "_split") l := by
    intro p c b hc
    obtain ⟨dr, gw, l, h1, h2, h3, -⟩ := s.plan tb (mem_rows.2 ⟨p, c, b, hc, rfl⟩)
    exact ⟨l, plan_ways g hc h1, h2, h3⟩
  have source : ∀ p x, Link t (.row p) x → ∃ c b, cell t p = some (c, b) := by
    intro p x hl
    cases hl with
    | step a b => exact ⟨_, _, a⟩
    | enter e => obtain ⟨c, e, _⟩ := block_before g e; exact ⟨_, _, e⟩
    | inside a b => obtain ⟨⟨c, b⟩, e⟩ := Option.isSome_iff_exists.1 a; exact ⟨_, _, e⟩
    | close e1 e2 e3 e4 => subst e4; obtain ⟨c', hc'⟩ := (close_cell g e1 e2).1; exact ⟨_, _, hc'⟩
  have fromRow : ∀ p x, Link t (.row p) x → ((Id.row p).name, x.name) ∈ F := by
    intro p x hl
    obtain ⟨c, b, hc⟩ := source p x hl
    obtain ⟨l, hw, h2, -⟩ := ways p c b hc
    cases hw with
    | stop e _ => exact absurd e (hl.not_stop g)
    | one e1 _ e2 => cases hl.unique g e1; exact h2 _ (by rw [e2]; exact List.mem_singleton_self _)
    | first e1 e2 e3 => cases hl.unique g e1; exact h2 _ (by rw [e3]; exact List.mem_cons_of_mem _ (List.mem_singleton_self _))
    | fork e1 e2 e3 => subst e1; cases hl.unique g (Link.enter e2); exact h2 _ (by rw [e3]; exact List.mem_cons_self)
  have fork : ∀ k legs, t.items[k]? = some (.block legs) → (leaving (Id.split k).name F =
      (List.range legs.length).map fun j => flowId (Id.split k).name (Id.row (.leg (k + 1) j 1)).name) ∧
      ∀ j < legs.length, ((Id.split k).name, (Id.row (.leg (k + 1) j 1)).name) ∈ F := by
    intro k legs hk
    obtain ⟨c, hc, _⟩ := block_before g hk
    obtain ⟨l, hw, h2, h3⟩ := ways (.main k) c false hc
    have := Link.enter hk
    cases hw with
    | stop e _ => exact absurd e (this.not_stop g)
    | one e1 e2 e3 => cases this.unique g e1; exact absurd rfl (e2 k)
    | first e1 e2 e3 => have := this.unique g e1; cases this
    | fork e1 e2 e3 =>
      cases e1
      rw [hk] at e2; cases e2
      refine ⟨?_, ?_⟩
      · rw [show (Id.split k).name = String.ofList (Pos.main k).order ++ "_split" from rfl, h3, e3]
        have ne : (Id.row (.main k)).name ≠ String.ofList (Pos.main k).order ++ "_split" := ne_split _
        rw [leaving, List.filter_cons, if_neg (by simpa using ne)]
        rw [List.filter_eq_self.2]
        · rw [List.map_map]; rfl
        · intro q hq
          obtain ⟨j, _, rfl⟩ := List.mem_map.1 hq
          simp [Id.name, Pos.order]
      · intro j hj
        exact h2 _ (by rw [e3]; exact List.mem_cons_of_mem _ (List.mem_map.2 ⟨j, List.mem_range.2 hj, rfl⟩))
  have joinIn : ∀ k legs, t.items[k]? = some (.block legs) → ∃ i j, i < j ∧ j < 26 ∧ ∃ m n, Link t (.row (.leg (k + 1) i m)) (.join (k + 2)) ∧
      Link t (.row (.leg (k + 1) j n)) (.join (k + 2)) := by
    intro k legs hk
    obtain ⟨i, j, a, b, hij, ha, hb, pa, pb⟩ := two_of_filter (g.two legs (List.mem_of_getElem? hk))
    have := g.few legs (List.mem_of_getElem? hk)
    have := (List.getElem?_eq_some_iff.1 hb).1
    exact ⟨i, j, hij, by omega, _, _, Link.close hk ha (by simpa using pa) rfl, Link.close hk hb (by simpa using pb) rfl⟩
  have flows : ∀ q, q ∈ F ↔ ∃ x y, Link t x y ∧ q = (x.name, y.name) := by
    intro q
    constructor
    · intro hq
      obtain ⟨r, hr, dr, gw, l, hP, hl⟩ := s.rounds.origin q hq
      obtain ⟨row, hrow, rfl⟩ := List.mem_map.1 hr
      obtain ⟨p, c, b, hc, rfl⟩ := mem_rows.1 hrow
      exact (plan_ways g hc hP).link hl
    · rintro ⟨x, y, hl, rfl⟩
      cases x with
      | row p => exact fromRow p y hl
      | split k => cases hl with | branch a b => exact (fork _ _ a).2 _ b
      | join k =>
        cases hl with
        | leave a =>
          obtain ⟨i, j, _, _, m, n, h1, _⟩ := joinIn _ _ a
          exact s.join_next tb (s.wired1 _ (fromRow _ _ h1)).tgt
  have gateway : ∀ x ∈ ids d1, x ∉ t.rows.map Row.order → 2 ≤ (entering x F).length ∨ 2 ≤ (leaving x F).length := by
    intro x hx hno
    obtain ⟨_, h2⟩ := s.rounds.alive x hx (by rw [s.planted.ids, keys_dictOf]; exact hno)
    obtain ⟨f, hf⟩ := List.exists_mem_of_ne_nil _ h2
    obtain ⟨y, hy, -⟩ := mem_leaving.1 hf
    obtain ⟨a, b, hl, e⟩ := (flows _).1 hy
    have e1 : x = a.name := congrArg Prod.fst e
    subst e1
    cases a with
    | row p =>
      obtain ⟨c, b', hc⟩ := source p b hl
      exact absurd (List.mem_map.2 ⟨_, mem_rows.2 ⟨p, c, b', hc, rfl⟩, rfl⟩) hno
    | split k =>
      cases hl with
      | @branch k j legs a b =>
        right
        rw [(fork _ _ a).1, List.length_map, List.length_range]
        have := g.two legs (List.mem_of_getElem? a)
        have := List.length_filter_le (fun l : Leg => !l.stops) legs
        omega
    | join k =>
      cases hl with
      | leave a =>
        left
        obtain ⟨i, j, hij, hj, m, n, h1, h2⟩ := joinIn _ _ a
        refine entering_length (l := [_, _]) ?_ (by
          intro y hy
          simp only [List.mem_cons, List.not_mem_nil, or_false] at hy
          rcases hy with rfl | rfl
          · exact fromRow _ _ h1
          · exact fromRow _ _ h2)
        simp only [List.nodup_cons, List.mem_singleton, List.not_mem_nil, not_false_eq_true, List.nodup_nil, and_true]
        intro e
        have := Id.name_inj (h1.small g).1 (h2.small g).1 e
        simp at this
        omega
  have gone := s.no_goto g.plain
  have same : d = d2 := by
    refine s.cleaned.same ?_
    rw [gone]
    intro x hx hk
    rw [legacy_ids] at hx
    rw [legacy_inn, legacy_out, s.inn1, s.out1]
    refine gateway x hx ?_
    intro hm
    obtain ⟨r, hr, rfl⟩ := List.mem_map.1 hm
    have := (s.looks2 tb hr (g.plain r hr)).2.kind
    rw [kindOf_row, gone] at this
    exact row_not_gateway this hk
  have fit := s.fit tb g.plain
  have mute : Mute d := by rw [same, gone]; exact (s.rounds.mute s.planted.mute).legacy
  refine ⟨F, ⟨?_, ?_, nd, flows, fun k legs hk => (fork k legs hk).1, fit.consistent (s.kinds tb), fit.exact.inv, ?_, ?_, mute.default⟩, mute.names⟩
  · intro x; rw [same, gone, legacy_out, s.out1]
  · intro x; rw [same, gone, legacy_inn, s.inn1]
  · intro p c b hc
    have hr := mem_rows.2 ⟨p, c, b, hc, rfl⟩
    exact s.stays tb hr (g.plain _ hr)
  · intro x hx
    rcases s.nodes tb hx with ⟨r, hr, hg, rfl⟩ | ⟨h1, h2⟩
    · obtain ⟨p, c, b, hc, rfl⟩ := mem_rows.1 hr
      exact Or.inl ⟨p, c, b, hc, rfl⟩
    · refine Or.inr ⟨h2, (s.rounds.alive x ?_ (by rw [s.planted.ids, keys_dictOf]; exact h1)).1⟩
      rw [same, gone, legacy_ids] at hx; exact hx

end Bpmn.Csv

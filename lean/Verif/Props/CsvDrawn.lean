import Verif.Props.Workflow
import Verif.Props.Blocks
import Verif.Lemmas.CsvBlocks
import Verif.Lemmas.LayoutBudget
/-!
# Drawing and saving a flat table (C90)
-/
set_option linter.unusedSimpArgs false
set_option linter.unusedVariables false

namespace Bpmn.Csv
open Bpmn.Spec Bpmn.Spec.Csv

theorem longest_legs (d : Diagram) (k : Nat) (legs : List Leg) :
    longest (legs.mapIdx fun j leg => (legIds k j leg).map (nodeAt d)) = longestLeg legs := by
  unfold longest longestLeg
  congr 1
  rw [map_mapIdx_list]
  refine List.ext_getElem (by simp) ?_
  intro i h1 h2
  simp [legIds]

theorem flat_of_drawn {d : Diagram} {P : Node → Int → Int → Prop} {Q : String → Int → Int → Prop} (hq : ∀ n x y, P n x y → Q n.1 x y) :
    ∀ (l : List Item) (k : Nat) (c : Int), Drawn P c (piecesFrom d k l) → FlatDrawn Q (k + 1) c l
  | [], k, c, h => by
    have := hq _ _ _ h.1
    rw [show (nodeAt d (.row (.main (k + 1)))).1 = toString (k + 1) from main_str _] at this
    exact this
  | .step x :: r, k, c, h => by
    have := hq _ _ _ h.1
    rw [show (nodeAt d (.row (.main (k + 1)))).1 = toString (k + 1) from main_str _] at this
    exact ⟨this, flat_of_drawn hq r (k + 1) (c + 1) h.2⟩
  | .block legs :: r, k, c, h => by
    obtain ⟨h1, ⟨ks, hp, hks⟩, h3, h4⟩ := h
    rw [longest_legs] at h3 h4
    have e1 := hq _ _ _ h1
    rw [show (nodeAt d (.split k)).1 = toString k ++ "_split" from split_str _] at e1
    have e3 := hq _ _ _ h3
    rw [show (nodeAt d (.join (k + 2))).1 = toString (k + 2) ++ "_join" from join_str _] at e3
    rw [List.length_mapIdx] at hp hks
    refine ⟨e1, ⟨ks, hp, ?_⟩, e3, flat_of_drawn hq r (k + 1) _ h4⟩
    intro j leg y hj hy m m1 m2
    have := hks.get (i := j)
    obtain ⟨hj', rfl⟩ := List.getElem?_eq_some_iff.1 hj
    obtain ⟨hy', rfl⟩ := List.getElem?_eq_some_iff.1 hy
    have hh := this (by simpa using hj') hy' (m - 1) (nodeAt d (.row (.leg (k + 1) j m))) (by
      simp only [List.get_eq_getElem, List.getElem_mapIdx, legIds, List.map_map]
      rw [List.getElem?_map, List.getElem?_range (by omega)]
      simp only [Option.map_some, Function.comp]
      rw [show m - 1 + 1 = m by omega])
    have h5 := hq _ _ _ hh
    rw [show c + 1 + ((m - 1 : Nat) : Int) = c + m by omega] at h5
    exact h5

end Bpmn.Csv

namespace Bpmn.Props
open Bpmn Spec Layouter Csv Spec.Csv

/-- The node with this id has been put into this column and row: 150 units per column, 100 per row. -/
def IdAt (d : Diagram) (i : String) (x y : Int) : Prop := ∃ n, d.getNodeById i = some n ∧ At n (150 * x + 50) (100 * y + 50)

theorem csv_supported {rows : List Row} (t : Table rows) {d : Diagram} (h : loadCsv rows {} = .ok d) : ∀ n ∈ d.getNodes, Supported n := by
  intro n hn
  have := csv_types t h hn
  simp only [List.mem_cons, List.not_mem_nil, or_false] at this
  rcases this with e | e | e | e | e | e | e <;> exact ⟨_, by decide, e⟩

/-- **C90.** Every flat table without terminated branches can be imported, drawn and saved; the drawing is as expected, and loading the file gives the
drawn diagram. -/
theorem C90_flat_workflow (t : FlatTable) (g : t.Good) (meets : t.Meets) :
    ∃ d d', loadCsv t.rows {} = .ok d ∧ (∃ N, ∀ fuel ≥ N, generateLayout fuel d = .ok d') ∧
      IdAt d' "0" 1 2 ∧ FlatDrawn (IdAt d') 1 2 t.items ∧
      ∃ x N, (∀ fuel ≥ N, Export.exportXmlFile fuel d' = .ok x) ∧
        ∀ ord : List String → List String, (∀ l, (ord l).Perm l) → ∃ e, Import.load ord x.toDom {} = .ok e ∧ SavedAs d' e := by
  obtain ⟨d, h⟩ := flat_ok g
  obtain ⟨F, m⟩ := flat_made g h
  have hb := m.blocks g meets (csv_supported (flat_table g) h)
  obtain ⟨N, hN⟩ := C87_blocks_are_laid_out d m.consistent _ hb
  obtain ⟨d', h1, h2⟩ := hN N (Nat.le_refl _)
  refine ⟨d, d', h, ⟨N, fun fuel hf => ?_⟩, ?_, ?_, C89_saved t.rows (flat_table g) d d' h h1⟩
  · rw [generateLayout_later d hf (by rw [h1]; simp), h1]
  · have := h2.1
    obtain ⟨n, e1, e2⟩ := this
    refine ⟨n, ?_, e2⟩
    rw [← e1]
    congr 1
  · exact flat_of_drawn (P := PutAt d') (fun n x y hp => hp) t.items 0 2 h2.2

/-- A start, a step, a block of three branches, a step, and an end. -/
def meeting : FlatTable :=
  ⟨⟨"ordered", "", "", ""⟩,
   [.step ⟨"check", "", "clerk", ""⟩,
    .block [⟨[⟨"bill", "paid", "", ""⟩, ⟨"pack", "", "", ""⟩], false⟩, ⟨[⟨"refuse", "not paid", "", ""⟩], false⟩, ⟨[⟨"ask", "", "", ""⟩], false⟩],
    .step ⟨"ship", "", "", "yes"⟩],
   ⟨"done", "", "", ""⟩⟩

theorem meeting_good : meeting.Good := by
  refine ⟨?_, ?_, ?_, ?_, ?_⟩
  · intro legs h
    simp [meeting] at h
    subst h; decide
  · intro legs h
    simp [meeting] at h
    subst h; decide
  · intro legs h
    simp [meeting] at h
    subst h; simp
  · intro i legs legs' h h'
    match i with
    | 0 => simp [meeting] at h
    | 1 => simp [meeting] at h'
    | 2 => simp [meeting] at h
    | i + 3 => simp [meeting] at h
  · intro r hr hg
    have : ∀ r ∈ meeting.rows, isGoto r.activity = false := by decide
    rw [← isGoto_iff, this r hr] at hg
    cases hg

theorem meeting_meets : meeting.Meets := by
  intro legs h
  simp [meeting] at h
  subst h; simp

/-- What C90 says about this table: the split is in column 3, the branches begin in column 4, the join is in column 6. -/
example : ∃ d d', loadCsv meeting.rows {} = .ok d ∧ (∃ N, ∀ fuel ≥ N, generateLayout fuel d = .ok d') ∧ IdAt d' "1" 2 2 ∧ IdAt d' "1_split" 3 2 ∧
    (∃ y, IdAt d' "2a1" 4 y ∧ IdAt d' "2a2" 5 y) ∧ IdAt d' "3_join" 6 2 ∧ IdAt d' "3" 7 2 ∧ IdAt d' "4" 8 2 := by
  obtain ⟨d, d', h1, h2, -, h4, -⟩ := C90_flat_workflow meeting meeting_good meeting_meets
  obtain ⟨s1, s2, ⟨ks, kp, hk⟩, s3, s4, s5⟩ := h4
  refine ⟨d, d', h1, h2, s1, s2, ?_, s3, s4, s5⟩
  obtain ⟨y, hy⟩ : ∃ y, ks[0]? = some y := ⟨_, List.getElem?_eq_getElem (by rw [kp.length_eq]; simp)⟩
  exact ⟨_, hk 0 _ y rfl hy 1 (by decide) (by decide), hk 0 _ y rfl hy 2 (by decide) (by decide)⟩

/-- A block with a terminated branch of two steps between two branches of one step. -/
def inTheWay : FlatTable :=
  ⟨⟨"s", "", "", ""⟩,
   [.block [⟨[⟨"a", "", "", ""⟩], false⟩, ⟨[⟨"b", "", "", ""⟩, ⟨"c", "", "", ""⟩], true⟩, ⟨[⟨"d", "", "", ""⟩], false⟩]],
   ⟨"e", "", "", ""⟩⟩

theorem inTheWay_good : inTheWay.Good := by
  refine ⟨?_, ?_, ?_, ?_, ?_⟩
  · intro legs h
    simp [inTheWay] at h
    subst h; decide
  · intro legs h
    simp [inTheWay] at h
    subst h; decide
  · intro legs h
    simp [inTheWay] at h
    subst h; simp
  · intro i legs legs' h h'
    match i with
    | 0 => simp [inTheWay] at h'
    | i + 1 => simp [inTheWay] at h
  · intro r hr hg
    have : ∀ r ∈ inTheWay.rows, isGoto r.activity = false := by decide
    rw [← isGoto_iff, this r hr] at hg
    cases hg

set_option maxRecDepth 8000 in
/-- **C90, limit.** With a terminated branch this can fail: here the join of the outer branches is to be drawn where the second step of the terminated
branch already is, and `generate_layout` raises a `TypeError`. -/
theorem C90_terminated_branch : inTheWay.Good ∧ ∃ d, loadCsv inTheWay.rows {} = .ok d ∧ ∀ fuel ≥ 40, generateLayout fuel d = .error .typeError := by
  refine ⟨inTheWay_good, ?_⟩
  obtain ⟨d, h, hp⟩ := ok_of_check (x := loadCsv inTheWay.rows {}) (fun d => match generateLayout 40 d with | .error .typeError => true | _ => false)
    (by decide +kernel)
  refine ⟨d, h, fun fuel hf => ?_⟩
  have e : generateLayout 40 d = .error .typeError := by
    split at hp
    · rename_i e; exact e
    · cases hp
  rw [generateLayout_later d hf (by rw [e]; simp), e]

end Bpmn.Props

import Verif.Lemmas.CsvGotoAccept
import Verif.Lemmas.CsvKinds
import Verif.Spec.GotoTable
import Verif.Props.CsvAccept
import Verif.Props.CsvGoto
/-!
# Exactly which tables with `goto` rows are imported (C110)
-/
set_option linter.unusedSimpArgs false
set_option linter.unusedVariables false

namespace Bpmn.Props
open Bpmn Spec Csv Spec.Csv

/-! ## What the flows of the rounds are -/

theorem Filled.plan_of {rows : List Row} {d0 d1 : Diagram} {F : List (String × String)} (s : Filled rows d0 F d1) {r : Row} (hr : r ∈ rows) :
    ∃ dr g l, Plan (dictOf rows) (rows.map Row.order) dr r.order g l ∧ ∀ p ∈ l, p ∈ F := by
  obtain ⟨a, b, F1, l, F2, g, e1, e2, h1, h2, h3, h4, h5⟩ := s.rounds.around r.order (List.mem_map_of_mem hr)
  exact ⟨e1, g, l, h3.plan, fun p hp => by rw [h5]; simp [hp]⟩

theorem Filled.goesOn {rows : List Row} (t : Table rows) {d0 d1 : Diagram} {F : List (String × String)} (s : Filled rows d0 F d1) :
    ∀ r ∈ rows, r.terminated ≠ "yes" → GoesOn (rows.map Row.order) r.order := by
  intro r hr ht
  refine s.rounds.goes ?_ r.order (List.mem_map_of_mem hr) _ (get?_dictOf t hr) ht
  intro x hx
  rw [s.planted.ids] at hx
  exact absurd (underscore_join x) (t.under _ hx)

/-- Every flow belongs to the plan of some row, with all the flows of the plan. -/
theorem _root_.Bpmn.Csv.Rounds.whole {pd : Dict String Line} {nodes : List String} {rs : List String} {d d' : Diagram} {F : List (String × String)}
    (h : Rounds pd nodes rs d F d') : ∀ p ∈ F, ∃ r ∈ rs, ∃ dr g l, Plan pd nodes dr r g l ∧ p ∈ l ∧ ∀ q ∈ l, q ∈ F := by
  induction h with
  | nil => simp
  | cons hR _ ih =>
    intro p hp
    rw [List.mem_append] at hp
    rcases hp with hp | hp
    · exact ⟨_, List.mem_cons_self, _, _, _, hR.plan, hp, fun q hq => List.mem_append_left _ hq⟩
    · obtain ⟨r, hr, dr, g, l, h1, h2, h3⟩ := ih p hp
      exact ⟨r, List.mem_cons_of_mem _ hr, dr, g, l, h1, h2, fun q hq => List.mem_append_right _ (h3 q hq)⟩

/-- The order of a row with a number at the end. -/
theorem step_trailing {rows : List Row} (t : Table rows) (hs : ∀ r ∈ rows, ∃ p, StepOf p r.order.toList) {r : Row} (hr : r ∈ rows) {pre : String} {n : Nat}
    (h : trailingNumber r.order = some (pre, n)) : r.order.toList = pre.toList ++ decimal n ∧ BranchPrefix pre.toList := by
  obtain ⟨ds, h1, h2, h3, h4⟩ := trailingNumber_some h
  have en := trailing_ends (t.alnum r hr) h
  have e := StepOf.digits (hs r hr) en h3 h2 h1
  rw [h4] at e
  refine ⟨by rw [h1, ← e], ?_⟩
  obtain ⟨p, hp⟩ := hs r hr
  rcases hp.2 with hp2 | ⟨m, hp2⟩
  · exfalso
    rcases hp.1.ends with hpe | ⟨q, c, hpe, hc⟩
    · rw [hp2, hpe] at h1
      exact h2 (List.append_eq_nil_iff.1 h1.symm).2
    · rw [hp2, hpe] at h1
      rw [e] at h1
      exact not_letter_end hc h1
  · have t1 := trailingNumber_decimal m hp.1.ends
    rw [← order_eq hp2, h] at t1
    simp only [Option.some.injEq, Prod.mk.injEq] at t1
    rw [t1.1, String.toList_ofList]
    exact hp.1

/-- A last step has neither a next step nor a split behind it. -/
theorem lastStep_stops {rows : List Row} {p o : List Char} (hp : BranchPrefix p) (hne : p ≠ []) (h : LastStep rows p o) :
    anyPresent (sequenceSuccessors (String.ofList o)) (rows.map Row.order) = false ∧
    anyPresent (splitCandidates (String.ofList o)) (rows.map Row.order) = false := by
  rcases h with rfl | ⟨m, rfl, h1, h2, h3⟩
  · rcases hp.ends with rfl | ⟨q, c, rfl, hc⟩
    · exact absurd rfl hne
    · rw [sequenceSuccessors_letter q hc, splitCandidates_letter q hc]; simp [anyPresent]
  · obtain ⟨k1, k2⟩ := anyPresent_next (rows := rows) hp m
    constructor
    · cases e : anyPresent (sequenceSuccessors (String.ofList (p ++ decimal m))) (rows.map Row.order) with
      | false => rfl
      | true => exact absurd (k1.1 e) h1
    · cases e : anyPresent (splitCandidates (String.ofList (p ++ decimal m))) (rows.map Row.order) with
      | false => rfl
      | true => rcases k2.1 e with h | h
                · exact absurd h h2
                · exact absurd h h3

theorem stops_lastStep {rows : List Row} {p o : List Char} (ho : StepOf p o)
    (h1 : anyPresent (sequenceSuccessors (String.ofList o)) (rows.map Row.order) = false)
    (h2 : anyPresent (splitCandidates (String.ofList o)) (rows.map Row.order) = false) : LastStep rows p o := by
  rcases ho.2 with rfl | ⟨m, rfl⟩
  · exact Or.inl rfl
  · obtain ⟨k1, k2⟩ := anyPresent_next (rows := rows) ho.1 m
    refine Or.inr ⟨m, rfl, ?_, ?_, ?_⟩
    · intro h; rw [k1.2 h] at h1; cases h1
    · intro h; rw [k2.2 (Or.inl h)] at h2; cases h2
    · intro h; rw [k2.2 (Or.inr h)] at h2; cases h2

theorem lastStep_stepOf {rows : List Row} {p o : List Char} (hp : BranchPrefix p) (h : LastStep rows p o) : StepOf p o := by
  rcases h with h | ⟨m, h, -⟩
  · exact ⟨hp, Or.inl h⟩
  · exact ⟨hp, Or.inr ⟨m, h⟩⟩

/-- The join that the last step of a branch leads to. -/
theorem join_of {rows : List Row} (t : Table rows) {dr : Diagram} {r : Row} (hr : r ∈ rows) {g : Option (String × Option String)} {l : List (String × String)}
    (h : Plan (dictOf rows) (rows.map Row.order) dr r.order g l) (hs : anyPresent (sequenceSuccessors r.order) (rows.map Row.order) = false)
    (hq : anyPresent (splitCandidates r.order) (rows.map Row.order) = false) (ht : r.terminated ≠ "yes") :
    ∃ cs s, mergeSuccessors r.order = .ok cs ∧ onlyPresent cs (rows.map Row.order) = .ok s ∧ (r.order, s ++ "_join") ∈ l := by
  have hk := get?_dictOf t hr
  cases h with
  | stop h1 h2 => rw [hk] at h1; cases h1; exact absurd h2 ht
  | sequence _ _ h3 _ => rw [hs] at h3; cases h3
  | split _ _ _ h4 => rw [hq] at h4; cases h4
  | join _ _ _ _ h5 h6 _ => exact ⟨_, _, h5, h6, by simp⟩
  | newJoin _ _ _ _ h5 h6 _ => exact ⟨_, _, h5, h6, by simp⟩

/-- The candidates of a step. -/
theorem merge_numbers {rows : List Row} {p o : List Char} (ho : StepOf p o) {cs : List String} {s : String} (h1 : mergeSuccessors (String.ofList o) = .ok cs)
    (h2 : onlyPresent cs (rows.map Row.order) = .ok s) :
    ∃ k, NumberIn p k ∧ s = String.ofList (decimal (k + 1)) ∧ HasOrder rows (decimal (k + 1)) ∧ ∀ j, NumberIn p j → HasOrder rows (decimal (j + 1)) → j = k := by
  obtain ⟨l, hl⟩ := ho.1.numbers
  have str : ∀ k, String.ofList (decimal k) = toString k := by intro k; rw [decimal, String.ofList_toList]
  obtain ⟨m1, m2⟩ := onlyPresent_mem h2
  by_cases hp : p = []
  · exfalso
    subst hp
    have : cs = [] := by
      rcases ho.2 with rfl | ⟨n, rfl⟩
      · simpa [mergeSuccessors, trailingNumber, hasInnerLetter] using h1.symm
      · simp only [mergeSuccessors, trailingNumber_decimal n (p := []) (Or.inl rfl)] at h1
        simpa [hasInnerLetter] using h1.symm
    rw [this] at m1; simp at m1
  · have key : mergeSuccessors (String.ofList o) = .ok (l.map fun n => toString (n + 1)) := by
      rcases ho.2 with rfl | ⟨n, rfl⟩
      · exact (mergeSuccessors_branch hl ho.1 hp 0).2
      · exact (mergeSuccessors_branch hl ho.1 hp n).1
    rw [key] at h1
    cases h1
    obtain ⟨k, hk, rfl⟩ := List.mem_map.1 m1
    refine ⟨k, (numberIn_iff hl k).2 hk, (str _).symm, by rw [hasOrder_iff, str]; exact m2, ?_⟩
    intro j hj ho'
    rw [hasOrder_iff, str] at ho'
    have := onlyPresent_unique h2 (List.mem_map.2 ⟨j, (numberIn_iff hl j).1 hj, rfl⟩) ho'
    have : decimal (j + 1) = decimal (k + 1) := congrArg String.toList this
    have := decimal_inj this
    omega

theorem numberIn_ne {p : List Char} {k : Nat} (h : NumberIn p k) : p ≠ [] := by
  obtain ⟨q, c, rest, _, _, _, _, rfl⟩ := h
  simp

theorem main_stepOf (k : Nat) : StepOf [] (decimal k) := ⟨BranchPrefix.nil, Or.inr ⟨k, by simp⟩⟩

section
variable {rows : List Row} (T : GotoTable rows)
include T

theorem _root_.Bpmn.Spec.Csv.GotoTable.stops {g : Row} (hg : g ∈ rows) (hgo : GotoRow g) :
    anyPresent (sequenceSuccessors g.order) (rows.map Row.order) = false ∧ anyPresent (splitCandidates g.order) (rows.map Row.order) = false := by
  obtain ⟨p, h1, h2, h3⟩ := T.last g hg hgo
  have := lastStep_stops h2 h1 h3
  rwa [String.ofList_toList] at this

/-- A row on the main line is no `goto`. -/
theorem _root_.Bpmn.Spec.Csv.GotoTable.main {q : Row} (hq : q ∈ rows) {k : Nat} (h : q.order.toList = decimal k) : ¬GotoRow q := by
  intro hg
  obtain ⟨p, h1, h2, h3⟩ := T.last q hq hg
  have := lastStep_stepOf h2 h3
  rw [h] at this
  exact h1 (stepOf_unique this (main_stepOf k))

theorem _root_.Bpmn.Spec.Csv.GotoTable.main_notGoto {k : Nat} (h : HasOrder rows (decimal k)) : NotGoto (dictOf rows) (String.ofList (decimal k)) := by
  obtain ⟨q, hq, e⟩ := h
  rw [← order_eq e]
  exact notGoto_row T.table hq (T.main hq e)

/-- The words of the rows that are `goto`. -/
theorem _root_.Bpmn.Spec.Csv.GotoTable.word {g : Row} (hg : g ∈ rows) (hgo : GotoRow g) : ∃ q ∈ rows, ¬GotoRow q ∧ pyIndex (words (strip g.activity)) 1 = .ok q.order := by
  obtain ⟨q, h1, h2, h3⟩ := T.target g hg hgo
  exact ⟨q, h1, h2, second_word h3⟩

/-- From row to row a flow goes only to the next number. -/
theorem _root_.Bpmn.Spec.Csv.GotoTable.direct {d0 d1 : Diagram} {F : List (String × String)} (s : Filled rows d0 F d1) {a b : Row} (ha : a ∈ rows) (hb : b ∈ rows)
    (h : (a.order, b.order) ∈ F) : b.order ∈ sequenceSuccessors a.order ∧ a.terminated ≠ "yes" := by
  have hu := tableUnder T.table
  obtain ⟨w, hw, dr', g', l', hP, hl⟩ := s.rounds.origin _ h
  obtain ⟨w, hwr, rfl⟩ := List.mem_map.1 hw
  have ua := hu _ (List.mem_map_of_mem ha)
  have ub := hu _ (List.mem_map_of_mem hb)
  have hk := get?_dictOf T.table hwr
  cases hP with
  | stop => simp at hl
  | sequence h1 h2 _ h4 =>
    simp at hl
    rw [hk] at h1; cases h1
    have : a = w := List.inj_on_of_nodup_map T.table.orders ha hwr hl.1
    subst this
    rw [hl.2]
    exact ⟨(onlyPresent_mem h4).1, h2⟩
  | split =>
    simp at hl
    rcases hl with ⟨_, e⟩ | ⟨_, e⟩
    · exact absurd (e ▸ underscore_split _) ub
    · exact absurd (e ▸ underscore_split _) ua
  | join =>
    simp at hl
    exact absurd (hl.2 ▸ underscore_join _) ub
  | newJoin =>
    simp at hl
    rcases hl with ⟨e, _⟩ | ⟨_, e⟩
    · exact absurd (e ▸ underscore_join _) ua
    · exact absurd (e ▸ underscore_join _) ub

/-- No flow leads from a `goto` to a row. -/
theorem _root_.Bpmn.Spec.Csv.GotoTable.no_direct {d0 d1 : Diagram} {F : List (String × String)} (s : Filled rows d0 F d1) {g b : Row} (hg : g ∈ rows) (hgo : GotoRow g) (hb : b ∈ rows)
    (h : (g.order, b.order) ∈ F) : False := by
  have := (T.direct s hg hb h).1
  have k := (T.stops hg hgo).1
  rw [anyPresent_false] at k
  exact k _ this (List.mem_map_of_mem hb)

theorem _root_.Bpmn.Spec.Csv.GotoTable.into_not {d0 d1 : Diagram} {F : List (String × String)} (s : Filled rows d0 F d1) {g : Row} (hg : g ∈ rows) (hgo : GotoRow g) {x : String}
    (h : (x, g.order) ∈ F) : NotGoto (dictOf rows) x := by
  have hu := tableUnder T.table
  have sh := s.rounds.shape (fun _ h => h) (tableAlnum T.table) _ h
  have gate : '_' ∈ x.toList → NotGoto (dictOf rows) x := notGoto_gateway T.table.under
  rcases sh.cases hu with ⟨h1, h2, h3⟩ | ⟨h1, h2⟩ | ⟨r, h1, h2, h3, h4⟩ | ⟨h1, u, h2, h3, h4⟩ | ⟨h1, h2⟩
  · obtain ⟨r, hr, rfl⟩ := List.mem_map.1 h1
    refine notGoto_row T.table hr fun hrg => T.no_direct s hr hrg hg h
  · exact absurd (h2 ▸ underscore_split _) (hu _ (List.mem_map_of_mem hg))
  · exact gate (h2 ▸ underscore_split _)
  · exact absurd (h3 ▸ underscore_join _) (hu _ (List.mem_map_of_mem hg))
  · exact gate (h2 ▸ underscore_join _)

theorem _root_.Bpmn.Spec.Csv.GotoTable.onward_not {d0 d1 : Diagram} {F : List (String × String)} (s : Filled rows d0 F d1) {g : Row} (hg : g ∈ rows) (hgo : GotoRow g) {y : String}
    (h : (g.order, y) ∈ F) : NotGoto (dictOf rows) y := by
  have hu := tableUnder T.table
  have sh := s.rounds.shape (fun _ h => h) (tableAlnum T.table) _ h
  have gate : '_' ∈ y.toList → NotGoto (dictOf rows) y := notGoto_gateway T.table.under
  rcases sh.cases hu with ⟨h1, h2, h3⟩ | ⟨h1, h2⟩ | ⟨r, h1, h2, h3, h4⟩ | ⟨h1, u, h2, h3, h4⟩ | ⟨h1, h2⟩
  · obtain ⟨r, hr, rfl⟩ := List.mem_map.1 h2
    exact (T.no_direct s hg hgo hr h).elim
  · exact gate (h2 ▸ underscore_split _)
  · exact absurd (h2 ▸ underscore_split _) (hu _ (List.mem_map_of_mem hg))
  · exact gate (h3 ▸ underscore_join _)
  · exact absurd (h2 ▸ underscore_join _) (hu _ (List.mem_map_of_mem hg))

/-- The last step of a branch leads to the join before the row that it returns to. -/
theorem _root_.Bpmn.Spec.Csv.GotoTable.join_in {d0 d1 : Diagram} {F : List (String × String)} (s : Filled rows d0 F d1) {y : Row} (hy : y ∈ rows) (ht : y.terminated ≠ "yes")
    {u : List Char} (h : ReturnsTo rows y.order.toList u) : (y.order, String.ofList u ++ "_join") ∈ F := by
  obtain ⟨p, k, h1, h2, h3, h4, rfl, h6⟩ := h
  have st := lastStep_stops h1 (numberIn_ne h3) h2
  rw [String.ofList_toList] at st
  obtain ⟨dr, g, l, hP, hF⟩ := Filled.plan_of s hy
  obtain ⟨cs, u, k1, k2, k3⟩ := join_of T.table hy hP st.1 st.2 ht
  obtain ⟨j, j1, j2, j3, j4⟩ := merge_numbers (lastStep_stepOf h1 h2) (by rw [String.ofList_toList]; exact k1) k2
  have : k = j := j4 k h3 h6
  subst this
  rw [← j2]
  exact hF _ k3

/-- What leads to a join. -/
theorem _root_.Bpmn.Spec.Csv.GotoTable.join_from {d0 d1 : Diagram} {F : List (String × String)} (s : Filled rows d0 F d1) {x u : String} (h : (x, u ++ "_join") ∈ F) :
    ∃ y ∈ rows, x = y.order ∧ y.terminated ≠ "yes" ∧ ReturnsTo rows y.order.toList u.toList := by
  have hu := tableUnder T.table
  obtain ⟨w, hw, dr', g', l', hP, hl⟩ := s.rounds.origin _ h
  obtain ⟨w, hwr, rfl⟩ := List.mem_map.1 hw
  have hk := get?_dictOf T.table hwr
  have fin : ∀ {k : Line} {cs : List String} {v : String}, (dictOf rows).get? w.order = some k → k.terminated ≠ "yes" →
      anyPresent (sequenceSuccessors w.order) (rows.map Row.order) = false → anyPresent (splitCandidates w.order) (rows.map Row.order) = false →
      mergeSuccessors w.order = .ok cs → onlyPresent cs (rows.map Row.order) = .ok v → w.terminated ≠ "yes" ∧ ReturnsTo rows w.order.toList v.toList := by
    intro k cs v h1 h2 h3 h4 h5 h6
    rw [hk] at h1; cases h1
    obtain ⟨p, hp⟩ := T.steps w hwr
    have ls := stops_lastStep (rows := rows) hp (by rw [String.ofList_toList]; exact h3) (by rw [String.ofList_toList]; exact h4)
    obtain ⟨j, j1, rfl, j3, j4⟩ := merge_numbers hp (by rw [String.ofList_toList]; exact h5) h6
    refine ⟨h2, p, j, hp.1, ls, j1, ?_, by rw [String.toList_ofList], by rw [String.toList_ofList]; exact j3⟩
    cases j with
    | zero =>
      exfalso
      have gs := Filled.goesOn T.table s w hwr h2
      rw [← String.ofList_toList (s := w.order), goesOn_iff hp] at gs
      cases gs with
      | @next q n hq e hh =>
        have st := anyPresent_next (rows := rows) hq n
        rw [← e, String.ofList_toList] at st
        rcases hh with hh | hh
        · rw [st.1.2 hh] at h3; cases h3
        · rw [st.2.2 hh] at h4; cases h4
      | @back q k hq a1 a2 a3 a4 =>
        cases stepOf_unique hp hq
        have := j4 k a1 a3
        omega
    | succ j => omega
  cases hP with
  | stop => simp at hl
  | sequence _ _ _ h4 =>
    simp at hl
    exact absurd (hl.2 ▸ underscore_join _) (hu _ (onlyPresent_mem h4).2)
  | split _ _ _ _ _ h6 =>
    simp at hl
    rcases hl with ⟨_, e⟩ | ⟨hm, _⟩
    · exact absurd e.symm (split_ne_join _ _)
    · exact absurd (underscore_join _) (hu _ (nextRow_split h6 hm).1)
  | join h1 h2 h3 h4 h5 h6 =>
    simp only [List.mem_singleton, Prod.mk.injEq] at hl
    have := join_inj hl.2; subst this
    exact ⟨w, hwr, hl.1, fin h1 h2 h3 h4 h5 h6⟩
  | newJoin h1 h2 h3 h4 h5 h6 =>
    simp only [List.mem_cons, List.not_mem_nil, or_false, Prod.mk.injEq] at hl
    rcases hl with ⟨_, e⟩ | ⟨e1, e⟩
    · exact absurd (e ▸ underscore_join _) (hu _ (onlyPresent_mem h6).2)
    · have := join_inj e; subst this
      exact ⟨w, hwr, e1, fin h1 h2 h3 h4 h5 h6⟩

/-- What leads to a `goto`. -/
theorem _root_.Bpmn.Spec.Csv.GotoTable.before {d0 d1 : Diagram} {F : List (String × String)} (s : Filled rows d0 F d1) {g : Row} (hg : g ∈ rows) (hgo : GotoRow g) {x : String}
    (h : (x, g.order) ∈ F) : ∃ w ∈ rows, w.terminated ≠ "yes" ∧ ComesAfter rows w.order.toList g.order.toList := by
  have hu := tableUnder T.table
  have ug := hu _ (List.mem_map_of_mem hg)
  obtain ⟨w, hw, dr', g', l', hP, hl⟩ := s.rounds.origin _ h
  obtain ⟨w, hwr, rfl⟩ := List.mem_map.1 hw
  have hk := get?_dictOf T.table hwr
  refine ⟨w, hwr, ?_⟩
  cases hP with
  | stop => simp at hl
  | sequence h1 h2 _ h4 =>
    simp at hl
    rw [hk] at h1; cases h1
    refine ⟨h2, ?_⟩
    have hss := (onlyPresent_mem h4).1
    rw [← hl.2] at hss
    unfold sequenceSuccessors at hss
    cases htw : trailingNumber w.order with
    | none => rw [htw] at hss; simp at hss
    | some a =>
      obtain ⟨pre, m⟩ := a
      rw [htw, List.mem_singleton] at hss
      obtain ⟨e1, e2⟩ := step_trailing T.table T.steps hwr htw
      refine ComesAfter.next e2 e1 ?_
      rw [hss, String.toList_append]; rfl
  | split h1 h2 h3 h4 _ h6 =>
    simp at hl
    rw [hk] at h1; cases h1
    refine ⟨h2, ?_⟩
    rcases hl with ⟨_, e⟩ | ⟨hm, _⟩
    · exact absurd (e ▸ underscore_split _) ug
    · unfold splitSuccessors at h6
      cases htw : trailingNumber w.order with
      | none => rw [htw] at h6; cases h6
      | some a =>
        obtain ⟨pre, m⟩ := a
        rw [htw] at h6; cases h6
        obtain ⟨e1, e2⟩ := step_trailing T.table T.steps hwr htw
        have st := anyPresent_next (rows := rows) e2 m
        rw [← order_eq e1] at st
        have hm := (List.mem_filter.1 hm).2
        rw [← String.ofList_toList (s := pre), append_toString] at hm
        refine ComesAfter.branch e2 e1 ?_ (st.2.1 h4) ((matchesSplit_start T.table hg).1 hm)
        intro hh
        rw [st.1.2 hh] at h3; cases h3
  | join =>
    simp at hl
    exact absurd (hl.2 ▸ underscore_join _) ug
  | newJoin h1 h2 h3 h4 h5 h6 =>
    exfalso
    simp only [List.mem_cons, List.not_mem_nil, or_false, Prod.mk.injEq] at hl
    rcases hl with ⟨_, e⟩ | ⟨_, e⟩
    · obtain ⟨p, hp⟩ := T.steps w hwr
      obtain ⟨j, j1, j2, j3, j4⟩ := merge_numbers hp (by rw [String.ofList_toList]; exact h5) h6
      rw [← e] at j2
      exact T.main hg (k := j + 1) (by rw [j2, String.toList_ofList]) hgo
    · exact absurd (e ▸ underscore_join _) ug

/-- What comes directly after a row is led to. -/
theorem _root_.Bpmn.Spec.Csv.GotoTable.follow {d0 d1 : Diagram} {F : List (String × String)} (s : Filled rows d0 F d1) {w g : Row} (hw : w ∈ rows) (hg : g ∈ rows)
    (ht : w.terminated ≠ "yes") (h : ComesAfter rows w.order.toList g.order.toList) : ∃ x, (x, g.order) ∈ F := by
  obtain ⟨dr, gg, l, hP, hF⟩ := Filled.plan_of s hw
  cases h with
  | next h1 h2 h3 =>
    have := hP.of_sequence T.table hw h1.ends h2 ht ⟨g, hg, h3⟩
    subst this
    rw [← order_eq h3] at hF
    exact ⟨_, hF _ List.mem_cons_self⟩
  | branch h1 h2 h3 h4 h5 =>
    obtain ⟨ty, rfl, hty, rfl⟩ := hP.of_split T.table hw h1.ends h2 ht h3 h4
    exact ⟨_, hF _ (List.mem_cons_of_mem _ (List.mem_map.2 ⟨g, List.mem_filter.2 ⟨hg, (matchesSplit_start T.table hg).2 h5⟩, rfl⟩))⟩

/-- The row before a split. -/
theorem _root_.Bpmn.Spec.Csv.GotoTable.split_from {d0 d1 : Diagram} {F : List (String × String)} (s : Filled rows d0 F d1) {k : String} (h : k ++ "_split" ∈ ids d1) :
    ∃ r ∈ rows, r.order = k ∧ ¬GotoRow r ∧ (k, k ++ "_split") ∈ F ∧ ∃ o b, b ∈ rows ∧ BranchStart o b.order.toList ∧
      ∀ c ∈ rows, BranchStart o c.order.toList → (k ++ "_split", c.order) ∈ F := by
  have hu := tableUnder T.table
  obtain ⟨h1, ⟨l, h2, h3⟩, h4, h5⟩ := s.rounds.split_origin k h (by
    rw [s.planted.ids]; exact fun hm => T.table.under _ hm (underscore_split _))
  obtain ⟨r, hr, rfl⟩ := List.mem_map.1 h1
  have hng : ¬GotoRow r := by
    intro hgo
    rw [(T.stops hr hgo).2] at h5; cases h5
  rw [get?_dictOf T.table hr] at h2; cases h2
  obtain ⟨p, hp⟩ := T.steps r hr
  obtain ⟨m, hm⟩ : ∃ m, r.order.toList = p ++ decimal m := by
    rcases hp.2 with e | e
    · exfalso
      rcases hp.1.ends with e2 | ⟨q, c, e2, hc⟩
      · rw [order_eq e, e2] at h5
        revert h5; simp [splitCandidates, trailingNumber, anyPresent]
      · rw [order_eq e, e2, splitCandidates_letter q hc] at h5
        simp [anyPresent] at h5
    · exact e
  have st := anyPresent_next (rows := rows) hp.1 m
  rw [← order_eq hm] at st
  have hn : ¬HasOrder rows (p ++ decimal (m + 1)) := by
    intro hh; rw [st.1.2 hh] at h4; cases h4
  have hb := st.2.1 h5
  obtain ⟨dr, gg, ll, hP, hF⟩ := Filled.plan_of s hr
  obtain ⟨ty, rfl, hty, rfl⟩ := hP.of_split T.table hr hp.1.ends hm h3 hn hb
  refine ⟨r, hr, rfl, hng, hF _ List.mem_cons_self, p ++ decimal (m + 1), ?_⟩
  have key : ∃ b ∈ rows, BranchStart (p ++ decimal (m + 1)) b.order.toList := by
    rcases hb with ⟨b, hb, e⟩ | ⟨b, hb, e⟩
    · exact ⟨b, hb, 'a', [], by rw [e], by decide, by simp⟩
    · exact ⟨b, hb, 'a', ['1'], by rw [e], by decide, by simp⟩
  obtain ⟨b, hb1, hb2⟩ := key
  refine ⟨b, hb1, hb2, fun c hc hcb => hF _ (List.mem_cons_of_mem _ (List.mem_map.2 ⟨c, List.mem_filter.2 ⟨hc, (matchesSplit_start T.table hc).2 hcb⟩, rfl⟩))⟩

/-- A join is met by some row. -/
theorem _root_.Bpmn.Spec.Csv.GotoTable.join_met {d0 d1 : Diagram} {F : List (String × String)} (s : Filled rows d0 F d1) {u : String} (h : u ++ "_join" ∈ ids d1) :
    (u ++ "_join", u) ∈ F ∧ ∃ y ∈ rows, y.terminated ≠ "yes" ∧ ReturnsTo rows y.order.toList u.toList := by
  have hu := tableUnder T.table
  have h1 := s.rounds.join_next hu s.planted.inv s.named0 (fun _ h => h) u h (by
    rw [s.planted.ids]; exact fun hm => T.table.under _ hm (underscore_join _))
  refine ⟨h1, ?_⟩
  obtain ⟨w, hw, dr, g, l, hP, hl, hF⟩ := s.rounds.whole _ h1
  have : (w, u ++ "_join") ∈ l := by
    have hwu := hu _ hw
    cases hP with
    | stop => simp at hl
    | sequence _ _ _ h4 =>
      simp at hl
      exact absurd (hl.1 ▸ underscore_join _) hwu
    | split _ _ _ _ _ h6 =>
      simp at hl
      rcases hl with ⟨e, _⟩ | ⟨_, e⟩
      · exact absurd (e ▸ underscore_join _) hwu
      · exact (split_ne_join w u e).elim
    | join =>
      simp at hl
      exact absurd (hl.1 ▸ underscore_join _) hwu
    | newJoin _ _ _ _ _ h6 =>
      simp only [List.mem_cons, List.not_mem_nil, or_false, Prod.mk.injEq] at hl
      rcases hl with ⟨e, e2⟩ | ⟨e, _⟩
      · subst e2; simp
      · exact absurd (e ▸ underscore_join _) hwu
  obtain ⟨y, hy, -, h3, h4⟩ := T.join_from s (hF _ this)
  exact ⟨y, hy, h3, h4⟩

/-- With the three conditions, the rounds leave a diagram that the rest of the import can finish. -/
theorem _root_.Bpmn.Spec.Csv.GotoTable.loopable
    (hb : ∀ g ∈ rows, GotoRow g → ∃ x ∈ rows, x.terminated ≠ "yes" ∧ ComesAfter rows x.order.toList g.order.toList)
    (hc : ∀ g ∈ rows, GotoRow g → ∀ u, ReturnsTo rows g.order.toList u →
      ∃ y ∈ rows, ¬GotoRow y ∧ y.terminated ≠ "yes" ∧ ReturnsTo rows y.order.toList u)
    {d0 d1 : Diagram} {F : List (String × String)} (s : Filled rows d0 F d1) : Loopable rows F d1 := by
  have hu := tableUnder T.table
  obtain ⟨i1, g1, n1, w1⟩ := s.rounds.step hu s.planted.inv s.named0 (fun _ h => h)
  refine ⟨?_, ?_, ?_, ?_, ?_⟩
  · intro g hg hgo
    obtain ⟨x, hx, ht, hf⟩ := hb g hg hgo
    exact ⟨T.follow s hx hg ht hf, fun x h => T.into_not s hg hgo h⟩
  · intro g hg hgo
    refine ⟨?_, fun y h => T.onward_not s hg hgo h⟩
    have := s.row_out T.table hg
    rw [if_neg (T.open' g hg hgo), s.out] at this
    obtain ⟨f, hf⟩ := List.exists_mem_of_length_pos (l := leaving g.order F) (by omega)
    obtain ⟨y, hy, -⟩ := mem_leaving.1 hf
    exact ⟨y, hy⟩
  · intro g hg hgo
    obtain ⟨q, hq, hqn, hw⟩ := T.word hg hgo
    exact ⟨q.order, hw, List.mem_map_of_mem hq, notGoto_row T.table hq hqn⟩
  · intro n hn hnr
    rcases n1 n hn with h | ⟨k, hk, rfl⟩ | ⟨u, hu2, rfl⟩
    · exact absurd h hnr
    · obtain ⟨r, hr, rfl, hng, hF, -⟩ := T.split_from s hn
      exact ⟨_, List.mem_map_of_mem hr, notGoto_row T.table hr hng, hF⟩
    · obtain ⟨h1, y, hy, ht, hR⟩ := T.join_met s hn
      by_cases hgo : GotoRow y
      · obtain ⟨z, hz, hzn, hzt, hzR⟩ := hc y hy hgo _ hR
        have := T.join_in s hz hzt hzR
        rw [String.ofList_toList] at this
        exact ⟨_, List.mem_map_of_mem hz, notGoto_row T.table hz hzn, this⟩
      · have := T.join_in s hy ht hR
        rw [String.ofList_toList] at this
        exact ⟨_, List.mem_map_of_mem hy, notGoto_row T.table hy hgo, this⟩
  · intro n hn hnr
    rcases n1 n hn with h | ⟨k, hk, rfl⟩ | ⟨u, hu2, rfl⟩
    · exact absurd h hnr
    · obtain ⟨r, hr, rfl, hng, hF, o, b, hb1, hb2, hall⟩ := T.split_from s hn
      by_cases hbg : GotoRow b
      · obtain ⟨c, hc1, hc2, hc3⟩ := T.company b hb1 hbg o hb2
        by_cases hcg : GotoRow c
        · left
          have m1 : flowId (r.order ++ "_split") b.order ∈ leaving (r.order ++ "_split") F := mem_leaving.2 ⟨_, hall b hb1 hb2, rfl⟩
          have m2 : flowId (r.order ++ "_split") c.order ∈ leaving (r.order ++ "_split") F := mem_leaving.2 ⟨_, hall c hc1 hc3, rfl⟩
          have pk := plain_split (hu _ (List.mem_map_of_mem (f := Row.order) hr))
          generalize leaving (r.order ++ "_split") F = l at m1 m2
          match l, m1, m2 with
          | [a], m1, m2 =>
            simp only [List.mem_singleton] at m1 m2
            have := (flowId_inj pk pk (m1.trans m2.symm)).2
            exact absurd (List.inj_on_of_nodup_map T.table.orders hb1 hc1 this).symm hc2
          | _ :: _ :: _, _, _ => simp
        · exact Or.inr ⟨_, List.mem_map_of_mem hc1, notGoto_row T.table hc1 hcg, hall c hc1 hc3⟩
      · exact Or.inr ⟨_, List.mem_map_of_mem hb1, notGoto_row T.table hb1 hbg, hall b hb1 hb2⟩
    · obtain ⟨h1, y, hy, ht, p, k, _, _, _, _, e, hs⟩ := T.join_met s hn
      refine Or.inr ⟨u, hu2, ?_, h1⟩
      have := T.main_notGoto (e ▸ hs)
      rwa [← e, String.ofList_toList] at this

/-- **C110.** A table with `goto` rows, each at the end of a branch that is not alone at its split and naming a row that is not a `goto`, is imported exactly if
every row without the mark of an end has a row after it, every `goto` comes directly after a row without that mark, and wherever a branch with a
`goto` at its end comes back to the main line, another row that is neither a `goto` nor marked as an end comes back too. Otherwise the import raises. -/
theorem C110_exactly : (∃ d, loadCsv rows {} = .ok d) ↔
    (∀ r ∈ rows, r.terminated ≠ "yes" → Continues rows r.order.toList) ∧
    (∀ g ∈ rows, GotoRow g → ∃ x ∈ rows, x.terminated ≠ "yes" ∧ ComesAfter rows x.order.toList g.order.toList) ∧
    (∀ g ∈ rows, GotoRow g → ∀ u, ReturnsTo rows g.order.toList u →
      ∃ y ∈ rows, ¬GotoRow y ∧ y.terminated ≠ "yes" ∧ ReturnsTo rows y.order.toList u) := by
  constructor
  · rintro ⟨d, h⟩
    obtain ⟨d0, F, d1, d2, s⟩ := stages T.table h
    have sf := s.filled
    have goto : ∀ o l, (o, l) ∈ dictOf rows → isGoto l.activity = true → ∃ r ∈ rows, GotoRow r ∧ o = r.order ∧ l.activity = r.activity := by
      intro o l hm hg
      obtain ⟨r, hr, rfl, rfl⟩ := mem_dictOf_iff hm
      exact ⟨r, hr, (isGoto_iff r).1 hg, rfl, rfl⟩
    have nd : ((dictOf rows).map (·.1)).Nodup := by
      have := T.table.orders
      rw [← keys_dictOf] at this
      exact this
    have tgt : ∀ o l, (o, l) ∈ dictOf rows → isGoto l.activity = true → ∀ t, pyIndex (words (strip l.activity)) 1 = .ok t →
        NotGoto (dictOf rows) t ∧ t ∈ rows.map Row.order := by
      intro o l hm hg t ht
      obtain ⟨r, hr, hgr, rfl, e⟩ := goto o l hm hg
      obtain ⟨q, hq, hqn, hw⟩ := T.word hr hgr
      rw [e, hw] at ht
      cases ht
      exact ⟨notGoto_row T.table hq hqn, List.mem_map_of_mem hq⟩
    refine ⟨?_, ?_, ?_⟩
    · intro r hr hx
      obtain ⟨p, hp⟩ := T.steps r hr
      rw [← goesOn_iff hp, String.ofList_toList]
      exact s.goes T.table r hr hx
    · intro g hg hgo
      have := s.gotos.entered s.inv1.legacy nd (fun o l hm hg t ht => (tgt o l hm hg t ht).1) g.order _ (mem_dictOf hg) ((isGoto_iff g).2 hgo)
      rw [legacy_inn, s.inn1] at this
      obtain ⟨f, hf⟩ := List.exists_mem_of_ne_nil _ this
      obtain ⟨x, hx, -⟩ := mem_entering.1 hf
      exact T.before sf hg hgo hx
    · intro g hg hgo u hR
      by_contra hno
      have hall : ∀ x, (x, String.ofList u ++ "_join") ∈ F → ∃ y ∈ rows, x = y.order ∧ GotoRow y := by
        intro x hx
        obtain ⟨y, hy, e, ht, hyR⟩ := T.join_from sf hx
        rw [String.toList_ofList] at hyR
        refine ⟨y, hy, e, ?_⟩
        by_contra hyg
        exact hno ⟨y, hy, hyg, ht, hyR⟩
      have hin := T.join_in sf hg (T.open' g hg hgo) hR
      have hu := tableUnder T.table
      have x1 := (sf.exact T.table).1
      have wj := s.wired1 _ hin
      have hj : String.ofList u ++ "_join" ∈ ids d1 := wj.tgt
      have us := underscore_join (String.ofList u)
      have ngj : NotGoto (dictOf rows) (String.ofList u ++ "_join") := notGoto_gateway T.table.under us
      have nr : String.ofList u ++ "_join" ∉ rows.map Row.order := fun hm => hu _ hm us
      have outg : ∀ y ∈ rows, GotoRow y → (y.order, String.ofList u ++ "_join") ∈ F → outOf d1 y.order = [flowId y.order (String.ofList u ++ "_join")] := by
        intro y hy hyg hyF
        have hl := sf.row_out T.table hy
        rw [if_neg (T.open' y hy hyg)] at hl
        have hm : flowId y.order (String.ofList u ++ "_join") ∈ outOf d1 y.order := (s.wired1 _ hyF).out
        match e : outOf d1 y.order, hl, hm with
        | [a], _, hm => rw [List.mem_singleton] at hm; rw [hm]
      have dead := s.gotos.dead s.inv1.legacy nd (String.ofList u ++ "_join")
        (fun o l hm hg t ht => ⟨(tgt o l hm hg t ht).1, fun e => nr (e ▸ (tgt o l hm hg t ht).2)⟩) ngj
        (by
          intro o l hm hgl x px hx
          obtain ⟨r, hr, hgr, rfl, -⟩ := goto o l hm hgl
          rw [legacy_inn] at hx
          exact T.into_not sf hr hgr ((sf.exact T.table).2 _ _ px (x1.backIn _ _ px hx)))
        (by
          intro o l hm hgl y hy
          obtain ⟨r, hr, hgr, rfl, -⟩ := goto o l hm hgl
          rw [legacy_out] at hy
          exact T.onward_not sf hr hgr ((sf.exact T.table).2 _ _ (plain_of_no_underscore (hu _ (List.mem_map_of_mem hr))) (x1.back _ _ hy)))
        (by rw [legacy_inn]; exact x1.inNd _)
        (by
          intro f hf
          rw [legacy_inn, s.inn1] at hf
          obtain ⟨x, hx, rfl⟩ := mem_entering.1 hf
          obtain ⟨y, hy, rfl, hyg⟩ := hall x hx
          exact ⟨_, _, mem_dictOf hy, (isGoto_iff y).2 hyg, rfl, by rw [legacy_out]; exact outg y hy hyg hx⟩)
      have hj2 : String.ofList u ++ "_join" ∈ ids d2 := s.keep2.stays _ (by rw [legacy_ids]; exact hj) ngj
      have gj : GatewayKind d2 (String.ofList u ++ "_join") := by
        have := (s.typed1 _ hj).resolve_left nr
        unfold GatewayKind at this ⊢
        rwa [legacy_bare_kind (s.keep2.bare _ ngj)]
      refine s.cleaned.dead hj2 gj dead ?_
      rw [s.keep2.outLength _ ngj, legacy_out, s.out1]
      have hn := x1.outNd (String.ofList u ++ "_join")
      rw [s.out1] at hn
      have only : ∀ f ∈ leaving (String.ofList u ++ "_join") F, f = flowId (String.ofList u ++ "_join") (String.ofList u) := by
        intro f hf
        obtain ⟨y, hy, rfl⟩ := mem_leaving.1 hf
        have sh := sf.rounds.shape (fun _ h => h) (tableAlnum T.table) _ hy
        rcases sh.cases hu with ⟨h1, -⟩ | ⟨h1, -⟩ | ⟨r, h1, h2, -⟩ | ⟨h1, -⟩ | ⟨h1, h2⟩
        · exact absurd h1 nr
        · exact absurd h1 nr
        · exact absurd h2.symm (split_ne_join _ _)
        · exact absurd h1 nr
        · rw [join_inj h2]
      match e : leaving (String.ofList u ++ "_join") F, hn, only with
      | [], _, _ => simp
      | [_], _, _ => simp
      | a :: b :: _, hn, only =>
        exfalso
        have ea := only a (by simp)
        have eb := only b (by simp)
        rw [ea, eb] at hn
        simp at hn
  · rintro ⟨ha, hb, hc⟩
    refine goto_load_ok T.table ?_ fun d0 F d1 s => T.loopable hb hc s
    intro r hr hx
    obtain ⟨p, hp⟩ := T.steps r hr
    rw [← String.ofList_toList (s := r.order), goesOn_iff hp]
    exact ha r hr hx

end

/-- What the import needs of every `goto` of any table. -/
theorem goto_needs {rows : List Row} (t : Table rows) {d : Diagram} (h : loadCsv rows {} = .ok d) {g : Row} (hg : g ∈ rows) (hgo : GotoRow g) :
    g.terminated ≠ "yes" ∧ ∃ w, pyIndex (words (strip g.activity)) 1 = .ok w ∧ w ≠ g.order ∧ (('_' ∉ w.toList) → ∃ q ∈ rows, q.order = w) := by
  obtain ⟨d0, F, d1, d2, s⟩ := stages t h
  have nd : ((dictOf rows).map (·.1)).Nodup := by
    have := t.orders
    rw [← keys_dictOf] at this
    exact this
  obtain ⟨h1, w, h2, h3, h4⟩ := s.gotos.cuts s.inv1.legacy nd g.order _ (mem_dictOf hg) ((isGoto_iff g).2 hgo)
  constructor
  · intro ht
    have := s.filled.row_out t hg
    rw [if_pos ht] at this
    rw [legacy_out] at h1
    exact h1 (List.length_eq_zero_iff.1 this)
  · refine ⟨w, h2, h4, fun hw => ?_⟩
    rw [legacy_ids] at h3
    rcases s.named1 w h3 with h | ⟨r, _, rfl⟩ | ⟨r, _, rfl⟩
    · obtain ⟨q, hq, e⟩ := List.mem_map.1 h
      exact ⟨q, hq, e⟩
    · exact absurd (underscore_split _) hw
    · exact absurd (underscore_join _) hw

/-- **C110, marked as an end.** A table with a `goto` row that is marked as an end is never imported. -/
theorem C110_terminated (rows : List Row) (t : Table rows) (g : Row) (hg : g ∈ rows) (hgo : GotoRow g) (ht : g.terminated = "yes") :
    ∀ d, loadCsv rows {} ≠ .ok d :=
  fun _ h => (goto_needs t h hg hgo).1 ht

/-- **C110, unknown target.** Neither is a table with a `goto` row that names itself, or a text without underscore that is the order of no row. -/
theorem C110_target (rows : List Row) (t : Table rows) (g : Row) (hg : g ∈ rows) (hgo : GotoRow g) (w : String) (hw : GoesTo g w)
    (h : w = g.order ∨ '_' ∉ w.toList ∧ ∀ q ∈ rows, q.order ≠ w) : ∀ d, loadCsv rows {} ≠ .ok d := by
  intro d hd
  obtain ⟨-, v, h1, h2, h3⟩ := goto_needs t hd hg hgo
  rw [second_word hw] at h1
  cases h1
  rcases h with h | ⟨ha, hb⟩
  · exact h2 h
  · obtain ⟨q, hq, e⟩ := h3 ha
    exact hb q hq e

/-- **C110, one word.** Neither is a table with a row whose activity begins with the four letters and has no white space. -/
theorem C110_one_word (rows : List Row) (t : Table rows) (g : Row) (hg : g ∈ rows) (hgo : GotoRow g) (h : ∀ c ∈ g.activity.toList, ¬White c) :
    ∀ d, loadCsv rows {} ≠ .ok d := by
  intro d hd
  obtain ⟨-, v, h1, -⟩ := goto_needs t hd hg hgo
  have := wordsFrom_word (fun x hx => white_false (h x hx)) [] []
  rw [words_strip, words, ← List.append_nil g.activity.toList, this] at h1
  rw [wordsFrom] at h1
  split at h1 <;> simp [pyIndex] at h1

/-! ## The hypotheses hold -/

theorem no_branchStart {a : List Char} {x : Char} (h1 : x ≠ '1') (h2 : x.isAlpha = false) (o : List Char) : ¬BranchStart o (a ++ [x]) := by
  rintro ⟨c, ones, e, hc, ho⟩
  rcases List.eq_nil_or_concat ones with rfl | ⟨l, y, rfl⟩
  · have := (List.append_inj' e (by simp)).2
    simp at this
    rw [this, hc] at h2; cases h2
  · have e2 : a ++ [x] = (o ++ c :: l) ++ [y] := by rw [e]; simp
    have := (List.append_inj' e2 (by simp)).2
    simp at this
    exact h1 (this ▸ ho y (by simp))

theorem goto_gotoTable : GotoTable gotoTable := by
  have b3 : ∀ c, 'a' ≤ c → c ≤ 'z' → BranchPrefix (decimal 3 ++ [c]) := fun c h1 h2 => by
    have := BranchPrefix.step 3 BranchPrefix.nil h1 h2; simpa using this
  have two : ∀ g ∈ gotoTable, GotoRow g → g = Row.mk "3a" "goto  1 again" "no" "" "" "" ∨ g = Row.mk "3b2" "GoTo 2" "" "" "" "" := by
    intro g hg hgo
    simp only [gotoTable, List.mem_cons, List.not_mem_nil, or_false] at hg
    rcases hg with rfl | rfl | rfl | rfl | rfl | rfl | rfl | rfl
    all_goals first | exact Or.inl rfl | exact Or.inr rfl | exact absurd hgo (goto_no (by decide))
  refine ⟨goto_table, goto_steps, ?_, ?_, ?_, ?_⟩
  · intro g hg hgo
    rcases two g hg hgo with rfl | rfl <;> decide
  · intro g hg hgo
    rcases two g hg hgo with rfl | rfl
    · exact ⟨_, by simp, b3 'a' (by decide) (by decide), Or.inl (by decide)⟩
    · refine ⟨_, by simp, b3 'b' (by decide) (by decide), Or.inr ⟨2, by decide, ?_⟩⟩
      simp only [hasOrder_iff]; decide
  · intro g hg hgo
    rcases two g hg hgo with rfl | rfl
    · refine ⟨Row.mk "1" "write" "" "author" "" "", by decide, goto_no (by decide), "goto".toList, "  ".toList, " again".toList, by decide, by decide, ?_, by decide, ?_, by decide, ?_, ?_⟩
      all_goals simp [White]
    · refine ⟨Row.mk "2" "check" "" "editor" "" "", by decide, goto_no (by decide), "GoTo".toList, " ".toList, [], by decide, by decide, ?_, by decide, ?_, by decide, ?_, ?_⟩
      all_goals simp [White]
  · intro g hg hgo o hb
    rcases two g hg hgo with rfl | rfl
    · obtain ⟨c, ones, e, hc, ho⟩ := hb
      have c1 : c ≠ '1' := by rintro rfl; cases hc
      have e0 : ['3'] ++ 'a' :: [] = o ++ c :: ones := e
      obtain ⟨rfl, -, -⟩ := ones_split (by decide) c1 (by simp) ho e0
      exact ⟨Row.mk "3c" "print" "late" "" "" "", by decide, by decide, 'c', [], by decide, by decide, by simp⟩
    · exact absurd hb (no_branchStart (a := ['3', 'b']) (x := '2') (by decide) (by decide) o)

set_option maxRecDepth 8000 in
/-- The draft that is sent back: a table of this kind, imported, so all three conditions hold of it. -/
example : GotoTable gotoTable ∧ (∃ d, loadCsv gotoTable {} = .ok d) ∧
    ∀ r ∈ gotoTable, r.terminated ≠ "yes" → Continues gotoTable r.order.toList := by
  obtain ⟨d, hd, -⟩ := ok_of_check (x := loadCsv gotoTable {}) (fun _ => true) (by decide +kernel)
  exact ⟨goto_gotoTable, ⟨d, hd⟩, ((C110_exactly goto_gotoTable).1 ⟨d, hd⟩).1⟩

/-- One branch goes back to the first step, the other one ends. -/
def lostTable : List Row :=
  [Row.mk "0" "asked" "" "" "" "", Row.mk "1" "write" "" "author" "" "", Row.mk "2a" "goto 1" "no" "" "" "", Row.mk "2b" "stop" "yes" "" "" "yes",
   Row.mk "3" "done" "" "" "" "yes"]

theorem lost_branch (c : Char) (h1 : 'a' ≤ c) (h2 : c ≤ 'z') : BranchPrefix (decimal 2 ++ [c]) := by
  have := BranchPrefix.step 2 BranchPrefix.nil h1 h2; simpa using this

theorem lost_number (c : Char) (h1 : 'a' ≤ c) (h2 : c ≤ 'z') : Numbers (decimal 2 ++ [c]) [2] := by
  have := Numbers.cons (c := c) 2 h1 h2 Numbers.nil; simpa using this

theorem lost_gotoTable : GotoTable lostTable := by
  have one : ∀ g ∈ lostTable, GotoRow g → g = Row.mk "2a" "goto 1" "no" "" "" "" := by
    intro g hg hgo
    simp only [lostTable, List.mem_cons, List.not_mem_nil, or_false] at hg
    rcases hg with rfl | rfl | rfl | rfl | rfl
    all_goals first | rfl | exact absurd hgo (goto_no (by decide))
  refine ⟨⟨by decide, by decide⟩, ?_, ?_, ?_, ?_, ?_⟩
  · intro r hr
    simp only [lostTable, List.mem_cons, List.not_mem_nil, or_false] at hr
    rcases hr with rfl | rfl | rfl | rfl | rfl
    · exact ⟨[], BranchPrefix.nil, Or.inr ⟨0, by decide⟩⟩
    · exact ⟨[], BranchPrefix.nil, Or.inr ⟨1, by decide⟩⟩
    · exact ⟨_, lost_branch 'a' (by decide) (by decide), Or.inl (by decide)⟩
    · exact ⟨_, lost_branch 'b' (by decide) (by decide), Or.inl (by decide)⟩
    · exact ⟨[], BranchPrefix.nil, Or.inr ⟨3, by decide⟩⟩
  · intro g hg hgo
    rw [one g hg hgo]; decide
  · intro g hg hgo
    rw [one g hg hgo]
    exact ⟨_, by simp, lost_branch 'a' (by decide) (by decide), Or.inl (by decide)⟩
  · intro g hg hgo
    rw [one g hg hgo]
    refine ⟨Row.mk "1" "write" "" "author" "" "", by decide, goto_no (by decide), "goto".toList, " ".toList, [], by decide, by decide, ?_, by decide, ?_, by decide, ?_, ?_⟩
    all_goals simp [White]
  · intro g hg hgo o hb
    rw [one g hg hgo] at hb ⊢
    obtain ⟨c, ones, e, hc, ho⟩ := hb
    have c1 : c ≠ '1' := by rintro rfl; cases hc
    have e0 : ['2'] ++ 'a' :: [] = o ++ c :: ones := e
    obtain ⟨rfl, -, -⟩ := ones_split (by decide) c1 (by simp) ho e0
    exact ⟨Row.mk "2b" "stop" "yes" "" "" "yes", by decide, by decide, 'b', [], by decide, by decide, by simp⟩

/-- A table of this kind where only the third condition fails: nothing comes back to row 3 but the `goto`, so the import raises. -/
example : GotoTable lostTable ∧ (∀ r ∈ lostTable, r.terminated ≠ "yes" → Continues lostTable r.order.toList) ∧
    (∀ g ∈ lostTable, GotoRow g → ∃ x ∈ lostTable, x.terminated ≠ "yes" ∧ ComesAfter lostTable x.order.toList g.order.toList) ∧
    ¬∃ d, loadCsv lostTable {} = .ok d := by
  have hasA : HasOrder lostTable ([] ++ decimal (1 + 1) ++ ['a']) := by rw [hasOrder_iff]; decide
  refine ⟨lost_gotoTable, ?_, ?_, ?_⟩
  · intro r hr ht
    simp only [lostTable, List.mem_cons, List.not_mem_nil, or_false] at hr
    rcases hr with rfl | rfl | rfl | rfl | rfl
    · exact Continues.next BranchPrefix.nil (n := 0) (by decide) (Or.inl (by rw [hasOrder_iff]; decide))
    · exact Continues.next BranchPrefix.nil (n := 1) (by decide) (Or.inr (Or.inl hasA))
    · refine Continues.back (p := decimal 2 ++ ['a']) (k := 2) ⟨lost_branch 'a' (by decide) (by decide), Or.inl (by decide)⟩ ?_ (by decide) ?_ ?_
      · rw [numberIn_iff (lost_number 'a' (by decide) (by decide))]; simp
      · rw [hasOrder_iff]; decide
      · intro j hj _
        rw [numberIn_iff (lost_number 'a' (by decide) (by decide))] at hj
        simpa using hj
    · exact absurd rfl ht
    · exact absurd rfl ht
  · intro g hg hgo
    refine ⟨Row.mk "1" "write" "" "author" "" "", by decide, by decide, ComesAfter.branch BranchPrefix.nil (n := 1) (by decide) ?_ (Or.inl hasA) ?_⟩
    · rw [hasOrder_iff]; decide
    · simp only [lostTable, List.mem_cons, List.not_mem_nil, or_false] at hg
      rcases hg with rfl | rfl | rfl | rfl | rfl
      all_goals first
        | exact absurd hgo (goto_no (by decide))
        | exact ⟨'a', [], by decide, by decide, by simp⟩
  · intro h
    have := ((C110_exactly lost_gotoTable).1 h).2.2 (Row.mk "2a" "goto 1" "no" "" "" "") (by decide)
      ⟨'g', 'o', 't', 'o', " 1".toList, rfl, by simp⟩ (decimal 3)
      ⟨decimal 2 ++ ['a'], 2, lost_branch 'a' (by decide) (by decide), Or.inl (by decide),
        (numberIn_iff (lost_number 'a' (by decide) (by decide)) 2).2 (by simp), by decide, rfl, by rw [hasOrder_iff]; decide⟩
    obtain ⟨y, hy, hyg, hyt, p, k, hp, hl, hk, -⟩ := this
    simp only [lostTable, List.mem_cons, List.not_mem_nil, or_false] at hy
    have ne := numberIn_ne hk
    have so := lastStep_stepOf hp hl
    rcases hy with rfl | rfl | rfl | rfl | rfl
    · exact ne (stepOf_unique so (main_stepOf 0))
    · exact ne (stepOf_unique so (main_stepOf 1))
    · exact hyg ⟨'g', 'o', 't', 'o', " 1".toList, rfl, by simp⟩
    · exact hyt rfl
    · exact hyt rfl

/-- A table with a task called "Gotomarket", one with a `goto` to nowhere, one with a `goto` marked as an end. -/
example :
    (∀ d, loadCsv [Row.mk "0" "asked" "" "" "" "", Row.mk "1" "Gotomarket" "" "" "" "", Row.mk "2" "done" "" "" "" "yes"] {} ≠ .ok d) ∧
    (∀ d, loadCsv [Row.mk "0" "asked" "" "" "" "", Row.mk "1" "goto 7" "" "" "" "", Row.mk "2" "done" "" "" "" "yes"] {} ≠ .ok d) ∧
    (∀ d, loadCsv [Row.mk "0" "asked" "" "" "" "", Row.mk "1" "goto 0" "" "" "" "yes"] {} ≠ .ok d) := by
  refine ⟨C110_one_word _ ⟨by decide, by decide⟩ (Row.mk "1" "Gotomarket" "" "" "" "") (by decide) ⟨'G', 'o', 't', 'o', "market".toList, rfl, by simp⟩ ?_,
    C110_target _ ⟨by decide, by decide⟩ (Row.mk "1" "goto 7" "" "" "" "") (by decide) ⟨'g', 'o', 't', 'o', " 7".toList, rfl, by simp⟩ "7"
      ⟨"goto".toList, " ".toList, [], by decide, by decide, ?_, by decide, ?_, by decide, ?_, ?_⟩ (Or.inr ⟨by decide, by decide⟩),
    C110_terminated _ ⟨by decide, by decide⟩ (Row.mk "1" "goto 0" "" "" "" "yes") (by decide) ⟨'g', 'o', 't', 'o', " 0".toList, rfl, by simp⟩ rfl⟩
  all_goals simp [White]

end Bpmn.Props

import Verif.Lemmas.GridPlan
import Verif.Lemmas.CsvSteps
/-! # The order in which nodes are placed on the grid, without any assumption about the diagram -/
set_option linter.unusedSimpArgs false
set_option linter.unusedVariables false

namespace Bpmn.Layouter
open Bpmn.Spec Bpmn.Classify
variable {d : Diagram}

theorem foldl_max_mem (l : List Int) (a : Int) : l.foldl max a = a ∨ l.foldl max a ∈ l := by
  induction l generalizing a with
  | nil => exact .inl rfl
  | cons x l ih =>
    simp only [List.foldl_cons, List.mem_cons]
    rcases ih (max a x) with h | h
    · rw [h]
      by_cases c : a ≤ x
      · exact .inr (.inl (by omega))
      · exact .inl (by omega)
    · exact .inr (.inr h)

theorem le_foldl_max (l : List Int) (a : Int) : a ≤ l.foldl max a ∧ ∀ x ∈ l, x ≤ l.foldl max a := by
  induction l generalizing a with
  | nil => simp
  | cons y l ih =>
    obtain ⟨h1, h2⟩ := ih (max a y)
    simp only [List.foldl_cons, List.mem_cons, forall_eq_or_imp]
    exact ⟨by omega, by omega, h2⟩

theorem endsOf_of {get : String → Py String} {l ids : List String} (h : endsOf get l = .ok ids) : ∀ s, s ∈ ids ↔ ∃ i ∈ l, get i = .ok s := by
  induction l generalizing ids with
  | nil => cases h; simp
  | cons i l ih =>
    rw [endsOf] at h
    cases hi : get i with
    | error e => rw [hi] at h; cases h
    | ok s =>
      rw [hi] at h
      simp only [bind, Except.bind] at h
      cases hl : endsOf get l with
      | error e => rw [hl] at h; cases h
      | ok ss =>
        rw [hl] at h
        cases h
        intro t
        simp only [List.mem_cons, ih hl, exists_eq_or_imp, hi, Except.ok.injEq]
        constructor
        · rintro (h | h)
          · exact .inl h.symm
          · exact .inr h
        · rintro (h | h)
          · exact .inl h.symm
          · exact .inr h

/-- The column in which a node is placed: the first one, or the one right of a predecessor; a join is right of all predecessors which have a place. -/
theorem placeSelf_col {x : NC} {p : Place} {enf : Option Int} {r} (h : placeSelf d x p enf = .ok r) (hc : p.lastCol = 1) :
    ∃ row col, r.1.grid = p.grid ++ [⟨row, col, x.id⟩] ∧ r.1.rest = p.rest ∧ r.1.lastCol = 1 ∧
      (col = 1 ∨ ∃ pc ∈ p.grid, ∃ i ∈ x.ins, flowSource d i = .ok pc.nodeId ∧ col = pc.col + 1) ∧
      ("Join" ∈ x.labels → ∀ pc ∈ p.grid, ∀ i ∈ x.ins, flowSource d i = .ok pc.nodeId → pc.col + 1 ≤ col) := by
  unfold placeSelf at h
  split at h
  · rename_i h0
    cases hi : insertIntoGrid p.grid (truthyOr enf p.lastRow) p.lastCol x.id with
    | error e => rw [hi] at h; cases h
    | ok g =>
      rw [hi] at h
      cases h
      obtain ⟨h1, rfl⟩ := insert_ok hi
      refine ⟨_, _, rfl, rfl, hc, .inl hc, fun _ _ _ i hi => ?_⟩
      rw [List.length_eq_zero_iff.1 h0] at hi
      simp at hi
  · rename_i h0
    split at h
    · rename_i hj
      cases hx : x.ins with
      | nil => simp [hx] at h0
      | cons i l =>
        rw [hx] at h
        simp only [pyIndex, List.getElem?_cons_zero, bind, Except.bind] at h
        cases hs : flowSource d i with
        | error e => rw [hs] at h; cases h
        | ok s =>
          rw [hs] at h
          simp only at h
          cases hf : p.grid.find? (fun c => c.nodeId == s) with
          | none => rw [hf] at h; cases h
          | some c =>
            rw [hf] at h
            simp only at h
            cases hi : insertIntoGrid p.grid (enf.getD c.row) (c.col + 1) x.id with
            | error e => rw [hi] at h; cases h
            | ok g =>
              rw [hi] at h
              cases h
              obtain ⟨h1, rfl⟩ := insert_ok hi
              have e : c.nodeId = s := by simpa using List.find?_some hf
              exact ⟨_, _, rfl, rfl, hc, .inr ⟨c, List.mem_of_find?_eq_some hf, i, by simp, by rw [hs, e], rfl⟩, fun k => absurd k hj⟩
    · rename_i hj
      cases he : endsOf (flowSource d) x.ins with
      | error e => rw [he] at h; cases h
      | ok ids =>
        rw [he] at h
        simp only [bind, Except.bind] at h
        cases hi : insertIntoGrid p.grid (truthyOr enf (Int.fdiv (predStats ids p.grid 0 0).1 ids.length)) ((predStats ids p.grid 0 0).2 + 1) x.id with
        | error e => rw [hi] at h; cases h
        | ok g =>
          rw [hi] at h
          cases h
          obtain ⟨h1, rfl⟩ := insert_ok hi
          refine ⟨_, _, rfl, rfl, hc, ?_, ?_⟩
          · rw [predStats_eq]
            simp only
            rcases foldl_max_mem ((p.grid.filter fun c => decide (c.nodeId ∈ ids)).map (·.col)) 0 with k | k
            · left; rw [k]; rfl
            · right
              obtain ⟨pc, h2, h3⟩ := List.mem_map.1 k
              obtain ⟨h4, h5⟩ := List.mem_filter.1 h2
              obtain ⟨i, h6, h7⟩ := (endsOf_of he _).1 (by simpa using h5)
              exact ⟨pc, h4, i, h6, h7, by rw [← h3]⟩
          · intro _ pc hpc i hi hs
            rw [predStats_eq]
            simp only
            have := (le_foldl_max ((p.grid.filter fun c => decide (c.nodeId ∈ ids)).map (·.col)) 0).2 pc.col
              (List.mem_map.2 ⟨pc, List.mem_filter.2 ⟨hpc, by simpa using (endsOf_of he _).2 ⟨i, hi, hs⟩⟩, rfl⟩)
            omega

theorem place_inv {all : List NC} (Q : List Cell → Prop) (T : List Cell → NC → Prop)
    (succ : ∀ x ∈ all, "Split" ∈ x.labels → ∀ ids, endsOf (flowTarget d) x.outs = .ok ids → ∀ s ∈ all, s.id ∈ ids → ∀ g, T g s)
    (step : ∀ x ∈ all, ∀ p enf r, Q p.grid → p.lastCol = 1 → T p.grid x → placeSelf d x p enf = .ok r → Q r.1.grid)
    (fuel : Nat) {x : NC} {p : Place} {enf : Option Int} {r} (hx : x ∈ all) (hr : p.rest.Sublist all) (hQ : Q p.grid) (hc : p.lastCol = 1) (hT : T p.grid x)
    (h : placeElement d fuel x p enf = .ok r) : Q r.grid ∧ r.lastCol = 1 ∧ r.rest.Sublist p.rest ∧
      (r.grid.map (·.nodeId) ++ r.rest.map (·.id)).Perm (p.grid.map (·.nodeId) ++ x.id :: p.rest.map (·.id)) := by
  induction fuel generalizing x p enf r with
  | zero => cases h
  | succ fuel ih =>
    rw [placeElement] at h
    cases hs : placeSelf d x p enf with
    | error e => rw [hs] at h; cases h
    | ok q =>
      rw [hs] at h
      simp only [bind, Except.bind] at h
      have hQ' := step x hx p enf q hQ hc hT hs
      obtain ⟨row, col, g1, g2, g3, -⟩ := placeSelf_col hs hc
      have perm0 : (q.1.grid.map (·.nodeId) ++ q.1.rest.map (·.id)).Perm (p.grid.map (·.nodeId) ++ x.id :: p.rest.map (·.id)) := by
        rw [g1, g2]; simp
      split at h
      · rename_i hsp
        cases he : endsOf (flowTarget d) x.outs with
        | error e => rw [he] at h; cases h
        | ok ids =>
          rw [he] at h
          simp only at h
          have hr' : q.1.rest.Sublist all := by rw [g2]; exact hr
          have succs : ∀ s ∈ (q.1.rest.filter fun y => decide (y.id ∈ ids)), s ∈ all ∧ ∀ g, T g s :=
            fun s hs => ⟨hr'.subset (List.mem_of_mem_filter hs), succ x hx hsp ids he s (hr'.subset (List.mem_of_mem_filter hs)) (by simpa using (List.mem_filter.1 hs).2)⟩
          revert h
          generalize (q.1.rest.filter fun y => decide (y.id ∈ ids)) = ss at succs
          generalize schedule ids.length q.2 = sch
          obtain ⟨p', row⟩ := q
          simp only at hQ' hr' g3 perm0
          have sub0 : p'.rest.Sublist p.rest := by
            simp only at g2
            rw [g2]
          clear hs g1 g2
          intro h
          simp only at h
          induction sch generalizing p' with
          | nil => cases h; exact ⟨hQ', g3, sub0, perm0⟩
          | cons t ts ihs =>
            obtain ⟨k, row'⟩ := t
            rw [placeSuccessors] at h
            simp only [pyIndex] at h
            cases hk : ss[k]? with
            | none => rw [hk] at h; cases h
            | some s =>
              rw [hk] at h
              simp only [bind, Except.bind] at h
              cases hp : placeElement d fuel s p' (some row') with
              | error e => rw [hp] at h; cases h
              | ok p'' =>
                rw [hp] at h
                simp only at h
                obtain ⟨m1, m2⟩ := succs s (List.mem_of_getElem? hk)
                obtain ⟨h1, h2, h3, h4⟩ := ih m1 hr' hQ' g3 (m2 _) hp
                cases hrm : pyRemove p''.rest s with
                | error e => rw [hrm] at h; cases h
                | ok rest =>
                  rw [hrm] at h
                  obtain ⟨k1, rfl⟩ := Csv.pyRemove_ok hrm
                  have sb : (p''.rest.erase s).Sublist p'.rest := (List.erase_sublist).trans h3
                  refine ihs { p'' with rest := p''.rest.erase s } h1 h2 ?_ (sb.trans hr') (sb.trans sub0) h
                  refine List.Perm.trans ?_ perm0
                  have e1 : (p''.rest.map (·.id)).Perm (s.id :: (p''.rest.erase s).map (·.id)) := (List.perm_cons_erase k1).map (·.id)
                  have e2 := (List.Perm.append_left (p''.grid.map (·.nodeId)) e1).symm.trans h4
                  have e3 := List.perm_middle.symm.trans (e2.trans List.perm_middle)
                  exact (List.perm_cons _).1 e3
      · cases h; exact ⟨hQ', g3, by rw [g2], perm0⟩

theorem loop_inv {all : List NC} (Q : List Cell → Prop) (T : List Cell → NC → Prop)
    (succ : ∀ x ∈ all, "Split" ∈ x.labels → ∀ ids, endsOf (flowTarget d) x.outs = .ok ids → ∀ s ∈ all, s.id ∈ ids → ∀ g, T g s)
    (step : ∀ x ∈ all, ∀ p enf r, Q p.grid → p.lastCol = 1 → T p.grid x → placeSelf d x p enf = .ok r → Q r.1.grid)
    (turn : ∀ g x rest, (x :: rest).Sublist all → (g.map Cell.nodeId ++ (x :: rest).map NC.id).Perm (all.map NC.id) → T g x)
    (fuel n : Nat) {p : Place} {g} (hr : p.rest.Sublist all) (hQ : Q p.grid) (hc : p.lastCol = 1) (hp : (p.grid.map (·.nodeId) ++ p.rest.map (·.id)).Perm (all.map (·.id)))
    (h : gridLoop d fuel n p = .ok g) : Q g ∧ (g.map (·.nodeId)).Perm (all.map (·.id)) := by
  induction n generalizing p with
  | zero => cases h
  | succ n ih =>
    rw [gridLoop] at h
    split at h
    · rename_i e
      cases h
      rw [e] at hp
      exact ⟨hQ, by simpa using hp⟩
    · rename_i x rest e
      cases hq : placeElement d fuel x { p with rest := rest } none with
      | error e => rw [hq] at h; cases h
      | ok p' =>
        rw [hq] at h
        rw [e] at hr hp
        obtain ⟨h1, h2, h3, h4⟩ := place_inv Q T succ step fuel (hr.subset (by simp)) (p := { p with rest := rest }) ((List.sublist_cons_self _ _).trans hr) hQ hc
          (turn _ _ _ hr hp) hq
        exact ih (h3.trans ((List.sublist_cons_self _ _).trans hr)) h1 h2 (h4.trans hp) h

/-- What the columns of the cells are. -/
def ColumnsOf (d : Diagram) (all : List NC) (T : List Cell → NC → Prop) (g : List Cell) : Prop :=
  ∀ pre c post, g = pre ++ c :: post → ∃ x ∈ all, x.id = c.nodeId ∧ T pre x ∧
    (c.col = 1 ∨ ∃ pc ∈ pre, ∃ i ∈ x.ins, flowSource d i = .ok pc.nodeId ∧ c.col = pc.col + 1) ∧
    ("Join" ∈ x.labels → ∀ pc ∈ pre, ∀ i ∈ x.ins, flowSource d i = .ok pc.nodeId → pc.col + 1 ≤ c.col)

/-- The node is a branch of a split, or all nodes that come before it in the order have their places. -/
def HasTurn (d : Diagram) (all : List NC) (g : List Cell) (x : NC) : Prop :=
  (∃ y ∈ all, "Split" ∈ y.labels ∧ ∃ i ∈ y.outs, flowTarget d i = .ok x.id) ∨ ∀ a, Before (all.map (·.id)) a x.id → a ∈ g.map (·.nodeId)

theorem grid_columns {fuel : Nat} {all : List NC} {g} (hn : (all.map (·.id)).Nodup) (h : gridLayout fuel d all = .ok g) :
    ColumnsOf d all (HasTurn d all) g ∧ (g.map (·.nodeId)).Perm (all.map (·.id)) := by
  refine loop_inv (all := all) (ColumnsOf d all (HasTurn d all)) (HasTurn d all) ?_ ?_ ?_ fuel fuel (p := ⟨[], gridColumnWidth, 1, all⟩) (List.Sublist.refl _) ?_ rfl (by simp) h
  · intro x hx hs ids he s _ hi g
    obtain ⟨i, h1, h2⟩ := (endsOf_of he _).1 hi
    exact .inl ⟨x, hx, hs, i, h1, h2⟩
  · intro x hx p enf r hQ hc hT hs
    obtain ⟨row, col, h1, -, -, h2, h3⟩ := placeSelf_col hs hc
    rw [h1]
    intro pre c post e
    rcases List.append_eq_append_iff.1 e with ⟨as, e1, e2⟩ | ⟨bs, e1, e2⟩
    · cases as with
      | nil =>
        simp only [List.append_nil] at e1
        simp only [List.nil_append, List.cons.injEq] at e2
        obtain ⟨rfl, -⟩ := e2
        subst e1
        exact ⟨x, hx, rfl, hT, h2, h3⟩
      | cons a as =>
        have := congrArg List.length e2
        simp at this
    · cases bs with
      | nil =>
        simp only [List.append_nil] at e1
        simp only [List.nil_append, List.cons.injEq] at e2
        obtain ⟨rfl, -⟩ := e2
        rw [e1] at hT h2 h3
        exact ⟨x, hx, rfl, hT, h2, h3⟩
      | cons b bs =>
        simp only [List.cons_append, List.cons.injEq] at e2
        obtain ⟨rfl, e2⟩ := e2
        exact hQ pre c bs e1
  · intro g x rest hs hp
    right
    intro a ha
    obtain ⟨pre, post, e, hm⟩ := id ha
    have : a ∈ g.map (·.nodeId) ++ (x :: rest).map (·.id) := hp.mem_iff.2 (by rw [e]; simp [hm])
    rcases List.mem_append.1 this with k | k
    · exact k
    · exfalso
      rw [List.map_cons, List.mem_cons] at k
      rcases k with rfl | k
      · exact not_before_self hn ha
      · refine not_before_sublist hn ?_ ha
        have s1 : ([x.id, a] : List String).Sublist ((x :: rest).map (·.id)) := by
          rw [List.map_cons]
          exact (List.singleton_sublist.2 k).cons_cons _
        exact s1.trans (hs.map _)
  · intro pre c post e
    simp at e

end Bpmn.Layouter

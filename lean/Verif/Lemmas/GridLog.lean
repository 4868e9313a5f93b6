import Verif.Lemmas.GridPlan
/-!
In which order `generate_layout` places the nodes, for arbitrary diagrams.
-/
set_option linter.unusedSimpArgs false
set_option linter.unusedVariables false

namespace Bpmn.Layouter
open Bpmn Spec Classify

variable {d : Diagram}

/-- The targets of the flows that leave a split. -/
def targetsOf (d : Diagram) (y : NC) : List String :=
  if "Split" ∈ y.labels then
    match endsOf (flowTarget d) y.outs with
    | .ok ids => ids
    | .error _ => []
  else []

/-- The same for the node with an id. -/
def targetsAt (d : Diagram) (all : List NC) (i : String) : List String :=
  match all.find? (fun y => y.id == i) with
  | some y => targetsOf d y
  | none => []

theorem targetsAt_id {all : List NC} (hids : (all.map (·.id)).Nodup) {y : NC} (hy : y ∈ all) : targetsAt d all y.id = targetsOf d y := by
  unfold targetsAt
  cases hf : all.find? (fun z => z.id == y.id) with
  | none =>
    have := List.find?_eq_none.1 hf y hy
    simp at this
  | some z =>
    have h1 := List.mem_of_find?_eq_some hf
    have h2 : z.id = y.id := by simpa using List.find?_some hf
    rw [List.inj_on_of_nodup_map hids h1 hy h2]

theorem before_append_left {l m : List String} {a b : String} (h : Before l a b) : Before (l ++ m) a b := by
  obtain ⟨pre, post, e, hp⟩ := h
  exact ⟨pre, post ++ m, by rw [e]; simp, hp⟩

theorem before_append_right {l m : List String} {a b : String} (h : Before m a b) : Before (l ++ m) a b := by
  obtain ⟨pre, post, e, hp⟩ := h
  exact ⟨l ++ pre, post, by rw [e]; simp, by simp [hp]⟩

/-- What was done when one node was placed, with everything behind it: the nodes `L`. -/
structure Log (d : Diagram) (all : List NC) (x : NC) (p p' : Place) (L : List String) : Prop where
  grid : p'.grid.map (·.nodeId) = p.grid.map (·.nodeId) ++ x.id :: L
  rest : (p.rest.map (·.id)).Perm (p'.rest.map (·.id) ++ L)
  sub : p'.rest ⊆ p.rest
  tails : L.Perm ((x.id :: L).flatMap (targetsAt d all))
  after : ∀ y ∈ all, y.id ∈ x.id :: L → ∀ t ∈ targetsOf d y, Before (x.id :: L) y.id t

/-- What was done when several nodes `ss` were placed. -/
structure Logs (d : Diagram) (all : List NC) (ss : List NC) (p p' : Place) (L : List String) : Prop where
  grid : p'.grid.map (·.nodeId) = p.grid.map (·.nodeId) ++ L
  rest : (p.rest.map (·.id)).Perm (p'.rest.map (·.id) ++ L)
  sub : p'.rest ⊆ p.rest
  tails : L.Perm (ss.map (·.id) ++ L.flatMap (targetsAt d all))
  after : ∀ y ∈ all, y.id ∈ L → ∀ t ∈ targetsOf d y, Before L y.id t

theorem placeSuccessors_log {all : List NC} (hids : (all.map (·.id)).Nodup) {rec : NC → Place → Option Int → Py Place}
    (hrec : ∀ x ∈ all, ∀ p enf p', p.rest ⊆ all → (p.rest.map (·.id)).Nodup → rec x p enf = .ok p' → ∃ L, Log d all x p p' L) {succs : List NC} (hs : succs ⊆ all) :
    ∀ (l : List (Nat × Int)) {p p' : Place}, p.rest ⊆ all → (p.rest.map (·.id)).Nodup → placeSuccessors rec succs l p = .ok p' →
      ∃ ss L, l.map (fun kr => succs[kr.1]?) = ss.map some ∧ Logs d all ss p p' L := by
  intro l
  induction l with
  | nil =>
    intro p p' _ _ h
    cases h
    exact ⟨[], [], rfl, ⟨by simp, by simp, fun _ h => h, by simp, by simp⟩⟩
  | cons kr l ih =>
    obtain ⟨k, r⟩ := kr
    intro p p' hsub hnd h
    rw [placeSuccessors] at h
    simp only [pyIndex] at h
    cases hk : succs[k]? with
    | none => rw [hk] at h; cases h
    | some s =>
      rw [hk] at h
      simp only [bind, Except.bind] at h
      cases hp : rec s p (some r) with
      | error e => rw [hp] at h; cases h
      | ok p1 =>
        rw [hp] at h
        simp only at h
        obtain ⟨L1, G⟩ := hrec s (hs (List.mem_of_getElem? hk)) p _ p1 hsub hnd hp
        cases hrm : pyRemove p1.rest s with
        | error e => rw [hrm] at h; cases h
        | ok rest =>
          rw [hrm] at h
          have hin : s ∈ p1.rest ∧ rest = p1.rest.erase s := by
            unfold pyRemove at hrm
            split at hrm
            · rename_i hin
              cases hrm
              exact ⟨hin, rfl⟩
            · cases hrm
          obtain ⟨hin, rfl⟩ := hin
          obtain ⟨ss, L2, e2, G2⟩ := ih (p := { p1 with rest := p1.rest.erase s }) (fun y hy => hsub (G.sub (List.erase_subset hy)))
            (((List.erase_sublist).map _).nodup (List.nodup_append.1 (G.rest.nodup_iff.1 hnd)).1) h
          refine ⟨s :: ss, s.id :: L1 ++ L2, ?_, ?_, ?_, ?_, ?_, ?_⟩
          · simp only [List.map_cons, hk, e2]
          · rw [G2.grid]
            simp only
            rw [G.grid]
            simp
          · have h1 : (p1.rest.map (·.id)).Perm (s.id :: (p1.rest.erase s).map (·.id)) := (List.perm_cons_erase hin).map (·.id)
            have h2 := G2.rest
            simp only at h2
            calc (p.rest.map (·.id)).Perm (p1.rest.map (·.id) ++ L1) := G.rest
              List.Perm _ (s.id :: (p1.rest.erase s).map (·.id) ++ L1) := h1.append_right _
              List.Perm _ (s.id :: (p'.rest.map (·.id) ++ L2) ++ L1) := by
                rw [List.cons_append, List.cons_append]
                exact (h2.append_right _).cons _
              List.Perm _ (p'.rest.map (·.id) ++ (s.id :: L1 ++ L2)) := by
                rw [List.perm_iff_count]
                intro a
                simp only [List.count_append, List.count_cons, List.cons_append]
                omega
          · exact fun y hy => G.sub (List.erase_subset (G2.sub hy))
          · have a1 := G.tails
            have a2 := G2.tails
            rw [List.perm_iff_count] at a1 a2 ⊢
            intro a
            have b1 := a1 a
            have b2 := a2 a
            simp only [List.flatMap_cons, List.flatMap_append, List.count_append, List.count_cons, List.cons_append, List.map_cons] at b1 b2 ⊢
            omega
          · intro y hy hyL t ht
            rcases List.mem_append.1 hyL with h1 | h1
            · exact before_append_left (G.after y hy h1 t ht)
            · exact before_append_right (G2.after y hy h1 t ht)

theorem targets_all {rest : List NC} {ids : List String} {row : Int} (hnd : (rest.map (·.id)).Nodup) {ss : List NC}
    (e : (schedule ids.length row).map (fun kr => (rest.filter fun y => decide (y.id ∈ ids))[kr.1]?) = ss.map some) : (ss.map (·.id)).Perm ids := by
  set succs := rest.filter fun y => decide (y.id ∈ ids) with hs
  have e' : (List.range ids.length).map (fun k => succs[k]?) = ss.map some := by
    rw [← schedule_fst ids.length row, List.map_map, ← e]
    rfl
  have hlen : ss.length = ids.length := by simpa using (congrArg List.length e').symm
  have hget : ∀ k, k < ids.length → succs[k]? = ss[k]? := by
    intro k hk
    have := congrArg (fun l => l[k]?) e'
    simp only [List.getElem?_map] at this
    rw [List.getElem?_range hk] at this
    simp only [Option.map_some] at this
    rw [List.getElem?_eq_getElem (l := ss) (by omega)] at this ⊢
    exact Option.some.inj this
  have hpre : ss = succs.take ids.length := by
    apply List.ext_getElem?
    intro k
    by_cases hk : k < ids.length
    · rw [List.getElem?_take_of_lt hk, hget k hk]
    · rw [List.getElem?_eq_none (by omega), List.getElem?_eq_none (by rw [List.length_take]; omega)]
  have hnd' : (ss.map (·.id)).Nodup := by
    rw [hpre]
    exact (((List.take_sublist _ _).trans List.filter_sublist).map _).nodup hnd
  have hsub : ss.map (·.id) ⊆ ids := by
    intro i hi
    obtain ⟨y, hy, rfl⟩ := List.mem_map.1 hi
    rw [hpre] at hy
    have := List.mem_of_mem_take hy
    rw [hs] at this
    simpa using (List.mem_filter.1 this).2
  exact (List.subperm_of_subset hnd' hsub).perm_of_length_le (by simp [hlen])

theorem placeElement_log {all : List NC} (hids : (all.map (·.id)).Nodup) (fuel : Nat) :
    ∀ x ∈ all, ∀ p enf p', p.rest ⊆ all → (p.rest.map (·.id)).Nodup → placeElement d fuel x p enf = .ok p' → ∃ L, Log d all x p p' L := by
  induction fuel with
  | zero => intro x _ p enf p' _ _ h; cases h
  | succ fuel ih =>
    intro x hx p enf p' hsub hnd h
    rw [placeElement] at h
    cases hself : placeSelf d x p enf with
    | error e => rw [hself] at h; cases h
    | ok q =>
      rw [hself] at h
      simp only [bind, Except.bind] at h
      obtain ⟨row, col, -, hg, hr, -⟩ := placeSelf_ok hself
      obtain ⟨p1, row'⟩ := q
      simp only at hg hr h
      split at h
      · rename_i hsp
        cases he : endsOf (flowTarget d) x.outs with
        | error e => rw [he] at h; cases h
        | ok ids =>
          rw [he] at h
          simp only at h
          have hto : targetsOf d x = ids := by
            unfold targetsOf
            rw [if_pos hsp, he]
          obtain ⟨ss, L, e, G⟩ := placeSuccessors_log hids ih (succs := p1.rest.filter fun y => decide (y.id ∈ ids))
            (fun y hy => hsub (hr ▸ List.mem_of_mem_filter hy)) _ (by rw [hr]; exact hsub) (by rw [hr]; exact hnd) h
          have hss : (ss.map (·.id)).Perm ids := targets_all (by rw [hr]; exact hnd) e
          refine ⟨L, ?_, ?_, ?_, ?_, ?_⟩
          · rw [G.grid, hg]; simp
          · rw [← hr]; exact G.rest
          · rw [← hr]; exact G.sub
          · rw [List.flatMap_cons, targetsAt_id hids hx, hto]
            exact G.tails.trans (hss.append_right _)
          · intro y hy hyL t ht
            rcases List.mem_cons.1 hyL with h1 | h1
            · have := List.inj_on_of_nodup_map hids hy hx h1
              subst this
              rw [hto] at ht
              have : t ∈ L := G.tails.mem_iff.2 (List.mem_append_left _ (hss.mem_iff.2 ht))
              obtain ⟨a, b, rfl⟩ := List.append_of_mem this
              exact ⟨y.id :: a, b, rfl, by simp⟩
            · exact before_append_right (l := [x.id]) (G.after y hy h1 t ht)
      · rename_i hsp
        cases h
        have hto : targetsOf d x = [] := by
          unfold targetsOf
          rw [if_neg hsp]
        refine ⟨[], ?_, ?_, ?_, ?_, ?_⟩
        · rw [hg]; simp
        · rw [hr]; simp
        · rw [hr]; exact fun _ h => h
        · simp [targetsAt_id hids hx, hto]
        · intro y hy hyL t ht
          have h1 : y.id = x.id := by simpa using hyL
          have := List.inj_on_of_nodup_map hids hy hx h1
          subst this
          rw [hto] at ht
          cases ht

/-- What was done in the whole run: the cells `L`. -/
theorem gridLoop_log {all : List NC} (hids : (all.map (·.id)).Nodup) (fuel n : Nat) {p : Place} {g : List Cell} (hsub : p.rest ⊆ all)
    (hnd : (p.rest.map (·.id)).Nodup) (h : gridLoop d fuel n p = .ok g) :
    ∃ L roots, g.map (·.nodeId) = p.grid.map (·.nodeId) ++ L ∧ (p.rest.map (·.id)).Perm L ∧ L.Perm (roots ++ L.flatMap (targetsAt d all)) ∧
      ∀ y ∈ all, y.id ∈ L → ∀ t ∈ targetsOf d y, Before L y.id t := by
  induction n generalizing p with
  | zero => cases h
  | succ n ih =>
    rw [gridLoop] at h
    split at h
    · rename_i e
      cases h
      exact ⟨[], [], by simp, by rw [e]; simp, by simp, by simp⟩
    · rename_i x rest e
      have hx : x ∈ all := hsub (by rw [e]; simp)
      rw [e] at hnd
      cases hp : placeElement d fuel x { p with rest := rest } none with
      | error e => rw [hp] at h; cases h
      | ok p' =>
        rw [hp] at h
        obtain ⟨L1, G⟩ := placeElement_log hids fuel x hx { p with rest := rest } none p' (fun y hy => hsub (by rw [e]; exact List.mem_cons_of_mem _ hy))
          (List.nodup_cons.1 hnd).2 hp
        have hr := G.rest
        have hgr := G.grid
        simp only at hr hgr
        obtain ⟨L2, roots, g1, g2, g3, g4⟩ := ih (p := p') (fun y hy => hsub (by rw [e]; exact List.mem_cons_of_mem _ (G.sub hy)))
          (List.nodup_append.1 (hr.nodup_iff.1 (List.nodup_cons.1 hnd).2)).1 h
        refine ⟨x.id :: L1 ++ L2, x.id :: roots, ?_, ?_, ?_, ?_⟩
        · rw [g1, hgr]; simp
        · rw [e, List.map_cons, List.cons_append]
          exact (hr.trans ((g2.append_right _).trans List.perm_append_comm)).cons _
        · have a1 := G.tails
          rw [List.perm_iff_count] at a1 g3 ⊢
          intro a
          have b1 := a1 a
          have b2 := g3 a
          simp only [List.flatMap_cons, List.flatMap_append, List.count_append, List.count_cons, List.cons_append, List.map_cons] at b1 b2 ⊢
          omega
        · intro y hy hyL t ht
          rcases List.mem_append.1 hyL with h1 | h1
          · exact before_append_left (G.after y hy h1 t ht)
          · exact before_append_right (g4 y hy h1 t ht)

/-- The only predecessor of a node that is no join is in the grid before it. -/
def PredFirst (d : Diagram) (all : List NC) (g : List Cell) : Prop :=
  ∀ x ∈ all, ∀ i l, x.ins = i :: l → "Join" ∉ x.labels → ∀ pre c post, g = pre ++ c :: post → c.nodeId = x.id →
    ∃ s, flowSource d i = .ok s ∧ s ∈ pre.map (·.nodeId)

theorem predFirst_step {all : List NC} (hids : (all.map (·.id)).Nodup) : ∀ x ∈ all, ∀ p enf r, PredFirst d all p.grid →
    placeSelf d x p enf = .ok r → PredFirst d all r.1.grid := by
  intro x hx p enf r hQ h
  obtain ⟨row, col, -, hg, -, -, -, hpred⟩ := placeSelf_ok h
  intro y hy i l hi hj pre c post e hc
  rw [hg] at e
  rcases List.eq_nil_or_concat post with rfl | ⟨post', z, rfl⟩
  · obtain ⟨e1, e2⟩ := List.append_inj' e rfl
    have e3 := List.singleton_inj.1 e2
    subst e1
    rw [← e3] at hc
    have := List.inj_on_of_nodup_map hids hx hy hc
    subst this
    obtain ⟨s, c', h1, h2, -⟩ := hpred i l hi hj
    refine ⟨s, h1, List.mem_map.2 ⟨c', List.mem_of_find?_eq_some h2, by simpa using List.find?_some h2⟩⟩
  · rw [List.concat_eq_append, ← List.cons_append, ← List.append_assoc] at e
    obtain ⟨e1, -⟩ := List.append_inj' e rfl
    exact hQ y hy i l hi hj pre c post' e1 hc

end Bpmn.Layouter

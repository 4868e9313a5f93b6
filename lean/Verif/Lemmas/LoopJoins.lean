import Verif.Lemmas.GridLog
/-!
What `generate_layout` does with the joins that lie on loops or behind them: when the sorting is stuck for the first time, all flows into such joins are
cut, so that the joins come before everything else that lies on or behind loops.
-/
set_option linter.unusedSimpArgs false
set_option linter.unusedVariables false

namespace Bpmn.Layouter
open Bpmn Spec Classify

variable {d : Diagram}

/-! ### The sorting -/

theorem takeNodes_ids {all : List NC} {back} (g : Good d all) (xs : List NC) {tmp sorted : List NC} {r}
    (v : Inv d all tmp sorted back) (hxs : xs.Nodup) (hx : ∀ x ∈ xs, x ∈ tmp ∧ x.ins = [])
    (h : takeNodes d all xs tmp sorted = .ok r) : ∃ ys, r.2 = sorted ++ ys ∧ ys.map (·.id) = xs.map (·.id) ∧ ∀ y ∈ ys, y ∈ all := by
  induction xs generalizing tmp sorted with
  | nil => cases h; exact ⟨[], by simp⟩
  | cons x l ih =>
    rw [takeNodes] at h
    cases ht : takeNode d all x tmp sorted with
    | error e => rw [ht] at h; cases h
    | ok p =>
      obtain ⟨hx1, hx0⟩ := hx x (by simp)
      obtain ⟨y, hy, hid, e, v'⟩ := takeNode_ok g v hx1 hx0 (takeNode_mem (v.tmp_nodup g) ht)
      rw [e] at h
      simp only [bind, Except.bind] at h
      obtain ⟨ys, e1, e2, e3⟩ := ih v' (List.nodup_cons.1 hxs).2 (by
        intro z hz
        obtain ⟨hz1, hz0⟩ := hx z (by simp [hz])
        have hne : z ≠ x := by rintro rfl; exact (List.nodup_cons.1 hxs).1 hz
        refine ⟨?_, hz0⟩
        have : dropIn x.outs z = z := by obtain ⟨a, b, c, d⟩ := z; simp only at hz0; subst hz0; rfl
        rw [← this]
        apply List.mem_map_of_mem
        exact (v.tmp_nodup g).of_map.mem_erase_iff.2 ⟨hne, hz1⟩) h
      refine ⟨y :: ys, by rw [e1]; simp, by simp [e2, hid], ?_⟩
      intro z hz
      rcases List.mem_cons.1 hz with rfl | hz
      · exact hy
      · exact e3 z hz

theorem sortLoop_prefix {all : List NC} (g : Good d all) (fuel : Nat) {tmp sorted : List NC} {back} {r}
    (v : Inv d all tmp sorted back) (h : sortLoop d all fuel tmp sorted back = .ok r) : sorted <+: r.1 := by
  induction fuel generalizing tmp sorted back with
  | zero => cases h
  | succ fuel ih =>
    rw [sortLoop] at h
    split at h
    · cases h; exact List.prefix_rfl
    · simp only at h
      split at h
      · cases ht : takeNodes d all (tmp.filter fun x => x.ins.length == 0).reverse tmp sorted with
        | error e => rw [ht] at h; cases h
        | ok p =>
          rw [ht] at h
          obtain ⟨ys, e, -⟩ := takeNodes_ids g _ v (v.free_nodup g) (fun x hx => free_mem hx) ht
          have := ih (takeNodes_inv g _ v (v.free_nodup g) (fun x hx => free_mem hx) ht).1 h
          rw [e] at this
          exact (List.prefix_append _ _).trans this
      · cases ht : cutJoins d (List.range tmp.length) tmp back with
        | error e => rw [ht] at h; cases h
        | ok p =>
          rw [ht] at h
          exact ih (cutJoins_inv g _ v ht).1 h

section
variable {all : List NC} {A : NC → Prop}

/-- Every node of the set has a predecessor in the set. -/
def Held (d : Diagram) (all : List NC) (A : NC → Prop) : Prop := ∀ c ∈ all, A c → ∃ i ∈ c.ins, ∃ m ∈ all, A m ∧ flowSource d i = .ok m.id

/-- The joins of the set come before its other nodes. -/
def JoinsFirst (all : List NC) (A : NC → Prop) (sorted : List NC) : Prop :=
  ∀ c ∈ all, A c → "Join" ∈ c.labels → ∀ c' ∈ all, A c' → "Join" ∉ c'.labels → ∀ pre post, sorted = pre ++ c' :: post → c ∈ pre

/-- As long as nothing was cut, what is free is not in the set. -/
theorem not_held (g : Good d all) (H : Held d all A) {tmp sorted : List NC} {back} (v : Inv d all tmp sorted back) (hs : ∀ s ∈ sorted, ¬A s)
    {c : NC} (hc : c ∈ all) (hA : A c) (hb : ∀ i ∈ c.ins, i ∉ back) {x : NC} (hx : x ∈ tmp) (e : x.id = c.id) : x.ins ≠ [] := by
  intro h0
  obtain ⟨c', hc', e', -, -, -, hci, -⟩ := v.cur x hx
  have := g.id_inj hc' hc (e'.symm.trans e)
  subst this
  obtain ⟨i, hi, m, hm, hAm, hsrc⟩ := H c' hc' hA
  have : i ∈ x.ins := (hci i).2 ⟨hi, hb i hi, by
    rintro ⟨s, hs1, hs2⟩
    have h1 := (g.out s (v.sub s hs1) i hs2).1
    rw [hsrc] at h1
    have := g.id_inj hm (v.sub s hs1) (Except.ok.inj h1)
    subst this
    exact hs _ hs1 hAm⟩
  rw [h0] at this
  cases this

theorem sortLoop_joinsFirst (g : Good d all) (H : Held d all A) (fuel : Nat) {tmp sorted : List NC} {r}
    (v : Inv d all tmp sorted []) (hs : ∀ s ∈ sorted, ¬A s) (h : sortLoop d all fuel tmp sorted [] = .ok r) : JoinsFirst all A r.1 := by
  induction fuel generalizing tmp sorted with
  | zero => cases h
  | succ fuel ih =>
    rw [sortLoop] at h
    split at h
    · rename_i e
      subst e
      cases h
      intro c hc hA
      rcases v.mem_all hc with ⟨s, hs1, e⟩ | ⟨x, hx, -⟩
      · exact absurd (g.id_inj (v.sub s hs1) hc e ▸ hA) (hs s hs1)
      · cases hx
    · simp only at h
      split at h
      · cases ht : takeNodes d all (tmp.filter fun x => x.ins.length == 0).reverse tmp sorted with
        | error e => rw [ht] at h; cases h
        | ok p =>
          rw [ht] at h
          obtain ⟨ys, e1, e2, e3⟩ := takeNodes_ids g _ v (v.free_nodup g) (fun x hx => free_mem hx) ht
          refine ih (takeNodes_inv g _ v (v.free_nodup g) (fun x hx => free_mem hx) ht).1 ?_ h
          intro s hs1 hA
          rw [e1] at hs1
          rcases List.mem_append.1 hs1 with hs1 | hs1
          · exact hs s hs1 hA
          · have : s.id ∈ ys.map (·.id) := List.mem_map_of_mem hs1
            rw [e2] at this
            obtain ⟨x, hx, e⟩ := List.mem_map.1 this
            obtain ⟨hx1, hx0⟩ := free_mem hx
            exact not_held g H v hs (e3 s hs1) hA (by simp) hx1 e hx0
      · cases ht : cutJoins d (List.range tmp.length) tmp [] with
        | error e => rw [ht] at h; cases h
        | ok p =>
          rw [ht] at h
          simp only [bind, Except.bind] at h
          obtain ⟨v', hsh, hcut⟩ := cutJoins_inv g _ v ht
          obtain ⟨tmp', back'⟩ := p
          simp only at h v' hsh hcut
          -- where the joins of the set are
          have joinFree : ∀ c ∈ all, A c → "Join" ∈ c.labels → ∃ x ∈ tmp', x.id = c.id ∧ x.ins = [] := by
            intro c hc hA hj
            rcases v'.mem_all hc with ⟨s, hs1, e⟩ | ⟨x, hx, e⟩
            · exact absurd (g.id_inj (v'.sub s hs1) hc e ▸ hA) (hs s hs1)
            · refine ⟨x, hx, e, ?_⟩
              obtain ⟨k, hk, rfl⟩ := List.mem_iff_getElem.1 hx
              refine hcut k (by rw [List.mem_range, ← hsh.1]; exact hk) hk ?_
              obtain ⟨c', hc', e', hl, -⟩ := v'.cur _ hx
              rw [hl, g.id_inj hc' hc (e'.symm.trans e)]
              exact hj
          have noneFree : ∀ c ∈ all, A c → "Join" ∉ c.labels → ∀ x ∈ tmp', x.id = c.id → x.ins ≠ [] := by
            intro c hc hA hj x hx e
            refine not_held g H v' hs hc hA ?_ hx e
            intro i hi hb
            obtain ⟨c', hc', hj', hi'⟩ := v'.backJoin i hb
            rw [g.in_unique hc' hc hi' hi] at hj'
            exact hj hj'
          cases fuel with
          | zero => cases h
          | succ fuel =>
            rw [sortLoop] at h
            by_cases hno : ∃ c ∈ all, A c ∧ "Join" ∈ c.labels
            · obtain ⟨c0, hc0, hA0, hj0⟩ := hno
              obtain ⟨x0, hx0, -, hx00⟩ := joinFree c0 hc0 hA0 hj0
              rw [if_neg (by rintro rfl; cases hx0)] at h
              simp only at h
              rw [if_pos (by
                apply List.length_pos_of_mem (a := x0)
                simp [hx0, hx00])] at h
              cases ht2 : takeNodes d all (tmp'.filter fun x => x.ins.length == 0).reverse tmp' sorted with
              | error e => rw [ht2] at h; cases h
              | ok p =>
                rw [ht2] at h
                obtain ⟨ys, e1, e2, e3⟩ := takeNodes_ids g _ v' (v'.free_nodup g) (fun x hx => free_mem hx) ht2
                have v2 := (takeNodes_inv g _ v' (v'.free_nodup g) (fun x hx => free_mem hx) ht2).1
                obtain ⟨ext, he⟩ := sortLoop_prefix g fuel v2 h
                intro c hc hA hj c' hc' hA' hj' pre post e
                have hin : c ∈ p.2 := by
                  obtain ⟨x, hx, ex, ex0⟩ := joinFree c hc hA hj
                  have : c.id ∈ ys.map (·.id) := by
                    rw [e2]
                    exact List.mem_map.2 ⟨x, by simp [hx, ex0], ex⟩
                  obtain ⟨y, hy, ey⟩ := List.mem_map.1 this
                  rw [← g.id_inj (e3 y hy) hc ey, e1]
                  exact List.mem_append_right _ hy
                have hout : c' ∉ p.2 := by
                  rw [e1]
                  intro hm
                  rcases List.mem_append.1 hm with hm | hm
                  · exact hs _ hm hA'
                  · have : c'.id ∈ ys.map (·.id) := List.mem_map_of_mem hm
                    rw [e2] at this
                    obtain ⟨x, hx, ex⟩ := List.mem_map.1 this
                    obtain ⟨hx1, hx0⟩ := free_mem hx
                    exact noneFree c' hc' hA' hj' x hx1 ex hx0
                rw [← he] at e
                rcases List.append_eq_append_iff.1 e with ⟨a, rfl, -⟩ | ⟨a, h1, h2⟩
                · exact List.mem_append_left _ hin
                · cases a with
                  | nil => 
                    simp only [List.append_nil] at h1
                    exact h1 ▸ hin
                  | cons b a =>
                    exfalso
                    simp only [List.cons_append, List.cons.injEq] at h2
                    exact hout (by rw [h1, h2.1]; simp)
            · intro c hc hA hj
              exact absurd ⟨c, hc, hA, hj⟩ hno

/-- The nodes outside the set come first. -/
def OthersFirst (all : List NC) (A : NC → Prop) (sorted : List NC) : Prop :=
  ∀ c ∈ all, ¬A c → ∀ c' ∈ all, A c' → ∀ pre post, sorted = pre ++ c' :: post → c ∈ pre

/-- Outside the set nothing goes round: every part of what is outside has a node without predecessor in the part. -/
def Founded (d : Diagram) (all : List NC) (A : NC → Prop) : Prop :=
  ∀ B : NC → Prop, (∃ c ∈ all, ¬A c ∧ B c) → ∃ c ∈ all, ¬A c ∧ B c ∧ ∀ i ∈ c.ins, ∀ m ∈ all, flowSource d i = .ok m.id → ¬A m ∧ ¬B m

theorem sortLoop_othersFirst (g : Good d all) (hcl : Closed d all) (H : Held d all A) (F : Founded d all A) (fuel : Nat) {tmp sorted : List NC} {r}
    (v : Inv d all tmp sorted []) (hs : ∀ s ∈ sorted, ¬A s) (h : sortLoop d all fuel tmp sorted [] = .ok r) : OthersFirst all A r.1 := by
  induction fuel generalizing tmp sorted with
  | zero => cases h
  | succ fuel ih =>
    have hpre := sortLoop_prefix g _ v h
    rw [sortLoop] at h
    split at h
    · rename_i e
      subst e
      cases h
      intro c hc _ c' hc' hA
      rcases v.mem_all hc' with ⟨s, hs1, e⟩ | ⟨x, hx, -⟩
      · exact absurd (g.id_inj (v.sub s hs1) hc' e ▸ hA) (hs s hs1)
      · cases hx
    · simp only at h
      split at h
      · cases ht : takeNodes d all (tmp.filter fun x => x.ins.length == 0).reverse tmp sorted with
        | error e => rw [ht] at h; cases h
        | ok p =>
          rw [ht] at h
          obtain ⟨ys, e1, e2, e3⟩ := takeNodes_ids g _ v (v.free_nodup g) (fun x hx => free_mem hx) ht
          refine ih (takeNodes_inv g _ v (v.free_nodup g) (fun x hx => free_mem hx) ht).1 ?_ h
          intro s hs1 hA
          rw [e1] at hs1
          rcases List.mem_append.1 hs1 with hs1 | hs1
          · exact hs s hs1 hA
          · have : s.id ∈ ys.map (·.id) := List.mem_map_of_mem hs1
            rw [e2] at this
            obtain ⟨x, hx, e⟩ := List.mem_map.1 this
            obtain ⟨hx1, hx0⟩ := free_mem hx
            exact not_held g H v hs (e3 s hs1) hA (by simp) hx1 e hx0
      · rename_i hfree
        have hfree : ∀ x ∈ tmp, x.ins ≠ [] := by
          intro x hx h0
          apply hfree
          apply List.length_pos_of_mem (a := x)
          simp [hx, h0]
        -- when the sorting is stuck, all nodes outside the set are sorted
        have hout : ∀ c ∈ all, ¬A c → c ∈ sorted := by
          by_contra hno
          simp only [not_forall] at hno
          obtain ⟨c, hc, hA, hcs⟩ := hno
          obtain ⟨c', hc', hA', hB', hp⟩ := F (fun c => c ∉ sorted) ⟨c, hc, hA, hcs⟩
          rcases v.mem_all hc' with ⟨s, hs1, e⟩ | ⟨x, hx, e⟩
          · exact hB' (g.id_inj (v.sub s hs1) hc' e ▸ hs1)
          · obtain ⟨i, hi⟩ := List.exists_mem_of_ne_nil _ (hfree x hx)
            obtain ⟨c2, hc2, e2, -, -, -, hci, -⟩ := v.cur x hx
            have := g.id_inj hc2 hc' (e2.symm.trans e)
            subst this
            obtain ⟨m, hm, hsrc⟩ := hcl.2 c2 hc2 i ((hci i).1 hi).1
            obtain ⟨y, hy, ey⟩ := v.source_in_tmp g hx hi hm hsrc
            obtain ⟨-, hBm⟩ := hp i ((hci i).1 hi).1 m hm hsrc
            have hms : m ∈ sorted := by by_contra hh; exact hBm hh
            exact v.disj g hms hy ey.symm
        obtain ⟨ext, he⟩ := hpre
        intro c hc hA c' hc' hA' pre post e
        have hin := hout c hc hA
        have hnot : c' ∉ sorted := fun h => hs c' h hA'
        rw [← he] at e
        rcases List.append_eq_append_iff.1 e with ⟨a, rfl, -⟩ | ⟨a, h1, h2⟩
        · exact List.mem_append_left _ hin
        · cases a with
          | nil =>
            simp only [List.append_nil] at h1
            exact h1 ▸ hin
          | cons b a =>
            exfalso
            simp only [List.cons_append, List.cons.injEq] at h2
            exact hnot (by rw [h1, h2.1]; simp)

/-- The nodes outside the set come after all that leads to them. -/
def OthersOrdered (d : Diagram) (all : List NC) (A : NC → Prop) (sorted : List NC) : Prop :=
  ∀ c ∈ all, ¬A c → ∀ i ∈ c.ins, ∀ pre post, sorted = pre ++ c :: post → ∃ s, flowSource d i = .ok s ∧ s ∈ pre.map (·.id)

theorem sortLoop_othersOrdered (g : Good d all) (hcl : Closed d all) (H : Held d all A) (F : Founded d all A) (fuel : Nat) {tmp sorted : List NC} {r}
    (v : Inv d all tmp sorted []) (hs : ∀ s ∈ sorted, ¬A s) (h : sortLoop d all fuel tmp sorted [] = .ok r) : OthersOrdered d all A r.1 := by
  induction fuel generalizing tmp sorted with
  | zero => cases h
  | succ fuel ih =>
    have hpre := sortLoop_prefix g _ v h
    have h' := h
    rw [sortLoop] at h
    split at h
    · rename_i e
      subst e
      cases h
      intro c hc _ i hi pre post e
      exact v.order pre c post e i hi (by simp)
    · simp only at h
      split at h
      · cases ht : takeNodes d all (tmp.filter fun x => x.ins.length == 0).reverse tmp sorted with
        | error e => rw [ht] at h; cases h
        | ok p =>
          rw [ht] at h
          obtain ⟨ys, e1, e2, e3⟩ := takeNodes_ids g _ v (v.free_nodup g) (fun x hx => free_mem hx) ht
          refine ih (takeNodes_inv g _ v (v.free_nodup g) (fun x hx => free_mem hx) ht).1 ?_ h
          intro s hs1 hA
          rw [e1] at hs1
          rcases List.mem_append.1 hs1 with hs1 | hs1
          · exact hs s hs1 hA
          · have : s.id ∈ ys.map (·.id) := List.mem_map_of_mem hs1
            rw [e2] at this
            obtain ⟨x, hx, e⟩ := List.mem_map.1 this
            obtain ⟨hx1, hx0⟩ := free_mem hx
            exact not_held g H v hs (e3 s hs1) hA (by simp) hx1 e hx0
      · rename_i hfree
        have hfree : ∀ x ∈ tmp, x.ins ≠ [] := by
          intro x hx h0
          apply hfree
          apply List.length_pos_of_mem (a := x)
          simp [hx, h0]
        -- when the sorting is stuck, all nodes outside the set are sorted
        have hout : ∀ c ∈ all, ¬A c → c ∈ sorted := by
          by_contra hno
          simp only [not_forall] at hno
          obtain ⟨c, hc, hA, hcs⟩ := hno
          obtain ⟨c', hc', hA', hB', hp⟩ := F (fun c => c ∉ sorted) ⟨c, hc, hA, hcs⟩
          rcases v.mem_all hc' with ⟨s, hs1, e⟩ | ⟨x, hx, e⟩
          · exact hB' (g.id_inj (v.sub s hs1) hc' e ▸ hs1)
          · obtain ⟨i, hi⟩ := List.exists_mem_of_ne_nil _ (hfree x hx)
            obtain ⟨c2, hc2, e2, -, -, -, hci, -⟩ := v.cur x hx
            have := g.id_inj hc2 hc' (e2.symm.trans e)
            subst this
            obtain ⟨m, hm, hsrc⟩ := hcl.2 c2 hc2 i ((hci i).1 hi).1
            obtain ⟨y, hy, ey⟩ := v.source_in_tmp g hx hi hm hsrc
            obtain ⟨-, hBm⟩ := hp i ((hci i).1 hi).1 m hm hsrc
            have hms : m ∈ sorted := by by_contra hh; exact hBm hh
            exact v.disj g hms hy ey.symm
        obtain ⟨ext, he⟩ := hpre
        intro c hc hA i hi pre post e
        have hnd : r.1.Nodup := by
          have v' := sortLoop_inv g _ v h'
          have := v'.perm.nodup_iff.2 g.ids
          simp only [List.append_nil] at this
          exact this.of_map
        obtain ⟨p1, p2, ep⟩ := List.append_of_mem (hout c hc hA)
        have : pre = p1 := by
          rw [← he, ep, List.append_assoc, List.cons_append] at e
          rw [← he, ep, List.append_assoc, List.cons_append] at hnd
          have n1 : c ∉ p1 := fun hh => (List.nodup_append.1 hnd).2.2 c hh c (by simp) rfl
          have n2 : c ∉ pre := by
            rw [e] at hnd
            exact fun hh => (List.nodup_append.1 hnd).2.2 c hh c (by simp) rfl
          rcases List.append_eq_append_iff.1 e with ⟨a, h1, h2⟩ | ⟨a, h1, h2⟩
          · cases a with
            | nil => simpa using h1
            | cons b a =>
              simp only [List.cons_append, List.cons.injEq] at h2
              exact absurd (by rw [h1, h2.1]; simp) n2
          · cases a with
            | nil => simpa using h1.symm
            | cons b a =>
              simp only [List.cons_append, List.cons.injEq] at h2
              exact absurd (by rw [h1, h2.1]; simp) n1
        subst this
        exact v.order _ c p2 ep i hi (by simp)

end

/-! ### The grid -/

/-- Rules for the grid that depend on why a node is placed: because it is its turn, or because a split that has a cell leads to it. -/
theorem placeElement_why {all : List NC} (Q : List Cell → Prop)
    (step : ∀ x ∈ all, ∀ p enf r, Q p.grid → (enf = none ∨ ∃ y ∈ all, y.id ∈ p.grid.map (·.nodeId) ∧ x.id ∈ targetsOf d y) →
      placeSelf d x p enf = .ok r → Q r.1.grid)
    (fuel : Nat) {x : NC} {p : Place} {enf : Option Int} {r} (hx : x ∈ all) (hr : p.rest ⊆ all) (hQ : Q p.grid)
    (he : enf = none ∨ ∃ y ∈ all, y.id ∈ p.grid.map (·.nodeId) ∧ x.id ∈ targetsOf d y)
    (h : placeElement d fuel x p enf = .ok r) : Q r.grid ∧ r.rest.Sublist p.rest ∧ p.grid.map (·.nodeId) ⊆ r.grid.map (·.nodeId) := by
  induction fuel generalizing x p enf r with
  | zero => cases h
  | succ fuel ih =>
    rw [placeElement] at h
    cases hs : placeSelf d x p enf with
    | error e => rw [hs] at h; cases h
    | ok q =>
      rw [hs] at h
      simp only [bind, Except.bind] at h
      have hQ' := step x hx p enf q hQ he hs
      obtain ⟨row, col, -, hg, h3, -⟩ := placeSelf_ok hs
      have hr' : q.1.rest.Sublist p.rest := by rw [h3]
      have hsub : p.grid.map (·.nodeId) ⊆ q.1.grid.map (·.nodeId) := by rw [hg]; simp
      have hin : x.id ∈ q.1.grid.map (·.nodeId) := by rw [hg]; simp
      split at h
      · rename_i hsp
        cases he : endsOf (flowTarget d) x.outs with
        | error e => rw [he] at h; cases h
        | ok ids =>
          rw [he] at h
          simp only at h
          have hto : targetsOf d x = ids := by
            unfold targetsOf
            rw [if_pos hsp, he]
          have succs : ∀ s ∈ (q.1.rest.filter fun y => decide (y.id ∈ ids)), s ∈ all ∧ s.id ∈ targetsOf d x := by
            intro s hs
            obtain ⟨h1, h2⟩ := List.mem_filter.1 hs
            exact ⟨hr (hr'.subset h1), by rw [hto]; simpa using h2⟩
          revert h
          generalize (q.1.rest.filter fun y => decide (y.id ∈ ids)) = ss at succs
          generalize schedule ids.length q.2 = sch
          obtain ⟨p', row⟩ := q
          simp only at hQ' hr' hsub hin
          clear hs hg h3
          intro h
          simp only at h
          induction sch generalizing p' with
          | nil => cases h; exact ⟨hQ', hr', hsub⟩
          | cons t ts ihs =>
            obtain ⟨k, row'⟩ := t
            rw [placeSuccessors] at h
            simp only [pyIndex] at h
            cases hk : ss[k]? with
            | none => rw [hk] at h; cases h
            | some s =>
              rw [hk] at h
              simp only [bind, Except.bind] at h
              cases hp : placeElement d fuel s p' (some row') with
              | error e => rw [hp] at h; cases h
              | ok p'' =>
                rw [hp] at h
                simp only at h
                obtain ⟨hs1, hs2⟩ := succs s (List.mem_of_getElem? hk)
                obtain ⟨h1, h2, h3⟩ := ih hs1 (fun y hy => hr (hr'.subset hy)) hQ' (.inr ⟨x, hx, hin, hs2⟩) hp
                cases hrm : pyRemove p''.rest s with
                | error e => rw [hrm] at h; cases h
                | ok rest =>
                  rw [hrm] at h
                  have : rest.Sublist p''.rest := by
                    unfold pyRemove at hrm
                    split at hrm
                    · cases hrm; exact List.erase_sublist
                    · cases hrm
                  exact ihs { p'' with rest := rest } h1 (this.trans (h2.trans hr')) (fun i hi => h3 (hsub hi)) (h3 hin) h
      · cases h; exact ⟨hQ', hr', hsub⟩

theorem gridLoop_why {all : List NC} (Q : List Cell → Prop)
    (step : ∀ x ∈ all, ∀ p enf r, Q p.grid → (enf = none ∨ ∃ y ∈ all, y.id ∈ p.grid.map (·.nodeId) ∧ x.id ∈ targetsOf d y) →
      placeSelf d x p enf = .ok r → Q r.1.grid)
    (fuel n : Nat) {p : Place} {g} (hr : p.rest ⊆ all) (hQ : Q p.grid) (h : gridLoop d fuel n p = .ok g) : Q g := by
  induction n generalizing p with
  | zero => cases h
  | succ n ih =>
    rw [gridLoop] at h
    split at h
    · cases h; exact hQ
    · rename_i x rest e
      cases hp : placeElement d fuel x { p with rest := rest } none with
      | error e => rw [hp] at h; cases h
      | ok p' =>
        rw [hp] at h
        have hr' : rest ⊆ all := fun y hy => hr (by rw [e]; exact List.mem_cons_of_mem _ hy)
        obtain ⟨h1, h2, -⟩ := placeElement_why Q step fuel (hr (by rw [e]; simp))
          (p := { p with rest := rest }) hr' hQ (.inl rfl) hp
        exact ih (fun y hy => hr' (h2.subset hy)) h1 h

/-- Where a join is put to which no split leads: by its predecessors that have cells. -/
def JoinAt (d : Diagram) (j : NC) (g : List Cell) : Prop :=
  ∀ pre c post, g = pre ++ c :: post → c.nodeId = j.id → ∃ ids, endsOf (flowSource d) j.ins = .ok ids ∧
    c.row = Int.fdiv ((pre.filter fun c => decide (c.nodeId ∈ ids)).map (·.row)).sum ids.length ∧
    c.col = ((pre.filter fun c => decide (c.nodeId ∈ ids)).map (·.col)).foldl max 0 + 1

theorem joinAt_step {all : List NC} (hids : (all.map (·.id)).Nodup) {j : NC} (hj : j ∈ all) (hJ : "Join" ∈ j.labels) (h0 : j.ins ≠ [])
    (hno : ∀ y ∈ all, j.id ∉ targetsOf d y) :
    ∀ x ∈ all, ∀ p enf r, JoinAt d j p.grid → (enf = none ∨ ∃ y ∈ all, y.id ∈ p.grid.map (·.nodeId) ∧ x.id ∈ targetsOf d y) →
      placeSelf d x p enf = .ok r → JoinAt d j r.1.grid := by
  intro x hx p enf r hQ he h
  obtain ⟨row, col, -, hg, -⟩ := placeSelf_ok h
  intro pre c post e hc
  rw [hg] at e
  rcases List.eq_nil_or_concat post with rfl | ⟨post', z, rfl⟩
  · obtain ⟨e1, e2⟩ := List.append_inj' e rfl
    have e3 := List.singleton_inj.1 e2
    subst e1
    rw [← e3] at hc ⊢
    have := List.inj_on_of_nodup_map hids hx hj hc
    subst this
    have hn : enf = none := by
      rcases he with he | ⟨y, hy, h1, h2⟩
      · exact he
      · exact absurd h2 (hno y hy)
    subst hn
    unfold placeSelf at h
    rw [if_neg (by simpa using h0), if_neg (by simpa using hJ)] at h
    cases hi : endsOf (flowSource d) x.ins with
    | error e => rw [hi] at h; cases h
    | ok ids =>
      rw [hi] at h
      simp only [bind, Except.bind] at h
      refine ⟨ids, rfl, ?_⟩
      rw [predStats_eq] at h
      simp only [Int.zero_add, truthyOr] at h
      split at h
      · cases h
      · rename_i g hins
        cases h
        obtain ⟨-, rfl⟩ := insert_ok hins
        have := List.append_inj' hg rfl
        have := List.singleton_inj.1 this.2
        simp only [Cell.mk.injEq] at this
        exact ⟨this.1.symm, this.2.1.symm⟩
  · rw [List.concat_eq_append, ← List.cons_append, ← List.append_assoc] at e
    obtain ⟨e1, -⟩ := List.append_inj' e rfl
    exact hQ pre c post' e1 hc

theorem endsOf_from {get : String → Py String} {l r : List String} (h : endsOf get l = .ok r) : ∀ s ∈ r, ∃ i ∈ l, get i = .ok s := by
  induction l generalizing r with
  | nil => cases h; simp
  | cons i l ih =>
    rw [endsOf] at h
    cases hg : get i with
    | error e => rw [hg] at h; cases h
    | ok s =>
      rw [hg] at h
      simp only [bind, Except.bind] at h
      cases hl : endsOf get l with
      | error e => rw [hl] at h; cases h
      | ok r' =>
        rw [hl] at h
        cases h
        intro t ht
        rcases List.mem_cons.1 ht with rfl | ht
        · exact ⟨i, by simp, hg⟩
        · obtain ⟨k, hk, e⟩ := ih hl t ht
          exact ⟨k, by simp [hk], e⟩

section
variable {all : List NC} {A : NC → Prop}

/-- The nodes of the set that are no joins follow only nodes of the set, and joins of the set are no splits. -/
structure Closely (d : Diagram) (all : List NC) (A : NC → Prop) : Prop where
  back : ∀ y ∈ all, ∀ c ∈ all, c.id ∈ targetsOf d y → A c → "Join" ∉ c.labels → A y
  once : ∀ c ∈ all, A c → "Join" ∈ c.labels → "Split" ∉ c.labels

theorem Log.none_late (hids : (all.map (·.id)).Nodup) (C : Closely d all A) {x : NC} (hx : x ∈ all) {p p' : Place} {L : List String}
    (G : Log d all x p p' L) (hnd : (x.id :: L).Nodup) (hsub : ∀ i ∈ x.id :: L, ∃ y ∈ all, y.id = i) (hn : A x → "Join" ∈ x.labels) :
    ∀ q ∈ all, A q → "Join" ∉ q.labels → q.id ∉ x.id :: L := by
  -- by the place in the list
  suffices H : ∀ n, ∀ q ∈ all, A q → "Join" ∉ q.labels → q.id ∈ x.id :: L → (x.id :: L).idxOf q.id ≠ n by
    intro q hq hA hj hm
    exact H _ q hq hA hj hm rfl
  intro n
  induction n using Nat.strongRecOn with
  | ind n ih =>
    intro q hq hA hj hm hn'
    rcases List.mem_cons.1 hm with e | hm'
    · have := List.inj_on_of_nodup_map hids hq hx e
      subst this
      exact hj (hn hA)
    · obtain ⟨i, hi, hq'⟩ := List.mem_flatMap.1 (G.tails.mem_iff.1 hm')
      obtain ⟨y, hy, rfl⟩ := hsub i hi
      rw [targetsAt_id hids hy] at hq'
      have hAy := C.back y hy q hq hq' hA hj
      have hsy : "Split" ∈ y.labels := by
        by_contra hs
        unfold targetsOf at hq'
        rw [if_neg hs] at hq'
        cases hq'
      have hjy : "Join" ∉ y.labels := fun h => C.once y hy hAy h hsy
      obtain ⟨pre, post, e, hpre⟩ := G.after y hy hi q.id hq'
      refine ih _ ?_ y hy hAy hjy hi rfl
      rw [← hn', e]
      rw [e] at hnd
      have h1 : q.id ∉ pre := fun h => (List.nodup_append.1 hnd).2.2 q.id h q.id (by simp) rfl
      rw [List.idxOf_append_of_mem hpre, List.idxOf_append_of_notMem h1]
      have := List.idxOf_lt_length_of_mem hpre
      omega

/-- The joins of the set have cells before its other nodes. -/
def JoinCells (all : List NC) (A : NC → Prop) (g : List String) : Prop :=
  ∀ c ∈ all, A c → "Join" ∈ c.labels → ∀ q ∈ all, A q → "Join" ∉ q.labels → ∀ pre post, g = pre ++ q.id :: post → c.id ∈ pre

theorem gridLoop_joinCells (hids : (all.map (·.id)).Nodup) (C : Closely d all A) {sorted : List NC} (hperm : sorted.Perm all) (hf : JoinsFirst all A sorted)
    (fuel n : Nat) {p : Place} {g : List Cell} (hsub : p.rest.Sublist sorted)
    (hall : ((p.grid.map (·.nodeId)) ++ p.rest.map (·.id)).Perm (all.map (·.id))) (hQ : JoinCells all A (p.grid.map (·.nodeId)))
    (h : gridLoop d fuel n p = .ok g) : JoinCells all A (g.map (·.nodeId)) := by
  induction n generalizing p with
  | zero => cases h
  | succ n ih =>
    rw [gridLoop] at h
    split at h
    · cases h; exact hQ
    · rename_i x rest e
      have hin : p.rest ⊆ all := fun y hy => hperm.mem_iff.1 (hsub.subset hy)
      have hx : x ∈ all := hin (by rw [e]; simp)
      have hndS : (sorted.map (·.id)).Nodup := (hperm.map (·.id)).nodup_iff.2 hids
      have hnd : (p.rest.map (·.id)).Nodup := (hsub.map _).nodup hndS
      rw [e] at hnd hsub hall
      cases hp : placeElement d fuel x { p with rest := rest } none with
      | error e => rw [hp] at h; cases h
      | ok p' =>
        rw [hp] at h
        have hin' : rest ⊆ all := fun y hy => hin (by rw [e]; exact List.mem_cons_of_mem _ hy)
        obtain ⟨L, G⟩ := placeElement_log hids fuel x hx { p with rest := rest } none p' hin' (List.nodup_cons.1 hnd).2 hp
        obtain ⟨-, hsl, -⟩ := placeElement_why (all := all) (fun _ => True) (by intros; trivial) fuel hx (p := { p with rest := rest }) hin' trivial (.inl rfl) hp
        have hgr := G.grid
        have hre := G.rest
        simp only at hsl hgr hre
        have hall' : ((p'.grid.map (·.nodeId)) ++ p'.rest.map (·.id)).Perm (all.map (·.id)) := by
          refine List.Perm.trans ?_ hall
          rw [hgr, List.map_cons]
          rw [List.perm_iff_count] at hre ⊢
          intro a
          have := hre a
          simp only [List.count_append, List.count_cons] at this ⊢
          omega
        refine ih (hsl.trans ((List.sublist_cons_self _ _).trans hsub)) hall' ?_ h
        -- one round
        intro c hc hA hj q hq hAq hjq pre post ep
        rw [hgr] at ep
        have hgn : (p.grid.map (·.nodeId) ++ x.id :: L).Nodup := by
          have := hall'.nodup_iff.2 hids
          rw [hgr] at this
          exact (List.nodup_append.1 this).1
        have hLn : (x.id :: L).Nodup := (List.nodup_append.1 hgn).2.1
        have late : (A x → "Join" ∈ x.labels) → q.id ∉ x.id :: L := fun hn => G.none_late hids C hx hLn (by
          intro i hi
          have : i ∈ all.map (·.id) := hall'.mem_iff.1 (by rw [hgr]; exact List.mem_append_left _ (List.mem_append_right _ hi))
          obtain ⟨y, hy, e⟩ := List.mem_map.1 this
          exact ⟨y, hy, e⟩) hn q hq hAq hjq
        -- placed in this round
        have now : q.id ∈ x.id :: L → c.id ∈ p.grid.map (·.nodeId) := by
          intro hqL
          by_cases hn : A x → "Join" ∈ x.labels
          · exact absurd hqL (late hn)
          · have hn' : A x ∧ "Join" ∉ x.labels := by
              constructor
              · by_contra hh; exact hn fun h => absurd h hh
              · intro hh; exact hn fun _ => hh
            by_contra hcg
            have : c.id ∈ p.grid.map (·.nodeId) ++ (x :: rest).map (·.id) := hall.mem_iff.2 (List.mem_map_of_mem hc)
            rcases List.mem_append.1 this with h1 | h1
            · exact hcg h1
            · obtain ⟨c', hc', e'⟩ := List.mem_map.1 h1
              have := List.inj_on_of_nodup_map hids (hin (by rw [e]; exact hc')) hc e'
              subst this
              have hcx : c' ≠ x := by rintro rfl; exact hn'.2 hj
              have hcr : c' ∈ rest := by
                rcases List.mem_cons.1 hc' with h | h
                · exact absurd h hcx
                · exact h
              have hxs : x ∈ sorted := hsub.subset (by simp)
              obtain ⟨s1, s2, es⟩ := List.append_of_mem hxs
              have h2 := hf c' hc hA hj x hx hn'.1 hn'.2 s1 s2 es
              -- the order of the rest is the order of the sorting
              have hsn : sorted.Nodup := hndS.of_map
              have h3 : [x, c'].Sublist sorted := (List.Sublist.cons_cons x (List.singleton_sublist.2 hcr)).trans hsub
              rw [es] at h3 hsn
              have h4 : x ∉ s1 := fun h => (List.nodup_append.1 hsn).2.2 x h x (by simp) rfl
              have h5 : c' ∉ x :: s2 := fun h => (List.nodup_append.1 hsn).2.2 c' h2 c' h rfl
              obtain ⟨l1, l2, el, hl1, hl2⟩ := List.sublist_append_iff.1 h3
              cases l1 with
              | nil =>
                simp only [List.nil_append] at el
                subst el
                exact h5 (hl2.subset (by simp))
              | cons z l1 =>
                simp only [List.cons_append, List.cons.injEq] at el
                obtain ⟨rfl, -⟩ := el
                exact h4 (hl1.subset (by simp))
        rcases List.append_eq_append_iff.1 ep with ⟨a, e1, e2⟩ | ⟨a, e1, e2⟩
        · rw [e1]
          exact List.mem_append_left _ (now (by rw [e2]; simp))
        · cases a with
          | nil =>
            simp only [List.append_nil] at e1
            simp only [List.nil_append, List.cons.injEq] at e2
            rw [← e1]
            exact now (by rw [e2.1]; simp)
          | cons b a =>
            simp only [List.cons_append, List.cons.injEq] at e2
            rw [← e2.1] at e1
            exact hQ c hc hA hj q hq hAq hjq pre a e1

/-- Before a node to which no split leads, the nodes that are sorted before it have cells. -/
theorem gridLoop_othersCells (hids : (all.map (·.id)).Nodup) {sorted : List NC} (hperm : sorted.Perm all) {j : NC} (hj : j ∈ all)
    (hno : ∀ y ∈ all, j.id ∉ targetsOf d y) {c : NC} (hc : c ∈ all) (hf : ∀ pre post, sorted = pre ++ j :: post → c ∈ pre)
    (fuel n : Nat) {p : Place} {g : List Cell} (hsub : p.rest.Sublist sorted)
    (hall : ((p.grid.map (·.nodeId)) ++ p.rest.map (·.id)).Perm (all.map (·.id)))
    (hQ : ∀ pre post, p.grid.map (·.nodeId) = pre ++ j.id :: post → c.id ∈ pre)
    (h : gridLoop d fuel n p = .ok g) : ∀ pre post, g.map (·.nodeId) = pre ++ j.id :: post → c.id ∈ pre := by
  induction n generalizing p with
  | zero => cases h
  | succ n ih =>
    rw [gridLoop] at h
    split at h
    · cases h; exact hQ
    · rename_i x rest e
      have hin : p.rest ⊆ all := fun y hy => hperm.mem_iff.1 (hsub.subset hy)
      have hx : x ∈ all := hin (by rw [e]; simp)
      have hndS : (sorted.map (·.id)).Nodup := (hperm.map (·.id)).nodup_iff.2 hids
      have hnd : (p.rest.map (·.id)).Nodup := (hsub.map _).nodup hndS
      rw [e] at hnd hsub hall
      cases hp : placeElement d fuel x { p with rest := rest } none with
      | error e => rw [hp] at h; cases h
      | ok p' =>
        rw [hp] at h
        have hin' : rest ⊆ all := fun y hy => hin (by rw [e]; exact List.mem_cons_of_mem _ hy)
        obtain ⟨L, G⟩ := placeElement_log hids fuel x hx { p with rest := rest } none p' hin' (List.nodup_cons.1 hnd).2 hp
        obtain ⟨-, hsl, -⟩ := placeElement_why (all := all) (fun _ => True) (by intros; trivial) fuel hx (p := { p with rest := rest }) hin' trivial (.inl rfl) hp
        have hgr := G.grid
        have hre := G.rest
        simp only at hsl hgr hre
        have hall' : ((p'.grid.map (·.nodeId)) ++ p'.rest.map (·.id)).Perm (all.map (·.id)) := by
          refine List.Perm.trans ?_ hall
          rw [hgr, List.map_cons]
          rw [List.perm_iff_count] at hre ⊢
          intro a
          have := hre a
          simp only [List.count_append, List.count_cons] at this ⊢
          omega
        refine ih (hsl.trans ((List.sublist_cons_self _ _).trans hsub)) hall' ?_ h
        intro pre post ep
        rw [hgr] at ep
        have now : j.id ∈ x.id :: L → c.id ∈ p.grid.map (·.nodeId) := by
          intro hjL
          have hjx : j = x := by
            rcases List.mem_cons.1 hjL with h1 | h1
            · exact List.inj_on_of_nodup_map hids hj hx h1
            · exfalso
              obtain ⟨i, hi, hq'⟩ := List.mem_flatMap.1 (G.tails.mem_iff.1 h1)
              have : i ∈ all.map (·.id) := hall'.mem_iff.1 (by rw [hgr]; exact List.mem_append_left _ (List.mem_append_right _ hi))
              obtain ⟨y, hy, rfl⟩ := List.mem_map.1 this
              rw [targetsAt_id hids hy] at hq'
              exact hno y hy hq'
          subst hjx
          by_contra hcg
          have : c.id ∈ p.grid.map (·.nodeId) ++ (j :: rest).map (·.id) := hall.mem_iff.2 (List.mem_map_of_mem hc)
          rcases List.mem_append.1 this with h1 | h1
          · exact hcg h1
          · obtain ⟨c', hc', e'⟩ := List.mem_map.1 h1
            have := List.inj_on_of_nodup_map hids (hin (by rw [e]; exact hc')) hc e'
            subst this
            have hxs : j ∈ sorted := hsub.subset (by simp)
            obtain ⟨s1, s2, es⟩ := List.append_of_mem hxs
            have h2 := hf s1 s2 es
            have hsn : sorted.Nodup := hndS.of_map
            have hcr : c' ∈ rest := by
              rcases List.mem_cons.1 hc' with h | h
              · exfalso
                rw [es] at hsn
                exact (List.nodup_append.1 hsn).2.2 c' h2 j (by simp) h
              · exact h
            have h3 : [j, c'].Sublist sorted := (List.Sublist.cons_cons j (List.singleton_sublist.2 hcr)).trans hsub
            rw [es] at h3 hsn
            have h4 : j ∉ s1 := fun h => (List.nodup_append.1 hsn).2.2 j h j (by simp) rfl
            have h5 : c' ∉ j :: s2 := fun h => (List.nodup_append.1 hsn).2.2 c' h2 c' h rfl
            obtain ⟨l1, l2, el, hl1, hl2⟩ := List.sublist_append_iff.1 h3
            cases l1 with
            | nil =>
              simp only [List.nil_append] at el
              subst el
              exact h5 (hl2.subset (by simp))
            | cons z l1 =>
              simp only [List.cons_append, List.cons.injEq] at el
              obtain ⟨rfl, -⟩ := el
              exact h4 (hl1.subset (by simp))
        rcases List.append_eq_append_iff.1 ep with ⟨a, e1, e2⟩ | ⟨a, e1, e2⟩
        · rw [e1]
          exact List.mem_append_left _ (now (by rw [e2]; simp))
        · cases a with
          | nil =>
            simp only [List.append_nil] at e1
            simp only [List.nil_append, List.cons.injEq] at e2
            rw [← e1]
            exact now (by rw [e2.1]; simp)
          | cons b a =>
            simp only [List.cons_append, List.cons.injEq] at e2
            rw [← e2.1] at e1
            exact hQ pre a e1

end

end Bpmn.Layouter

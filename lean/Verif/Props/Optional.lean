import Verif.Props.Placing
import Verif.Spec.Optional
/-! # C135: how lines with optional steps are drawn -/
set_option linter.unusedSimpArgs false
set_option linter.unusedVariables false

namespace Bpmn.Layouter
open Bpmn Spec Classify

variable {d : Diagram}

/-- The row behind an optional step. -/
def nextRow (r : Int) : Int := if r - 2 = 0 then r + 1 else r - 2

/-- The cells of the parts. -/
def cells (r c : Int) : List Part → List Cell
  | [] => []
  | .step n :: t => ⟨r, c, n.1⟩ :: cells r (c + 1) t
  | .optional g a j :: t => ⟨r, c, g.1⟩ :: ⟨r + 2, c + 1, a.1⟩ :: ⟨nextRow r, c + 2, j.1⟩ :: cells (nextRow r) (c + 3) t

theorem two_of_two {α : Type} {l : List α} (h : l.length = 2) {x y : α} (hx : x ∈ l) (hy : y ∈ l) (hne : x ≠ y) : ∀ z, z ∈ l ↔ z = x ∨ z = y := by
  match l, h with
  | [a, b], _ =>
    simp only [List.mem_cons, List.not_mem_nil, or_false] at hx hy ⊢
    intro z
    rcases hx with rfl | rfl <;> rcases hy with rfl | rfl
    · exact absurd rfl hne
    · rfl
    · exact or_comm
    · exact absurd rfl hne

theorem find_cell {g : List Cell} (hn : (g.map (·.nodeId)).Nodup) {c : Cell} (hc : c ∈ g) : g.find? (fun x => x.nodeId == c.nodeId) = some c := by
  cases hf : g.find? (fun x => x.nodeId == c.nodeId) with
  | none => exact absurd (List.find?_eq_none.1 hf c hc) (by simp)
  | some c' =>
    have e : c'.nodeId = c.nodeId := by simpa using List.find?_some hf
    rw [List.inj_on_of_nodup_map hn (List.mem_of_find?_eq_some hf) hc e]

/-- A node with one predecessor is placed right of it. -/
theorem place_next (h : Consistent d) {m n : Node} (hm : m ∈ d.getNodes) (hn : n ∈ d.getNodes) (hf : Feeds m n) (h1 : (ins n).length = 1)
    {p : Place} {c : Cell} (hc : p.grid.find? (fun x => x.nodeId == m.1) = some c) (hcol : ∀ x ∈ p.grid, x.col ≤ c.col) (enf : Option Int) :
    placeSelf d (ncOf n) p enf = .ok ({ p with grid := p.grid ++ [⟨enf.getD c.row, c.col + 1, n.1⟩] }, c.row) := by
  obtain ⟨i, i1, i2⟩ := hf
  have e : ins n = [i] := by
    obtain ⟨k, hk⟩ := List.length_eq_one_iff.1 h1
    rw [hk] at i2 ⊢
    rw [List.mem_singleton.1 i2]
  have hs := flowFromTo_source (feeds_flow h hm hn i1 i2)
  have hj : "Join" ∉ (ncOf n).labels := by
    rw [ncOf, join_mem_labels, h1]
    omega
  unfold placeSelf
  rw [if_neg (by simp [ncOf, e]), if_pos hj]
  simp only [ncOf, e, pyIndex, List.getElem?_cons_zero, bind, Except.bind, hs, hc]
  rw [insert_free n.1 (fun x hx k => by have := hcol x hx; omega)]
  rfl

theorem place_plain {fuel : Nat} {n : Node} (hs : (outs n).length ≤ 1) {p p' : Place} {enf : Option Int} {r : Int} (h : placeSelf d (ncOf n) p enf = .ok (p', r)) :
    placeElement d (fuel + 1) (ncOf n) p enf = .ok p' := by
  rw [placeElement, h]
  simp only [bind, Except.bind]
  rw [if_neg]
  · rfl
  · rw [ncOf, split_mem_labels]
    omega

theorem schedule_two (r : Int) : schedule 2 r = [(0, r + 2), (1, r - 2)] := by
  have e : List.range 1 = [0] := rfl
  simp [schedule, gridColumnWidth, e]

/-- The join of an optional step. -/
theorem place_join (h : Consistent d) {g a j : Node} (hg : g ∈ d.getNodes) (ha : a ∈ d.getNodes) (hj : j ∈ d.getNodes) (f1 : Feeds g j) (f2 : Feeds a j) (hne : g.1 ≠ a.1)
    (h1 : (ins j).length = 2) {p : Place} {r c : Int} {G : List Cell} (hG : p.grid = G ++ [⟨r, c, g.1⟩, ⟨r + 2, c + 1, a.1⟩]) (hpos : 0 ≤ c)
    (hid : ∀ x ∈ G, x.nodeId ≠ g.1 ∧ x.nodeId ≠ a.1) (hcol : ∀ x ∈ G, x.col ≤ c) :
    placeSelf d (ncOf j) p (some (r - 2)) = .ok ({ p with grid := p.grid ++ [⟨nextRow r, c + 2, j.1⟩] }, r + 1) := by
  obtain ⟨ids, e1, e2, e3⟩ := endsOf_mem (get := flowSource d) (ins j) fun i hi => by
    obtain ⟨m, hm, hf, -⟩ := h.inFlow j hj i hi
    exact ⟨m.1, flowFromTo_source hf⟩
  have src : ∀ {m : Node}, m ∈ d.getNodes → Feeds m j → m.1 ∈ ids := by
    rintro m hm ⟨i, i1, i2⟩
    exact (e3 _).2 ⟨i, i2, flowFromTo_source (feeds_flow h hm hj i1 i2)⟩
  have key := two_of_two (e2.trans h1) (src hg f1) (src ha f2) hne
  have flt : (p.grid.filter fun x => decide (x.nodeId ∈ ids)) = [⟨r, c, g.1⟩, ⟨r + 2, c + 1, a.1⟩] := by
    rw [hG, List.filter_append, List.filter_eq_nil_iff.2, List.nil_append, List.filter_eq_self.2]
    · intro x hx
      simp only [List.mem_cons, List.not_mem_nil, or_false] at hx
      rcases hx with rfl | rfl <;> simp [key]
    · intro x hx
      simp only [key, decide_eq_true_eq]
      have := hid x hx
      rintro (k | k)
      · exact this.1 k
      · exact this.2 k
  have hl : "Join" ∈ (ncOf j).labels := by
    rw [ncOf, join_mem_labels, h1]
  unfold placeSelf
  rw [if_neg (by simp [ncOf, h1]), if_neg (fun k => k hl)]
  simp only [ncOf, e1, bind, Except.bind, predStats_eq, flt]
  have s1 : Int.fdiv (0 + (List.map (fun x : Cell => x.row) [⟨r, c, g.1⟩, ⟨r + 2, c + 1, a.1⟩]).sum) (ids.length : Int) = r + 1 := by
    rw [e2, h1]
    simp only [List.map_cons, List.map_nil, List.sum_cons, List.sum_nil]
    rw [show (0 + (r + (r + 2 + 0)) : Int) = (r + 1) * ((2 : Nat) : Int) by push_cast; ring]
    exact Int.mul_fdiv_cancel _ (by norm_num)
  have s2 : ((List.map (fun x : Cell => x.col) [⟨r, c, g.1⟩, ⟨r + 2, c + 1, a.1⟩]).foldl max 0) = c + 1 := by
    simp only [List.map_cons, List.map_nil, List.foldl_cons, List.foldl_nil]
    omega
  rw [s1, s2, insert_free j.1]
  · simp only [pure, Except.pure, truthyOr, nextRow]
    rw [show c + 1 + 1 = c + 2 by ring]
  · intro x hx k
    rw [hG] at hx
    rcases List.mem_append.1 hx with hx | hx
    · have := hcol x hx
      omega
    · simp only [List.mem_cons, List.not_mem_nil, or_false] at hx
      rcases hx with rfl | rfl <;> simp at k <;> omega

/-- An optional step. -/
theorem place_optional (h : Consistent d) {m g a j : Node} (hm : m ∈ d.getNodes) (hg : g ∈ d.getNodes) (ha : a ∈ d.getNodes) (hj : j ∈ d.getNodes)
    (f0 : Feeds m g) (f1 : Feeds g a) (f2 : Feeds a j) (f3 : Feeds g j) (i1 : (ins g).length = 1) (i2 : (outs g).length = 2) (i3 : (ins a).length = 1)
    (i4 : (outs a).length = 1) (i5 : (ins j).length = 2) (i6 : (outs j).length ≤ 1) {fuel : Nat} {p : Place} {c : Cell} {R : List NC}
    (hn : (p.grid.map (·.nodeId) ++ g.1 :: a.1 :: j.1 :: R.map (·.id)).Nodup) (hc : c ∈ p.grid) (hcm : c.nodeId = m.1) (hcol : ∀ x ∈ p.grid, x.col ≤ c.col) (hpos : 0 ≤ c.col)
    (hr : p.rest = ncOf a :: ncOf j :: R) :
    placeElement d (fuel + 2) (ncOf g) p none =
      .ok { p with grid := p.grid ++ [⟨c.row, c.col + 1, g.1⟩, ⟨c.row + 2, c.col + 2, a.1⟩, ⟨nextRow c.row, c.col + 3, j.1⟩], rest := R } := by
  obtain ⟨n1, n2, n3⟩ := List.nodup_append.1 hn
  simp only [List.nodup_cons, List.mem_cons, not_or] at n2
  obtain ⟨⟨ga, gj, gR⟩, ⟨aj, aR⟩, jR, nR⟩ := n2
  have hid : ∀ x ∈ p.grid, x.nodeId ≠ g.1 ∧ x.nodeId ≠ a.1 := fun x hx =>
    ⟨n3 _ (List.mem_map_of_mem hx) _ (by simp), n3 _ (List.mem_map_of_mem hx) _ (by simp)⟩
  have fc := find_cell n1 hc
  rw [hcm] at fc
  have s1 := place_next h hm hg f0 i1 fc hcol none
  obtain ⟨ids, e1, e2, e3⟩ := endsOf_mem (get := flowTarget d) (outs g) fun i hi => by
    obtain ⟨t, ht, hf, -⟩ := h.outFlow g hg i hi
    exact ⟨t.1, flowFromTo_target hf⟩
  have tgt : ∀ {t : Node}, t ∈ d.getNodes → Feeds g t → t.1 ∈ ids := by
    rintro t ht ⟨i, k1, k2⟩
    exact (e3 _).2 ⟨i, k1, flowFromTo_target (feeds_flow h hg ht k1 k2)⟩
  have key := two_of_two (e2.trans i2) (tgt ha f1) (tgt hj f3) aj
  have flt : ((ncOf a :: ncOf j :: R).filter fun y => decide (y.id ∈ ids)) = [ncOf a, ncOf j] := by
    rw [List.filter_cons_of_pos (by simp [key, ncOf]), List.filter_cons_of_pos (by simp [key, ncOf]), List.filter_eq_nil_iff.2]
    intro x hx
    simp only [key, decide_eq_true_eq]
    rintro (k | k)
    · exact aR (List.mem_map.2 ⟨x, hx, k⟩)
    · exact jR (List.mem_map.2 ⟨x, hx, k⟩)
  have hsp : "Split" ∈ (ncOf g).labels := by
    rw [ncOf, split_mem_labels, i2]
  rw [placeElement, s1]
  simp only [bind, Except.bind, Option.getD_none]
  rw [if_pos hsp]
  simp only [show (ncOf g).outs = outs g from rfl, e1, hr, flt, e2, i2, schedule_two]
  simp only [placeSuccessors, pyIndex, List.getElem?_cons_zero, List.getElem?_cons_succ, bind, Except.bind]
  -- the optional step
  have fg : (p.grid ++ [(⟨c.row, c.col + 1, g.1⟩ : Cell)]).find? (fun x => x.nodeId == g.1) = some ⟨c.row, c.col + 1, g.1⟩ := by
    rw [List.find?_append, List.find?_eq_none.2 fun x hx => by simpa using (hid x hx).1]
    simp
  have s2 := place_next h hg ha f1 i3 (p := { p with grid := p.grid ++ [⟨c.row, c.col + 1, g.1⟩], rest := ncOf a :: ncOf j :: R }) fg (by
    intro x hx
    simp only [List.mem_append, List.mem_singleton] at hx
    rcases hx with hx | rfl
    · have := hcol x hx
      show x.col ≤ c.col + 1
      omega
    · exact le_refl _) (some (c.row + 2))
  have s2' := place_plain (fuel := fuel) (by omega) s2
  simp only [Option.getD_some] at s2'
  rw [s2']
  simp only [pyRemove, List.mem_cons, true_or, if_true, List.erase_cons_head]
  have s3 := place_join h hg ha hj f3 f2 ga i5
    (p := { p with grid := p.grid ++ [⟨c.row, c.col + 1, g.1⟩] ++ [⟨c.row + 2, c.col + 1 + 1, a.1⟩], rest := ncOf j :: R }) (r := c.row) (c := c.col + 1) (G := p.grid)
    (by simp) (by omega) hid (fun x hx => by have := hcol x hx; omega)
  have s3' := place_plain (fuel := fuel) i6 s3
  rw [s3']
  simp only [List.mem_cons, true_or, if_true, List.erase_cons_head, List.append_assoc, List.cons_append, List.nil_append]
  rw [show c.col + 1 + 1 = c.col + 2 by ring, show c.col + 1 + 2 = c.col + 3 by ring]


theorem loop_line (h : Consistent d) (fuel : Nat) : ∀ (R : List Part) (n : Nat), R.length < n → ∀ {p : Place} {m : Node} {c : Cell}, m ∈ d.getNodes →
    (∀ x ∈ R.flatMap Part.nodes, x ∈ d.getNodes) → (m :: R.flatMap Part.nodes).IsChain Feeds →
    (∀ n, .step n ∈ R → (ins n).length = 1 ∧ (outs n).length ≤ 1) →
    (∀ g a j, .optional g a j ∈ R → Feeds g j ∧ (ins g).length = 1 ∧ (outs g).length = 2 ∧ (ins a).length = 1 ∧ (outs a).length = 1 ∧
      (ins j).length = 2 ∧ (outs j).length ≤ 1) →
    (p.grid.map (·.nodeId) ++ (R.flatMap Part.nodes).map (·.1)).Nodup → c ∈ p.grid → c.nodeId = m.1 → (∀ x ∈ p.grid, x.col ≤ c.col) → 0 ≤ c.col →
    p.rest = (R.flatMap Part.nodes).map ncOf → gridLoop d (fuel + 2) n p = .ok (p.grid ++ cells c.row (c.col + 1) R) := by
  intro R
  induction R with
  | nil =>
    intro n hn p m c _ _ _ _ _ _ _ _ _ _ hr
    obtain ⟨n, rfl⟩ : ∃ k, n = k + 1 := ⟨n - 1, by simp at hn; omega⟩
    rw [gridLoop, hr]
    simp [cells]
  | cons q R ih =>
    intro n hn p m c hm hmem hch hst hsk hnd hc hcm hcol hpos hr
    obtain ⟨n, rfl⟩ : ∃ k, n = k + 1 := ⟨n - 1, by simp at hn; omega⟩
    have hn' : R.length < n := by simp at hn; omega
    cases q with
    | step x =>
      simp only [List.flatMap_cons, Part.nodes, List.cons_append, List.nil_append, List.map_cons, List.isChain_cons_cons] at hmem hch hnd hr
      have hx := hmem x (by simp)
      obtain ⟨k1, k2⟩ := hst x (by simp)
      have n1 := (List.nodup_append.1 hnd).1
      have fc := find_cell n1 hc
      rw [hcm] at fc
      have s1 := place_next h hm hx hch.1 k1 (p := { p with rest := (R.flatMap Part.nodes).map ncOf }) fc hcol none
      rw [gridLoop, hr]
      simp only [bind, Except.bind]
      rw [place_plain k2 s1]
      simp only [Option.getD_none]
      rw [ih n hn' (p := { p with grid := p.grid ++ [⟨c.row, c.col + 1, x.1⟩], rest := (R.flatMap Part.nodes).map ncOf }) (m := x) (c := ⟨c.row, c.col + 1, x.1⟩) hx
        (fun y hy => hmem y (by simp [hy])) hch.2 (fun y hy => hst y (by simp [hy])) (fun g a j hy => hsk g a j (by simp [hy])) (by simpa using hnd) (by simp) rfl ?_ ?_ rfl]
      · simp [cells]
      · intro y hy
        simp only [List.mem_append, List.mem_singleton] at hy
        rcases hy with hy | rfl
        · have := hcol y hy
          show y.col ≤ c.col + 1
          omega
        · exact le_refl _
      · show 0 ≤ c.col + 1
        omega
    | optional g a j =>
      simp only [List.flatMap_cons, Part.nodes, List.cons_append, List.nil_append, List.map_cons, List.isChain_cons_cons] at hmem hch hnd hr
      obtain ⟨f0, f1, f2, hch⟩ := hch
      obtain ⟨f3, i1, i2, i3, i4, i5, i6⟩ := hsk g a j (by simp)
      have hg := hmem g (by simp)
      have ha := hmem a (by simp)
      have hj := hmem j (by simp)
      have s1 := place_optional h hm hg ha hj f0 f1 f2 f3 i1 i2 i3 i4 i5 i6 (fuel := fuel) (p := { p with rest := ncOf a :: ncOf j :: (R.flatMap Part.nodes).map ncOf })
        (R := (R.flatMap Part.nodes).map ncOf) (by simpa [Function.comp_def, ncOf] using hnd) hc hcm hcol hpos rfl
      rw [gridLoop, hr]
      simp only [bind, Except.bind]
      rw [s1]
      simp only
      rw [ih n hn' (m := j) (c := ⟨nextRow c.row, c.col + 3, j.1⟩) hj (fun y hy => hmem y (by simp [hy])) hch (fun y hy => hst y (by simp [hy]))
        (fun g a j hy => hsk g a j (by simp [hy])) (by simpa using hnd) (by simp) rfl ?_ ?_ rfl]
      · simp only [cells, List.append_assoc, List.cons_append, List.nil_append]
        rw [show c.col + 1 + 1 = c.col + 2 by ring, show c.col + 1 + 2 = c.col + 3 by ring, show c.col + 1 + 3 = c.col + 3 + 1 by ring]
      · intro y hy
        simp only [List.mem_append, List.mem_cons, List.not_mem_nil, or_false] at hy
        rcases hy with hy | rfl | rfl | rfl
        · have := hcol y hy
          show y.col ≤ c.col + 3
          omega
        · show c.col + 1 ≤ c.col + 3
          omega
        · show c.col + 2 ≤ c.col + 3
          omega
        · exact le_refl _
      · show 0 ≤ c.col + 3
        omega

theorem nextRow_line (k : Nat) : nextRow (lineRow k) = lineRow (k + 1) := by
  unfold nextRow lineRow
  rcases Nat.eq_zero_or_pos k with rfl | hk
  · simp
  · rw [if_neg (by omega : ¬k = 0), if_neg (by omega), if_neg (by omega)]
    push_cast
    ring

theorem cells_split (pre : List Part) : ∀ (k : Nat) (c : Int) (rest : List Part),
    ∃ A, cells (lineRow k) c (pre ++ rest) = A ++ cells (lineRow (k + optionals pre)) (c + nodesIn pre) rest := by
  induction pre with
  | nil => intro k c rest; exact ⟨[], by simp [optionals, nodesIn]⟩
  | cons q t ih =>
    intro k c rest
    cases q with
    | step n =>
      obtain ⟨A, hA⟩ := ih k (c + 1) rest
      refine ⟨⟨lineRow k, c, n.1⟩ :: A, ?_⟩
      rw [List.cons_append, cells, hA, List.cons_append]
      simp only [optionals, nodesIn, List.flatMap_cons, Part.nodes, List.length_append, List.length_cons, List.length_nil]
      push_cast
      rw [show c + 1 + ((t.flatMap Part.nodes).length : Int) = c + (1 + ((t.flatMap Part.nodes).length : Int)) by ring]
    | optional g a j =>
      obtain ⟨A, hA⟩ := ih (k + 1) (c + 3) rest
      refine ⟨⟨lineRow k, c, g.1⟩ :: ⟨lineRow k + 2, c + 1, a.1⟩ :: ⟨lineRow (k + 1), c + 2, j.1⟩ :: A, ?_⟩
      rw [List.cons_append, cells, nextRow_line, hA]
      simp only [optionals, nodesIn, List.flatMap_cons, Part.nodes, List.length_append, List.length_cons, List.length_nil, List.cons_append]
      push_cast
      rw [show c + 3 + ((t.flatMap Part.nodes).length : Int) = c + (0 + ((t.flatMap Part.nodes).length : Int) + 1 + 1 + 1) by ring, show k + 1 + optionals t = k + (optionals t + 1) by omega]

theorem cells_ids (R : List Part) : ∀ (r c : Int), (cells r c R).map (·.nodeId) = (R.flatMap Part.nodes).map (·.1) := by
  induction R with
  | nil => intro r c; rfl
  | cons q t ih => intro r c; cases q <;> simp [cells, Part.nodes, ih]

/-! ## The order of the nodes -/

theorem exists_before {α : Type} {s m : α} : ∀ {l : List α}, m ∈ s :: l → m ≠ s → ∃ A x B, s :: l = A ++ x :: m :: B := by
  intro l
  induction l generalizing s with
  | nil => intro h hne; exact absurd (List.mem_singleton.1 h) hne
  | cons t l ih =>
    intro h hne
    by_cases e : m = t
    · exact ⟨[], s, l, by rw [e]; rfl⟩
    · obtain ⟨A, x, B, e'⟩ := ih (s := t) ((List.mem_cons.1 h).resolve_left hne) e
      exact ⟨s :: A, x, B, by rw [e']; rfl⟩

theorem optional_before {s : Node} {parts : List Part} (h : Consistent d) (ho : OptionalLine d s parts) {n m : Node} (hn : n ∈ d.getNodes) (hm : m ∈ d.getNodes)
    (hf : Feeds n m) : Before ((s :: parts.flatMap Part.nodes).map (·.1)) n.1 m.1 := by
  have hmL := ho.nodes.mem_iff.2 hm
  have hne : m ≠ s := by
    rintro rfl
    obtain ⟨i, -, hi⟩ := hf
    rw [ho.start.1] at hi
    simp at hi
  have single : (ins m).length = 1 → Before ((s :: parts.flatMap Part.nodes).map (·.1)) n.1 m.1 := by
    intro h1
    obtain ⟨A, x, B, e⟩ := exists_before hmL hne
    have hx : x ∈ d.getNodes := ho.nodes.mem_iff.1 (by rw [e]; simp)
    have hc := ho.line
    rw [e, List.isChain_split] at hc
    have fx : Feeds x m := (List.isChain_cons_cons.1 hc.2).1
    obtain rfl := feeds_unique h hn hx hm hf fx (by unfold Joins; omega)
    apply before_of_sublist
    rw [e]
    simp only [List.map_append, List.map_cons]
    exact List.Sublist.trans (List.Sublist.cons₂ _ (List.Sublist.cons₂ _ (List.nil_sublist _))) (List.sublist_append_right _ _)
  obtain ⟨q, hq, hmq⟩ := List.mem_flatMap.1 ((List.mem_cons.1 hmL).resolve_left hne)
  cases q with
  | step x =>
    simp only [Part.nodes, List.mem_singleton] at hmq
    subst hmq
    exact single (ho.steps _ hq).1
  | optional g a j =>
    obtain ⟨f3, i1, i2, i3, i4, i5, i6⟩ := ho.skips g a j hq
    simp only [Part.nodes, List.mem_cons, List.not_mem_nil, or_false] at hmq
    rcases hmq with rfl | rfl | rfl
    · exact single i1
    · exact single i3
    · obtain ⟨pre, post, e⟩ := List.append_of_mem hq
      have eL : s :: parts.flatMap Part.nodes = (s :: pre.flatMap Part.nodes) ++ g :: a :: m :: post.flatMap Part.nodes := by
        rw [e]; simp [Part.nodes]
      have hg : g ∈ d.getNodes := ho.nodes.mem_iff.1 (by rw [eL]; simp)
      have ha : a ∈ d.getNodes := ho.nodes.mem_iff.1 (by rw [eL]; simp)
      have hc := ho.line
      rw [eL, List.isChain_split] at hc
      have f2 : Feeds a m := (List.isChain_cons_cons.1 (List.isChain_cons_cons.1 hc.2).2).1
      have nd : ((s :: parts.flatMap Part.nodes).map (·.1)).Nodup := (ho.nodes.map _).nodup_iff.2 h.ids
      have ga : g.1 ≠ a.1 := by
        rw [eL] at nd
        simp only [List.map_append, List.map_cons] at nd
        have := (List.nodup_append.1 nd).2.1
        simp only [List.nodup_cons, List.mem_cons, not_or] at this
        exact this.1.1
      obtain ⟨ids, e1, e2, e3⟩ := endsOf_mem (get := flowSource d) (ins m) fun i hi => by
        obtain ⟨x, hx, hf, -⟩ := h.inFlow m hm i hi
        exact ⟨x.1, flowFromTo_source hf⟩
      have src : ∀ {x : Node}, x ∈ d.getNodes → Feeds x m → x.1 ∈ ids := by
        rintro x hx ⟨i, k1, k2⟩
        exact (e3 _).2 ⟨i, k2, flowFromTo_source (feeds_flow h hx hm k1 k2)⟩
      apply before_of_sublist
      rw [eL]
      simp only [List.map_append, List.map_cons]
      refine List.Sublist.trans ?_ (List.sublist_append_right _ _)
      rcases (two_of_two (e2.trans i5) (src hg f3) (src ha f2) ga n.1).1 (src hn hf) with e' | e' <;> rw [e']
      · exact List.Sublist.cons₂ _ (List.Sublist.cons _ (List.Sublist.cons₂ _ (List.nil_sublist _)))
      · exact List.Sublist.cons _ (List.Sublist.cons₂ _ (List.Sublist.cons₂ _ (List.nil_sublist _)))

theorem map_inj_on {α β : Type} {f : α → β} : ∀ {l k : List α}, (∀ x ∈ l, ∀ y ∈ k, f x = f y → x = y) → l.map f = k.map f → l = k := by
  intro l
  induction l with
  | nil => intro k _ h; cases k <;> simp_all
  | cons x l ih =>
    intro k hi h
    cases k with
    | nil => simp at h
    | cons y k =>
      simp only [List.map_cons, List.cons.injEq] at h
      rw [hi x (by simp) y (by simp) h.1, ih (fun a ha b hb => hi a (by simp [ha]) b (by simp [hb])) h.2]

/-- A chain of nodes is sorted in just this order. -/
theorem order_unique {o L : List String} (hp : o.Perm L) (hn : L.Nodup) (hc : L.IsChain (Before o)) : o = L := by
  have hno : o.Nodup := hp.nodup_iff.2 hn
  have hc' : L.IsChain (fun a b => o.idxOf a < o.idxOf b) := hc.imp fun a b h => before_lower hno h
  have hL : L.Pairwise (fun a b => o.idxOf a < o.idxOf b) := by
    have : IsTrans String (fun a b => o.idxOf a < o.idxOf b) := ⟨fun _ _ _ h1 h2 => Nat.lt_trans h1 h2⟩
    exact List.isChain_iff_pairwise.1 hc'
  have hO : o.Pairwise (fun a b => o.idxOf a < o.idxOf b) := by
    rw [List.pairwise_iff_getElem]
    intro i j hi hj hij
    rw [hno.idxOf_getElem, hno.idxOf_getElem]
    exact hij
  exact List.Perm.eq_of_pairwise (fun a b _ _ h1 h2 => absurd h1 (Nat.lt_asymm h2)) hO hL hp

end Bpmn.Layouter

namespace Bpmn.Props
open Bpmn Spec Layouter Classify LayoutMetrics

theorem optional_grid {d : Diagram} (h : Consistent d) (hs : ∀ n ∈ d.getNodes, Supported n) {s : Node} {parts : List Part} (ho : OptionalLine d s parts) :
    ∃ bound, ∀ fuel ≥ bound, ((topologicalSort fuel d ((byType d).map ncOf)).bind fun r => gridLayout fuel d r.1) = .ok (⟨2, 1, s.1⟩ :: cells 2 2 parts) := by
  have nd : ((s :: parts.flatMap Part.nodes).map (·.1)).Nodup := (ho.nodes.map _).nodup_iff.2 h.ids
  have mem : ∀ x ∈ s :: parts.flatMap Part.nodes, x ∈ d.getNodes := fun x hx => ho.nodes.mem_iff.1 hx
  have hac : Acyclic d := acyclic_of_feeds h (fun n => ((s :: parts.flatMap Part.nodes).map (·.1)).idxOf n.1) fun a ha b hb hf => before_lower nd (optional_before h ho ha hb hf)
  obtain ⟨all, fl, hall, sorted, bound, hb⟩ := C25_acyclic d h (fun n hn _ => hs n hn) hac
  have eall : all = (byType d).map ncOf := by
    simp only [generateElementsClassification, elements_eq h.complete, bind, Except.bind, pure, Except.pure, Except.ok.injEq, Prod.mk.injEq] at hall
    exact hall.1.symm
  obtain ⟨hperm, hord⟩ := C24_topological_order d h hall (hb bound (le_refl _))
  subst eall
  have inAll : ∀ n ∈ d.getNodes, n.1 ∈ ((byType d).map ncOf).map (·.id) := fun n hn =>
    List.mem_map.2 ⟨ncOf n, List.mem_map_of_mem (mem_byType.2 ⟨hn, hs n hn⟩), rfl⟩
  have pids : (sorted.map (·.id)).Perm ((s :: parts.flatMap Part.nodes).map (·.1)) := by
    have g := good_of_consistent h
    refine (List.perm_ext_iff_of_nodup ((hperm.map _).nodup_iff.2 g.ids) nd).2 fun i => ?_
    rw [(hperm.map _).mem_iff, (ho.nodes.map _).mem_iff]
    constructor
    · intro hi
      obtain ⟨x, hx, rfl⟩ := List.mem_map.1 hi
      obtain ⟨n, hn, rfl⟩ := List.mem_map.1 hx
      exact List.mem_map.2 ⟨n, (mem_byType.1 hn).1, rfl⟩
    · intro hi
      obtain ⟨n, hn, rfl⟩ := List.mem_map.1 hi
      exact inAll n hn
  have eids := order_unique pids nd (by
    rw [List.isChain_map]
    refine List.IsChain.imp_of_mem_imp (fun {a b} ha hb hf => ?_) ho.line
    obtain ⟨i, i1, i2⟩ := hf
    exact hord i _ _ (feeds_flow h (mem a ha) (mem b hb) i1 i2) (by simp) (inAll b (mem b hb)))
  have esorted : sorted = (s :: parts.flatMap Part.nodes).map ncOf := by
    apply map_inj_on (f := fun x : NC => x.id)
    · intro x hx y hy e
      obtain ⟨n, hn, rfl⟩ := List.mem_map.1 (hperm.mem_iff.1 hx)
      obtain ⟨m, hm, rfl⟩ := List.mem_map.1 hy
      rw [h.node_eq (mem_byType.1 hn).1 (mem m hm) e]
    · rw [eids, List.map_map]
      rfl
  refine ⟨max bound (parts.length + 3), fun fuel hfuel => ?_⟩
  rw [hb fuel (by omega)]
  simp only [Except.bind]
  obtain ⟨k, rfl⟩ : ∃ k, fuel = k + 2 := ⟨fuel - 2, by omega⟩
  rw [gridLayout, esorted, gridLoop]
  simp only [List.map_cons, bind, Except.bind]
  have s1 : placeSelf d (ncOf s) ⟨[], gridColumnWidth, 1, (parts.flatMap Part.nodes).map ncOf⟩ none =
      .ok (⟨[⟨2, 1, s.1⟩], 4, 1, (parts.flatMap Part.nodes).map ncOf⟩, 2) := by
    unfold placeSelf
    rw [if_pos (by simp [ncOf, ho.start.1])]
    rfl
  rw [place_plain ho.start.2 s1]
  simp only
  rw [loop_line h k parts (k + 1) (by omega) (m := s) (c := ⟨2, 1, s.1⟩) (mem s (by simp)) (fun x hx => mem x (by simp [hx])) ho.line ho.steps ho.skips (by simpa using nd)
    (by simp) rfl (by simp) (by simp) rfl]
  rfl

/-- **C135.** A line of steps, some of which can be skipped, is laid out whatever the number of nodes.  The nodes are drawn in columns from left to right in the order of the line.
The line is in row 2 before the first optional step, in row 3 behind it, and every further optional step moves the rest of the line two rows up;
an optional step itself is two rows below the gateway before it. -/
theorem C135_layout (d : Diagram) (h : Consistent d) (hs : ∀ n ∈ d.getNodes, Supported n) (s : Node) (parts : List Part) (ho : OptionalLine d s parts) :
    ∃ bound, ∀ fuel ≥ bound, ∃ d', generateLayout fuel d = .ok d' ∧ DrawnAt d' s 200 250 ∧
      (∀ pre n post, parts = pre ++ .step n :: post → DrawnAt d' n (150 * (nodesIn pre + 2) + 50) (100 * lineRow (optionals pre) + 50)) ∧
      (∀ pre g a j post, parts = pre ++ .optional g a j :: post →
        DrawnAt d' g (150 * (nodesIn pre + 2) + 50) (100 * lineRow (optionals pre) + 50) ∧
        DrawnAt d' a (150 * (nodesIn pre + 3) + 50) (100 * (lineRow (optionals pre) + 2) + 50) ∧
        DrawnAt d' j (150 * (nodesIn pre + 4) + 50) (100 * lineRow (optionals pre + 1) + 50)) := by
  obtain ⟨bound, hb⟩ := optional_grid h hs ho
  refine ⟨bound, fun fuel hf => ?_⟩
  have hg := hb fuel hf
  have nd : ((s :: parts.flatMap Part.nodes).map (·.1)).Nodup := (ho.nodes.map _).nodup_iff.2 h.ids
  have eids : ((⟨2, 1, s.1⟩ :: cells 2 2 parts : List Cell).map (·.nodeId)) = (s :: parts.flatMap Part.nodes).map (·.1) := by
    simp only [List.map_cons, cells_ids]
  have gnd := eids ▸ nd
  obtain ⟨d', hl, hd⟩ := layout_at h hg fun n hn => by
    have : n.1 ∈ (⟨2, 1, s.1⟩ :: cells 2 2 parts : List Cell).map (·.nodeId) := by
      rw [eids]
      exact List.mem_map_of_mem (ho.nodes.mem_iff.2 hn)
    obtain ⟨c, hc, e⟩ := List.mem_map.1 this
    exact ⟨c, hc, e⟩
  have at_ : ∀ n ∈ s :: parts.flatMap Part.nodes, ∀ r c : Int, (⟨r, c, n.1⟩ : Cell) ∈ (⟨2, 1, s.1⟩ :: cells 2 2 parts : List Cell) → DrawnAt d' n (150 * c + 50) (100 * r + 50) := by
    intro n hn r c hc
    have := hd n (ho.nodes.mem_iff.1 hn) _ (find_cell gnd hc)
    rw [Int.mul_comm 150, Int.mul_comm 100]
    exact this
  refine ⟨d', hl, at_ s (by simp) 2 1 (by simp), ?_, ?_⟩
  · rintro pre n post rfl
    obtain ⟨A, hA⟩ := cells_split pre 0 2 (.step n :: post)
    rw [Nat.zero_add] at hA
    refine at_ n (by simp [Part.nodes]) _ _ ?_
    rw [show cells 2 2 (pre ++ .step n :: post) = _ from hA, cells, Int.add_comm (nodesIn pre : Int) 2]
    simp
  · rintro pre g a j post rfl
    obtain ⟨A, hA⟩ := cells_split pre 0 2 (.optional g a j :: post)
    rw [Nat.zero_add, cells, nextRow_line] at hA
    refine ⟨at_ g (by simp [Part.nodes]) _ _ ?_, at_ a (by simp [Part.nodes]) _ _ ?_, at_ j (by simp [Part.nodes]) _ _ ?_⟩ <;>
      rw [show cells 2 2 (pre ++ .optional g a j :: post) = _ from hA]
    · rw [Int.add_comm (nodesIn pre : Int) 2]
      simp
    · rw [show (nodesIn pre : Int) + 3 = 2 + nodesIn pre + 1 by ring]
      simp
    · rw [show (nodesIn pre : Int) + 4 = 2 + nodesIn pre + 2 by ring]
      simp

theorem nth_optional {parts : List Part} : ∀ {k : Nat}, k < optionals parts → ∃ pre g a j post, parts = pre ++ .optional g a j :: post ∧ optionals pre = k := by
  induction parts with
  | nil => intro k hk; simp [optionals] at hk
  | cons q t ih =>
    intro k hk
    cases q with
    | step n =>
      obtain ⟨pre, g, a, j, post, e, e2⟩ := ih (k := k) hk
      exact ⟨.step n :: pre, g, a, j, post, by rw [e]; rfl, e2⟩
    | optional g a j =>
      cases k with
      | zero => exact ⟨[], g, a, j, t, rfl, rfl⟩
      | succ k =>
        obtain ⟨pre, g', a', j', post, e, e2⟩ := ih (k := k) (by simpa [optionals] using hk)
        exact ⟨.optional g a j :: pre, g', a', j', post, by rw [e]; rfl, by simp [optionals, e2]⟩

/-- **C135 (off the page).** With three or more optional steps, part of the line is drawn above the top of the page, and it gets 200 higher with every further optional step. -/
theorem C135_negative (d : Diagram) (h : Consistent d) (hs : ∀ n ∈ d.getNodes, Supported n) (s : Node) (parts : List Part) (ho : OptionalLine d s parts)
    (h3 : 3 ≤ optionals parts) :
    ∃ bound, ∀ fuel ≥ bound, ∃ d', generateLayout fuel d = .ok d' ∧ ∃ n ∈ d.getNodes, ∃ x, DrawnAt d' n x (550 - 200 * optionals parts) ∧ (550 - 200 * optionals parts : Int) < 0 := by
  obtain ⟨bound, hb⟩ := C135_layout d h hs s parts ho
  refine ⟨bound, fun fuel hf => ?_⟩
  obtain ⟨d', hl, -, -, hk⟩ := hb fuel hf
  obtain ⟨pre, g, a, j, post, e, e2⟩ := nth_optional (parts := parts) (k := optionals parts - 1) (by omega)
  obtain ⟨-, -, hj⟩ := hk pre g a j post e
  refine ⟨d', hl, j, ho.nodes.mem_iff.1 (by rw [e]; simp [Part.nodes]), 150 * (nodesIn pre + 4) + 50, ?_, by omega⟩
  have : 100 * lineRow (optionals pre + 1) + 50 = (550 - 200 * optionals parts : Int) := by
    unfold lineRow
    rw [if_neg (by omega)]
    omega
  rw [this] at hj
  exact hj

/-! ## A concrete case -/

/-- Three optional steps, with a step between the second one and the third one. -/
def threeOptionalOps : List Op :=
  [.createNew "d" "D", .addProcess "p" false true "None" "PL" "P",
   .addStartEvent "P" "s" none false true (some "s") "u1" "u2",
   .addExclusiveGateway "P" "g" "Diverging" none none "g", .addTask "P" "a" (some "a") "u4", .addExclusiveGateway "P" "j" "Converging" none none "j",
   .addExclusiveGateway "P" "h" "Diverging" none none "h", .addTask "P" "b" (some "b") "u5", .addExclusiveGateway "P" "k" "Converging" none none "k",
   .addTask "P" "t" (some "t") "u6",
   .addExclusiveGateway "P" "i" "Diverging" none none "i", .addTask "P" "c" (some "c") "u9", .addExclusiveGateway "P" "l" "Converging" none none "l",
   .addEndEvent "P" "e" none (some "e") "u7" "u8",
   .addSequenceFlow "P" "s" "g" "" "f1", .addSequenceFlow "P" "g" "j" "" "f3", .addSequenceFlow "P" "g" "a" "" "f2",
   .addSequenceFlow "P" "a" "j" "" "f4", .addSequenceFlow "P" "j" "h" "" "f5", .addSequenceFlow "P" "h" "b" "" "f6", .addSequenceFlow "P" "h" "k" "" "f8",
   .addSequenceFlow "P" "b" "k" "" "f9", .addSequenceFlow "P" "k" "t" "" "f7", .addSequenceFlow "P" "t" "i" "" "fa",
   .addSequenceFlow "P" "i" "c" "" "fb", .addSequenceFlow "P" "i" "l" "" "fc", .addSequenceFlow "P" "c" "l" "" "fd", .addSequenceFlow "P" "l" "e" "" "fe"]

theorem threeOptional_allowed : AllowedHistory {} threeOptionalOps := by
  simp [threeOptionalOps, AllowedHistory, Allowed, step, declaredNode, declaredFlow, directionArg, directions, chosen]

def threeOptionalParts : List Part :=
  let n := Props.nodeOf (Op.run {} threeOptionalOps)
  [.optional (n "g") (n "a") (n "j"), .optional (n "h") (n "b") (n "k"), .step (n "t"), .optional (n "i") (n "c") (n "l"), .step (n "e")]

set_option maxRecDepth 8000 in
example : Consistent (Op.run {} threeOptionalOps) ∧ (∀ n ∈ (Op.run {} threeOptionalOps).getNodes, Supported n) ∧
    OptionalLine (Op.run {} threeOptionalOps) (Props.nodeOf (Op.run {} threeOptionalOps) "s") threeOptionalParts ∧ optionals threeOptionalParts = 3 := by
  refine ⟨consistent_of_allowed _ threeOptional_allowed, by decide +kernel, ⟨by decide +kernel, by decide +kernel, by decide +kernel, ?_, ?_⟩, rfl⟩
  · intro n hn
    simp only [threeOptionalParts, List.mem_cons, List.not_mem_nil, or_false, reduceCtorEq, Part.step.injEq, false_or] at hn
    rcases hn with rfl | rfl <;> decide +kernel
  · intro g a j hn
    simp only [threeOptionalParts, List.mem_cons, List.not_mem_nil, or_false, reduceCtorEq, Part.optional.injEq, false_or] at hn
    rcases hn with ⟨rfl, rfl, rfl⟩ | ⟨rfl, rfl, rfl⟩ | ⟨rfl, rfl, rfl⟩ <;> decide +kernel

end Bpmn.Props

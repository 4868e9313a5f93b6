import Verif.Spec.PageSize
import Verif.Props.Width
import Verif.Props.Blocks
/-!
# The size of drawings of steps and blocks (C122)
-/
set_option linter.unusedSimpArgs false
set_option linter.unusedVariables false

namespace Bpmn.Props
open Bpmn Spec Layouter Classify LayoutMetrics

theorem blocks_acyclic {d : Diagram} (h : Consistent d) {ps : List Piece} (hb : Blocks d ps) : Acyclic d ∧ SplitsApart d := by
  have hin : ∀ n ∈ ps.flatMap Piece.nodes, n ∈ d.getNodes := fun n hn => hb.nodes.mem_iff.1 hn
  have hnd : (ps.flatMap Piece.nodes).Nodup := hb.nodes.nodup_iff.2 h.ids.of_map
  have fwd := blocks_forward h ps hb.parts hb.line hin hnd hb.stop
  refine ⟨?_, fun n hn m hm hf hs => (fwd n (hb.nodes.mem_iff.2 hn) m hm hf).2 hs⟩
  classical
  apply acyclic_of_feeds h (fun n => (ps.flatMap Piece.nodes).idxOf n)
  intro a ha b hb' hf
  obtain ⟨pre, post, e, hp⟩ := idx_of_sublist hnd (fwd a (hb.nodes.mem_iff.2 ha) b hb' hf).1
  rw [e] at hnd ⊢
  have h1 : b ∉ pre := fun h => (List.nodup_append.1 hnd).2.2 b h b (by simp) rfl
  rw [List.idxOf_append_of_mem hp, List.idxOf_append_of_notMem h1]
  have := List.idxOf_lt_length_of_mem hp
  omega

theorem branchRow_le {n k : Nat} (h : k < n) : branchRow n k ≤ 2 * (n / 2 : Nat) ∧ -(2 * (n / 2 : Nat) : Int) ≤ branchRow n k := by
  unfold branchRow
  split
  · omega
  · split <;> omega

/-- The outermost rows are taken. -/
theorem branchRow_ends {n : Nat} (h : 2 ≤ n) : (∃ k < n, branchRow n k = 2 * (n / 2 : Nat)) ∧ ∃ k < n, branchRow n k = -(2 * (n / 2 : Nat) : Int) := by
  refine ⟨⟨n / 2 - 1, by omega, ?_⟩, n - 1, by omega, ?_⟩
  · unfold branchRow
    rw [if_pos (by omega)]
    omega
  · unfold branchRow
    rw [if_neg (by omega)]
    split <;> omega

theorem half_cons (p : Piece) (ps : List Piece) : halfOf (p :: ps) = max p.half (halfOf ps) := rfl

theorem columns_cons (p : Piece) (ps : List Piece) : columnsOf (p :: ps) = p.wide + columnsOf ps := by simp [columnsOf]

section
variable {P : Node → Int → Int → Prop}

theorem drawn_within (c : Int) (ps : List Piece) (D : Drawn P c ps) : ∀ n ∈ ps.flatMap Piece.nodes,
    ∃ x y, P n x y ∧ c ≤ x ∧ x ≤ c + columnsOf ps - 1 ∧ y ≤ 2 + 2 * (halfOf ps : Nat) ∧ 2 - 2 * (halfOf ps : Nat) ≤ y := by
  induction ps generalizing c with
  | nil => simp
  | cons p ps ih =>
    intro n hn
    rw [half_cons, columns_cons]
    rw [List.flatMap_cons, List.mem_append] at hn
    cases p with
    | step m =>
      obtain ⟨D1, D2⟩ := D
      rcases hn with hn | hn
      · simp only [Piece.nodes, List.mem_singleton] at hn
        subst hn
        exact ⟨c, 2, D1, by omega, by simp only [Piece.wide]; omega, by omega, by omega⟩
      · obtain ⟨x, y, h1, h2, h3, h4, h5⟩ := ih _ D2 n hn
        exact ⟨x, y, h1, by omega, by simp only [Piece.wide]; omega, by omega, by omega⟩
    | block s bs j =>
      obtain ⟨D1, ⟨ks, hks, F⟩, D3, D4⟩ := D
      rcases hn with hn | hn
      · simp only [Piece.nodes, List.mem_cons, List.mem_append, List.mem_flatten, List.not_mem_nil, or_false] at hn
        rcases hn with rfl | ⟨b, hb, hn⟩ | rfl
        · exact ⟨c, 2, D1, by omega, by simp only [Piece.wide]; omega, by omega, by omega⟩
        · obtain ⟨k, hk, hbk⟩ := Layouter.forall₂_left F hb
          obtain ⟨t, ht⟩ := List.getElem?_of_mem hn
          have hk' := List.mem_range.1 (hks.mem_iff.1 hk)
          have := branchRow_le hk'
          have l1 := longest_ge hb
          have l2 := (List.getElem?_eq_some_iff.1 ht).1
          exact ⟨_, _, hbk t n ht, by omega, by simp only [Piece.wide]; omega, by simp only [Piece.half]; omega, by simp only [Piece.half]; omega⟩
        · exact ⟨_, 2, D3, by omega, by simp only [Piece.wide]; omega, by omega, by omega⟩
      · obtain ⟨x, y, h1, h2, h3, h4, h5⟩ := ih _ D4 n hn
        exact ⟨x, y, h1, by omega, by simp only [Piece.wide]; omega, by omega, by omega⟩

theorem drawn_outermost (c : Int) (ps : List Piece) (hok : ∀ p ∈ ps, p.Ok) (hne : ps ≠ []) (D : Drawn P c ps) :
    (∃ n ∈ ps.flatMap Piece.nodes, ∃ x, P n x (2 + 2 * (halfOf ps : Nat))) ∧ ∃ n ∈ ps.flatMap Piece.nodes, ∃ x, P n x (2 - 2 * (halfOf ps : Nat)) := by
  -- each part reaches its own outermost rows
  have part : ∀ (p : Piece) (ps : List Piece) (c : Int), p.Ok → Drawn P c (p :: ps) →
      (∃ n ∈ p.nodes, ∃ x, P n x (2 + 2 * (p.half : Nat))) ∧ ∃ n ∈ p.nodes, ∃ x, P n x (2 - 2 * (p.half : Nat)) := by
    intro p ps c hp D
    cases p with
    | step m =>
      obtain ⟨D1, -⟩ := D
      exact ⟨⟨m, by simp [Piece.nodes], c, by simpa [Piece.half] using D1⟩, m, by simp [Piece.nodes], c, by simpa [Piece.half] using D1⟩
    | block s bs j =>
      obtain ⟨D1, ⟨ks, hks, F⟩, -, -⟩ := D
      obtain ⟨h2, -, -, hbs⟩ := hp
      have get : ∀ k < bs.length, ∃ n ∈ (Piece.block s bs j).nodes, ∃ x, P n x (2 + branchRow bs.length k) := by
        intro k hk
        obtain ⟨b, hb, hbk⟩ := Layouter.forall₂_left F.flip (hks.mem_iff.2 (List.mem_range.2 hk))
        cases b with
        | nil => exact absurd rfl (hbs _ hb).1
        | cons n b =>
          refine ⟨n, ?_, _, hbk 0 n rfl⟩
          simp only [Piece.nodes, List.mem_cons, List.mem_append, List.mem_flatten]
          exact Or.inr (Or.inl ⟨n :: b, hb, by simp⟩)
      obtain ⟨⟨k, hk, e⟩, k', hk', e'⟩ := branchRow_ends h2
      obtain ⟨n, hn, x, hx⟩ := get k hk
      obtain ⟨n', hn', x', hx'⟩ := get k' hk'
      rw [e] at hx
      rw [e'] at hx'
      exact ⟨⟨n, hn, x, hx⟩, n', hn', x', by simpa [Piece.half, Int.sub_eq_add_neg] using hx'⟩
  induction ps generalizing c with
  | nil => exact absurd rfl hne
  | cons p ps ih =>
    rw [half_cons, List.flatMap_cons]
    by_cases hle : halfOf ps ≤ p.half
    · rw [Nat.max_eq_left hle]
      obtain ⟨⟨n, hn, x, hx⟩, n', hn', x', hx'⟩ := part p ps c (hok p (by simp)) D
      exact ⟨⟨n, List.mem_append_left _ hn, x, hx⟩, n', List.mem_append_left _ hn', x', hx'⟩
    · rw [Nat.max_eq_right (by omega)]
      have hne' : ps ≠ [] := by
        rintro rfl
        simp [halfOf] at hle
      have D' : ∃ c', Drawn P c' ps := by
        cases p with
        | step m => exact ⟨_, D.2⟩
        | block s bs j => exact ⟨_, D.2.2.2⟩
      obtain ⟨c', D'⟩ := D'
      obtain ⟨⟨n, hn, x, hx⟩, n', hn', x', hx'⟩ := ih c' (fun q hq => hok q (by simp [hq])) hne' D'
      exact ⟨⟨n, List.mem_append_right _ hn, x, hx⟩, n', List.mem_append_right _ hn', x', hx'⟩

theorem drawn_rightmost (c : Int) (ps : List Piece) (hne : ps ≠ []) (D : Drawn P c ps) :
    ∃ n ∈ ps.flatMap Piece.nodes, P n (c + columnsOf ps - 1) 2 := by
  induction ps generalizing c with
  | nil => exact absurd rfl hne
  | cons p ps ih =>
    rw [columns_cons, List.flatMap_cons]
    cases ps with
    | nil =>
      cases p with
      | step m =>
        exact ⟨m, by simp [Piece.nodes], by simpa [columnsOf, Piece.wide] using D.1⟩
      | block s bs j =>
        refine ⟨j, by simp [Piece.nodes], ?_⟩
        have := D.2.2.1
        have e : c + ((Piece.block s bs j).wide + columnsOf [] : Nat) - 1 = c + 1 + longest bs := by
          simp only [Piece.wide, columnsOf, List.map_nil, List.sum_nil]
          omega
        rw [e]
        exact this
    | cons q ps =>
      obtain ⟨c', e, D'⟩ : ∃ c', c' = c + p.wide ∧ Drawn P c' (q :: ps) := by
        cases p with
        | step m => exact ⟨_, by simp [Piece.wide], D.2⟩
        | block s bs j => exact ⟨_, by simp only [Piece.wide]; omega, D.2.2.2⟩
      obtain ⟨n, hn, hx⟩ := ih c' (by simp) D'
      refine ⟨n, List.mem_append_right _ hn, ?_⟩
      rw [e] at hx
      convert hx using 1
      omega

end

/-- **C122.** The drawing of a line of steps and blocks is exactly as wide as its steps and, for each block, the longest branch and two nodes, and reaches
200 units above and below the line for every two branches of the largest block. `compute_longest_path` finds a path of as many nodes as there are columns. -/
theorem C122_page_size (d : Diagram) (h : Consistent d) (ps : List Piece) (hb : Blocks d ps) (hne : ps ≠ []) :
    ∃ bound, ∀ fuel ≥ bound, ∃ d', generateLayout fuel d = .ok d' ∧
      (∀ n ∈ d.getNodes, ∃ x y, DrawnAt d' n x y ∧ 200 ≤ x ∧ x ≤ 50 + 150 * (columnsOf ps : Nat) ∧ 250 - 200 * (halfOf ps : Nat) ≤ y ∧ y ≤ 250 + 200 * (halfOf ps : Nat)) ∧
      (∃ n ∈ d.getNodes, DrawnAt d' n (50 + 150 * (columnsOf ps : Nat)) 250) ∧
      (∃ n ∈ d.getNodes, ∃ x, DrawnAt d' n x (250 - 200 * (halfOf ps : Nat))) ∧ (∃ n ∈ d.getNodes, ∃ x, DrawnAt d' n x (250 + 200 * (halfOf ps : Nat))) ∧
      ∃ p, computeLongestPath fuel d = .ok (p, columnsOf ps) := by
  obtain ⟨b1, H1⟩ := C87_blocks_are_laid_out d h ps hb
  obtain ⟨hac, hap⟩ := blocks_acyclic h hb
  obtain ⟨p, b2, H2⟩ := C118_width d h hb.supported hac hap
  obtain ⟨p', hp', hc', -⟩ := C20_longest_path d h (noSelfLoop_of_acyclic h hac)
  refine ⟨max (max b1 b2) (2 * d.getNodes.length + 1), fun fuel hfuel => ?_⟩
  obtain ⟨d', h1, D⟩ := H1 fuel (by omega)
  obtain ⟨e1, e2⟩ := H2 fuel (by omega)
  obtain ⟨e2, e3⟩ := e2 d' h1
  have conv : ∀ {n : Node} {x y : Int}, PutAt d' n x y → DrawnAt d' n (150 * x + 50) (100 * y + 50) := fun h => h
  have within : ∀ n ∈ d.getNodes, ∃ x y, DrawnAt d' n x y ∧ 200 ≤ x ∧ x ≤ 50 + 150 * (columnsOf ps : Nat) ∧ 250 - 200 * (halfOf ps : Nat) ≤ y ∧
      y ≤ 250 + 200 * (halfOf ps : Nat) := by
    intro n hn
    obtain ⟨x, y, k1, k2, k3, k4, k5⟩ := drawn_within 1 ps D n (hb.nodes.mem_iff.2 hn)
    exact ⟨_, _, conv k1, by omega, by omega, by omega, by omega⟩
  obtain ⟨n1, m1, r1⟩ := drawn_rightmost 1 ps hne D
  have r1 : DrawnAt d' n1 (50 + 150 * (columnsOf ps : Nat)) 250 := by
    have := conv r1
    convert this using 1 <;> omega
  have m1 := hb.nodes.mem_iff.1 m1
  obtain ⟨⟨n2, m2, x2, r2⟩, n3, m3, x3, r3⟩ := drawn_outermost 1 ps hb.parts hne D
  refine ⟨d', h1, within, ⟨n1, m1, r1⟩, ⟨n3, hb.nodes.mem_iff.1 m3, 150 * x3 + 50, ?_⟩, ⟨n2, hb.nodes.mem_iff.1 m2, 150 * x2 + 50, ?_⟩, p, ?_⟩
  · have := conv r3
    convert this using 1 <;> omega
  · have := conv r2
    convert this using 1 <;> omega
  · rw [e1]
    have inj : ∀ {n : Node} {x y x' y' : Int}, DrawnAt d' n x y → DrawnAt d' n x' y' → x = x' := by
      rintro n x y x' y' ⟨n1, k1, k2⟩ ⟨n2, k3, k4⟩
      rw [k1] at k3
      cases k3
      exact (at_inj k2 k4).1
    have u1 : columnsOf ps ≤ p.length := by
      obtain ⟨x, y, k1, k2, k3⟩ := e3 n1 m1
      have := inj k1 r1
      omega
    have u2 : p.length ≤ columnsOf ps := by
      by_cases hp : p.length = 0
      · omega
      obtain ⟨y, k1⟩ := e2 (p.length - 1) (by omega)
      have epp : p' = p := by
        have := hp' fuel (by omega)
        rw [e1] at this
        simp only [Except.ok.injEq, Prod.mk.injEq] at this
        exact this.1.symm
      have mp : p[p.length - 1]'(by omega) ∈ d.getNodes := by
        rcases hc' with hc' | hc'
        · rw [← epp, hc'] at hp
          simp at hp
        · subst epp
          exact hc'.nodes _ (List.getElem_mem _)
      obtain ⟨x, y', k2, -, k3, -⟩ := within _ mp
      have := inj k1 k2
      omega
    rw [Nat.le_antisymm u1 u2]

/-- **C122.** So a part of the drawing is outside of the page, at negative `y`, exactly if a block has four or more branches. -/
theorem C122_outside_the_page (d : Diagram) (h : Consistent d) (ps : List Piece) (hb : Blocks d ps) :
    ∃ bound, ∀ fuel ≥ bound, ∃ d', generateLayout fuel d = .ok d' ∧
      ((∃ n ∈ d.getNodes, ∃ x y, DrawnAt d' n x y ∧ y < 0) ↔ ∃ s bs j, Piece.block s bs j ∈ ps ∧ 4 ≤ bs.length) := by
  have half : 2 ≤ halfOf ps ↔ ∃ s bs j, Piece.block s bs j ∈ ps ∧ 4 ≤ bs.length := by
    clear hb
    induction ps with
    | nil => simp [halfOf]
    | cons p ps ih =>
      rw [half_cons, le_max_iff, ih]
      cases p with
      | step n => simp [Piece.half]
      | block s bs j =>
        simp only [Piece.half, List.mem_cons, Piece.block.injEq]
        constructor
        · rintro (k | ⟨s', bs', j', k1, k2⟩)
          · exact ⟨s, bs, j, Or.inl ⟨rfl, rfl, rfl⟩, by omega⟩
          · exact ⟨s', bs', j', Or.inr k1, k2⟩
        · rintro ⟨s', bs', j', ⟨rfl, rfl, rfl⟩ | k1, k2⟩
          · exact Or.inl (by omega)
          · exact Or.inr ⟨s', bs', j', k1, k2⟩
  by_cases hne : ps = []
  · subst hne
    obtain ⟨b1, H1⟩ := C87_blocks_are_laid_out d h [] hb
    refine ⟨b1, fun fuel hf => ?_⟩
    obtain ⟨d', h1, -⟩ := H1 fuel hf
    refine ⟨d', h1, ?_⟩
    have : d.getNodes = [] := by
      have := hb.nodes
      simpa using this
    simp [this]
  · obtain ⟨b1, H1⟩ := C122_page_size d h ps hb hne
    refine ⟨b1, fun fuel hf => ?_⟩
    obtain ⟨d', h1, h2, -, ⟨n3, m3, x3, r3⟩, -⟩ := H1 fuel hf
    refine ⟨d', h1, ?_⟩
    rw [← half]
    constructor
    · rintro ⟨n, hn, x, y, k1, k2⟩
      obtain ⟨x', y', k3, -, -, k4, -⟩ := h2 n hn
      have e : y = y' := by
        obtain ⟨n1, j1, j2⟩ := k1
        obtain ⟨n2, j3, j4⟩ := k3
        rw [j1] at j3
        cases j3
        exact (at_inj j2 j4).2
      omega
    · intro hh
      exact ⟨n3, m3, x3, _, r3, by omega⟩

/-- `threeOps`, a start, a block with three branches, the longest of two nodes, and an end, is six columns wide and reaches from `y = 50` to `y = 450`. -/
example : ∃ bound, ∀ fuel ≥ bound, ∃ d', generateLayout fuel (Op.run {} threeOps) = .ok d' ∧
    (∃ n ∈ (Op.run {} threeOps).getNodes, DrawnAt d' n 950 250) ∧ (∃ n ∈ (Op.run {} threeOps).getNodes, ∃ x, DrawnAt d' n x 50) ∧
    ∃ p, computeLongestPath fuel (Op.run {} threeOps) = .ok (p, 6) := by
  obtain ⟨bound, H⟩ := C122_page_size _ (consistent_of_allowed _ three_allowed) _ three_blocks (by simp [threePieces])
  refine ⟨bound, fun fuel hf => ?_⟩
  obtain ⟨d', h1, h2, h3, h4, h5, h6⟩ := H fuel hf
  have e1 : columnsOf (threePieces (Op.run {} threeOps).getNodes three_nodes) = 6 := by decide
  have e2 : halfOf (threePieces (Op.run {} threeOps).getNodes three_nodes) = 1 := by decide
  rw [e1] at h3 h6
  rw [e2] at h4
  exact ⟨d', h1, h3, h4, h6⟩

end Bpmn.Props

import Verif.Lemmas.CsvEnds
import Verif.Props.DrawnMetrics
/-!
# Drawing and saving a flat table with terminated branches (C126)
-/
set_option linter.unusedSimpArgs false
set_option linter.unusedVariables false

namespace Bpmn.Props
open Bpmn Spec Layouter Csv Spec.Csv

/-- **C126.** Every flat table in which no terminated branch is longer than the other branches of its block can be imported, drawn and saved; the
drawing is as expected, and loading the file gives the drawn diagram. -/
theorem C126_ends_workflow (t : FlatTable) (g : t.Good) (fits : t.Fits) :
    ∃ d d', loadCsv t.rows {} = .ok d ∧ (∃ N, ∀ fuel ≥ N, generateLayout fuel d = .ok d') ∧
      IdAt d' "0" 1 2 ∧ EndsDrawn (IdAt d') 1 2 2 t.items ∧
      ∃ x N, (∀ fuel ≥ N, Export.exportXmlFile fuel d' = .ok x) ∧
        ∀ ord : List String → List String, (∀ l, (ord l).Perm l) → ∃ e, Import.load ord x.toDom {} = .ok e ∧ SavedAs d' e := by
  obtain ⟨d, h⟩ := flat_ok g
  obtain ⟨F, m⟩ := flat_made g h
  obtain ⟨order, row, col, bound, ho, hg, hyes, -⟩ := C85_drawn_on_grid d m.consistent (csv_supported (flat_table g) h) (m.acyclic g) (m.apart g)
  obtain ⟨c0, r0⟩ := m.start_place g ho hg
  obtain ⟨p1, p2⟩ := m.next_place g hg (next_link g (k := 0) (c := t.first) rfl) (by simp) (nextId_not_join t _)
  obtain ⟨D, far, one⟩ := m.places g fits ho hg t.items 0 2 2 rfl (fun x hx => List.mem_cons_of_mem _ hx) (by omega) (by rw [p1, c0]; rfl) (by rw [p2, r0])
  have hone : OneEach d row col := by
    intro a ha b hb er ec
    obtain ⟨x, hx, rfl⟩ := m.is_node g ha
    obtain ⟨y, hy, rfl⟩ := m.is_node g hb
    change row x.name = row y.name at er
    change col x.name = col y.name at ec
    rcases List.mem_cons.1 hx with rfl | hx <;> rcases List.mem_cons.1 hy with rfl | hy
    · rfl
    · have := far y hy; omega
    · have := far x hx; omega
    · rw [one x hx y hy ec er]
  obtain ⟨d', h1, h2⟩ := hyes hone bound (Nat.le_refl _)
  refine ⟨d, d', h, ⟨bound, fun fuel hf => ?_⟩, ?_, ?_, C89_saved t.rows (flat_table g) d d' h h1⟩
  · rw [generateLayout_later d hf (by rw [h1]; simp), h1]
  · obtain ⟨n, e1, e2⟩ := h2 _ (m.in_diagram g (show Id.row (.main 0) ∈ allIds t from List.mem_cons_self ..))
    change At n (150 * col (Id.row (.main 0)).name + 50) (100 * row (Id.row (.main 0)).name + 50) at e2
    rw [c0, r0] at e2
    exact ⟨n, by rw [← e1]; congr 1, e2⟩
  · refine EndsDrawn.mono ?_ _ _ _ _ D
    rintro i x y ⟨⟨n, hn, rfl⟩, rfl, rfl⟩
    exact h2 n hn

theorem sample_fits : sample.Fits := by
  intro legs h
  simp [sample] at h
  rcases h with rfl | rfl <;> decide

/-- What C126 says about this table: the second branch of the first block is terminated; the join of the two others is in column 6, right of the longer
one, and the main line goes on from there in the row of the join. -/
example : ∃ d d', loadCsv sample.rows {} = .ok d ∧ (∃ N, ∀ fuel ≥ N, generateLayout fuel d = .ok d') ∧ IdAt d' "1" 2 2 ∧ IdAt d' "1_split" 3 2 ∧
    (∃ y, IdAt d' "2b1" 4 y) ∧ ∃ y, IdAt d' "3_join" 6 y ∧ IdAt d' "3" 7 y ∧ IdAt d' "3_split" 8 y ∧ (∃ z, IdAt d' "4b1" 9 z) ∧
      ∃ z, IdAt d' "5_join" 10 z ∧ IdAt d' "5" 11 z := by
  obtain ⟨d, d', h1, h2, -, h4, -⟩ := C126_ends_workflow sample sample_good sample_fits
  obtain ⟨s1, s2, ks, kp, hk, s3, s4, s5, ks', kp', hk', s6, s7⟩ := h4
  obtain ⟨y, hy⟩ : ∃ y, ks[1]? = some y := ⟨_, List.getElem?_eq_getElem (by rw [kp.length_eq]; simp)⟩
  obtain ⟨z, hz⟩ : ∃ z, ks'[1]? = some z := ⟨_, List.getElem?_eq_getElem (by rw [kp'.length_eq]; simp)⟩
  exact ⟨d, d', h1, h2, s1, s2, ⟨_, hk 1 _ y rfl hy 1 (by decide) (by decide)⟩, _, s3, s4, s5, ⟨_, hk' 1 _ z rfl hz 1 (by decide) (by decide)⟩, _, s6, s7⟩

set_option maxRecDepth 8000 in
/-- **C126, limit.** A terminated branch can move the main line out of its row, and so far that what follows is drawn above the page: the main line of this
table begins in row 2 and ends in row 1, and the row of a branch of the second block, which has two branches only, is negative. -/
theorem C126_line_moves : sample.Good ∧ sample.Fits ∧ ∃ d d', loadCsv sample.rows {} = .ok d ∧ (∀ fuel ≥ 80, generateLayout fuel d = .ok d') ∧
    IdAt d' "1" 2 2 ∧ IdAt d' "3" 7 1 ∧ IdAt d' "5" 11 1 ∧ IdAt d' "4a1" 9 (-1) := by
  refine ⟨sample_good, sample_fits, ?_⟩
  let want : List (String × Int × Int) := [("1", 2, 2), ("3", 7, 1), ("5", 11, 1), ("4a1", 9, -1)]
  obtain ⟨d, h, hp⟩ := ok_of_check (x := loadCsv sample.rows {}) (fun d =>
    match (topologicalSort 80 d ((byType d).map ncOf)).bind fun r => gridLayout 80 d r.1 with
    | .ok grid => decide (∀ n ∈ d.getNodes, ∃ c ∈ grid, c.nodeId = n.1) && decide (∀ p ∈ want, (∃ n ∈ d.getNodes, n.1 = p.1) ∧
        grid.find? (fun c => c.nodeId == p.1) = some ⟨p.2.2, p.2.1, p.1⟩)
    | _ => false) (by decide +kernel)
  have hc := (C66_flat_flows sample sample_good d h).1
  cases e : (topologicalSort 80 d ((byType d).map ncOf)).bind fun r => gridLayout 80 d r.1 with
  | error er => rw [e] at hp; cases hp
  | ok grid =>
    rw [e] at hp
    rw [Bool.and_eq_true, decide_eq_true_eq, decide_eq_true_eq] at hp
    obtain ⟨d', h1, h2⟩ := layout_at hc e hp.1
    have place : ∀ i x y, (i, x, y) ∈ want → IdAt d' i x y := by
      intro i x y hm
      obtain ⟨⟨n, hn, rfl⟩, k⟩ := hp.2 _ hm
      obtain ⟨n', k1, k2⟩ := h2 n hn _ k
      exact ⟨n', k1, by rwa [Int.mul_comm 150, Int.mul_comm 100]⟩
    refine ⟨d, d', h, fun fuel hf => ?_, place _ _ _ (by decide), place _ _ _ (by decide), place _ _ _ (by decide), place _ _ _ (by decide)⟩
    rw [generateLayout_later d hf (by rw [h1]; simp), h1]

end Bpmn.Props

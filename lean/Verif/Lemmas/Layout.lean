import Verif.Lemmas.Grid
import Verif.Spec.Layout
/-!
`generate_layout` as a whole.
-/
set_option linter.unusedSimpArgs false
set_option linter.unusedVariables false

namespace Bpmn.Layouter
open Bpmn Spec Classify

variable {d d' : Diagram}

theorem toString_inj {a b : Int} (h : toString a = toString b) : a = b := Int.repr_inj.1 h

theorem pyInt_toString (a : Int) : pyInt (toString a) = .ok a := by
  have : (toString a).toInt? = some a := Int.toInt?_repr a
  simp [pyInt, this]

/-- The steps of a successful layout. -/
theorem layout_steps {fuel : Nat} (h : generateLayout fuel d = .ok d') :
    ∃ all sorted back grid ns ws, elementsLoop d elementTypes = .ok all ∧ topologicalSort fuel d all = .ok (sorted, back) ∧
      gridLayout fuel d sorted = .ok grid ∧ setCoordinates grid d.graph.nodes = .ok ns ∧
      assignments { d with graph := { d.graph with nodes := ns } } (Diagram.getFlows { d with graph := { d.graph with nodes := ns } }) = .ok ws ∧
      d' = { d with graph := { nodes := ns, edges := d.graph.edges.map (written ws) } } := by
  unfold generateLayout generateElementsClassification at h
  cases h1 : elementsLoop d elementTypes with
  | error e => rw [h1] at h; cases h
  | ok all =>
    rw [h1] at h
    simp only [bind, Except.bind, pure, Except.pure] at h
    cases h2 : topologicalSort fuel d all with
    | error e => rw [h2] at h; cases h
    | ok p =>
      rw [h2] at h
      simp only at h
      cases h3 : gridLayout fuel d p.1 with
      | error e => rw [h3] at h; cases h
      | ok grid =>
        rw [h3] at h
        simp only at h
        cases h4 : setCoordinates grid d.graph.nodes with
        | error e => rw [h4] at h; cases h
        | ok ns =>
          rw [h4] at h
          simp only [setFlowsWaypoints] at h
          rw [setWaypoints_eq] at h
          cases h5 : assignments { d with graph := { d.graph with nodes := ns } }
              (Diagram.getFlows { d with graph := { d.graph with nodes := ns } }) with
          | error e => rw [h5] at h; cases h
          | ok ws =>
            rw [h5] at h
            cases h
            exact ⟨all, p.1, p.2, grid, ns, ws, rfl, h2, h3, h4, h5, rfl⟩

/-- The steps suffice. -/
theorem layout_of_steps {fuel : Nat} {all sorted back grid ns ws} (h1 : elementsLoop d elementTypes = .ok all)
    (h2 : topologicalSort fuel d all = .ok (sorted, back)) (h3 : gridLayout fuel d sorted = .ok grid)
    (h4 : setCoordinates grid d.graph.nodes = .ok ns)
    (h5 : assignments { d with graph := { d.graph with nodes := ns } } (Diagram.getFlows { d with graph := { d.graph with nodes := ns } }) = .ok ws) :
    generateLayout fuel d = .ok { d with graph := { nodes := ns, edges := d.graph.edges.map (written ws) } } := by
  simp only [generateLayout, generateElementsClassification, h1, bind, Except.bind, pure, Except.pure, h2, h3, h4, setFlowsWaypoints]
  rw [setWaypoints_eq, h5]
  rfl

theorem layout_sameBut {fuel : Nat} (h : generateLayout fuel d = .ok d') : SameBut d d' := by
  obtain ⟨all, sorted, back, grid, ns, ws, -, -, -, h4, -, rfl⟩ := layout_steps h
  refine ⟨setCoordinates_bare h4, ?_⟩
  simp only [List.map_map]
  apply List.map_congr_left
  intro e he
  exact bareEdge_written ws e

theorem assignments_congr {d d' : Diagram} (hn : d'.graph.nodes = d.graph.nodes) {fs fs' : List Flow} (h : fs'.map bareFlow = fs.map bareFlow) :
    assignments d' fs' = assignments d fs := by
  induction fs generalizing fs' with
  | nil =>
    cases fs' with
    | nil => rfl
    | cons => simp at h
  | cons f fs ih =>
    cases fs' with
    | nil => simp at h
    | cons f' fs' =>
      simp only [List.map_cons, List.cons.injEq] at h
      obtain ⟨h1, h2⟩ := h
      rw [assignments, assignments, ih h2]
      have e1 : f'.1 = f.1 := by have := congrArg (Prod.fst : Flow → String) h1; exact this
      have e2 : f'.2.1 = f.2.1 := by have := congrArg (fun f : Flow => f.2.1) h1; exact this
      have e3 : f'.2.2.sourceRef = f.2.2.sourceRef := by have := congrArg (fun f : Flow => f.2.2.sourceRef) h1; exact this
      have e4 : f'.2.2.targetRef = f.2.2.targetRef := by have := congrArg (fun f : Flow => f.2.2.targetRef) h1; exact this
      have : waypointsOf d' f' = waypointsOf d f := by
        simp only [waypointsOf, e3, e4, nodeAttrsById, Diagram.getNodeById, hn]
      rw [this, e1, e2]

theorem layout_idem {fuel : Nat} (h : generateLayout fuel d = .ok d') : generateLayout fuel d' = .ok d' := by
  have sb := layout_sameBut h
  obtain ⟨all, sorted, back, grid, ns, ws, h1, h2, h3, h4, h5, e⟩ := layout_steps h
  have a1 : elementsLoop d' elementTypes = .ok all := by rw [sb.elementsLoop, h1]
  have a2 : topologicalSort fuel d' all = .ok (sorted, back) := by
    rw [topologicalSort, sortLoop_congr sb.source sb.target]; exact h2
  have a3 : gridLayout fuel d' sorted = .ok grid := by
    rw [gridLayout, gridLoop_congr sb.source sb.target]; exact h3
  have a4 : setCoordinates grid d'.graph.nodes = .ok ns := by rw [setCoordinates_congr sb.nodes, h4]
  have hns : d'.graph.nodes = ns := by rw [e]
  have a5 : assignments { d' with graph := { d'.graph with nodes := ns } }
      (Diagram.getFlows { d' with graph := { d'.graph with nodes := ns } }) = .ok ws := by
    rw [← h5]
    apply assignments_congr
    · rfl
    · have : SameBut { d with graph := { d.graph with nodes := ns } } { d' with graph := { d'.graph with nodes := ns } } :=
        ⟨rfl, sb.edges⟩
      exact this.flows
  rw [layout_of_steps a1 a2 a3 a4 a5]
  subst e
  simp only [List.map_map, Except.ok.injEq, Diagram.mk.injEq, Graph.mk.injEq, and_true, true_and]
  apply List.map_congr_left
  intro e he
  exact written_written ws e

/-! ### Consistent diagrams -/

/-- Both ends of a flow of a consistent diagram are nodes. -/
theorem Spec.Consistent.flow_ends (h : Consistent d) {f : Flow} (hf : f ∈ d.getFlows) :
    ∃ n ∈ d.getNodes, ∃ m ∈ d.getNodes, f.2.2.sourceRef = some n.1 ∧ f.2.2.targetRef = some m.1 := by
  obtain ⟨i, n, hn, h1, h2, h3⟩ := h.listed f hf
  obtain ⟨m, hm, ⟨a, b, e, g1, g2, g3, g4⟩, -⟩ := h.outFlow n hn i h3
  have hmem : (a, b, e) ∈ d.getFlows := pyFind_mem g1
  have : (a, b, e) = f := List.inj_on_of_nodup_map h.flowIds hmem hf (by simp only [g2, h1])
  subst this
  exact ⟨n, hn, m, hm, h2, g4⟩

theorem flowWaypoints_ok {s t : NodeAttrs} (hs : s.type.isSome) (ht : t.type.isSome) {sx sy tx ty : Int}
    (h1 : s.x = some (toString sx)) (h2 : s.y = some (toString sy)) (h3 : t.x = some (toString tx)) (h4 : t.y = some (toString ty)) :
    ∃ w, flowWaypoints s t = .ok w := by
  obtain ⟨st, hs⟩ := Option.isSome_iff_exists.1 hs
  obtain ⟨tt, ht⟩ := Option.isSome_iff_exists.1 ht
  simp only [flowWaypoints, hs, ht, h1, h2, h3, h4, need, pyInt_toString, bind, Except.bind, pure, Except.pure]
  split
  · exact ⟨_, rfl⟩
  · split
    · exact ⟨_, rfl⟩
    · split <;> exact ⟨_, rfl⟩

theorem assignments_ok {fs : List Flow} (h : ∀ f ∈ fs, ∃ w, waypointsOf d f = .ok w) : ∃ ws, assignments d fs = .ok ws := by
  induction fs with
  | nil => exact ⟨_, rfl⟩
  | cons f fs ih =>
    obtain ⟨w, hw⟩ := h f (by simp)
    obtain ⟨ws, hws⟩ := ih (fun f hf => h f (by simp [hf]))
    rw [assignments, hw, hws]
    exact ⟨_, rfl⟩

theorem find_atCell {grid : List Cell} {l r : List Node} (h : setCoordinates grid l = .ok r) (i : String) (n : Node)
    (hn : l.find? (·.1 == i) = some n) :
    ∃ c, grid.find? (fun c => c.nodeId == n.1) = some c ∧ r.find? (·.1 == i) = some (atCell n c) := by
  induction l generalizing r with
  | nil => simp at hn
  | cons m l ih =>
    rw [setCoordinates] at h
    cases hf : grid.find? (fun c => c.nodeId == m.1) with
    | none => rw [hf] at h; cases h
    | some c =>
      rw [hf] at h
      simp only [bind, Except.bind] at h
      cases hs : setCoordinates grid l with
      | error e => rw [hs] at h; cases h
      | ok rest =>
        rw [hs] at h
        cases h
        rw [List.find?_cons] at hn ⊢
        cases hm : m.1 == i with
        | true =>
          rw [hm] at hn
          cases hn
          exact ⟨c, hf, by simp [atCell, hm]⟩
        | false =>
          rw [hm] at hn
          simp only [hm]
          exact ih hs hn

theorem setCoordinates_total {grid : List Cell} {l : List Node} (h : ∀ n ∈ l, ∃ c ∈ grid, c.nodeId = n.1) :
    ∃ r, setCoordinates grid l = .ok r := by
  induction l with
  | nil => exact ⟨_, rfl⟩
  | cons n l ih =>
    obtain ⟨r, hr⟩ := ih (fun m hm => h m (by simp [hm]))
    rw [setCoordinates]
    obtain ⟨c, hc, e⟩ := h n (by simp)
    cases hf : grid.find? (fun c => c.nodeId == n.1) with
    | none =>
      have := List.find?_eq_none.1 hf c hc
      simp [e] at this
    | some c' => rw [hr]; exact ⟨_, rfl⟩

/-- In a consistent diagram, the layout succeeds as soon as the grid has a cell for every node. -/
theorem layout_ok (h : Consistent d) {fuel : Nat} {sorted back grid}
    (h2 : topologicalSort fuel d ((byType d).map ncOf) = .ok (sorted, back)) (h3 : gridLayout fuel d sorted = .ok grid)
    (hc : ∀ n ∈ d.getNodes, ∃ c ∈ grid, c.nodeId = n.1) :
    ∃ d' ns, generateLayout fuel d = .ok d' ∧ setCoordinates grid d.graph.nodes = .ok ns ∧ d'.getNodes = ns := by
  obtain ⟨ns, h4⟩ := setCoordinates_total hc
  have h5 : ∃ ws, assignments { d with graph := { d.graph with nodes := ns } }
      (Diagram.getFlows { d with graph := { d.graph with nodes := ns } }) = .ok ws := by
    apply assignments_ok
    intro f hf
    have sb : SameBut d { d with graph := { d.graph with nodes := ns } } := ⟨setCoordinates_bare h4, rfl⟩
    have hf2 : bareFlow f ∈ d.getFlows.map bareFlow := by rw [← sb.flows]; exact List.mem_map_of_mem hf
    obtain ⟨f', hf', e⟩ := List.mem_map.1 hf2
    obtain ⟨n, hn, m, hm, e1, e2⟩ := Spec.Consistent.flow_ends h hf'
    have e3 : f'.2.2.sourceRef = f.2.2.sourceRef := by have := congrArg (fun f : Flow => f.2.2.sourceRef) e; exact this
    have e4 : f'.2.2.targetRef = f.2.2.targetRef := by have := congrArg (fun f : Flow => f.2.2.targetRef) e; exact this
    obtain ⟨c1, -, a2⟩ := find_atCell h4 n.1 n (h.getNodeById hn)
    obtain ⟨c2, -, b2⟩ := find_atCell h4 m.1 m (h.getNodeById hm)
    simp only [waypointsOf, ← e3, ← e4, e1, e2, need, bind, Except.bind, nodeAttrsById, Diagram.getNodeById, a2, b2]
    exact flowWaypoints_ok (h.typed n hn) (h.typed m hm) rfl rfl rfl rfl
  obtain ⟨ws, h5⟩ := h5
  exact ⟨_, ns, layout_of_steps (elements_eq h.complete) h2 h3 h4 h5, h4, rfl⟩

/-! ### Chains -/

theorem Links.tail {a : Node} {c : List Node} (h : Links d (a :: c)) : Links d c := by
  cases c with
  | nil => trivial
  | cons b r => exact h.2

/-- A list in which every chain neighbour stands before the next one is the chain. -/
theorem chain_order (c l : List String) (hc : c.Nodup) (hp : l.Perm c)
    (h : ∀ x y p q, c = p ++ x :: y :: q → Before l x y) : l = c := by
  induction c generalizing l with
  | nil => exact hp.eq_nil
  | cons a c ih =>
    cases l with
    | nil => exact absurd hp.symm.eq_nil (by simp)
    | cons b l =>
      have hab : b = a := by
        by_contra hne
        have hb : b ∈ c := by
          have := hp.mem_iff.1 (List.mem_cons_self (a := b) (l := l))
          rcases List.mem_cons.1 this with h | h
          · exact absurd h hne
          · exact h
        obtain ⟨p, q, hpq⟩ := List.append_of_mem hb
        -- the element before `b` in the chain
        obtain ⟨x, p', hx⟩ : ∃ x p', a :: c = p' ++ x :: b :: q := by
          rcases List.eq_nil_or_concat p with rfl | ⟨p', x, rfl⟩
          · exact ⟨a, [], by rw [hpq]; rfl⟩
          · exact ⟨x, a :: p', by rw [hpq]; simp⟩
        obtain ⟨pre, post, h1, h2⟩ := h x b p' q hx
        have nd := hp.nodup_iff.2 hc
        cases pre with
        | nil => cases h2
        | cons z pre =>
          simp only [List.cons_append, List.cons.injEq] at h1
          obtain ⟨rfl, h1⟩ := h1
          rw [h1] at nd
          have := (List.nodup_cons.1 nd).1
          simp at this
      subst hab
      congr 1
      apply ih l (List.nodup_cons.1 hc).2 (List.Perm.cons_inv hp)
      intro x y p q e
      obtain ⟨pre, post, h1, h2⟩ := h x y (b :: p) q (by rw [e]; rfl)
      have hxb : x ≠ b := by
        rintro rfl
        rw [e] at hc
        have := (List.nodup_cons.1 hc).1
        simp at this
      cases pre with
      | nil => cases h2
      | cons z pre =>
        simp only [List.cons_append, List.cons.injEq] at h1
        obtain ⟨rfl, h1⟩ := h1
        refine ⟨pre, post, h1, ?_⟩
        rcases List.mem_cons.1 h2 with rfl | h2
        · exact absurd rfl hxb
        · exact h2

/-- Cells of a chain: row 2, consecutive columns. -/
def chainCells : Int → List String → List Cell
  | _, [] => []
  | k, i :: r => ⟨2, k, i⟩ :: chainCells (k + 1) r

theorem chainCells_append (k : Int) (a b : List String) :
    chainCells k (a ++ b) = chainCells k a ++ chainCells (k + a.length) b := by
  induction a generalizing k with
  | nil => simp [chainCells]
  | cons x a ih =>
    simp only [List.cons_append, chainCells, ih, List.length_cons]
    have : k + 1 + (a.length : Int) = k + ((a.length + 1 : Nat) : Int) := by omega
    rw [this]

theorem chainCells_ids (k : Int) (a : List String) : (chainCells k a).map (·.nodeId) = a := by
  induction a generalizing k with
  | nil => rfl
  | cons x a ih => simp [chainCells, ih]

theorem chainCells_col (k : Int) (a : List String) : ∀ c ∈ chainCells k a, c.row = 2 ∧ k ≤ c.col ∧ c.col < k + a.length := by
  induction a generalizing k with
  | nil => simp [chainCells]
  | cons x a ih =>
    intro c hc
    simp only [chainCells, List.mem_cons] at hc
    simp only [List.length_cons]
    rcases hc with rfl | hc
    · refine ⟨rfl, Int.le_refl _, ?_⟩; simp only; omega
    · obtain ⟨h1, h2, h3⟩ := ih (k + 1) c hc
      exact ⟨h1, by omega, by omega⟩

theorem chainCells_find (k : Int) (a : List String) (ha : a.Nodup) (j : Nat) (hj : j < a.length) :
    (chainCells k a).find? (fun c => c.nodeId == a[j]) = some ⟨2, k + j, a[j]⟩ := by
  induction a generalizing k j with
  | nil => simp at hj
  | cons x a ih =>
    cases j with
    | zero => simp [chainCells]
    | succ j =>
      have hne : x ≠ a[j]'(by simpa using hj) := by
        intro e
        exact (List.nodup_cons.1 ha).1 (e ▸ List.getElem_mem _)
      simp only [chainCells, List.find?_cons, List.getElem_cons_succ]
      have : (x == a[j]'(by simpa using hj)) = false := by simpa using hne
      rw [this]
      simp only
      rw [ih (k + 1) (List.nodup_cons.1 ha).2 j (by simpa using hj)]
      congr 2
      push_cast
      omega

/-- The records of a chain, as the sorting returns them. -/
theorem gridLoop_chain (fuel : Nat) (c : List Node) (pre : List Node) (n : Nat) (lastRow : Int)
    (hnd : ((pre ++ c).map (·.1)).Nodup) (hl : Links d c)
    (hstart : pre = [] → lastRow = 2 ∧ ∀ m ∈ c.head?, ins m = [])
    (hprev : ∀ p, pre.getLast? = some p → ∀ m ∈ c.head?, ∃ i, ins m = [i] ∧ flowSource d i = .ok p.1)
    (hn : c.length < n) :
    gridLoop d (fuel + 1) n ⟨chainCells 1 (pre.map (·.1)), lastRow, 1, c.map ncOf⟩ = .ok (chainCells 1 ((pre ++ c).map (·.1))) := by
  induction c generalizing pre n lastRow with
  | nil =>
    obtain ⟨n, rfl⟩ : ∃ k, n = k + 1 := ⟨n - 1, by simp at hn; omega⟩
    simp [gridLoop]
  | cons a c ih =>
    obtain ⟨n, rfl⟩ : ∃ k, n = k + 1 := ⟨n - 1, by simp at hn; omega⟩
    have outs1 : (outs a).length ≤ 1 := by
      cases c with
      | nil => simp only [Links] at hl; rw [hl]; simp
      | cons b r => obtain ⟨⟨i, h1, -⟩, -⟩ := hl; rw [h1]; simp
    have noSplit : "Split" ∉ (ncOf a).labels := by
      rw [ncOf, split_mem_labels]; omega
    -- placing `a`
    have placed : ∃ lr, placeElement d (fuel + 1) (ncOf a) ⟨chainCells 1 (pre.map (·.1)), lastRow, 1, c.map ncOf⟩ none =
        .ok ⟨chainCells 1 ((pre ++ [a]).map (·.1)), lr, 1, c.map ncOf⟩ := by
      have app : chainCells 1 ((pre ++ [a]).map (·.1)) = chainCells 1 (pre.map (·.1)) ++ [⟨2, 1 + pre.length, a.1⟩] := by
        rw [List.map_append, chainCells_append]; simp [chainCells]
      have free : ∀ x ∈ chainCells 1 (pre.map (·.1)), ¬(x.row = 2 ∧ x.col = 1 + pre.length) := by
        rintro x hx ⟨-, h2⟩
        have := (chainCells_col _ _ x hx).2.2
        simp only [List.length_map] at this
        omega
      rcases List.eq_nil_or_concat pre with rfl | ⟨pre', p, rfl⟩
      · obtain ⟨h1, h2⟩ := hstart rfl
        have hia : ins a = [] := h2 a (by simp)
        refine ⟨lastRow + gridColumnWidth, ?_⟩
        rw [placeElement]
        have : placeSelf d (ncOf a) ⟨chainCells 1 (([] : List Node).map (·.1)), lastRow, 1, c.map ncOf⟩ none =
            .ok (⟨[⟨2, 1, a.1⟩], lastRow + gridColumnWidth, 1, c.map ncOf⟩, lastRow) := by
          simp [placeSelf, ncOf, hia, chainCells, truthyOr, insertIntoGrid, h1, bind, Except.bind, pure, Except.pure]
        rw [this]
        simp only [bind, Except.bind, if_neg noSplit, pure, Except.pure]
        simp [chainCells]
      · obtain ⟨i, hia, hsrc⟩ := hprev p (by simp) a (by simp)
        refine ⟨lastRow, ?_⟩
        rw [placeElement]
        have noJoin : "Join" ∉ (ncOf a).labels := by rw [ncOf, join_mem_labels, hia]; simp
        have ndp : ((pre'.concat p).map (·.1)).Nodup := by
          rw [List.map_append] at hnd
          exact (List.nodup_append.1 hnd).1
        have find := chainCells_find 1 ((pre'.concat p).map (·.1)) ndp pre'.length (by simp)
        have hget : ((pre'.concat p).map (·.1))[pre'.length]'(by simp) = p.1 := by simp
        rw [hget] at find
        have : placeSelf d (ncOf a) ⟨chainCells 1 ((pre'.concat p).map (·.1)), lastRow, 1, c.map ncOf⟩ none =
            .ok (⟨chainCells 1 ((pre'.concat p ++ [a]).map (·.1)), lastRow, 1, c.map ncOf⟩, 2) := by
          have e1 : (ncOf a).ins = [i] := hia
          rw [placeSelf, e1, if_neg (by simp), if_pos noJoin]
          simp only [pyIndex, List.getElem?_cons_zero, bind, Except.bind, hsrc, find]
          have e2 : (1 : Int) + (pre'.length : Int) + 1 = 1 + ((pre'.concat p).length : Int) := by simp; omega
          simp only [Option.getD_none, e2]
          rw [insert_free _ free]
          simp only [pure, Except.pure]
          rw [app]
          rfl
        rw [this]
        simp only [bind, Except.bind, if_neg noSplit, pure, Except.pure]
    obtain ⟨lr, placed⟩ := placed
    simp only [List.map_cons, gridLoop, bind, Except.bind]
    rw [placed]
    simp only
    have := ih (pre ++ [a]) n lr (by simpa using hnd) (Links.tail hl) (by simp) ?_ (by simpa using hn)
    · simpa using this
    · intro p hp m hm
      simp only [List.getLast?_append, List.getLast?_singleton, Option.some_or, Option.some.injEq] at hp
      subst hp
      cases c with
      | nil => simp at hm
      | cons b r =>
        simp only [List.head?_cons, Option.mem_def, Option.some.injEq] at hm
        subst hm
        obtain ⟨⟨i, -, h2, h3⟩, -⟩ := hl
        exact ⟨i, h2, flowFromTo_source h3⟩

end Bpmn.Layouter

import Verif.Spec.Segments
import Verif.Props.TableMetrics
import Verif.Props.DrawnMetrics
/-!
# The layout metrics of a drawn table (C125)
-/
set_option linter.unusedSimpArgs false
set_option linter.unusedVariables false

namespace Bpmn.Props
open Bpmn Spec Layouter LayoutMetrics Metrics

theorem gateways_append (a b : List Node) : gatewaysIn (a ++ b) = gatewaysIn a + gatewaysIn b := by simp [gatewaysIn]

theorem gateways_one (n : Node) : gatewaysIn [n] = if Bends n then 1 else 0 := by
  by_cases c : Bends n <;> simp [gatewaysIn, c]

theorem route_length (n m : Node) (sx sy tx ty : Int) : (lines (route n m sx sy tx ty)).length = 1 + if Bends n ∨ sy ≠ ty ∧ Bends m then 1 else 0 := by
  unfold route
  by_cases c : Bends n
  · simp [c, lines]
  · by_cases c' : sy ≠ ty ∧ Bends m
    · rw [if_neg c, if_pos c', if_pos (.inr c')]; rfl
    · rw [if_neg c, if_neg c', if_neg (by tauto)]; rfl

section
variable {d d' : Diagram} {r : String → List (Int × Int)}

/-- The lines that leave the nodes of a branch. -/
theorem branch_length (R : Routes d d' r) {j : Node} (hj : j ∈ d.getNodes) (bj : Bends j) {cj rho : Int} (pj : PutAt d' j cj 2) : ∀ (b : List Node) (c : Int),
    b ≠ [] → (∀ n ∈ b, n ∈ d.getNodes) → List.IsChain Link b → (∀ n ∈ b.getLast?, ¬Bends n) → (∀ n ∈ b.getLast?, ∃ i ∈ ins j, outs n = [i]) →
    (∀ (t : Nat) (n : Node), b[t]? = some n → PutAt d' n (c + t) rho) →
    (Props.leaving r b).length = b.length + gatewaysIn b + if rho = 2 then 0 else 1
  | [], _, h, _, _, _, _, _ => absurd rfl h
  | [n], c, _, hin, _, hb, hl, hp => by
    obtain ⟨i, hi, ho⟩ := hl n (by simp)
    have e := R.leg n (hin n (by simp)) j hj i (by simp [ho]) hi _ _ _ _ (put_drawn (hp 0 n rfl)) (put_drawn pj)
    have nb := hb n (by simp)
    rw [leaving_one r ho, e, route_length, gateways_one, if_neg nb]
    by_cases c2 : rho = 2
    · subst c2
      rw [if_neg (by simp [nb]), if_pos rfl]; rfl
    · rw [if_pos (.inr ⟨by omega, bj⟩), if_neg c2]; rfl
  | n :: m :: b, c, _, hin, hc, hb, hl, hp => by
    obtain ⟨⟨i, h1, h2⟩, hc'⟩ := List.isChain_cons_cons.1 hc
    have ih := branch_length R hj bj pj (m :: b) (c + 1) (by simp) (fun x hx => hin x (List.mem_cons_of_mem _ hx)) hc'
      (fun x hx => hb x (by simpa using hx)) (fun x hx => hl x (by simpa using hx))
      (fun t x ht => by
        have := hp (t + 1) x (by simpa using ht)
        have e : (c + 1 + (t : Int)) = c + ((t + 1 : Nat) : Int) := by omega
        rw [e]
        exact this)
    have er := R.leg n (hin n (by simp)) m (hin m (by simp)) i (by simp [h1]) (by simp [h2]) _ _ _ _ (put_drawn (hp 0 n rfl)) (put_drawn (hp 1 m rfl))
    rw [leaving_cons, leaving_one r h1, er, List.length_append, route_length, ih]
    have eg : gatewaysIn (n :: m :: b) = gatewaysIn [n] + gatewaysIn (m :: b) := gateways_append [n] (m :: b)
    rw [eg, gateways_one]
    by_cases cb : Bends n
    · rw [if_pos (.inl cb), if_pos cb, show (n :: m :: b).length = (m :: b).length + 1 from rfl]; omega
    · rw [if_neg (by simp [cb]), if_neg cb, show (n :: m :: b).length = (m :: b).length + 1 from rfl]; omega

theorem branches_length (R : Routes d d' r) {s j : Node} (hj : j ∈ d.getNodes) (bj : Bends j) {c cj : Int} (pj : PutAt d' j cj 2) (N : Nat)
    {bs : List (List Node)} {ks : List Nat}
    (hb : ∀ b ∈ bs, b ≠ [] ∧ List.IsChain Link b ∧ (∀ n ∈ b.head?, ∃ i ∈ outs s, ins n = [i]) ∧ ∀ n ∈ b.getLast?, ∃ i ∈ ins j, outs n = [i])
    (hg : ∀ b ∈ bs, ∀ n ∈ b.getLast?, ¬Bends n)
    (F : List.Forall₂ (fun (b : List Node) (k : Nat) => ∀ (t : Nat) (n : Node), b[t]? = some n → PutAt d' n (c + 1 + t) (2 + branchRow N k)) bs ks)
    (hin : ∀ n ∈ bs.flatten, n ∈ d.getNodes) :
    (Props.leaving r bs.flatten).length = (bs.map fun b => b.length + gatewaysIn b).sum + ks.countP fun k => decide (branchRow N k ≠ 0) := by
  induction F with
  | nil => rfl
  | @cons b k bs ks F0 F ih =>
    have hb0 := hb b (by simp)
    have e := branch_length R hj bj pj b (c + 1) hb0.1 (fun n hn => hin n (by simp [hn])) hb0.2.1 (hg b (by simp)) hb0.2.2.2 F0
    have e' := ih (fun b' h' => hb b' (by simp [h'])) (fun b' h' => hg b' (by simp [h'])) (fun n hn => hin n (by
      rw [List.flatten_cons, List.mem_append]; exact .inr hn))
    rw [List.flatten_cons, leaving_append, List.length_append, e, e', List.map_cons, List.sum_cons, List.countP_cons]
    by_cases z : branchRow N k = 0
    · simp [z]; omega
    · rw [if_neg (by omega), if_pos (by simpa using z)]; omega

theorem rows_aside (n : Nat) : (List.range n).countP (fun k => decide (branchRow n k ≠ 0)) = 2 * (n / 2) := by
  have h : ∀ k < n, branchRow n k = 0 ↔ n % 2 = 1 ∧ k = n / 2 := by
    intro k hk
    unfold branchRow
    split
    · omega
    · split <;> omega
  have e : (List.range n).countP (fun k => decide (branchRow n k ≠ 0)) + (List.range n).countP (fun k => decide (n % 2 = 1 ∧ k = n / 2)) = n := by
    conv_rhs => rw [← List.length_range (n := n), List.length_eq_countP_add_countP (fun k => decide (branchRow n k ≠ 0))]
    congr 1
    refine List.countP_congr fun k hk => ?_
    have := h k (List.mem_range.1 hk)
    simp only [decide_eq_true_eq, ne_eq, not_not]
    simpa using this.symm
  by_cases c : n % 2 = 1
  · have : (List.range n).countP (fun k => decide (n % 2 = 1 ∧ k = n / 2)) = 1 := by
      have e1 : (List.range n).countP (fun k => decide (n % 2 = 1 ∧ k = n / 2)) = (List.range n).count (n / 2) := by
        unfold List.count
        refine List.countP_congr fun k hk => ?_
        simp [c]
      rw [e1, List.count_eq_one_of_mem List.nodup_range (List.mem_range.2 (by omega))]
    omega
  · have : (List.range n).countP (fun k => decide (n % 2 = 1 ∧ k = n / 2)) = 0 := by
      rw [List.countP_eq_zero]
      intro k _
      simp [c]
    omega

theorem pieces_length (h : Consistent d) (R : Routes d d' r) (all : ∀ n ∈ d.getNodes, ∃ x y, DrawnAt d' n x y) : ∀ (ps : List Piece) (c : Int),
    (∀ p ∈ ps, p.Ok) → (∀ p ∈ ps, Gated p) → List.IsChain (fun p q => Link p.last q.first) ps → (∀ n ∈ ps.flatMap Piece.nodes, n ∈ d.getNodes) →
    (∀ p ∈ ps.getLast?, outs p.last = []) → Drawn (PutAt d') c ps → (Props.leaving r (ps.flatMap Piece.nodes)).length = segmentsOf ps
  | [], _, _, _, _, _, _, _ => rfl
  | p :: ps, c, hok, hg, hc, hin, hstop, hd => by
    rw [List.flatMap_cons] at hin ⊢
    have hpin : ∀ n ∈ p.nodes, n ∈ d.getNodes := fun n hn => hin n (List.mem_append_left _ hn)
    have next : (ps = [] ∧ outs p.last = []) ∨ ∃ q qs i, ps = q :: qs ∧ outs p.last = [i] ∧ i ∈ ins q.first ∧ q.first ∈ d.getNodes := by
      cases ps with
      | nil => exact .inl ⟨rfl, hstop p (by simp)⟩
      | cons q qs =>
        obtain ⟨⟨i, h1, h2⟩, -⟩ := List.isChain_cons_cons.1 hc
        exact .inr ⟨q, qs, i, rfl, h1, by simp [h2], hin _ (List.mem_append_right _ (List.mem_flatMap.2 ⟨q, by simp, first_mem q⟩))⟩
    have rest : ∀ c', Drawn (PutAt d') c' ps → (Props.leaving r (ps.flatMap Piece.nodes)).length = segmentsOf ps := fun c' hd' =>
      pieces_length h R all ps c' (fun x hx => hok x (by simp [hx])) (fun x hx => hg x (by simp [hx])) hc.of_cons (fun n hn => hin n (List.mem_append_right _ hn))
        (fun x hx => hstop x (by
          cases ps with
          | nil => simp at hx
          | cons q qs => simpa using hx)) hd'
    -- the flow behind the part
    have out : ∀ (n : Node) (x : Int), n ∈ d.getNodes → n = p.last → PutAt d' n x 2 → ∀ c', Drawn (PutAt d') c' ps →
        (Props.leaving r [n]).length = if ps.isEmpty then 0 else 1 + gatewaysIn [n] := by
      intro n x hn en hx c' hd'
      subst en
      rcases next with ⟨rfl, e⟩ | ⟨q, qs, i, rfl, e, hi, hq⟩
      · rw [leaving_none r e]; rfl
      · have er := R.leg _ hn q.first hq i (by simp [e]) hi _ _ _ _ (put_drawn hx) (put_drawn (drawn_first hd'))
        rw [leaving_one r e, er, route_length, gateways_one]
        simp
    rw [leaving_append, List.length_append]
    cases p with
    | step n =>
      obtain ⟨d1, d2⟩ := hd
      rw [rest _ d2, segmentsOf, show (Piece.step n).nodes = [n] from rfl, out n c (hpin n (by simp [Piece.nodes])) rfl d1 _ d2]
    | block s bs j =>
      obtain ⟨d1, ⟨ks, hk, F⟩, d3, d4⟩ := hd
      obtain ⟨g1, g2, g3⟩ := hg (.block s bs j) (by simp)
      obtain ⟨o1, o2, o3, o4⟩ := hok (.block s bs j) (by simp)
      have hsn := hpin s (by simp [Piece.nodes])
      have hjn := hpin j (by simp [Piece.nodes])
      have fan : (Props.leaving r [s]).length = 2 * bs.length := by
        have : ∀ i ∈ outs s, (lines (r i)).length = 2 := by
          intro i hi
          obtain ⟨m, hm, -, hi'⟩ := h.outFlow s hsn i hi
          obtain ⟨x, y, dm⟩ := all m hm
          rw [R.leg s hsn m hm i hi hi' _ _ _ _ (put_drawn d1) dm, route_length, if_pos (.inl g1)]
        have e : ∀ l : List String, (∀ i ∈ l, (lines (r i)).length = 2) → (l.flatMap fun i => lines (r i)).length = 2 * l.length := by
          intro l hl
          induction l with
          | nil => rfl
          | cons i l ih =>
            rw [List.flatMap_cons, List.length_append, hl i (by simp), ih (fun k hk => hl k (by simp [hk])), List.length_cons]; omega
        simp only [Props.leaving, List.flatMap_cons, List.flatMap_nil, List.append_nil]
        rw [e _ this, o2]
      have mid := branches_length (s := s) R hjn g2 d3 bs.length o4 g3 F (fun n hn => hpin n (by
        rw [Piece.nodes, List.mem_cons, List.mem_append]; exact .inr (.inl hn)))
      rw [hk.countP_eq, rows_aside] at mid
      have oj := out j _ hjn rfl d3 _ d4
      rw [gateways_one, if_pos g2] at oj
      rw [show (Piece.block s bs j).nodes = s :: (bs.flatten ++ [j]) from rfl, leaving_cons, leaving_append, List.length_append, List.length_append, fan, mid, oj,
        rest _ d4, segmentsOf]
      change _ + (_ + if ps.isEmpty = true then 0 else 2) + _ = _
      omega

end

/-- **C125.** The number of straight lines in the drawing of a line of steps and blocks. -/
theorem C125_segments (d : Diagram) (h : Consistent d) (hp : d.graph.edges.Pairwise fun e f => ¬SamePair e.u e.v f.u f.v) (ps : List Piece)
    (hb : Blocks d ps) (hg : ∀ p ∈ ps, Gated p) (num : String → Py Rat) (hnum : ReadsIntegers num) :
    ∃ bound, ∀ fuel ≥ bound, ∃ d', generateLayout fuel d = .ok d' ∧ countSegments num d' = .ok (segmentsOf ps) := by
  obtain ⟨bound, H⟩ := C87_blocks_are_laid_out d h ps hb
  refine ⟨bound, fun fuel hf => ?_⟩
  obtain ⟨d', h1, h2⟩ := H fuel hf
  refine ⟨d', h1, ?_⟩
  obtain ⟨r, R, segs, h3, h4⟩ := drawing_routes h hp h1 hnum
  have all : ∀ n ∈ d.getNodes, ∃ x y, DrawnAt d' n x y := by
    intro n hn
    obtain ⟨x, y, hxy, -⟩ := drawn_within 1 ps h2 n (hb.nodes.mem_iff.2 hn)
    exact ⟨_, _, put_drawn hxy⟩
  have h5 := pieces_length h R all ps 1 hb.parts hg hb.line (fun n hn => hb.nodes.mem_iff.1 hn) hb.stop h2
  simp only [countSegments, h3, except_bind_ok, except_pure]
  rw [← h5, h4.length_eq]
  congr 1
  exact ((hb.nodes.symm.flatMap_right outs).flatMap_right _).length_eq

set_option maxRecDepth 8000 in
/-- The nine flows of `threeOps`: the three that leave the split, two that enter the join, and the one that leaves it have a bend. -/
example : ∃ bound, ∀ fuel ≥ bound, ∃ d', generateLayout fuel (Op.run {} threeOps) = .ok d' ∧ countSegments asRat d' = .ok 15 := by
  have e : segmentsOf (threePieces (Op.run {} threeOps).getNodes three_nodes) = 15 := by decide
  rw [← e]
  refine C125_segments _ (consistent_of_allowed _ three_allowed) (Sane.empty.run threeOps).onePerPair _ three_blocks ?_ asRat asRat_reads
  intro p hp
  simp only [threePieces, List.mem_cons, List.not_mem_nil, or_false] at hp
  rcases hp with rfl | rfl | rfl
  · trivial
  · refine ⟨by decide, by decide, ?_⟩
    intro b hb
    simp only [List.mem_cons, List.not_mem_nil, or_false] at hb
    rcases hb with rfl | rfl | rfl
    · decide
    · decide
    · decide
  · trivial

section flat
open Csv Spec.Csv
variable {t : FlatTable} {d : Diagram} {F : List (String × String)}

theorem row_straight {n : Node} (h : n.2.type = some "task" ∨ n.2.type = some "subProcess") : ¬Bends n := by
  unfold Bends
  rcases h with h | h <;> rw [h] <;> decide

theorem gate_bends (m : Made t d F) (g : t.Good) {x : Id} (h : x ∈ allIds t) (hr : ∀ p, x ≠ .row p) : Bends (nodeAt d x) := by
  obtain ⟨h1, h2⟩ := m.known_ids g h
  obtain ⟨ty, gt⟩ := m.gate g h1 hr (nodeAt_mem h2) rfl
  unfold Bends
  rw [gt.type]
  rcases gt.isGateway with rfl | rfl | rfl <;> decide

theorem leg_straight (m : Made t d F) (g : t.Good) (meets : t.Meets) {k j : Nat} {legs : List Leg} {leg : Leg} (hk : t.items[k]? = some (.block legs))
    (hj : legs[j]? = some leg) : ∀ n ∈ (legIds k j leg).map (nodeAt d), ¬Bends n := by
  intro n hn
  obtain ⟨x, hx, rfl⟩ := List.mem_map.1 hn
  obtain ⟨q, h1, h2, rfl⟩ := mem_legIds.1 hx
  obtain ⟨q, rfl⟩ : ∃ r, q = r + 1 := ⟨q - 1, by omega⟩
  have st := meets legs (List.mem_of_getElem? hk) leg (List.mem_of_getElem? hj)
  refine row_straight (work_of_row m g (c := leg.steps[q]'(by omega)) ?_ (by simp))
  simp [cell, hk, hj, st, List.getElem?_eq_getElem (show q < leg.steps.length by omega)]

theorem split_known {k : Nat} {legs : List Leg} (hk : t.items[k]? = some (.block legs)) : Id.split k ∈ allIds t ∧ Id.join (k + 2) ∈ allIds t :=
  ⟨List.mem_cons_of_mem _ (mem_idsFrom.2 (.inr (.inr ⟨k, legs, hk, .inl (by simp)⟩))),
   List.mem_cons_of_mem _ (mem_idsFrom.2 (.inr (.inr ⟨k, legs, hk, .inr (.inl (by simp))⟩)))⟩

theorem gateways_none {l : List Node} (h : ∀ n ∈ l, ¬Bends n) : gatewaysIn l = 0 := by
  unfold gatewaysIn
  rw [List.length_eq_zero_iff, List.filter_eq_nil_iff]
  intro n hn
  simpa using h n hn

theorem parts_gated (m : Made t d F) (g : t.Good) (meets : t.Meets) : ∀ (l : List Item) (k : Nat), t.items.drop k = l →
    (∀ p ∈ piecesFrom d k l, Gated p) ∧ piecesFrom d k l ≠ [] ∧ segmentsOf (piecesFrom d k l) = rowsIn l + 2 * blocksIn l + sideLegs l + bendsIn l ∧
      crossingsOf (piecesFrom d k l) = crossingsIn l
  | [], k, h => by
    refine ⟨fun p hp => ?_, by simp [piecesFrom], rfl, rfl⟩
    simp only [piecesFrom, List.mem_singleton] at hp
    subst hp; trivial
  | .step c :: r, k, h => by
    obtain ⟨h1, h2, h3⟩ := drop_item h
    obtain ⟨e1, e2, e3, e4⟩ := parts_gated m g meets r (k + 1) h2
    have z := gateways_none (l := [nodeAt d (.row (.main (k + 1)))]) (by
      intro n hn
      rw [List.mem_singleton] at hn
      subst hn
      exact row_straight (work_of_row m g (item_cell h1) (by simp)))
    refine ⟨fun p hp => ?_, by simp [piecesFrom], ?_, e4⟩
    · rcases List.mem_cons.1 hp with rfl | hp
      · trivial
      · exact e1 p hp
    · rw [piecesFrom, segmentsOf, z, if_neg (by simpa using e2), e3, rowsIn, blocksIn, sideLegs, bendsIn]; omega
  | .block legs :: r, k, h => by
    obtain ⟨h1, h2, h3⟩ := drop_item h
    obtain ⟨e1, e2, e3, e4⟩ := parts_gated m g meets r (k + 1) h2
    have hs := split_known h1
    have two := g.two legs (List.mem_of_getElem? h1)
    have two : 2 ≤ legs.length := Nat.le_trans two (List.length_filter_le _ _)
    have zl : (legs.mapIdx fun j leg => (legIds k j leg).map (nodeAt d)).map (fun b => b.length + gatewaysIn b) = legs.map fun l => l.steps.length := by
      refine List.ext_getElem (by simp) ?_
      intro i i1 i2
      simp only [List.getElem_map, List.getElem_mapIdx]
      rw [gateways_none (leg_straight m g meets h1 (List.getElem?_eq_getElem _))]
      simp [legIds]
    refine ⟨fun p hp => ?_, by simp [piecesFrom], ?_, ?_⟩
    · rcases List.mem_cons.1 hp with rfl | hp
      · refine ⟨gate_bends m g hs.1 (by simp), gate_bends m g hs.2 (by simp), ?_⟩
        intro b hb n hn
        obtain ⟨i, hi, rfl⟩ := List.mem_mapIdx.1 hb
        exact leg_straight m g meets h1 (List.getElem?_eq_getElem hi) n (List.mem_of_getLast? hn)
      · exact e1 p hp
    · rw [piecesFrom, segmentsOf, zl, if_neg (by simpa using e2), e3, rowsIn, blocksIn, sideLegs, bendsIn, List.length_mapIdx]; omega
    · rw [piecesFrom, crossingsOf, if_neg (by simpa using e2), e4, crossingsIn, List.length_mapIdx]
      obtain ⟨q, hq⟩ : ∃ q, legs.length / 2 = q + 1 := ⟨legs.length / 2 - 1, by omega⟩
      rw [hq, Nat.add_sub_cancel]
      ring

theorem half_flat (d : Diagram) : ∀ (l : List Item) (k : Nat), halfOf (piecesFrom d k l) = halfIn l
  | [], k => rfl
  | .step c :: r, k => by
    rw [piecesFrom, half_cons, half_flat d r (k + 1), halfIn]
    simp [Piece.half]
  | .block legs :: r, k => by
    rw [piecesFrom, half_cons, half_flat d r (k + 1), halfIn]
    simp [Piece.half]

/-- **C125.** The layout metrics and the size of the drawing of a flat table without terminated branches can be read off the table. -/
theorem C125_flat_drawing (t : FlatTable) (g : t.Good) (meets : t.Meets) (num : String → Py Rat) (hnum : ReadsIntegers num) :
    ∃ d, loadCsv t.rows {} = .ok d ∧ ∃ bound, ∀ fuel ≥ bound, ∃ d', generateLayout fuel d = .ok d' ∧
      countSegments num d' = .ok (1 + rowsIn t.items + 2 * blocksIn t.items + sideLegs t.items + bendsIn t.items) ∧
      countCrossingPoints num d' = .ok (crossingsIn t.items) ∧
      (∀ n ∈ d.getNodes, ∃ x y, DrawnAt d' n x y ∧ 200 ≤ x ∧ x ≤ 350 + 150 * (longRun t.items + 2 * blocksIn t.items : Nat) ∧
        250 - 200 * (halfIn t.items : Nat) ≤ y ∧ y ≤ 250 + 200 * (halfIn t.items : Nat)) ∧
      (∃ n ∈ d.getNodes, DrawnAt d' n (350 + 150 * (longRun t.items + 2 * blocksIn t.items : Nat)) 250) ∧
      (∃ n ∈ d.getNodes, ∃ x, DrawnAt d' n x (250 - 200 * (halfIn t.items : Nat))) ∧
      ∃ n ∈ d.getNodes, ∃ x, DrawnAt d' n x (250 + 200 * (halfIn t.items : Nat)) := by
  obtain ⟨d, h⟩ := flat_ok g
  obtain ⟨F, m⟩ := flat_made g h
  have tab := flat_table g
  have hb := m.blocks g meets (csv_supported tab h)
  have hne : allPieces t d ≠ [] := by simp [allPieces]
  obtain ⟨e1, e2, e3, e4⟩ := parts_gated m g meets t.items 0 rfl
  have hgt : ∀ p ∈ allPieces t d, Gated p := by
    intro p hp
    rcases List.mem_cons.1 hp with rfl | hp
    · trivial
    · exact e1 p hp
  have c0 : cell t (.main 0) = some (t.first, false) := rfl
  have z0 : gatewaysIn [nodeAt d (.row (.main 0))] = 0 := by
    refine gateways_none ?_
    intro n hn
    rw [List.mem_singleton] at hn
    subst hn
    unfold Bends
    rw [(m.row c0 (nodeAt_mem (x := .row (.main 0)) (m.rows _ _ _ c0).1) rfl).type]
    have : rowType (t.first.row (Pos.main 0).order false) = "startEvent" := by
      unfold rowType
      rw [if_pos]
      exact (by decide : String.ofList (decimal 0) = "0")
    rw [this]; decide
  have hseg : segmentsOf (allPieces t d) = 1 + rowsIn t.items + 2 * blocksIn t.items + sideLegs t.items + bendsIn t.items := by
    rw [allPieces, segmentsOf, z0, if_neg (by simpa using e2), e3]; omega
  have hcr : crossingsOf (allPieces t d) = crossingsIn t.items := e4
  have cl : (columnsOf (allPieces t d) : Int) = 2 + (longRun t.items + 2 * blocksIn t.items : Nat) := by
    have := columns_flat d t.items 0
    simp only [columnsOf, allPieces, List.map_cons, List.sum_cons, Piece.wide] at this ⊢
    omega
  have hh : halfOf (allPieces t d) = halfIn t.items := by
    rw [allPieces, half_cons, half_flat]; simp [Piece.half]
  have hp := m.inv.sane.onePerPair
  obtain ⟨b1, H1⟩ := C125_segments d m.consistent hp _ hb hgt num hnum
  obtain ⟨b2, H2⟩ := C117_crossings d m.consistent hp _ hb hgt num hnum
  obtain ⟨b3, H3⟩ := C122_page_size d m.consistent _ hb hne
  refine ⟨d, h, max (max b1 b2) b3, fun fuel hf => ?_⟩
  obtain ⟨d', k1, k2⟩ := H1 fuel (by omega)
  obtain ⟨d2, k3, k4⟩ := H2 fuel (by omega)
  obtain ⟨d3, k5, k6, k7, k8, k9, -⟩ := H3 fuel (by omega)
  rw [k1] at k3 k5
  obtain rfl := Except.ok.inj k3
  obtain rfl := Except.ok.inj k5
  have ex : (50 + 150 * (columnsOf (allPieces t d) : Nat) : Int) = 350 + 150 * (longRun t.items + 2 * blocksIn t.items : Nat) := by rw [cl]; ring
  rw [hh] at k6 k8 k9
  rw [ex] at k6 k7
  exact ⟨d', k1, by rw [k2, hseg], by rw [k4, hcr], k6, k7, k8, k9⟩

/-- The table with one block of three branches: eleven flows, six bends, two crossings. -/
example : ∃ d, loadCsv meeting.rows {} = .ok d ∧ ∃ bound, ∀ fuel ≥ bound, ∃ d', generateLayout fuel d = .ok d' ∧
    countSegments asRat d' = .ok 17 ∧ countCrossingPoints asRat d' = .ok 2 := by
  obtain ⟨d, h, b, H⟩ := C125_flat_drawing meeting meeting_good meeting_meets asRat asRat_reads
  refine ⟨d, h, b, fun fuel hf => ?_⟩
  obtain ⟨d', h1, h2, h3, -⟩ := H fuel hf
  exact ⟨d', h1, h2, h3⟩

end flat
end Bpmn.Props

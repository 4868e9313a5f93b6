import Verif.Spec.TableMetrics
import Verif.Props.CsvDrawn
import Verif.Props.Metrics
import Verif.Props.PageSize
import Verif.Props.BlockPaths
/-!
# The metrics of imported tables (C124)
-/
set_option linter.unusedSimpArgs false
set_option linter.unusedVariables false

namespace Bpmn.Props
open Bpmn Spec Layouter LayoutMetrics Metrics Csv Spec.Csv

section table
variable {rows : List Row} {d : Diagram}

theorem table_typed (t : Table rows) (h : loadCsv rows {} = .ok d) : Typed d := by
  intro n hn
  have := csv_types t h hn
  simp only [List.mem_cons, List.not_mem_nil, or_false] at this
  rcases this with e | e | e | e | e | e | e <;> rw [e] <;> rfl

open Classical in
/-- The nodes of some types that are not types of gateways are as many as the rows of these types. -/
theorem rows_counted (t : Table rows) (h : loadCsv rows {} = .ok d) (S : List String) (hS : ∀ s ∈ S, some s ∉ Spec.Csv.gatewayTypes) :
    howMany d S = rowsWith (fun r => rowType r ∈ S) rows := by
  obtain ⟨hnd, hn⟩ := C60_nodes rows t d h
  have hr := C60_rows rows t d h
  have p : ((d.getNodes.filter fun n => ∃ s ∈ S, n.2.type = some s).map (·.1)).Perm
      ((rows.filter fun r => decide (¬GotoRow r ∧ rowType r ∈ S)).map Row.order) := by
    rw [List.perm_ext_iff_of_nodup (hnd.sublist (List.filter_sublist.map _)) (t.orders.sublist (List.filter_sublist.map _))]
    intro i
    simp only [List.mem_map, List.mem_filter, decide_eq_true_eq]
    constructor
    · rintro ⟨n, ⟨hn1, s, hs, e⟩, rfl⟩
      rcases hn n hn1 with ⟨r, hr1, hg, e1⟩ | ⟨-, k⟩
      · refine ⟨r, ⟨hr1, hg, ?_⟩, e1⟩
        obtain ⟨n', hn', e2, e3, -⟩ := hr r hr1 hg
        have : n' = n := List.inj_on_of_nodup_map hnd hn' hn1 (e2.trans e1)
        subst this
        rw [e] at e3
        rw [← Option.some.inj e3]; exact hs
      · rw [e] at k; exact absurd k (hS s hs)
    · rintro ⟨r, ⟨hr1, hg, hs⟩, rfl⟩
      obtain ⟨n, hn1, e2, e3, -⟩ := hr r hr1 hg
      exact ⟨n, ⟨hn1, _, hs, e3⟩, e2⟩
  have := p.length_eq
  rw [List.length_map, List.length_map] at this
  unfold howMany rowsWith
  rw [this]
  congr 1
  exact List.filter_congr fun r _ => by simp only [decide_eq_decide]

theorem rowsWith_congr {P Q : Row → Prop} (h : ∀ r, P r ↔ Q r) : rowsWith P rows = rowsWith Q rows := by
  congr 1
  funext r
  exact propext (h r)

theorem rowsWith_add {P Q : Row → Prop} (h : ∀ r, ¬(P r ∧ Q r)) : rowsWith (fun r => P r ∨ Q r) rows = rowsWith P rows + rowsWith Q rows := by
  classical
  unfold rowsWith
  induction rows with
  | nil => rfl
  | cons r rows ih =>
    have := h r
    by_cases g : GotoRow r <;> by_cases p : P r <;> by_cases q : Q r <;> simp_all <;> omega

/-- **C124.** The counts of an imported table can be read off its rows: each row that is no `goto` makes one node, and all other nodes are gateways. -/
theorem C124_table_counts (rows : List Row) (t : Table rows) (d : Diagram) (h : loadCsv rows {} = .ok d) :
    tnse d = .ok (rowsWith (fun r => r.order = "0") rows) ∧ tnie d = .ok 0 ∧
    tnee d = .ok (rowsWith (fun r => r.order ≠ "0" ∧ r.terminated = "yes") rows) ∧
    noa d = .ok (rowsWith (fun r => r.order ≠ "0" ∧ r.terminated ≠ "yes") rows) ∧
    noac d = .ok d.getNodes.length ∧
    ∃ g, allGatewaysCount d = .ok g ∧ g + rowsWith (fun _ => True) rows = d.getNodes.length := by
  have ty := table_typed t h
  obtain ⟨h1, h2, h3, -, -, h6, -⟩ := C11_cardinalities d ty
  obtain ⟨s, i, e, a, g, k1, k2, k3, k4, k5, -, k6, -, -, k7⟩ := C11_identities d ty
  have cases : ∀ r : Row, (rowType r = "startEvent" ↔ r.order = "0") ∧ (rowType r = "endEvent" ↔ r.order ≠ "0" ∧ r.terminated = "yes") ∧
      ((rowType r = "task" ∨ rowType r = "subProcess") ↔ r.order ≠ "0" ∧ r.terminated ≠ "yes") ∧
      rowType r ≠ "intermediateCatchEvent" ∧ rowType r ≠ "intermediateThrowEvent" := by
    intro r
    unfold rowType
    by_cases c1 : r.order = "0"
    · simp [c1]
    · by_cases c2 : r.terminated = "yes"
      · simp [c1, c2]
      · by_cases c3 : r.subprocess = "yes" <;> simp [c1, c2, c3]
  have e1 : howMany d ["startEvent"] = rowsWith (fun r => r.order = "0") rows := by
    rw [rows_counted t h _ (by decide)]
    exact rowsWith_congr fun r => by rw [List.mem_singleton]; exact (cases r).1
  have e2 : howMany d ["intermediateCatchEvent", "intermediateThrowEvent"] = 0 := by
    rw [rows_counted t h _ (by decide)]
    unfold rowsWith
    rw [List.length_eq_zero_iff, List.filter_eq_nil_iff]
    intro r hr k
    have := (cases r).2.2.2
    simp [this.1, this.2] at k
  have e3 : howMany d ["endEvent"] = rowsWith (fun r => r.order ≠ "0" ∧ r.terminated = "yes") rows := by
    rw [rows_counted t h _ (by decide)]
    exact rowsWith_congr fun r => by rw [List.mem_singleton]; exact (cases r).2.1
  have e6 : howMany d ["task", "subProcess"] = rowsWith (fun r => r.order ≠ "0" ∧ r.terminated ≠ "yes") rows := by
    rw [rows_counted t h _ (by decide)]
    exact rowsWith_congr fun r => by
      rw [List.mem_cons, List.mem_singleton]; exact (cases r).2.2.1
  have all := k7 (fun n hn => by
    have := csv_types t h hn
    simp only [List.mem_cons, List.not_mem_nil, or_false] at this
    rcases this with e | e | e | e | e | e | e <;> exact ⟨_, by decide, e⟩)
  rw [h1, e1] at k1
  rw [h2, e2] at k2
  rw [h3, e3] at k3
  rw [h6, e6] at k4
  have f1 := Except.ok.inj k1
  have f2 := Except.ok.inj k2
  have f3 := Except.ok.inj k3
  have f4 := Except.ok.inj k4
  refine ⟨by rw [h1, e1], by rw [h2, e2], by rw [h3, e3], by rw [h6, e6], by rw [k6, all], g, k5, ?_⟩
  have sum : rowsWith (fun _ => True) rows = rowsWith (fun r => r.order = "0") rows +
      (rowsWith (fun r => r.order ≠ "0" ∧ r.terminated = "yes") rows + rowsWith (fun r => r.order ≠ "0" ∧ r.terminated ≠ "yes") rows) := by
    rw [← rowsWith_add (by tauto), ← rowsWith_add (by tauto)]
    exact rowsWith_congr fun r => by tauto
  omega

theorem rowsWith_eq (P : Row → Prop) [DecidablePred P] (rows : List Row) :
    rowsWith P rows = (rows.filter fun r => !isGoto r.activity && decide (P r)).length := by
  unfold rowsWith
  congr 1
  refine List.filter_congr fun r _ => ?_
  have := isGoto_iff r
  by_cases g : GotoRow r <;> by_cases p : P r <;> simp_all

/-- A table of nine rows, one of them a `goto`: six activities, and three gateways beside the eight rows. -/
example : Table claimTable ∧ ∃ d, loadCsv claimTable {} = .ok d ∧ tnse d = .ok 1 ∧ tnee d = .ok 1 ∧ noa d = .ok 6 ∧
    ∃ g, allGatewaysCount d = .ok g ∧ g + 8 = d.getNodes.length := by
  obtain ⟨d, h, -⟩ : ∃ d, loadCsv claimTable {} = .ok d ∧ true = true := ok_of_check _ (by decide +kernel)
  obtain ⟨h1, -, h2, h3, -, g, h4, h5⟩ := C124_table_counts claimTable claim_table d h
  rw [rowsWith_eq] at h1 h2 h3 h5
  exact ⟨claim_table, d, h, h1, h2, h3, g, h4, h5⟩

end table

section flat
variable {t : FlatTable} {d : Diagram} {F : List (String × String)}

theorem work_one {n : Node} (h : n.2.type = some "task" ∨ n.2.type = some "subProcess") : workIn [n] = 1 := by
  simp [workIn, activities, h]

theorem work_zero {n : Node} (h : ¬(n.2.type = some "task" ∨ n.2.type = some "subProcess")) : workIn [n] = 0 := by
  simp [workIn, activities, h]

theorem work_of_row (m : Made t d F) (g : t.Good) {p : Pos} {c : Csv.Cell} (h : cell t p = some (c, false)) (h0 : p ≠ .main 0) :
    (nodeAt d (.row p)).2.type = some "task" ∨ (nodeAt d (.row p)).2.type = some "subProcess" := by
  have hs := cell_small g (p := p) (by rw [h]; rfl)
  have hn : nodeAt d (.row p) ∈ d.getNodes := nodeAt_mem (m.rows p c false h).1
  have k := (m.row h hn rfl).type
  rw [k]
  have : String.ofList p.order ≠ "0" := fun h => h0 (order_zero hs h)
  by_cases c3 : c.subprocess = "yes" <;> simp [rowType, Csv.Cell.row, this, c3]

theorem no_work_gate (m : Made t d F) (g : t.Good) {x : Id} (h : x ∈ allIds t) (hr : ∀ p, x ≠ .row p) : workIn [nodeAt d x] = 0 := by
  obtain ⟨h1, h2⟩ := m.known_ids g h
  obtain ⟨ty, gt⟩ := m.gate g h1 hr (nodeAt_mem h2) rfl
  apply work_zero
  rw [gt.type]
  rcases gt.isGateway with rfl | rfl | rfl <;> decide

theorem work_all : ∀ (l : List Node), (∀ n ∈ l, n.2.type = some "task" ∨ n.2.type = some "subProcess") → workIn l = l.length
  | l, h => by
    unfold workIn activities
    rw [List.filter_eq_self.2 (fun n hn => by simpa using h n hn)]

theorem work_leg (m : Made t d F) (g : t.Good) (meets : t.Meets) {k j : Nat} {legs : List Leg} {leg : Leg} (hk : t.items[k]? = some (.block legs))
    (hj : legs[j]? = some leg) : workIn ((legIds k j leg).map (nodeAt d)) = leg.steps.length := by
  rw [work_all _ ?_, List.length_map, legIds, List.length_map, List.length_range]
  intro n hn
  obtain ⟨x, hx, rfl⟩ := List.mem_map.1 hn
  obtain ⟨q, h1, h2, rfl⟩ := mem_legIds.1 hx
  obtain ⟨q, rfl⟩ : ∃ r, q = r + 1 := ⟨q - 1, by omega⟩
  have st := meets legs (List.mem_of_getElem? hk) leg (List.mem_of_getElem? hj)
  refine work_of_row m g (c := leg.steps[q]'(by omega)) ?_ (by simp)
  simp [cell, hk, hj, st, List.getElem?_eq_getElem (show q < leg.steps.length by omega)]

theorem item_cell {k : Nat} {c : Spec.Csv.Cell} (h : t.items[k]? = some (.step c)) : cell t (.main (k + 1)) = some (c, false) := by
  have := (List.getElem?_eq_some_iff.1 h).1
  simp only [cell]
  rw [if_neg (by omega), h]

theorem drop_item {l : List Item} {k : Nat} {x : Item} {r : List Item} (h : l.drop k = x :: r) : l[k]? = some x ∧ l.drop (k + 1) = r ∧ k + 1 ≤ l.length := by
  have h1 : l[k]? = some x := by
    have := congrArg (·[0]?) h
    simpa using this
  refine ⟨h1, ?_, (List.getElem?_eq_some_iff.1 h1).1⟩
  rw [← List.drop_drop, h]; rfl

theorem work_parts (m : Made t d F) (g : t.Good) (meets : t.Meets) : ∀ (l : List Item) (k : Nat), t.items.drop k = l → k ≤ t.items.length →
    mostWork (piecesFrom d k l) = longRun l ∧ workIn ((piecesFrom d k l).flatMap Piece.nodes) = rowsIn l
  | [], k, h, hk' => by
    have hk : k = t.items.length := Nat.le_antisymm hk' (List.drop_eq_nil_iff.1 h)
    subst hk
    have hc : cell t (.main (t.items.length + 1)) = some (t.last, true) := by simp [cell]
    have hn : nodeAt d (.row (.main (t.items.length + 1))) ∈ d.getNodes := nodeAt_mem (m.rows _ _ _ hc).1
    have z : workIn [nodeAt d (.row (.main (t.items.length + 1)))] = 0 := by
      apply work_zero
      rw [(m.row hc hn rfl).type, (row_end (p := .main (t.items.length + 1)) (by simp) trivial).1]
      decide
    simp [piecesFrom, mostWork, longRun, rowsIn, Piece.nodes, z]
  | .step c :: r, k, h, hk' => by
    obtain ⟨h1, h2, h3⟩ := drop_item h
    obtain ⟨e1, e2⟩ := work_parts m g meets r (k + 1) h2 h3
    have z := work_one (work_of_row m g (item_cell h1) (by simp))
    simp only [piecesFrom, mostWork, longRun, rowsIn, List.flatMap_cons, Piece.nodes, work_append, z, e1, e2, and_self]
  | .block legs :: r, k, h, hk' => by
    obtain ⟨h1, h2, h3⟩ := drop_item h
    obtain ⟨e1, e2⟩ := work_parts m g meets r (k + 1) h2 h3
    have zs : workIn [nodeAt d (.split k)] = 0 :=
      no_work_gate m g (List.mem_cons_of_mem _ (mem_idsFrom.2 (.inr (.inr ⟨k, legs, h1, .inl (by simp)⟩)))) (by simp)
    have zj : workIn [nodeAt d (.join (k + 2))] = 0 :=
      no_work_gate m g (List.mem_cons_of_mem _ (mem_idsFrom.2 (.inr (.inr ⟨k, legs, h1, .inr (.inl (by simp))⟩)))) (by simp)
    have zl : (legs.mapIdx fun j leg => (legIds k j leg).map (nodeAt d)).map workIn = legs.map fun l => l.steps.length := by
      refine List.ext_getElem (by simp) ?_
      intro i i1 i2
      simp only [List.getElem_map, List.getElem_mapIdx]
      exact work_leg m g meets h1 (List.getElem?_eq_getElem _)
    have zf : ∀ bs : List (List Node), workIn bs.flatten = (bs.map workIn).sum := by
      intro bs
      induction bs with
      | nil => rfl
      | cons b bs ih => rw [List.flatten_cons, work_append, ih]; rfl
    constructor
    · simp only [piecesFrom, mostWork, longRun, zs, zj, zl, e1, longestLeg]; omega
    · simp only [piecesFrom, rowsIn, List.flatMap_cons, Piece.nodes, work_append, work_cons, zs, zj, zf, zl, e2]; omega

theorem ids_length : ∀ (l : List Item) (k : Nat), (idsFrom k l).length = 1 + rowsIn l + 2 * blocksIn l
  | [], k => rfl
  | .step c :: r, k => by
    simp only [idsFrom, rowsIn, blocksIn, List.length_cons, ids_length r (k + 1)]; omega
  | .block legs :: r, k => by
    have : (legs.mapIdx fun j leg => legIds k j leg).flatten.length = (legs.map fun l => l.steps.length).sum := by
      rw [List.length_flatten]
      congr 1
      refine List.ext_getElem (by simp) ?_
      intro i i1 i2
      simp [legIds]
    simp only [idsFrom, rowsIn, blocksIn, List.length_cons, List.length_append, List.length_nil, ids_length r (k + 1), this]; omega

theorem lines_length : ∀ (l : List Item) (k : Nat), (linesFrom k l).length = rowsIn l
  | [], k => rfl
  | .step c :: r, k => by
    simp only [linesFrom, itemRows, rowsIn, List.length_append, lines_length r (k + 1)]; rfl
  | .block legs :: r, k => by
    have : (legs.mapIdx fun j leg => legRows (decimal k ++ [letter j]) leg).flatten.length = (legs.map fun l => l.steps.length).sum := by
      rw [List.length_flatten]
      congr 1
      refine List.ext_getElem (by simp) ?_
      intro i i1 i2
      simp [legRows]
    simp only [linesFrom, itemRows, rowsIn, List.length_append, lines_length r (k + 1), this]

theorem side_legs (d : Diagram) : ∀ (l : List Item) (k : Nat), sideBranches (piecesFrom d k l) = sideLegs l
  | [], k => rfl
  | .step c :: r, k => side_legs d r (k + 1)
  | .block legs :: r, k => by simp [piecesFrom, sideBranches, sideLegs, side_legs d r (k + 1)]

theorem columns_flat (d : Diagram) : ∀ (l : List Item) (k : Nat), columnsOf (piecesFrom d k l) = 1 + longRun l + 2 * blocksIn l
  | [], k => rfl
  | .step c :: r, k => by
    have := columns_flat d r (k + 1)
    simp only [columnsOf, piecesFrom, List.map_cons, List.sum_cons, Piece.wide, longRun, blocksIn] at this ⊢
    omega
  | .block legs :: r, k => by
    have := columns_flat d r (k + 1)
    simp only [columnsOf, piecesFrom, List.map_cons, List.sum_cons, Piece.wide, longRun, blocksIn, longest_legs] at this ⊢
    omega

/-- **C124.** The metrics of a flat table without terminated branches can be read off the table: the numbers of events, activities, gateways and flows,
the longest path, and the longest path counted in tasks. -/
theorem C124_flat_metrics (t : FlatTable) (g : t.Good) (meets : t.Meets) :
    ∃ d, loadCsv t.rows {} = .ok d ∧ tnse d = .ok 1 ∧ tnie d = .ok 0 ∧ tnee d = .ok 1 ∧ noa d = .ok (rowsIn t.items) ∧
      allGatewaysCount d = .ok (2 * blocksIn t.items) ∧ noac d = .ok (2 + rowsIn t.items + 2 * blocksIn t.items) ∧
      d.getFlows.length = 1 + rowsIn t.items + 2 * blocksIn t.items + sideLegs t.items ∧
      ∃ p q N, ∀ fuel ≥ N, computeLongestPath fuel d = .ok (p, 2 + longRun t.items + 2 * blocksIn t.items) ∧
        computeLongestPathTasks fuel d = .ok (q, longRun t.items) := by
  obtain ⟨d, h⟩ := flat_ok g
  obtain ⟨F, m⟩ := flat_made g h
  have tab := flat_table g
  have hb := m.blocks g meets (csv_supported tab h)
  have hne : allPieces t d ≠ [] := by simp [allPieces]
  obtain ⟨k1, k2, k3, k4, k5, gw, k6, k7⟩ := C124_table_counts t.rows tab d h
  obtain ⟨s, i, e, a, g', l1, l2, l3, l4, l5, -, l6, -⟩ := C11_identities d (table_typed tab h)
  have len : d.getNodes.length = 2 + rowsIn t.items + 2 * blocksIn t.items := by
    rw [← hb.nodes.length_eq, allPieces, List.flatMap_cons, pieces_nodes, List.length_append, List.length_map, ids_length]
    simp [Piece.nodes]; omega
  have c0 : cell t (.main 0) = some (t.first, false) := rfl
  have z0 : workIn [nodeAt d (.row (.main 0))] = 0 := by
    apply work_zero
    rw [(m.row c0 (nodeAt_mem (x := .row (.main 0)) (m.rows _ _ _ c0).1) rfl).type]
    have : rowType (t.first.row (Pos.main 0).order false) = "startEvent" := by
      unfold rowType
      rw [if_pos]
      exact (by decide : String.ofList (decimal 0) = "0")
    rw [this]; decide
  obtain ⟨w1, w2⟩ := work_parts m g meets t.items 0 rfl (Nat.zero_le _)
  have work : howMany d ["task", "subProcess"] = rowsIn t.items := by
    have : howMany d ["task", "subProcess"] = workIn d.getNodes := by
      unfold howMany workIn activities
      congr 2
      funext n
      simp
    rw [this, workIn, activities, ← (hb.nodes.filter _).length_eq]
    change workIn ((allPieces t d).flatMap Piece.nodes) = _
    rw [allPieces, List.flatMap_cons, work_append]
    change workIn [_] + _ = _
    rw [z0, w2, Nat.zero_add]
  have na : noa d = .ok (rowsIn t.items) := by
    rw [(C11_cardinalities d (table_typed tab h)).2.2.2.2.2.1, work]
  have nrows : rowsWith (fun _ => True) t.rows = 2 + rowsIn t.items := by
    unfold rowsWith
    rw [List.filter_eq_self.2 (fun r hr => by simpa using g.plain r hr)]
    simp only [FlatTable.rows, List.length_cons, List.length_append, List.length_nil, lines_length]; omega
  have one : rowsWith (fun r => r.order = "0") t.rows = 1 := by
    classical
    have ho : String.ofList (decimal 0) = "0" := by decide
    have hnd := tab.orders
    have hp := g.plain
    unfold rowsWith
    rw [FlatTable.rows] at hnd hp ⊢
    rw [List.map_cons, List.nodup_cons] at hnd
    rw [List.filter_cons_of_pos (by simp only [decide_eq_true_eq]; exact ⟨hp _ (List.mem_cons_self ..), ho⟩), List.filter_eq_nil_iff.2]
    · rfl
    · intro r hr
      have : r.order ≠ "0" := fun k => hnd.1 (by
        rw [show (t.first.row (decimal 0) false).order = r.order from ho.trans k.symm]
        exact List.mem_map_of_mem hr)
      simp [this]
  have hg : gw = 2 * blocksIn t.items := by rw [nrows, len] at k7; omega
  rw [k1, one] at l1
  rw [k2] at l2
  rw [na] at l4
  rw [k6] at l5
  rw [k5] at l6
  have f1 := Except.ok.inj l1
  have f2 := Except.ok.inj l2
  have f4 := Except.ok.inj l4
  have f5 := Except.ok.inj l5
  have f6 := Except.ok.inj l6
  have he : e = 1 := by omega
  have fl := (C123_flows d m.consistent _ hb hne).1
  have sl : sideBranches (allPieces t d) = sideLegs t.items := side_legs d t.items 0
  have cl : columnsOf (allPieces t d) = 2 + longRun t.items + 2 * blocksIn t.items := by
    have := columns_flat d t.items 0
    simp only [columnsOf, allPieces, List.map_cons, List.sum_cons, Piece.wide] at this ⊢
    omega
  have wl : mostWork (allPieces t d) = longRun t.items := by
    rw [allPieces, mostWork, z0, w1, Nat.zero_add]
  obtain ⟨q, hq⟩ := C123_most_work d m.consistent _ hb hne
  obtain ⟨N, hN⟩ := C122_page_size d m.consistent _ hb hne
  obtain ⟨-, -, -, -, -, -, p, -⟩ := hN N (Nat.le_refl _)
  obtain ⟨hac, -⟩ := blocks_acyclic m.consistent hb
  obtain ⟨p, hp, -⟩ := C20_longest_path d m.consistent (noSelfLoop_of_acyclic m.consistent hac)
  refine ⟨d, h, by rw [k1, one], k2, by rw [l3, he], na, by rw [k6, hg], by rw [k5, len], by omega, p, q, max N (2 * d.getNodes.length + 1), fun fuel hf => ?_⟩
  obtain ⟨-, -, -, -, -, -, p', hp'⟩ := hN fuel (by omega)
  have hpf := hp fuel (by omega)
  refine ⟨?_, by rw [hq fuel (by omega), wl]⟩
  rw [hpf] at hp' ⊢
  rw [← cl]
  have := congrArg Prod.snd (Except.ok.inj hp')
  simp only at this
  rw [this]

/-- Six rows between start and end, one block of three branches: ten nodes with two gateways, and eleven flows; the longest path has eight nodes, four of which are tasks. -/
example : ∃ d, loadCsv meeting.rows {} = .ok d ∧ tnse d = .ok 1 ∧ noa d = .ok 6 ∧ allGatewaysCount d = .ok 2 ∧ noac d = .ok 10 ∧ d.getFlows.length = 11 ∧
    ∃ p q N, ∀ fuel ≥ N, computeLongestPath fuel d = .ok (p, 8) ∧ computeLongestPathTasks fuel d = .ok (q, 4) := by
  obtain ⟨d, h, h1, -, -, h2, h3, h4, h5, h6⟩ := C124_flat_metrics meeting meeting_good meeting_meets
  exact ⟨d, h, h1, h2, h3, h4, h5, h6⟩

end flat
end Bpmn.Props

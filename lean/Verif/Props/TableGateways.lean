import Verif.Spec.TableGateways
import Verif.Props.EndsMetrics
import Verif.Props.FlatProcess
import Verif.Lemmas.SameMetrics
/-!
# The gateways of a table: degrees and types (C128)
-/
set_option linter.unusedSimpArgs false
set_option linter.unusedVariables false

namespace Bpmn.Props
open Bpmn.Spec Bpmn.Spec.Csv Bpmn.Csv Bpmn.Layouter Bpmn.LayoutMetrics Bpmn.Metrics

theorem either_both {α : Type} (p q : α → Bool) (l : List α) :
    (l.filter fun a => p a || q a).length + (l.filter fun a => p a && q a).length = (l.filter p).length + (l.filter q).length := by
  induction l with
  | nil => rfl
  | cons a l ih =>
    simp only [List.filter_cons]
    cases p a <;> cases q a <;> simp <;> omega

/-- **C128.** In every consistent diagram the degree of a node is the number of its incoming and outgoing flows. -/
theorem C128_degree (d : Diagram) (h : Consistent d) (hs : Sane d) (n : Node) (hn : n ∈ d.getNodes) :
    d.graph.degree n.1 = (ins n).length + (outs n).length := by
  have uniq : ∀ f ∈ d.getFlows, ∀ g ∈ d.getFlows, f.2.2.id = g.2.2.id → f = g := fun f hf g hg e =>
    List.inj_on_of_nodup_map h.flowIds hf hg e
  have src : ((d.getFlows.filter fun f => f.2.2.sourceRef == some n.1).map (·.2.2.id)).Perm ((outs n).map some) := by
    refine (List.perm_ext_iff_of_nodup (h.flowIds.sublist (List.filter_sublist.map _)) ((h.lists n hn).2.2.2.map (Option.some_injective _))).2 fun i => ?_
    simp only [List.mem_map, List.mem_filter, beq_iff_eq]
    constructor
    · rintro ⟨f, ⟨hf, e⟩, rfl⟩
      obtain ⟨i, n', hn', h1, h2, h3⟩ := h.listed f hf
      obtain rfl : n' = n := h.node_eq hn' hn (Option.some.inj (h2.symm.trans e))
      exact ⟨i, h3, h1.symm⟩
    · rintro ⟨i, hi, rfl⟩
      obtain ⟨m, hm, ⟨a, b, x, g1, g2, g3, g4⟩, -⟩ := h.outFlow n hn i hi
      exact ⟨(a, b, x), ⟨pyFind_mem g1, g3⟩, g2⟩
  have tgt : ((d.getFlows.filter fun f => f.2.2.targetRef == some n.1).map (·.2.2.id)).Perm ((ins n).map some) := by
    refine (List.perm_ext_iff_of_nodup (h.flowIds.sublist (List.filter_sublist.map _)) ((h.lists n hn).2.2.1.map (Option.some_injective _))).2 fun i => ?_
    simp only [List.mem_map, List.mem_filter, beq_iff_eq]
    constructor
    · rintro ⟨f, ⟨hf, e⟩, rfl⟩
      obtain ⟨i, n', hn', h1, h2, h3⟩ := h.listed f hf
      obtain ⟨m, hm, ⟨a, b, x, g1, g2, g3, g4⟩, hi⟩ := h.outFlow n' hn' i h3
      obtain rfl := uniq f hf (a, b, x) (pyFind_mem g1) (h1.trans g2.symm)
      obtain rfl : m = n := h.node_eq hm hn (Option.some.inj (g4.symm.trans e))
      exact ⟨i, hi, h1.symm⟩
    · rintro ⟨i, hi, rfl⟩
      obtain ⟨m, hm, ⟨a, b, x, g1, g2, g3, g4⟩, -⟩ := h.inFlow n hn i hi
      exact ⟨(a, b, x), ⟨pyFind_mem g1, g4⟩, g2⟩
  have e1 := src.length_eq
  have e2 := tgt.length_eq
  simp only [List.length_map] at e1 e2
  have hp := Graph.flows_attrs_perm hs.wf
  rw [degree_eq hs, either_both, ← (hp.filter _).length_eq, ← (hp.filter _).length_eq, List.filter_map, List.filter_map, List.length_map, List.length_map]
  change (d.getFlows.filter fun f => f.2.2.sourceRef == some n.1).length + (d.getFlows.filter fun f => f.2.2.targetRef == some n.1).length = _
  omega

section
variable {t : FlatTable} {d : Diagram} {F : List (String × String)}

/-- A node is a gateway. -/
def gateNode (n : Node) : Bool := decide (∃ t ∈ ["inclusiveGateway", "exclusiveGateway", "parallelGateway", "eventBasedGateway", "complexGateway"], n.2.type = some t)

/-- The degree of a gateway, nothing for other nodes. -/
def gateDegree (d : Diagram) (x : Id) : Nat := if gateNode (nodeAt d x) then d.graph.degree x.name else 0

theorem row_cell {p : Pos} (hx : Id.row p ∈ allIds t) : (cell t p).isSome = true := by
  rcases List.mem_cons.1 hx with e | h
  · cases e; rfl
  · rcases mem_idsFrom.1 h with e | ⟨i, c, hi, e⟩ | ⟨i, legs, hi, e | e | ⟨j, leg, q, h1, h2, h3, e⟩⟩
    · cases e; simp [cell]
    · cases e; rw [Nat.zero_add, step_cell hi]; rfl
    · cases e
    · cases e
    · cases e
      obtain ⟨q, rfl⟩ : ∃ r, q = r + 1 := ⟨q - 1, by omega⟩
      rw [Nat.zero_add]
      exact leg_cell hi h1 (by omega)

theorem gate_row (m : Made t d F) (g : t.Good) {p : Pos} (hx : Id.row p ∈ allIds t) : gateNode (nodeAt d (.row p)) = false := by
  obtain ⟨hs, hi⟩ := m.known_ids g hx
  obtain ⟨⟨c, b⟩, hc⟩ := Option.isSome_iff_exists.1 (row_cell hx)
  have := (m.row hc (nodeAt_mem hi) rfl).type
  unfold gateNode
  rw [this]
  rcases rowType_cases (c.row p.order b) with h | h | h | h <;> rw [h] <;> decide

theorem gate_gate (m : Made t d F) (g : t.Good) {x : Id} (hx : x ∈ allIds t) (hr : ∀ p, x ≠ .row p) : gateNode (nodeAt d x) = true := by
  obtain ⟨h1, h2⟩ := m.known_ids g hx
  obtain ⟨ty, gt⟩ := m.gate g h1 hr (nodeAt_mem h2) rfl
  unfold gateNode
  rw [gt.type]
  rcases gt.isGateway with rfl | rfl | rfl <;> decide

theorem gateDegree_row (m : Made t d F) (g : t.Good) {p : Pos} (hx : Id.row p ∈ allIds t) : gateDegree d (.row p) = 0 := by
  unfold gateDegree
  rw [gate_row m g hx]; rfl

theorem gateDegree_gate (m : Made t d F) (g : t.Good) {x : Id} (hx : x ∈ allIds t) (hr : ∀ p, x ≠ .row p) :
    gateDegree d x = (ins (nodeAt d x)).length + (outs (nodeAt d x)).length := by
  unfold gateDegree
  rw [gate_gate m g hx hr, if_pos rfl]
  exact C128_degree d m.consistent m.inv.sane _ (m.in_diagram g hx)

theorem degree_sum (m : Made t d F) (g : t.Good) : ∀ (l : List Item) (k : Nat), t.items.drop k = l → k ≤ t.items.length → (∀ x ∈ idsFrom k l, x ∈ allIds t) →
    ((idsFrom k l).map (gateDegree d)).sum + stopsIn l = 4 * blocksIn l + 2 * sideLegs l
  | [], k, h, hk, hin => by
    have := gateDegree_row m g (hin _ (by simp [idsFrom]) : Id.row (.main (k + 1)) ∈ _)
    simp only [idsFrom, List.map_cons, List.map_nil, List.sum_cons, List.sum_nil, this, stopsIn, blocksIn, sideLegs]
    omega
  | .step c :: r, k, h, hk, hin => by
    obtain ⟨h1, h2, h3⟩ := drop_item h
    have ih := degree_sum m g r (k + 1) h2 h3 fun x hx => hin x (by rw [idsFrom]; exact List.mem_cons_of_mem _ hx)
    have := gateDegree_row m g (hin _ (by simp [idsFrom]) : Id.row (.main (k + 1)) ∈ _)
    rw [idsFrom, List.map_cons, List.sum_cons, this, stopsIn, blocksIn, sideLegs]
    omega
  | .block legs :: r, k, h, hk, hin => by
    obtain ⟨h1, h2, h3⟩ := drop_item h
    have ih := degree_sum m g r (k + 1) h2 h3 fun x hx => hin x (by rw [idsFrom]; exact List.mem_append_right _ hx)
    have z : ((legs.mapIdx fun j leg => legIds k j leg).flatten.map (gateDegree d)).sum = 0 := by
      refine List.sum_eq_zero fun v hv => ?_
      obtain ⟨x, hx, rfl⟩ := List.mem_map.1 hv
      have hx' : x ∈ allIds t := hin x (by
        rw [idsFrom]
        exact List.mem_append_left _ (List.mem_cons_of_mem _ (List.mem_append_left _ hx)))
      obtain ⟨l, hl, hx⟩ := List.mem_flatten.1 hx
      obtain ⟨j, hj, rfl⟩ := List.mem_mapIdx.1 hl
      obtain ⟨q, -, -, rfl⟩ := mem_legIds.1 hx
      exact gateDegree_row m g hx'
    have e1 : gateDegree d (.split k) = 1 + legs.length := by
      rw [gateDegree_gate m g (split_all h1) (by simp), m.ins_one g (Link.enter h1) (by simp), m.split_outs h1]; rfl
    have e2 : gateDegree d (.join (k + 2)) = (legs.filter fun l => !l.stops).length + 1 := by
      rw [gateDegree_gate m g (join_all h1) (by simp), m.outs_one g (Link.leave h1) (by simp), m.join_ins g h1, ← openLegs_fst, List.length_map]; rfl
    have two := g.two legs (List.mem_of_getElem? h1)
    have part : (legs.filter fun l => l.stops).length + (legs.filter fun l => !l.stops).length = legs.length :=
      (List.length_eq_length_filter_add (fun l : Leg => l.stops)).symm
    rw [idsFrom, stopsIn, blocksIn, sideLegs]
    simp only [List.cons_append, List.map_cons, List.map_append, List.sum_cons, List.sum_append, List.map_nil, List.sum_nil, z, e1, e2]
    omega

theorem filter_sum {α : Type} (p : α → Bool) (f : α → Nat) (l : List α) : ((l.filter p).map f).sum = (l.map fun a => if p a then f a else 0).sum := by
  induction l with
  | nil => rfl
  | cons a l ih =>
    rw [List.filter_cons, List.map_cons, List.sum_cons, ← ih]
    by_cases c : p a = true
    · rw [if_pos c, if_pos c, List.map_cons, List.sum_cons]
    · rw [if_neg c, if_neg c, Nat.zero_add]

end

/-- **C128.** The two quotients of the diagram of a flat table. -/
theorem C128_table_quotients (t : FlatTable) (g : t.Good) :
    ∃ d, loadCsv t.rows {} = .ok d ∧
      cnc d = .ok (((1 + rowsIn t.items + 2 * blocksIn t.items + sideLegs t.items : Nat) - stopsIn t.items : Rat) / (2 + rowsIn t.items + 2 * blocksIn t.items : Nat)) ∧
      (blocksIn t.items = 0 → averageGatewayDegree d = .error .zeroDivision) ∧
      (blocksIn t.items ≠ 0 → averageGatewayDegree d =
        .ok (((4 * blocksIn t.items + 2 * sideLegs t.items : Nat) - stopsIn t.items : Rat) / (2 * blocksIn t.items : Nat))) := by
  obtain ⟨d, h, -, -, -, -, gc, nc, fl, -⟩ := C127_ends_metrics t g
  obtain ⟨F, m⟩ := flat_made g h
  have tab := flat_table g
  have ty := table_typed tab h
  have perm := m.perm g
  have len : d.getNodes.length = 2 + rowsIn t.items + 2 * blocksIn t.items := by
    rw [← perm.length_eq, List.length_map, allIds, List.length_cons, ids_length]; omega
  obtain ⟨a1, a2⟩ := C16_average_gateway_degree d ty
  have hgs : (d.getNodes.filter gateNode).length = 2 * blocksIn t.items := by
    have := (C11_cardinalities d ty).2.2.2.2.2.2.2.1
    rw [gc] at this
    rw [Except.ok.inj this]
    unfold howMany gateNode
    congr 1
  have hsum : ((d.getNodes.filter gateNode).map fun n => d.graph.degree n.1).sum + stopsIn t.items = 4 * blocksIn t.items + 2 * sideLegs t.items := by
    have := degree_sum m g t.items 0 rfl (Nat.zero_le _) fun x hx => List.mem_cons_of_mem _ hx
    rw [filter_sum, ← (perm.map _).sum_eq, List.map_map, allIds, List.map_cons, List.sum_cons]
    have h0 := gateDegree_row m g (show Id.row (.main 0) ∈ allIds t from List.mem_cons_self ..)
    change gateDegree d (.row (.main 0)) + ((idsFrom 0 t.items).map (gateDegree d)).sum + _ = _
    omega
  refine ⟨d, h, ?_, ?_, ?_⟩
  · rw [(C16_network_complexity d).2 (by intro k; rw [k] at len; simp at len; omega), len, ← fl]
    push_cast
    congr 2
    ring
  · intro hb
    refine a1 (List.length_eq_zero_iff.1 ?_)
    change (d.getNodes.filter gateNode).length = 0
    rw [hgs, hb]
  · intro hb
    have := a2 (by
      intro k
      have : (d.getNodes.filter gateNode).length = 0 := by unfold gateNode; rw [k]; rfl
      omega)
    rw [this]
    change Except.ok ((((d.getNodes.filter gateNode).map fun n => d.graph.degree n.1).sum : Rat) / ((d.getNodes.filter gateNode).length : Rat)) = _
    rw [hgs, ← hsum]
    push_cast
    congr 2
    ring

/-- What C128 says about this table: the gateways have 4, 3 (a branch is terminated), 3 and 3 flows. -/
example : ∃ d, loadCsv sample.rows {} = .ok d ∧ cnc d = .ok (15 / 14) ∧ averageGatewayDegree d = .ok (13 / 4) := by
  obtain ⟨d, h, h1, -, h2⟩ := C128_table_quotients sample sample_good
  refine ⟨d, h, ?_, ?_⟩
  · rw [h1]
    have e1 : rowsIn sample.items = 8 := by decide
    have e2 : blocksIn sample.items = 2 := by decide
    have e3 : sideLegs sample.items = 3 := by decide
    have e4 : stopsIn sample.items = 1 := by decide
    rw [e1, e2, e3, e4]; norm_num
  · rw [h2 (by decide)]
    have e2 : blocksIn sample.items = 2 := by decide
    have e3 : sideLegs sample.items = 3 := by decide
    have e4 : stopsIn sample.items = 1 := by decide
    rw [e2, e3, e4]; norm_num

/-- C128_degree is about diagrams such as this imported one. -/
example : ∃ d, loadCsv sample.rows {} = .ok d ∧ ∀ n ∈ d.getNodes, d.graph.degree n.1 = (ins n).length + (outs n).length := by
  obtain ⟨d, h, -⟩ := C128_table_quotients sample sample_good
  obtain ⟨F, m⟩ := flat_made sample_good h
  exact ⟨d, h, C128_degree d m.consistent m.inv.sane⟩

/-- A table without blocks: the metric cannot be computed. -/
example : ∃ d, loadCsv (FlatTable.rows ⟨⟨"ordered", "", "", ""⟩, [.step ⟨"ship", "", "", ""⟩], ⟨"done", "", "", ""⟩⟩) {} = .ok d ∧
    averageGatewayDegree d = .error .zeroDivision := by
  obtain ⟨d, h, -, h1, -⟩ := C128_table_quotients ⟨⟨"ordered", "", "", ""⟩, [.step ⟨"ship", "", "", ""⟩], ⟨"done", "", "", ""⟩⟩
    ⟨by simp, by simp, by simp, by intro i legs legs' h; cases i <;> simp at h, by
      intro r hr hg
      have : ∀ r ∈ FlatTable.rows ⟨⟨"ordered", "", "", ""⟩, [.step ⟨"ship", "", "", ""⟩], ⟨"done", "", "", ""⟩⟩, isGoto r.activity = false := by decide
      rw [← isGoto_iff, this r hr] at hg
      cases hg⟩
  exact ⟨d, h, h1 rfl⟩

/-! ### The types of the gateways -/

section
variable {t : FlatTable} {d : Diagram} {F : List (String × String)}

theorem filter_map_length {α β : Type} (l : List α) (f : α → β) (p : β → Bool) (q : α → Bool) (h : ∀ a ∈ l, p (f a) = q a) :
    (l.filter q).length = ((l.map f).filter p).length := by
  rw [List.filter_map, List.length_map]
  exact congrArg List.length (List.filter_congr fun a ha => (h a ha).symm)

open Classical in
theorem block_rows (g : t.Good) {k : Nat} {legs : List Leg} (hk : t.items[k]? = some (.block legs)) :
    (t.rows.filter fun r => BranchStart (decimal (k + 1)) r.order.toList).length = legs.length := by
  have e := congrArg List.length (starts_eq g hk)
  rw [List.length_map, List.length_range] at e
  refine Eq.trans (filter_map_length t.rows Row.order (matchesSplit (String.ofList (decimal (k + 1)))) _ fun r hr => ?_) e
  rw [Bool.eq_iff_iff, decide_eq_true_eq]
  exact matchesSplit_start (flat_table g) hr

open Classical in
theorem block_says (g : t.Good) {k : Nat} {legs : List Leg} (hk : t.items[k]? = some (.block legs)) (w : String) :
    (∃ b ∈ t.rows.filter (fun r => BranchStart (decimal (k + 1)) r.order.toList), Says b w) ↔ Asks legs w := by
  constructor
  · rintro ⟨b, hb, hw⟩
    obtain ⟨hb1, hb2⟩ := List.mem_filter.1 hb
    obtain ⟨p, c, s, hp, rfl⟩ := mem_rows.1 hb1
    rw [decide_eq_true_eq, show (c.row p.order s).order.toList = p.order by simp [Csv.Cell.row]] at hb2
    obtain ⟨j, rfl⟩ := (branchStart_pos g (by rw [hp]; rfl)).1 hb2
    obtain ⟨i, n, legs', leg, e2, e3, h3, h4, h5, -⟩ := cell_leg hp
    obtain rfl : k = i := by omega
    obtain rfl : n = 0 := by omega
    rw [hk] at h3; cases h3
    exact ⟨leg, List.mem_of_getElem? h4, c, by rw [List.head?_eq_getElem?, h5]; rfl, hw⟩
  · rintro ⟨leg, hleg, c, hc, hw⟩
    obtain ⟨j, hj⟩ := List.getElem?_of_mem hleg
    obtain ⟨c', b, h3, h4⟩ := head_cell g hk hj
    rw [hc] at h3; cases h3
    refine ⟨c.row (Pos.leg (k + 1) j 1).order b, List.mem_filter.2 ⟨mem_rows.2 ⟨_, _, _, h4, rfl⟩, ?_⟩, hw⟩
    rw [decide_eq_true_eq, show (c.row (Pos.leg (k + 1) j 1).order b).order.toList = (Pos.leg (k + 1) j 1).order by simp [Csv.Cell.row]]
    exact (branchStart_pos g (by rw [h4]; rfl)).2 ⟨j, rfl⟩

theorem split_kind (m : Made t d F) (g : t.Good) (h : loadCsv t.rows {} = .ok d) {k : Nat} {legs : List Leg} (hk : t.items[k]? = some (.block legs)) (ty : String) :
    (nodeAt d (.split k)).2.type = some ty ↔ BlockKind legs ty := by
  classical
  have tb := flat_table g
  obtain ⟨c, hc, -⟩ := block_before g hk
  have hr := mem_rows.2 ⟨_, _, _, hc, rfl⟩
  have hlt := (List.getElem?_eq_some_iff.1 hk).1
  have ndr : t.rows.Nodup := List.Pairwise.of_map _ (fun a b h e => h (by rw [e])) tb.orders
  have htwo := g.two legs (List.mem_of_getElem? hk)
  have hle := List.length_filter_le (fun l : Leg => !l.stops) legs
  obtain ⟨nd, hnd, e1, x1, x2, x3⟩ := C46_gateway_type t.rows tb d h _ hr (by simp [Csv.Cell.row]) [] k (Or.inl rfl) (by simp [Csv.Cell.row, Pos.order])
    (by
      show ¬HasOrder t.rows (Pos.main (k + 1)).order
      rw [hasOrder_pos g (p := .main (k + 1)) trivial]
      simp [cell, hk]; omega)
    (Or.inr (by
      show HasOrder t.rows (decimal (k + 1) ++ ['a', '1'])
      rw [← first_branch, hasOrder_pos g (p := .leg (k + 1) 0 1) (by show 0 < 26; omega)]
      exact branch_cell g hk (by omega)))
    (t.rows.filter fun r => BranchStart (decimal (k + 1)) r.order.toList)
    ⟨ndr.filter _, fun b => by simp [List.mem_filter]⟩ (by rw [block_rows g hk]; omega)
  obtain ⟨i1, i2⟩ := m.known_ids g (split_all hk)
  obtain rfl : nd = nodeAt d (.split k) := m.same (nodeAt_mem i2) hnd (by rw [e1]; rfl) |>.symm
  obtain ⟨tp, gt⟩ := m.gate g i1 (by simp) hnd rfl
  have dec : Decision (t.rows.filter fun r => BranchStart (decimal (k + 1)) r.order.toList) ↔ YesOrNo legs := by
    unfold Decision YesOrNo
    rw [block_rows g hk, block_says g hk, block_says g hk, block_says g hk]
  have par : (nodeAt d (.split k)).2.type = some "parallelGateway" ↔ Unconditional legs := by
    rw [← split_parallel g h m.toFormed hk, (id_of_node m.inv hnd).2.2.2.1]; rfl
  rw [dec] at x1
  rw [gt.type] at x1 par ⊢
  simp only [Option.some.injEq] at x1 par ⊢
  unfold BlockKind
  rw [← x1, ← par]
  rcases gt.isGateway with rfl | rfl | rfl
  · constructor
    · rintro rfl; simp
    · rintro (⟨rfl, -⟩ | ⟨-, k⟩ | ⟨-, k, -⟩)
      · rfl
      · exact absurd k (by decide)
      · exact absurd rfl k
  · constructor
    · rintro rfl; simp
    · rintro (⟨-, k⟩ | ⟨rfl, -⟩ | ⟨-, -, k⟩)
      · exact absurd k (by decide)
      · rfl
      · exact absurd rfl k
  · constructor
    · rintro rfl; simp
    · rintro (⟨-, k⟩ | ⟨-, k⟩ | ⟨rfl, -⟩)
      · exact absurd k (by decide)
      · exact absurd k (by decide)
      · rfl

theorem join_kind (m : Made t d F) (g : t.Good) (h : loadCsv t.rows {} = .ok d) {k : Nat} {legs : List Leg} (hk : t.items[k]? = some (.block legs)) :
    (nodeAt d (.join (k + 2))).2.type = (nodeAt d (.split k)).2.type := by
  obtain ⟨ce, hc, -⟩ := block_before g hk
  obtain ⟨A, B, h1, h2⟩ := rows_before g hc
  have hklt := (List.getElem?_eq_some_iff.1 hk).1
  have htwo := g.two legs (List.mem_of_getElem? hk)
  have hle := List.length_filter_le (fun l : Leg => !l.stops) legs
  refine C83_join_like_split t.rows (flat_table g) d h A B _ h1 (by simp [Csv.Cell.row]) [] k (Or.inl rfl) (by simp [Csv.Cell.row, Pos.order]) ?_ ?_ ?_ _
    (m.in_diagram g (split_all hk)) ?_ _ (m.in_diagram g (join_all hk)) ?_
  · show ¬HasOrder t.rows (Pos.main (k + 1)).order
    rw [hasOrder_pos g (p := .main (k + 1)) trivial]
    simp only [cell, hk]
    rw [if_neg (by omega)]
    simp
  · right
    show HasOrder t.rows (decimal (k + 1) ++ ['a', '1'])
    rw [← first_branch, hasOrder_pos g (p := .leg (k + 1) 0 1) (by show 0 < 26; omega)]
    exact branch_cell g hk (by omega)
  · intro a ha
    exact h2 a ha
  · rfl
  · simp [nodeAt, Id.name]

end

/-- **C128.** The two gateways of every block have the type that the conditions of its branches ask for. -/
theorem C128_block_gateways (t : FlatTable) (g : t.Good) (d : Diagram) (h : loadCsv t.rows {} = .ok d) (k : Nat) (legs : List Leg)
    (hk : t.items[k]? = some (.block legs)) :
    ∃ s ∈ d.getNodes, ∃ j ∈ d.getNodes, s.1 = toString k ++ "_split" ∧ j.1 = toString (k + 2) ++ "_join" ∧
      ∀ ty, (s.2.type = some ty ↔ BlockKind legs ty) ∧ (j.2.type = some ty ↔ BlockKind legs ty) := by
  obtain ⟨F, m⟩ := flat_made g h
  refine ⟨_, m.in_diagram g (split_all hk), _, m.in_diagram g (join_all hk), split_str k, join_str (k + 2), fun ty => ⟨split_kind m g h hk ty, ?_⟩⟩
  rw [join_kind m g h hk]
  exact split_kind m g h hk ty

/-- **C128.** The heterogeneity of the gateways is the number of types of blocks. -/
theorem C128_heterogeneity (t : FlatTable) (g : t.Good) (d : Diagram) (h : loadCsv t.rows {} = .ok d) :
    gatewayHeterogenity d = .ok (kindsIn t.items) := by
  classical
  obtain ⟨F, m⟩ := flat_made g h
  obtain ⟨k, gw, h1, -, h2, -⟩ := C15_heterogeneity d (table_typed (flat_table g) h)
  have key : ∀ ty ∈ ["inclusiveGateway", "exclusiveGateway", "parallelGateway", "eventBasedGateway", "complexGateway"],
      (∃ n ∈ d.getNodes, n.2.type = some ty) ↔ ∃ legs, Item.block legs ∈ t.items ∧ BlockKind legs ty := by
    intro ty hty
    constructor
    · rintro ⟨n, hn, e⟩
      obtain ⟨x, hx, rfl⟩ := m.is_node g hn
      have hg : gateNode (nodeAt d x) = true := by
        unfold gateNode
        rw [decide_eq_true_eq]
        exact ⟨ty, hty, e⟩
      match x, hx with
      | .row p, hx => rw [gate_row m g hx] at hg; cases hg
      | .split k, hx =>
        obtain ⟨legs, hk⟩ : ∃ legs, t.items[k]? = some (.block legs) := by
          rcases List.mem_cons.1 hx with e | h
          · cases e
          · rcases mem_idsFrom.1 h with e | ⟨i, c, hi, e⟩ | ⟨i, legs, hi, e | e | ⟨j, leg, q, h1, h2, h3, e⟩⟩ <;> cases e
            exact ⟨legs, by rw [Nat.zero_add]; exact hi⟩
        exact ⟨legs, List.mem_of_getElem? hk, (split_kind m g h hk ty).1 e⟩
      | .join k, hx =>
        obtain ⟨i, legs, hk, rfl⟩ : ∃ i legs, t.items[i]? = some (.block legs) ∧ k = i + 2 := by
          rcases List.mem_cons.1 hx with e | h
          · cases e
          · rcases mem_idsFrom.1 h with e | ⟨i, c, hi, e⟩ | ⟨i, legs, hi, e | e | ⟨j, leg, q, h1, h2, h3, e⟩⟩ <;> cases e
            exact ⟨i, legs, hi, by omega⟩
        rw [join_kind m g h hk] at e
        exact ⟨legs, List.mem_of_getElem? hk, (split_kind m g h hk ty).1 e⟩
    · rintro ⟨legs, hl, hb⟩
      obtain ⟨i, hi⟩ := List.mem_iff_getElem?.1 hl
      exact ⟨_, m.in_diagram g (split_all hi), (split_kind m g h hi ty).2 hb⟩
  have no : ∀ legs ty, ty = "eventBasedGateway" ∨ ty = "complexGateway" → ¬BlockKind legs ty := by
    rintro legs ty (rfl | rfl) (⟨e, -⟩ | ⟨e, -⟩ | ⟨e, -⟩) <;> exact absurd e (by decide)
  rw [h1, h2, kindsIn]
  congr 1
  have e : (["inclusiveGateway", "exclusiveGateway", "parallelGateway", "eventBasedGateway", "complexGateway"].filter
      fun ty => decide (∃ n ∈ d.getNodes, n.2.type = some ty)) =
      ["inclusiveGateway", "exclusiveGateway", "parallelGateway"].filter fun ty => decide (∃ legs, Item.block legs ∈ t.items ∧ BlockKind legs ty) := by
    rw [List.filter_congr (q := fun ty => decide (∃ legs, Item.block legs ∈ t.items ∧ BlockKind legs ty)) fun ty hty => by rw [decide_eq_decide]; exact key ty hty]
    have z : ∀ ty, ty = "eventBasedGateway" ∨ ty = "complexGateway" → decide (∃ legs, Item.block legs ∈ t.items ∧ BlockKind legs ty) = false := by
      intro ty hty
      rw [decide_eq_false_iff_not]
      rintro ⟨legs, -, hb⟩
      exact no legs ty hty hb
    simp only [List.filter_cons, List.filter_nil, z "eventBasedGateway" (.inl rfl), z "complexGateway" (.inr rfl)]
    rfl
  have p : (["inclusiveGateway", "exclusiveGateway", "parallelGateway"] : List String).Perm ["exclusiveGateway", "parallelGateway", "inclusiveGateway"] := by decide
  rw [← (p.filter _).length_eq, ← e]

theorem sample_first : BlockKind [⟨[⟨"bill", "paid", "", ""⟩, ⟨"pack", "", "", ""⟩], false⟩, ⟨[⟨"refuse", "not paid", "", ""⟩], true⟩, ⟨[⟨"ask", "", "", ""⟩], false⟩] "inclusiveGateway" := by
  refine .inr (.inr ⟨rfl, fun h => absurd h.1 (by decide), fun h => ?_⟩)
  have := h _ (List.mem_cons_self ..) _ rfl 'p' (by decide)
  revert this; simp [White]

theorem sample_second : BlockKind [⟨[⟨"file", "", "", ""⟩], false⟩, ⟨[⟨"thank", "", "", ""⟩], false⟩] "parallelGateway" := by
  refine .inr (.inl ⟨rfl, ?_⟩)
  intro leg hl c hc x hx
  simp at hl
  rcases hl with rfl | rfl <;> simp at hc <;> subst hc <;> simp at hx

/-- In this table the conditions of the first block are no alternatives, and the second block has no conditions: two types. -/
example : ∃ d, loadCsv sample.rows {} = .ok d ∧ gatewayHeterogenity d = .ok 2 ∧
    (∃ s ∈ d.getNodes, s.1 = "1_split" ∧ s.2.type = some "inclusiveGateway") ∧
    ∃ j ∈ d.getNodes, j.1 = "5_join" ∧ j.2.type = some "parallelGateway" := by
  obtain ⟨d, h, -⟩ := C128_table_quotients sample sample_good
  refine ⟨d, h, ?_, ?_, ?_⟩
  · rw [C128_heterogeneity sample sample_good d h]
    have y : ¬∃ legs, Item.block legs ∈ sample.items ∧ BlockKind legs "exclusiveGateway" := by
      rintro ⟨legs, hl, ⟨-, hy⟩ | ⟨e, -⟩ | ⟨e, -⟩⟩
      · simp [sample] at hl
        rcases hl with rfl | rfl
        · exact absurd hy.1 (by decide)
        · have no : ∀ w, w ≠ "" → ¬Asks [⟨[⟨"file", "", "", ""⟩], false⟩, ⟨[⟨"thank", "", "", ""⟩], false⟩] w := by
            rintro w hw ⟨leg, hl, c, hc, a, b, e, -⟩
            simp at hl
            rcases hl with rfl | rfl <;> simp at hc <;> subst hc <;> simp at e <;> exact hw e.2.1
          rcases hy.2 with ⟨k, -⟩ | k <;> exact no _ (by decide) k
      · exact absurd e (by decide)
      · exact absurd e (by decide)
    have i : ∃ legs, Item.block legs ∈ sample.items ∧ BlockKind legs "inclusiveGateway" := ⟨_, by simp [sample], sample_first⟩
    have p : ∃ legs, Item.block legs ∈ sample.items ∧ BlockKind legs "parallelGateway" := ⟨_, by simp [sample], sample_second⟩
    simp [kindsIn, List.filter_cons, y, i, p]
  · obtain ⟨s, hs, j, hj, e, -, k⟩ := C128_block_gateways sample sample_good d h 1 _ rfl
    exact ⟨s, hs, by rw [e]; decide, (k _).1.2 sample_first⟩
  · obtain ⟨s, hs, j, hj, -, e, k⟩ := C128_block_gateways sample sample_good d h 3 _ rfl
    exact ⟨j, hj, by rw [e]; decide, (k _).2.2 sample_second⟩

end Bpmn.Props

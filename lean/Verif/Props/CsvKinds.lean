import Verif.Lemmas.CsvHead
import Verif.Props.CsvImport
/-! # C82, C83: what a diagram imported from CSV says apart from its structure, and the types of its joins -/
set_option linter.unusedSimpArgs false
set_option linter.unusedVariables false

namespace Bpmn.Props
open Bpmn.Csv Bpmn.Spec Bpmn.Spec.Csv

/-! ## C82 -/

/-- **C82, head.** A successful CSV import of a table, into any diagram, gives the diagram, its plane and one process a fixed head, and
keeps the other processes and the pools.  The process is not executable, and its list of nodes is the list of all orders: also those of
`goto` rows, for which no node is left, and without the gateways that were added. -/
theorem C82_head (rows : List Row) (t : Table rows) (d d' : Diagram) (h : loadCsv rows d = .ok d') :
    d'.diagramId = some "diagram1" ∧ d'.diagramName = some "diagram_name" ∧ d'.planeId = some "plane_1" ∧ d'.planeElement = some "process_1" ∧
    d'.collaboration = d.collaboration ∧
    (∃ a, d'.processElements.get? "process_1" = some a ∧ a.id = some "process_1" ∧ a.name = some "" ∧ a.isClosed = some "false" ∧
      a.isExecutable = some "false" ∧ a.processType = some "None" ∧ a.nodeIds = some (rows.map Row.order) ∧ a.laneSet = none) ∧
    ∀ k, k ≠ "process_1" → d'.processElements.get? k = d.processElements.get? k := by
  obtain ⟨pd, h1, h2⟩ := loadCsv_head h
  rw [t.dict] at h1
  cases h1
  have e := fun {α : Type} (f : Diagram → α) => congrArg f h2
  refine ⟨e (·.diagramId), e (·.diagramName), e (·.planeId), e (·.planeElement), e (·.collaboration), ?_, ?_⟩
  · have hp := e (fun x => x.processElements.get? "process_1")
    have hs : (headOf (populate (dictOf rows) d)).processElements.get? "process_1" = _ := Dict.get?_set_self _ _ _
    rw [hs] at hp
    exact ⟨_, hp, rfl, rfl, rfl, rfl, rfl, by rw [← keys_dictOf], rfl⟩
  · intro k hk
    refine (congrArg (fun x : Diagram => x.processElements.get? k) h2).trans ?_
    exact Dict.get?_set_ne _ _ (Ne.symm hk)

/-- **C82, nodes.** Every node of a diagram made by a CSV import belongs to that process and says nothing but its type, its name, its two
lists of flow ids, and the defaults of its type. -/
theorem C82_nodes_say (rows : List Row) (t : Table rows) (d : Diagram) (h : loadCsv rows {} = .ok d) :
    ∀ n ∈ d.getNodes, ∃ ty nm, n.2 = { csvNode n.1 ty nm with incoming := some (ins n), outgoing := some (outs n) } := by
  obtain ⟨d0, F, d1, d2, s⟩ := stages t h
  intro n hn
  obtain ⟨hx, -⟩ := id_of_node s.keep.inv hn
  obtain ⟨ty, nm, hb⟩ := s.bare_all t hx
  have hg := Dict.get?_of_mem s.keep.inv.nodup hn
  obtain ⟨h1, h2⟩ := s.listed _ _ hg
  obtain ⟨i, hi⟩ := Option.isSome_iff_exists.1 h1
  obtain ⟨o, ho⟩ := Option.isSome_iff_exists.1 h2
  refine ⟨ty, nm, ?_⟩
  simp only [bareOf, hg, Option.map_some, Option.some.injEq] at hb
  rw [← hb]
  obtain ⟨x, a⟩ := n
  cases a
  simp only at hi ho
  subst hi ho
  rfl

/-- **C82, flows.** Every flow belongs to that process, has the empty name and no waypoints; the id of its condition is the id of the flow,
or of the flow in the other direction, and `_cond`. -/
theorem C82_flows_say (rows : List Row) (t : Table rows) (d : Diagram) (h : loadCsv rows {} = .ok d) :
    ∀ f ∈ d.getFlows, f.2.2.process = some "process_1" ∧ f.2.2.name = some "" ∧ f.2.2.waypoints = none ∧
      ∀ c, f.2.2.conditionExpression = some c → c.id = f.1 ++ "__" ++ f.2.1 ++ "_cond" ∨ c.id = f.2.1 ++ "__" ++ f.1 ++ "_cond" := by
  obtain ⟨d0, F, d1, d2, s⟩ := stages t h
  have k := loadCsv_flowsLook h (by intro e he; simp at he)
  intro f hf
  obtain ⟨a, b, at'⟩ := f
  obtain ⟨e, he, rfl, hab⟩ := Graph.mem_flows hf
  obtain ⟨k1, k2, k3, k4⟩ := k e he
  refine ⟨k2, k1, k3, fun c hc => ?_⟩
  rcases hab with ⟨rfl, rfl⟩ | ⟨rfl, rfl⟩
  · exact k4 c hc
  · exact (k4 c hc).symm

set_option maxRecDepth 8000 in
/-- The process of the example lists the `goto` row 2a, and none of the three gateways. -/
example : Table claimTable ∧ ∃ d, loadCsv claimTable {} = .ok d ∧
    (d.getNodes.map (·.1) == ["0", "1", "2b", "3", "4a1", "4a2", "4b", "5", "1_split", "3_split", "5_join"] &&
      (d.processElements.get? "process_1").bind (·.nodeIds) == some ["0", "1", "2a", "2b", "3", "4a1", "4a2", "4b", "5"] &&
      d.getFlows.any fun f => f.2.2.conditionExpression == some ⟨"1_split__2b_cond", "complete"⟩) = true :=
  ⟨claim_table, ok_of_check _ (by decide +kernel)⟩

/-! ## C83 -/

/-- **C83, first part.** After a successful import, the gateway where branches meet before the row p (n+2) has the same type as the
gateway of the split after row p n, if this row stands above all rows with the number n+1 before a letter in their orders (as the rows of
the branches have). -/
theorem C83_join_like_split (rows : List Row) (t : Table rows) (d : Diagram) (h : loadCsv rows {} = .ok d)
    (A B : List Row) (r : Row) (hr : rows = A ++ r :: B) (ht : r.terminated ≠ "yes") (p : List Char) (n : Nat) (hp : Prefix p)
    (ho : r.order.toList = p ++ decimal n) (hn : ¬HasOrder rows (p ++ decimal (n + 1)))
    (ha : HasOrder rows (p ++ decimal (n + 1) ++ ['a']) ∨ HasOrder rows (p ++ decimal (n + 1) ++ ['a', '1']))
    (hA : ∀ a ∈ A, ¬NumberBefore a.order.toList (n + 1))
    (g : Node) (hg : g ∈ d.getNodes) (hg1 : g.1 = r.order ++ "_split")
    (j : Node) (hj : j ∈ d.getNodes) (hj1 : j.1.toList = p ++ decimal (n + 2) ++ "_join".toList) : j.2.type = g.2.type := by
  obtain ⟨d0, F, d1, d2, s⟩ := stages t h
  have hu := t.under
  rw [keys_dictOf] at hu
  have hrr : r ∈ rows := by rw [hr]; simp
  have hp' := prefix_ends hp
  have ej : j.1 = String.ofList (p ++ decimal (n + 2)) ++ "_join" := by
    apply String.toList_injective; rw [hj1]; simp
  have er : r.order = String.ofList (p ++ decimal n) := order_eq ho
  obtain ⟨hjid, -, -, hjt, -⟩ := id_of_node s.keep.inv hj
  obtain ⟨hgid, -, -, hgt, -⟩ := id_of_node s.keep.inv hg
  rw [ej] at hjid
  rw [hg1] at hgid
  obtain ⟨-, a, q, b, F1, dq, ty, e1, e2, e3, e4, e5, e6, e7⟩ := s.join_type t hp' hjid
  rw [show n + 2 - 1 = n + 1 by omega] at e4
  rw [show n + 2 - 2 = n by omega, ← er] at e7
  have hne : r ≠ q := by
    rintro rfl
    rw [er, splitCandidates_decimal n hp', anyPresent_false] at e5
    rcases ha with ha | ha
    · exact e5 _ (by simp) (hasOrder_iff.1 ha)
    · exact e5 (String.ofList (p ++ decimal (n + 1) ++ ['a', '1'])) (by simp only [List.mem_cons, true_or, or_true]) (hasOrder_iff.1 ha)
  have hra : r ∈ a := by
    have ndr : rows.Nodup := List.Pairwise.of_map _ (fun a b h e => h (by rw [e])) t.orders
    rw [hr] at e1
    rcases List.append_eq_append_iff.1 e1 with ⟨c, h1, h2⟩ | ⟨c, h1, h2⟩
    · cases c with
      | nil => simp at h2; exact absurd h2.1 hne
      | cons x c => simp at h2; rw [h1, h2.1]; simp
    · cases c with
      | nil => simp at h2; exact absurd h2.1.symm hne
      | cons x c =>
        simp at h2
        exact absurd e4 (hA q (by rw [h1, h2.1]; simp))
  have hrows : ∀ x ∈ a.map Row.order, x ∈ rows.map Row.order := by
    intro x hx; rw [e1]; simp only [List.map_append, List.mem_append]; exact Or.inl hx
  have n0 : ∀ x ∈ ids d0, Named (rows.map Row.order) [] x := by
    intro x hx
    rw [s.planted.ids, keys_dictOf] at hx
    exact Or.inl hx
  have hsplit : r.order ++ "_split" ∈ ids dq := by
    obtain ⟨a1, b1, G1, l, G2, g', c1, c2, k1, k2, k3, k4, k5⟩ := e2.around r.order (List.mem_map_of_mem hra)
    obtain ⟨i1, -, n1, -⟩ := k2.step hu s.planted.inv n0 (fun x hx => hrows x (by rw [k1]; simp [hx]))
    obtain ⟨i2, -, n2, -⟩ := k3.step hu (List.mem_map_of_mem hrr) i1 n1
    obtain ⟨-, gr, -, -⟩ := k4.step hu i2 n2 (fun x hx => hrows x (by rw [k1]; simp [hx]))
    obtain ⟨ty', rfl, -, rfl⟩ := k3.plan.of_split t hrr hp' ho ht hn ha
    refine gr.ids _ ?_
    obtain ⟨-, dm, hc, hch⟩ := k3
    rcases hc with ⟨hc, -⟩ | ⟨m, ty2, hc, -, hadd⟩
    · cases hc
    · cases hc
      rw [hch.ids, hadd.ids]; simp
  obtain ⟨e7, -⟩ | ⟨-, ty', e8, e9⟩ := e7
  · exact absurd hsplit e7
  have ng := notGoto_gateway t.under (underscore_split r.order)
  have kd : kind d (r.order ++ "_split") = some ty' := by
    rw [kind_eq, s.keep.bare _ hgid, ← kind_eq, legacy_bare_kind (s.keep2.bare _ ng), kind_eq, e3.bare _ hsplit, ← kind_eq]
    exact e8
  have hgate : ty' = "exclusiveGateway" ∨ ty' = "parallelGateway" ∨ ty' = "inclusiveGateway" := by
    rcases s.nodes t hgid with ⟨x, hx, -, hx2⟩ | ⟨-, hk⟩
    · exact absurd (underscore_split r.order) (hx2 ▸ hu _ (List.mem_map_of_mem hx))
    · obtain ⟨ty2, k1, k2⟩ := gatewayKind_iff.1 hk
      rw [kd] at k1; cases k1; exact k2
  have hty := e9 (by rcases hgate with rfl | rfl | rfl <;> decide)
  rw [hjt, ej, e6, hty, kindOf_gateway hgate, hgt, hg1, kd]

/-- **C83, second part.** It is an inclusive gateway if there is no split after a row p n. -/
theorem C83_join_default (rows : List Row) (t : Table rows) (d : Diagram) (h : loadCsv rows {} = .ok d) (p : List Char) (n : Nat) (hp : Prefix p)
    (hs : ∀ r ∈ rows, r.order.toList = p ++ decimal n → r.terminated = "yes" ∨ HasOrder rows (p ++ decimal (n + 1)) ∨
      ¬HasOrder rows (p ++ decimal (n + 1) ++ ['a']) ∧ ¬HasOrder rows (p ++ decimal (n + 1) ++ ['a', '1']))
    (j : Node) (hj : j ∈ d.getNodes) (hj1 : j.1.toList = p ++ decimal (n + 2) ++ "_join".toList) : j.2.type = some "inclusiveGateway" := by
  obtain ⟨d0, F, d1, d2, s⟩ := stages t h
  have hu := t.under
  rw [keys_dictOf] at hu
  have hp' := prefix_ends hp
  have ej : j.1 = String.ofList (p ++ decimal (n + 2)) ++ "_join" := by
    apply String.toList_injective; rw [hj1]; simp
  obtain ⟨hjid, -, -, hjt, -⟩ := id_of_node s.keep.inv hj
  rw [ej] at hjid
  obtain ⟨-, a, q, b, F1, dq, ty, e1, e2, e3, e4, e5, e6, e7⟩ := s.join_type t hp' hjid
  rw [show n + 2 - 2 = n by omega] at e7
  obtain ⟨-, e7⟩ | ⟨e7, -⟩ := e7
  · rw [hjt, ej, e6, e7]; rfl
  · exfalso
    obtain ⟨h1, ⟨l, h2, h3⟩, h4, h5⟩ := e2.split_origin _ e7 (by
      rw [s.planted.ids, keys_dictOf]
      exact fun hm => hu _ hm (underscore_split _))
    obtain ⟨r, hr, er⟩ := List.mem_map.1 h1
    have hrr : r ∈ rows := by rw [e1]; simp [hr]
    have hro : r.order.toList = p ++ decimal n := by rw [er, String.toList_ofList]
    rw [sequenceSuccessors_decimal n hp', anyPresent_false] at h4
    rw [splitCandidates_decimal n hp', anyPresent_iff] at h5
    rcases hs r hrr hro with k | k | ⟨k1, k2⟩
    · rw [← er, get?_dictOf t hrr] at h2; cases h2; exact h3 k
    · exact h4 _ (by simp) (hasOrder_iff.1 k)
    · obtain ⟨x, hx, hm⟩ := h5
      simp only [List.mem_cons, List.not_mem_nil, or_false] at hx
      rcases hx with rfl | rfl
      · exact k1 (hasOrder_iff.2 hm)
      · exact k2 (hasOrder_iff.2 hm)

/-- **C83, third part.** Branches never meet before a row numbered 0 or 1. -/
theorem C83_no_early_join (rows : List Row) (t : Table rows) (d : Diagram) (h : loadCsv rows {} = .ok d) (p : List Char) (n : Nat) (hp : Prefix p)
    (j : Node) (hj : j ∈ d.getNodes) (hj1 : j.1.toList = p ++ decimal n ++ "_join".toList) : 2 ≤ n := by
  obtain ⟨d0, F, d1, d2, s⟩ := stages t h
  have ej : j.1 = String.ofList (p ++ decimal n) ++ "_join" := by
    apply String.toList_injective; rw [hj1]; simp
  obtain ⟨hjid, -⟩ := id_of_node s.keep.inv hj
  rw [ej] at hjid
  exact (s.join_type t (prefix_ends hp) hjid).1

/-- A decision and the row where its branches meet. -/
def decisionTable : List Row :=
  [Row.mk "0" "s" "" "" "" "", Row.mk "1" "A" "" "" "" "", Row.mk "2a" "B" "yes" "" "" "", Row.mk "2b" "C" "no" "" "" "", Row.mk "3" "D" "" "" "" "", Row.mk "4" "" "" "" "" "yes"]

/-- The same rows, with row 1 below the branches. -/
def decisionShuffled : List Row :=
  [Row.mk "0" "s" "" "" "" "", Row.mk "2a" "B" "yes" "" "" "", Row.mk "2b" "C" "no" "" "" "", Row.mk "1" "A" "" "" "" "", Row.mk "3" "D" "" "" "" "", Row.mk "4" "" "" "" "" "yes"]

theorem decision_table : Table decisionTable := ⟨by decide, by decide⟩

/-- The first table meets the hypotheses of the first part, with row 1. -/
example : decisionTable = [Row.mk "0" "s" "" "" "" ""] ++ Row.mk "1" "A" "" "" "" "" :: decisionTable.drop 2 ∧ Prefix [] ∧
    "1".toList = [] ++ decimal 1 ∧ ¬HasOrder decisionTable ([] ++ decimal (1 + 1)) ∧ HasOrder decisionTable ([] ++ decimal (1 + 1) ++ ['a']) ∧
    ∀ a ∈ [Row.mk "0" "s" "" "" "" ""], ¬NumberBefore a.order.toList (1 + 1) := by
  refine ⟨rfl, Or.inl rfl, by decide, ?_, ?_, ?_⟩
  · unfold HasOrder; decide
  · unfold HasOrder; decide
  · intro a ha
    simp only [List.mem_singleton] at ha
    subst ha
    rintro ⟨u, ds, c, v, h, -, -, hc, -⟩
    have : c ∈ "0".toList := by rw [h]; simp
    simp at this
    subst this
    simp at hc

/-- A process that ends with row 1, followed by rows nothing leads to. -/
def abandonedTable : List Row :=
  [Row.mk "0" "s" "" "" "" "", Row.mk "1" "A" "" "" "" "yes", Row.mk "2a" "B" "yes" "" "" "", Row.mk "2b" "C" "no" "" "" "", Row.mk "3" "D" "" "" "" "", Row.mk "4" "" "" "" "" "yes"]

set_option maxRecDepth 8000 in
/-- It meets the hypotheses of the second part. -/
example : Table abandonedTable ∧ (∀ r ∈ abandonedTable, r.order.toList = [] ++ decimal 1 → r.terminated = "yes") ∧
    ∃ d, loadCsv abandonedTable {} = .ok d ∧ (d.getNodes.any fun n => n.1 == "3_join") = true :=
  ⟨⟨by decide, by decide⟩, by decide, ok_of_check _ (by decide +kernel)⟩

set_option maxRecDepth 8000 in
/-- **C83, limit.** The condition on the order of the rows is needed: with the same rows in another order the branches of a decision meet in
an inclusive gateway. -/
theorem C83_order_of_rows : decisionShuffled.Perm decisionTable ∧ Table decisionTable ∧
    (∃ d, loadCsv decisionTable {} = .ok d ∧ (d.getNodes.any (fun n => n.1 == "1_split" && n.2.type == some "exclusiveGateway") &&
      d.getNodes.any fun n => n.1 == "3_join" && n.2.type == some "exclusiveGateway") = true) ∧
    ∃ d, loadCsv decisionShuffled {} = .ok d ∧ (d.getNodes.any (fun n => n.1 == "1_split" && n.2.type == some "exclusiveGateway") &&
      d.getNodes.any fun n => n.1 == "3_join" && n.2.type == some "inclusiveGateway") = true :=
  ⟨by decide, ⟨by decide, by decide⟩, ok_of_check _ (by decide +kernel), ok_of_check _ (by decide +kernel)⟩

end Bpmn.Props

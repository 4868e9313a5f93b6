import Verif.Lemmas.CsvNext
import Verif.Props.CsvImport
/-!
# CSV import: C57 - C64
-/
set_option linter.unusedSimpArgs false
set_option linter.unusedVariables false

namespace Bpmn.Props
open Bpmn.Spec Bpmn.Csv Bpmn.Spec.Csv

/-! ## C57 -/

/-- **C57.** A diagram made by a successful CSV import cannot be exported as XML with layout data, if it has a flow at all: no flow has
waypoints.  (For every budget for the recursion over subprocesses.) -/
theorem C57_no_xml (rows : List Row) (t : Table rows) (d : Diagram) (h : loadCsv rows {} = .ok d) (hf : d.getFlows ≠ []) (fuel : Nat) :
    ∀ x, Export.exportXmlFile fuel d ≠ .ok x := by
  obtain ⟨d0, F, d1, d2, s⟩ := stages t h
  intro x hx
  unfold Export.exportXmlFile at hx
  obtain ⟨y, hx, -⟩ := except_bind_eq_ok hx
  unfold Export.definitions at hx
  obtain ⟨_, -, hx⟩ := except_bind_eq_ok hx
  obtain ⟨_, -, hx⟩ := except_bind_eq_ok hx
  obtain ⟨_, -, hx⟩ := except_bind_eq_ok hx
  obtain ⟨_, -, hx⟩ := except_bind_eq_ok hx
  obtain ⟨⟨_, _⟩, -, hx⟩ := except_bind_eq_ok hx
  obtain ⟨⟨_, _⟩, -, hx⟩ := except_bind_eq_ok hx
  obtain ⟨_, -, hx⟩ := except_bind_eq_ok hx
  obtain ⟨s4, h4, -⟩ := except_bind_eq_ok hx
  obtain ⟨f, r, e⟩ := List.exists_cons_of_ne_nil hf
  have h4 := forEach_eq_ok h4
  rw [e] at h4
  cases h4 with
  | cons h5 _ =>
    have hm : f.2.2 ∈ d.graph.edges.map (·.attrs) :=
      (d.graph.flows_attrs_perm s.keep.inv.sane.wf).mem_iff.1 (List.mem_map_of_mem (by rw [Diagram.getFlows] at e; rw [e]; simp))
    obtain ⟨ed, he, e2⟩ := List.mem_map.1 hm
    obtain ⟨_, _, _, _, _, hw, _, _⟩ := s.keep.inv.edgeI ed he
    unfold Export.exportFlowDi at h5
    rw [← e2, hw] at h5
    obtain ⟨_, -, h5⟩ := except_bind_eq_ok h5
    simp at h5

set_option maxRecDepth 8000 in
example : Table claimTable ∧ ∃ d, loadCsv claimTable {} = .ok d ∧ (!d.getFlows.isEmpty) = true :=
  ⟨claim_table, ok_of_check _ (by decide +kernel)⟩

/-! ## C58 -/

/-- **C58.** After a successful CSV import the condition on a flow is never empty and is the condition of a row at one of its ends that is
not a `goto`: the condition of a `goto` row is lost (unless another row has the same). -/
theorem C58_conditions (rows : List Row) (t : Table rows) (d : Diagram) (h : loadCsv rows {} = .ok d) :
    ∀ f ∈ d.getFlows, ∀ c, f.2.2.conditionExpression = some c → c.expr ≠ "" ∧
      ∃ r ∈ rows, ¬GotoRow r ∧ r.condition = c.expr ∧ (f.2.2.sourceRef = some r.order ∨ f.2.2.targetRef = some r.order) := by
  obtain ⟨d0, F, d1, d2, s⟩ := stages t h
  intro f hf c hc
  have hm : f.2.2 ∈ d.graph.edges.map (·.attrs) :=
    (d.graph.flows_attrs_perm s.keep.inv.sane.wf).mem_iff.1 (List.mem_map_of_mem hf)
  obtain ⟨e, he, e2⟩ := List.mem_map.1 hm
  obtain ⟨x, y, h1, h2, h3, _, hp, w⟩ := s.keep.inv.edgeI e he
  obtain ⟨hne, hcc⟩ := s.conditions e he c (by rw [e2]; exact hc)
  refine ⟨hne, ?_⟩
  have key : ∀ z, z ∈ ids d → conditionOf (dictOf rows) z = c.expr → ∃ r ∈ rows, ¬GotoRow r ∧ r.condition = c.expr ∧ r.order = z := by
    intro z hz hcz
    rcases s.nodes t hz with ⟨r, hr, hg, e⟩ | ⟨hz, -⟩
    · refine ⟨r, hr, hg, ?_, e⟩
      rw [← hcz, ← e]
      simp [conditionOf, get?_dictOf t hr]
    · have : (dictOf rows).get? z = none := by
        rw [Dict.get?_eq_none_iff, keys_dictOf]; exact hz
      simp only [conditionOf, this] at hcz
      exact absurd hcz.symm hne
  have both : conditionOf (dictOf rows) x = c.expr ∨ conditionOf (dictOf rows) y = c.expr := by
    rcases hp with ⟨rfl, rfl⟩ | ⟨rfl, rfl⟩
    · exact hcc
    · exact hcc.symm
  rcases both with hb | hb
  · obtain ⟨r, hr, hg, h4, h5⟩ := key x w.src hb
    exact ⟨r, hr, hg, h4, Or.inl (by rw [← e2, h2, h5])⟩
  · obtain ⟨r, hr, hg, h4, h5⟩ := key y w.tgt hb
    exact ⟨r, hr, hg, h4, Or.inr (by rw [← e2, h3, h5])⟩

/-- **C58.** No other condition is lost: after a successful CSV import every flow into the node of a row with a condition carries exactly that
condition, under the id of the flow followed by `_cond`. -/
theorem C58_carried (rows : List Row) (t : Table rows) (d : Diagram) (h : loadCsv rows {} = .ok d) :
    ∀ f ∈ d.getFlows, ∀ r ∈ rows, f.2.2.targetRef = some r.order → r.condition ≠ "" →
      ∃ i, f.2.2.id = some i ∧ f.2.2.conditionExpression = some ⟨i ++ "_cond", r.condition⟩ := by
  obtain ⟨d0, F, d1, d2, s⟩ := stages t h
  intro f hf r hr ht hne
  have hm : f.2.2 ∈ d.graph.edges.map (·.attrs) :=
    (d.graph.flows_attrs_perm s.keep.inv.sane.wf).mem_iff.1 (List.mem_map_of_mem hf)
  obtain ⟨e, he, e2⟩ := List.mem_map.1 hm
  obtain ⟨x, y, h1, h2, h3, _, hp, w⟩ := s.keep.inv.edgeI e he
  rw [← e2] at ht ⊢
  rw [h3, Option.some.injEq] at ht
  subst ht
  have hc : conditionOf (dictOf rows) r.order = r.condition := by simp [conditionOf, get?_dictOf t hr]
  exact ⟨_, h1, by rw [s.conditioned e he x _ h2 h3 (by rw [hc]; exact hne), hc]⟩

set_option maxRecDepth 8000 in
/-- The condition `else` of the `goto` row 2a is on no flow; the one of 2b is. -/
example : Table claimTable ∧ ∃ d, loadCsv claimTable {} = .ok d ∧ (d.getFlows.all (fun f => f.2.2.conditionExpression.all (fun c => c.expr != "else")) &&
    d.getFlows.any fun f => f.2.2.conditionExpression == some ⟨"1_split__2b_cond", "complete"⟩) = true :=
  ⟨claim_table, ok_of_check _ (by decide +kernel)⟩

/-! ## C59 -/

theorem not_letter_end {a b : List Char} {c : Char} {n : Nat} (hc : isLetter c = true) (h : a ++ [c] = b ++ decimal n) : False := by
  have := congrArg (fun l : List Char => l.getLast?) h
  simp only [List.getLast?_append, List.getLast?_singleton, Option.or_some] at this
  obtain ⟨q, x, e⟩ := (List.eq_nil_or_concat (decimal n)).resolve_left (decimal_ne_nil n)
  simp only [List.concat_eq_append] at e
  rw [e] at this
  simp at this
  have hd : x.isDigit = true := decimal_isDigit (n := n) (by rw [e]; simp)
  rw [← this] at hd
  rw [isLetter_not_digit hc] at hd
  cases hd

/-- **C59.** The row that continues a branch behind a nested split is never reached.  After a successful import of a table without `goto`:
a row with order p (k+1), in a branch (p has a digit and ends in a letter), not the first row of the branch (k+1 is not written with ones
only), and without a row p k before it (there is a nested split instead), has no incoming flow. -/
theorem C59_nested_continuation (rows : List Row) (t : Table rows) (hg : ∀ r ∈ rows, ¬GotoRow r) (d : Diagram) (h : loadCsv rows {} = .ok d)
    (r : Row) (hr : r ∈ rows) (p : List Char) (k : Nat) (hp : Prefix p) (hd : ∃ c ∈ p, c.isDigit = true)
    (ho : r.order.toList = p ++ decimal (k + 1)) (h1 : ∃ c ∈ decimal (k + 1), c ≠ '1')
    (hb : ∀ ds : List Char, ds ≠ [] → (∀ c ∈ ds, c.isDigit = true) → Nat.ofDigitChars 10 ds 0 = k → ¬HasOrder rows (p ++ ds)) :
    ∃ n ∈ d.getNodes, n.1 = r.order ∧ ins n = [] := by
  obtain ⟨d0, F, d1, d2, s⟩ := stages t h
  obtain ⟨n, hn, e1, -, e2, -⟩ := node_of_id s.keep.inv (s.stays t hr (hg r hr)).1
  refine ⟨n, hn, e1, ?_⟩
  rw [e2]
  apply List.eq_nil_of_length_eq_zero
  rw [s.row_in t hg (s.stays t hr (hg r hr)).1, entering_nil]; · rfl
  rintro ⟨x, y⟩ hF rfl
  obtain ⟨q, hq, dr, g, l, hP, hl⟩ := s.rounds.origin _ hF
  obtain ⟨q, hqr, rfl⟩ := List.mem_map.1 hq
  clear hq
  have hq := hqr
  have hu := t.under _ (by rw [keys_dictOf]; exact List.mem_map_of_mem hr)
  have mine := trailingNumber_decimal (k + 1) (prefix_ends hp)
  rw [← order_eq ho] at mine
  rcases hP.targets hl hu with hs | ⟨succ, hs, hm⟩ | ⟨cs, hs, hm⟩
  · unfold sequenceSuccessors at hs
    cases ht : trailingNumber q.order with
    | none => rw [ht] at hs; simp at hs
    | some a =>
      obtain ⟨pre, m⟩ := a
      rw [ht] at hs
      rw [List.mem_singleton] at hs
      have en := trailing_ends (t.alnum q hq) ht
      have e3 : r.order = String.ofList (pre.toList ++ decimal (m + 1)) := by
        rw [← append_toString, String.ofList_toList]; exact hs
      have := trailingNumber_decimal (m + 1) en
      rw [← e3, mine, String.ofList_toList] at this
      simp only [Option.some.injEq, Prod.mk.injEq, Nat.add_right_cancel_iff] at this
      obtain ⟨h6, rfl⟩ := this
      obtain ⟨ds, h7, h8, h9, h10⟩ := trailingNumber_some ht
      refine hb ds h8 h9 h10 ⟨q, hq, ?_⟩
      rw [h7, ← h6, String.toList_ofList]
  · unfold splitSuccessors at hs
    cases ht : trailingNumber q.order with
    | none => rw [ht] at hs; cases hs
    | some a =>
      obtain ⟨pre, m⟩ := a
      rw [ht] at hs
      cases hs
      obtain ⟨c, ones, hc, h6, h7⟩ := (matchesSplit_iff _ _).1 (List.mem_filter.1 hm).2
      by_cases e : ones = []
      · subst e
        rw [h7] at ho
        exact not_letter_end hc ho
      · have := trailingNumber_digits (p := (pre ++ toString (m + 1)).toList ++ [c]) (ds := ones) (Or.inr ⟨_, c, rfl, hc⟩)
          (fun x hx => by rw [h6 x hx]; rfl) e
        have e4 : r.order = String.ofList ((pre ++ toString (m + 1)).toList ++ [c] ++ ones) := order_eq (by rw [h7]; simp)
        rw [← e4, mine] at this
        simp only [Option.some.injEq, Prod.mk.injEq] at this
        have e5 := String.ofList_injective this.1
        rw [ho, e5, show ∀ a : List Char, a ++ c :: ones = a ++ [c] ++ ones by simp, List.append_cancel_left_eq] at h7
        obtain ⟨z, hz, hz1⟩ := h1
        exact hz1 (h6 z (h7 ▸ hz))
  · obtain ⟨sk, ds, c, -, hl, e⟩ := merge_candidate (t.alnum q hq) hs hm
    have := trailingNumber_decimal (Nat.ofDigitChars 10 ds 0 + 1) hl.ends
    rw [← e, mine] at this
    simp only [Option.some.injEq, Prod.mk.injEq] at this
    have e5 := String.ofList_injective this.1
    obtain ⟨z, hz, hz1⟩ := hd
    rw [e5] at hz
    rw [alpha_not_digit (hl z hz)] at hz1
    cases hz1

/-- A nested split with a continuation, 1a3. -/
def nestedTable : List Row :=
  [Row.mk "0" "s" "" "" "" "", Row.mk "1a1" "x" "" "" "" "", Row.mk "1a2a" "y" "" "" "" "", Row.mk "1a2b" "z" "" "" "" "",
   Row.mk "1a3" "w" "" "" "" "", Row.mk "1b" "v" "" "" "" "", Row.mk "2" "e" "" "" "" "yes"]

set_option maxRecDepth 8000 in
/-- The hypotheses for row 1a3 of the table. -/
example : Table nestedTable ∧ (∀ r ∈ nestedTable, ¬GotoRow r) ∧ Prefix ['1', 'a'] ∧ "1a3".toList = ['1', 'a'] ++ decimal (2 + 1) ∧
    (∀ ds : List Char, ds ≠ [] → (∀ c ∈ ds, c.isDigit = true) → Nat.ofDigitChars 10 ds 0 = 2 → ¬HasOrder nestedTable (['1', 'a'] ++ ds)) ∧
    ∃ d, loadCsv nestedTable {} = .ok d ∧ (d.getNodes.any fun n => n.1 == "1a3" && ins n == [] && outs n == ["1a3__2_join"]) = true := by
  refine ⟨⟨by decide, by decide⟩, ?_, Or.inr ⟨['1'], 'a', rfl, by decide⟩, by decide, ?_, ok_of_check _ (by decide +kernel)⟩
  · intro r hr
    rw [← isGoto_iff]
    revert r
    decide
  · rintro ds hne hd hv ⟨r, hr, ho⟩
    have key : ∀ r ∈ nestedTable, trailingNumber r.order ≠ some ("1a", 2) := by decide
    refine key r hr ?_
    have := trailingNumber_digits (p := ['1', 'a']) (ds := ds) (Or.inr ⟨['1'], 'a', rfl, by decide⟩) hd hne
    rw [← order_eq ho, hv] at this
    exact this

/-! ## C60 -/

/-- **C60, rows.** After a successful CSV import, every row that is not a `goto` is a node: a start event for order 0, otherwise an end
event if it is marked as terminated, otherwise a subprocess if it is marked as such, otherwise a task.  The node has the activity as its
name, but an end event has the empty name. -/
theorem C60_rows (rows : List Row) (t : Table rows) (d : Diagram) (h : loadCsv rows {} = .ok d) :
    ∀ r ∈ rows, ¬GotoRow r → ∃ n ∈ d.getNodes, n.1 = r.order ∧ n.2.type = some (rowType r) ∧
      n.2.nodeName = some (if rowType r = "endEvent" then "" else r.activity) := by
  obtain ⟨d0, F, d1, d2, s⟩ := stages t h
  intro r hr hg
  obtain ⟨h1, h2⟩ := s.stays t hr hg
  obtain ⟨n, hn, e1, -, -, e2, e3⟩ := node_of_id s.keep.inv h1
  refine ⟨n, hn, e1, ?_, ?_⟩
  · rw [e2, h2.kind, kindOf_row]
  · rw [e3, h2.title, nameFor_row]

/-- **C60, nodes.** Every other node is a gateway; no two nodes have the same id. -/
theorem C60_nodes (rows : List Row) (t : Table rows) (d : Diagram) (h : loadCsv rows {} = .ok d) :
    (d.getNodes.map (·.1)).Nodup ∧ ∀ n ∈ d.getNodes, (∃ r ∈ rows, ¬GotoRow r ∧ r.order = n.1) ∨
      (∀ r ∈ rows, r.order ≠ n.1) ∧ n.2.type ∈ gatewayTypes := by
  obtain ⟨d0, F, d1, d2, s⟩ := stages t h
  refine ⟨s.keep.inv.nodup, fun n hn => ?_⟩
  obtain ⟨h1, -, -, h2, -⟩ := id_of_node s.keep.inv hn
  rcases s.nodes t h1 with hh | ⟨h3, h4⟩
  · exact Or.inl hh
  · right
    refine ⟨fun r hr e => h3 (e ▸ List.mem_map_of_mem hr), ?_⟩
    obtain ⟨ty, h5, h6⟩ := gatewayKind_iff.1 h4
    rw [h2, h5]
    rcases h6 with rfl | rfl | rfl <;> simp [gatewayTypes]

set_option maxRecDepth 8000 in
example : Table claimTable ∧ ∃ d, loadCsv claimTable {} = .ok d ∧ ((d.getNodes.map fun n => (n.1, n.2.type.getD "", n.2.nodeName.getD "?")) ==
    [("0", "startEvent", "received"), ("1", "task", "check"), ("2b", "subProcess", "accept"), ("3", "task", "pay"), ("4a1", "task", "file"),
     ("4a2", "task", "sign"), ("4b", "task", "inform"), ("5", "endEvent", ""), ("1_split", "exclusiveGateway", ""),
     ("3_split", "parallelGateway", ""), ("5_join", "parallelGateway", "")]) = true :=
  ⟨claim_table, ok_of_check _ (by decide +kernel)⟩

/-! ## C61 -/

/-- **C61.** After a successful CSV import every gateway has at least two incoming or at least two outgoing flows. -/
theorem C61_gateways (rows : List Row) (t : Table rows) (d : Diagram) (h : loadCsv rows {} = .ok d) :
    ∀ n ∈ d.getNodes, n.2.type ∈ gatewayTypes → 2 ≤ (ins n).length ∨ 2 ≤ (outs n).length := by
  obtain ⟨d0, F, d1, d2, s⟩ := stages t h
  intro n hn ht
  obtain ⟨h1, h2, h3, h4, -⟩ := id_of_node s.keep.inv hn
  rw [h2, h3]
  refine s.keep.busy _ (s.keep.sub _ h1) h1 ?_
  unfold GatewayKind
  rw [← h4]
  simp only [gatewayTypes, List.mem_cons, List.not_mem_nil, or_false] at ht ⊢
  rcases ht with ht | ht | ht <;> simp [ht]

set_option maxRecDepth 8000 in
/-- The join before row 3, with one branch left, is not there. -/
example : Table claimTable ∧ ∃ d, loadCsv claimTable {} = .ok d ∧ (d.getNodes.any (fun n => n.1 == "5_join" && (ins n).length == 2) &&
    d.getNodes.all fun n => n.1 != "3_join") = true :=
  ⟨claim_table, ok_of_check _ (by decide +kernel)⟩

/-! ## C62 -/

/-- **C62.** After a successful CSV import the node of a row that is not a `goto` has exactly one outgoing flow id, or none if the row is
marked as terminated. -/
theorem C62_one_way_on (rows : List Row) (t : Table rows) (d : Diagram) (h : loadCsv rows {} = .ok d) :
    ∀ r ∈ rows, ¬GotoRow r → ∃ n ∈ d.getNodes, n.1 = r.order ∧ (outs n).length = if r.terminated = "yes" then 0 else 1 := by
  obtain ⟨d0, F, d1, d2, s⟩ := stages t h
  intro r hr hg
  obtain ⟨n, hn, e1, e2, -⟩ := node_of_id s.keep.inv (s.stays t hr hg).1
  exact ⟨n, hn, e1, by rw [e2]; exact s.row_out t hr hg⟩

set_option maxRecDepth 8000 in
example : Table claimTable ∧ ∃ d, loadCsv claimTable {} = .ok d ∧ (d.getNodes.any (fun n => n.1 == "1" && outs n == ["1__1_split"]) &&
    d.getNodes.any fun n => n.1 == "5" && outs n == []) = true :=
  ⟨claim_table, ok_of_check _ (by decide +kernel)⟩

/-! ## C63 -/

/-- **C63.** Blanks and tabs around the orders do not matter, for the result or an exception. -/
theorem C63_blanks (rows rows' : List Row) (t : Table rows) (hp : List.Forall₂ Padded rows rows') (d : Diagram) :
    loadCsv rows' d = loadCsv rows d := by
  have one : ∀ {r r' : Row}, Padded r r' → (∀ c ∈ r.order.toList, c.isAlphanum = true) → strip r'.order = r.order := by
    rintro r r' ⟨⟨a, b, h1, h2, h3⟩, -⟩ ha
    have w : ∀ c : Char, c = ' ' ∨ c = '\t' → isWhite c = true := by rintro c (rfl | rfl) <;> decide
    have := strip_pad (fun c hc => w c (h2 c hc)) (fun c hc => w c (h3 c hc)) (fun c hc => alnum_not_white (ha c hc))
    rw [← h1, String.ofList_toList, String.ofList_toList] at this
    exact this
  have e1 : ∀ {l l' : List Row}, List.Forall₂ Padded l l' → (∀ r ∈ l, ∀ c ∈ r.order.toList, c.isAlphanum = true) →
      l'.map (fun r => strip r.order) = l.map Row.order ∧
      (l'.map fun r => ((strip r.order, ⟨r.activity, r.condition, r.who, r.subprocess, r.terminated⟩) : String × Line)) = dictOf l ∧
      ∀ r ∈ l', strip (strip r.order) = strip r.order := by
    intro l l' hh
    induction hh with
    | nil => intro _; simp [dictOf]
    | @cons r r' l l' h _ ih =>
      intro ha
      obtain ⟨i1, i2, i3⟩ := ih fun x hx => ha x (List.mem_cons_of_mem _ hx)
      have o := one h (ha r (by simp))
      have := h.other
      simp only [fields, List.tail_cons, List.cons.injEq, and_true] at this
      obtain ⟨h1, h2, h3, h4, h5⟩ := this
      refine ⟨by simp only [List.map_cons, o, i1], ?_, ?_⟩
      · simp only [List.map_cons, o, h1, h2, h3, h4, h5, i2, dictOf]
      · intro x hx
        simp only [List.mem_cons] at hx
        rcases hx with rfl | hx
        · rw [o]
          exact strip_clean fun c hc => alnum_not_white (ha r (by simp) c hc)
        · exact i3 x hx
  obtain ⟨h1, h2, h3⟩ := e1 hp t.alnum
  unfold loadCsv
  rw [t.dict, processDict_eq (by rw [h1]; exact t.orders) h3, h2]

example : Table [Row.mk "0" "s" "" "" "" "", Row.mk "1" "e" "" "" "" "yes"] ∧
    List.Forall₂ Padded [Row.mk "0" "s" "" "" "" "", Row.mk "1" "e" "" "" "" "yes"] [Row.mk " 0" "s" "" "" "" "", Row.mk "\t1 " "e" "" "" "" "yes"] :=
  ⟨⟨by decide, by decide⟩, .cons ⟨⟨[' '], [], rfl, by simp, by simp⟩, rfl⟩ (.cons ⟨⟨['\t'], [' '], rfl, by simp, by simp⟩, rfl⟩ .nil)⟩

/-! ## C64 -/

/-- **C64.** A table with the last row, not terminated, of a nested branch k c j e and with the rows k+1 and j+1 of the main line, for
different k and j, cannot be imported. -/
theorem C64_ambiguous (rows : List Row) (t : Table rows) (r : Row) (hr : r ∈ rows) (ht : r.terminated ≠ "yes") (k j : Nat) (hkj : k ≠ j)
    (c e : Char) (hc : 'a' ≤ c ∧ c ≤ 'z') (he : 'a' ≤ e ∧ e ≤ 'z')
    (ho : LastStep rows (decimal k ++ [c] ++ decimal j ++ [e]) r.order.toList)
    (h1 : HasOrder rows (decimal (k + 1))) (h2 : HasOrder rows (decimal (j + 1))) :
    ∀ d, loadCsv rows {} ≠ .ok d := by
  intro d h
  obtain ⟨d0, F, d1, d2, s⟩ := stages t h
  obtain ⟨dr, g, l, hP, hF, -, -⟩ := s.plan t hr
  have hbp : BranchPrefix (decimal k ++ [c] ++ decimal j ++ [e]) := by
    have := BranchPrefix.step j (BranchPrefix.step k BranchPrefix.nil hc.1 hc.2) he.1 he.2
    simpa using this
  have hnum : Numbers (decimal k ++ [c] ++ decimal j ++ [e]) [k, j] := by
    have := Numbers.cons k hc.1 hc.2 (Numbers.cons j he.1 he.2 Numbers.nil)
    simpa using this
  have hl : isLetter e = true := (letter_range he.1 he.2).1
  have key : mergeSuccessors r.order = .ok [toString (k + 1), toString (j + 1)] ∧ anyPresent (sequenceSuccessors r.order) (rows.map Row.order) = false ∧
      anyPresent (splitCandidates r.order) (rows.map Row.order) = false := by
    rcases ho with ho | ⟨m, ho, n1, n2, n3⟩
    · rw [order_eq ho]
      refine ⟨(mergeSuccessors_branch hnum hbp (by simp) 0).2, ?_, ?_⟩
      · rw [sequenceSuccessors_letter _ hl]; rfl
      · rw [splitCandidates_letter _ hl]; rfl
    · rw [order_eq ho]
      refine ⟨(mergeSuccessors_branch hnum hbp (by simp) m).1, ?_, ?_⟩
      · rw [sequenceSuccessors_decimal m hbp.ends, anyPresent_false]
        intro x hx
        rw [List.mem_singleton] at hx; subst hx
        exact mt hasOrder_iff.2 n1
      · rw [splitCandidates_decimal m hbp.ends, anyPresent_false]
        intro x hx
        simp only [List.mem_cons, List.not_mem_nil, or_false] at hx
        rcases hx with rfl | rfl
        · exact mt hasOrder_iff.2 n2
        · exact mt hasOrder_iff.2 n3
  have no : ∀ x, onlyPresent [toString (k + 1), toString (j + 1)] (rows.map Row.order) ≠ .ok x := by
    intro x hx
    have a := onlyPresent_unique hx (x := toString (k + 1)) (by simp) (by
      have := hasOrder_iff.1 h1; rwa [decimal, String.ofList_toList] at this)
    have b := onlyPresent_unique hx (x := toString (j + 1)) (by simp) (by
      have := hasOrder_iff.1 h2; rwa [decimal, String.ofList_toList] at this)
    have : decimal (k + 1) = decimal (j + 1) := congrArg String.toList (a.trans b.symm)
    rw [decimal_eq, decimal_eq] at this
    have := congrArg (fun l => Nat.ofDigitChars 10 l 0) this
    simp only [Nat.ofDigitChars_ten_toDigits] at this
    omega
  have hk := get?_dictOf t hr
  cases hP with
  | stop g1 g2 => rw [hk] at g1; cases g1; exact absurd g2 ht
  | sequence _ _ g3 _ => rw [key.2.1] at g3; cases g3
  | split _ _ _ g4 => rw [key.2.2] at g4; cases g4
  | join _ _ _ _ g5 g6 => rw [key.1] at g5; cases g5; exact no _ g6
  | newJoin _ _ _ _ g5 g6 => rw [key.1] at g5; cases g5; exact no _ g6

/-- A nested split in the second step of a branch, and a main line that goes on. -/
def deepTable : List Row :=
  [Row.mk "0" "s" "" "" "" "", Row.mk "1a1" "x" "" "" "" "", Row.mk "1a2" "x2" "" "" "" "", Row.mk "1a3a" "y" "" "" "" "", Row.mk "1a3b" "z" "" "" "" "",
   Row.mk "1b" "v" "" "" "" "", Row.mk "2" "u" "" "" "" "", Row.mk "3" "q" "" "" "" "", Row.mk "4" "e" "" "" "" "yes"]

example : Table deepTable ∧ LastStep deepTable (decimal 1 ++ ['a'] ++ decimal 3 ++ ['a']) "1a3a".toList ∧ HasOrder deepTable (decimal (1 + 1)) ∧
    HasOrder deepTable (decimal (3 + 1)) := by
  refine ⟨⟨by decide, by decide⟩, Or.inl (by decide), ?_, ?_⟩
  · rw [hasOrder_iff]; decide
  · rw [hasOrder_iff]; decide

end Bpmn.Props

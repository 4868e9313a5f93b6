import Verif.Lemmas.CsvFinal
import Verif.Props.XmlContent
/-!
# CSV import: C45 - C48, C57 - C63
-/
set_option linter.unusedSimpArgs false
set_option linter.unusedVariables false

namespace Bpmn.Props
open Bpmn.Spec Bpmn.Csv Bpmn.Spec.Csv

/-- A claim, a decision with a loop back, two parallel steps, an end. -/
def claimTable : List Row :=
  [Row.mk "0" "received" "" "" "" "", Row.mk "1" "check" "" "clerk" "" "",
   Row.mk "2a" "goto 1" "else" "" "" "", Row.mk "2b" "accept" "complete" "" "yes" "",
   Row.mk "3" "pay" "" "" "" "", Row.mk "4a1" "file" "" "" "" "", Row.mk "4a2" "sign" "" "" "" "", Row.mk "4b" "inform" "" "" "" "",
   Row.mk "5" "done" "" "" "" "yes"]

theorem claim_table : Table claimTable := ⟨by decide, by decide⟩

/-! ## C45 -/

/-- **C45, first part.** After a successful import of a table into a new diagram, the id of every flow is made of the ids of its ends, the
ends are nodes, and the flow is listed by both and in the dictionary of sequence flows, with the right ends. -/
theorem C45_flows (rows : List Row) (t : Table rows) (d : Diagram) (h : loadCsv rows {} = .ok d) :
    ∀ f ∈ d.getFlows, ∃ n ∈ d.getNodes, ∃ m ∈ d.getNodes, ∃ sf,
      f.2.2.id = some (n.1 ++ "__" ++ m.1) ∧ f.2.2.sourceRef = some n.1 ∧ f.2.2.targetRef = some m.1 ∧
      (n.1 ++ "__" ++ m.1) ∈ outs n ∧ (n.1 ++ "__" ++ m.1) ∈ ins m ∧
      d.sequenceFlows.get? (n.1 ++ "__" ++ m.1) = some sf ∧ sf.sourceRef = n.1 ∧ sf.targetRef = m.1 := by
  obtain ⟨d0, F, d1, d2, s⟩ := stages t h
  intro f hf
  have hm : f.2.2 ∈ d.graph.edges.map (·.attrs) :=
    (d.graph.flows_attrs_perm s.keep.inv.sane.wf).mem_iff.1 (List.mem_map_of_mem hf)
  obtain ⟨e, he, e2⟩ := List.mem_map.1 hm
  obtain ⟨x, y, h1, h2, h3, _, _, w⟩ := s.keep.inv.edgeI e he
  obtain ⟨n, hn, a1, a2, -⟩ := node_of_id s.keep.inv w.src
  obtain ⟨m, hm, b1, -, b2, -⟩ := node_of_id s.keep.inv w.tgt
  subst a1; subst b1
  refine ⟨n, hn, m, hm, _, ?_, ?_, ?_, ?_, ?_, w.flow, rfl, rfl⟩
  · rw [← e2]; exact h1
  · rw [← e2]; exact h2
  · rw [← e2]; exact h3
  · rw [a2]; exact w.out
  · rw [b2]; exact w.inn

/-- **C45, second part.** No node is left for a `goto` row. -/
theorem C45_no_goto (rows : List Row) (t : Table rows) (d : Diagram) (h : loadCsv rows {} = .ok d) :
    ∀ r ∈ rows, GotoRow r → ∀ n ∈ d.getNodes, n.1 ≠ r.order := by
  obtain ⟨d0, F, d1, d2, s⟩ := stages t h
  intro r hr hg n hn e
  obtain ⟨q, hq, h1, h2⟩ | ⟨h1, -⟩ := s.nodes t (id_of_node s.keep.inv hn).1
  · have hk := get?_dictOf t hr
    have hk' := get?_dictOf t hq
    rw [h2, e, hk] at hk'
    simp only [Option.some.injEq, Line.mk.injEq] at hk'
    refine h1 ?_
    unfold GotoRow at hg ⊢
    rw [← hk'.1]; exact hg
  · exact h1 (e ▸ List.mem_map_of_mem hr)

set_option maxRecDepth 8000 in
/-- Each of the flows of the example; the `goto` row 2a is gone. -/
example : Table claimTable ∧ GotoRow (Row.mk "2a" "goto 1" "else" "" "" "") ∧ ∃ d, loadCsv claimTable {} = .ok d ∧
    (d.getFlows.length == 11 && d.getNodes.map (·.1) == ["0", "1", "2b", "3", "4a1", "4a2", "4b", "5", "1_split", "3_split", "5_join"]) = true :=
  ⟨claim_table, ⟨'g', 'o', 't', 'o', " 1".toList, rfl, by simp⟩, ok_of_check _ (by decide +kernel)⟩

set_option maxRecDepth 8000 in
/-- **C45, third part.** The converse fails: an ordinary loop back (`goto 1` directly behind the split after row 1) leaves node 1 with an
outgoing flow id that no flow has, because the flow back replaced it in the graph. -/
theorem C45_lost_flow : Table claimTable ∧ ∃ d, loadCsv claimTable {} = .ok d ∧ ∃ n ∈ d.getNodes, n.1 = "1" ∧ ∃ i ∈ outs n,
    ∀ f ∈ d.getFlows, f.2.2.id ≠ some i := by
  refine ⟨claim_table, ?_⟩
  obtain ⟨d, h1, h2⟩ := ok_of_check (x := loadCsv claimTable {})
    (fun d => d.getNodes.any fun n => n.1 == "1" && (outs n).any fun i => d.getFlows.all fun f => f.2.2.id != some i) (by decide +kernel)
  refine ⟨d, h1, ?_⟩
  simp only [List.any_eq_true, Bool.and_eq_true, beq_iff_eq, List.all_eq_true, bne_iff_ne] at h2
  obtain ⟨n, hn, e, i, hi, hf⟩ := h2
  exact ⟨n, hn, e, i, hi, hf⟩

/-! ## C46 -/

theorem strip_white (s : String) : ∃ a b, s.toList = a ++ (strip s).toList ++ b ∧ (∀ c ∈ a, White c) ∧ ∀ c ∈ b, White c := by
  simp only [← isWhite_iff]
  have split : ∀ l : List Char, ∃ a, l = a ++ l.dropWhile isWhite ∧ ∀ c ∈ a, isWhite c = true := fun l =>
    ⟨l.takeWhile isWhite, List.takeWhile_append_dropWhile.symm, fun c hc => List.all_eq_true.1 List.all_takeWhile c hc⟩
  obtain ⟨a, h1, h2⟩ := split s.toList
  obtain ⟨b, h3, h4⟩ := split (s.toList.dropWhile isWhite).reverse
  refine ⟨a, b.reverse, ?_, h2, by simpa using h4⟩
  have h3 := congrArg List.reverse h3
  simp only [List.reverse_reverse, List.reverse_append] at h3
  rw [strip, String.toList_ofList, List.append_assoc, ← h3, ← h1]

theorem says_iff (r : Row) (w : String) (hw : ∀ c ∈ w.toList, isWhite c = false) : Says r w ↔ strip r.condition = w := by
  constructor
  · rintro ⟨a, b, h1, h2, h3⟩
    have := strip_pad (fun c hc => (isWhite_iff c).2 (h2 c hc)) (fun c hc => (isWhite_iff c).2 (h3 c hc)) hw
    rw [← h1] at this
    simpa using this
  · rintro rfl
    exact strip_white _

/-- **C46.** After a successful import: a row whose order ends in the number n, that is not terminated, has no row with the next number
behind it but a first branch, and at least two branches, leads into a gateway.  The gateway is exclusive for a decision (two branches, for
`yes` and `no` or one for `else`), otherwise parallel when no branch has a condition, otherwise inclusive. -/
theorem C46_gateway_type (rows : List Row) (t : Table rows) (d : Diagram) (h : loadCsv rows {} = .ok d)
    (r : Row) (hr : r ∈ rows) (ht : r.terminated ≠ "yes") (p : List Char) (n : Nat) (hp : Prefix p) (ho : r.order.toList = p ++ decimal n)
    (hn : ¬HasOrder rows (p ++ decimal (n + 1)))
    (ha : HasOrder rows (p ++ decimal (n + 1) ++ ['a']) ∨ HasOrder rows (p ++ decimal (n + 1) ++ ['a', '1']))
    (bs : List Row) (hb : Branches rows (p ++ decimal (n + 1)) bs) (h2 : 2 ≤ bs.length) :
    ∃ g ∈ d.getNodes, g.1 = r.order ++ "_split" ∧
      (g.2.type = some "exclusiveGateway" ↔ Decision bs) ∧
      (g.2.type = some "parallelGateway" ↔ ¬Decision bs ∧ ∀ b ∈ bs, Says b "") ∧
      (g.2.type = some "inclusiveGateway" ↔ ¬Decision bs ∧ ∃ b ∈ bs, ¬Says b "") := by
  obtain ⟨d0, F, d1, d2, s⟩ := stages t h
  obtain ⟨dr, g, l, hP, hF, hl, hg⟩ := s.plan t hr
  obtain ⟨ty, rfl, hty, rfl⟩ := hP.of_split t hr (prefix_ends hp) ho ht hn ha
  have ndr : rows.Nodup := List.Pairwise.of_map _ (fun a b h e => h (by rw [e])) t.orders
  have perm : (rows.filter fun b => matchesSplit (String.ofList (p ++ decimal (n + 1))) b.order).Perm bs := by
    rw [List.perm_ext_iff_of_nodup (ndr.filter _) hb.1]
    intro b
    rw [List.mem_filter, hb.2]
    constructor
    · rintro ⟨h1, h2⟩; exact ⟨h1, (matchesSplit_start t h1).1 h2⟩
    · rintro ⟨h1, h2⟩; exact ⟨h1, (matchesSplit_start t h1).2 h2⟩
  obtain ⟨hm, hk⟩ := hg _ _ rfl
  have len : 2 ≤ (leaving (r.order ++ "_split") F).length := by
    rw [hl]
    simp only [leaving, List.length_map, List.filter_cons, ne_split, decide_false, Bool.false_eq_true, if_false]
    rw [List.filter_eq_self.2]
    · rw [List.length_map, perm.length_eq]; exact h2
    · intro q hq
      obtain ⟨b, _, rfl⟩ := List.mem_map.1 hq
      simp
  obtain ⟨hid, hkd⟩ := s.split_stays t (underscore_split _) hm len
  obtain ⟨nd, hnd, e1, -, -, e2, -⟩ := node_of_id s.keep.inv hid
  refine ⟨nd, hnd, e1, ?_⟩
  rw [e2, hkd, hk, kindOf_gateway (gatewayType_cases hty)]
  generalize hB : (rows.filter fun b => matchesSplit (String.ofList (p ++ decimal (n + 1))) b.order) = B at perm
  have hBr : ∀ b ∈ B, b ∈ rows := by rw [← hB]; exact fun b hb => (List.mem_filter.1 hb).1
  unfold gatewayType at hty
  rw [order_eq ho, splitSuccessors_decimal n (prefix_ends hp), branches_eq t, hB] at hty
  simp only [except_bind_ok, nodeConditions_rows t hBr, List.length_map] at hty
  have sy : ∀ b (w : String), (∀ c ∈ w.toList, isWhite c = false) → (Says b w ↔ strip b.condition = w) := fun b w hw => says_iff b w hw
  have wy := fun b => sy b "yes" (by decide)
  have wn := fun b => sy b "no" (by decide)
  have we := fun b => sy b "else" (by decide)
  have w0 := fun b => sy b "" (by simp)
  have dec : (B.length = 2 ∧ (yesNo (B.map fun b => strip b.condition) = true ∨ "else" ∈ B.map fun b => strip b.condition)) ↔ Decision bs := by
    unfold Decision
    rw [← perm.length_eq]
    refine and_congr_right fun hlen => ?_
    simp only [wy, wn, we, yesNo, Bool.and_eq_true, List.all_eq_true, List.mem_map, Bool.or_eq_true, beq_iff_eq, decide_eq_true_eq,
      forall_exists_index, and_imp, forall_apply_eq_imp_iff₂, ← perm.mem_iff]
    refine or_congr ?_ Iff.rfl
    constructor
    · rintro ⟨⟨-, h1⟩, h2⟩; exact ⟨h1, h2⟩
    · rintro ⟨⟨b, hb1, hb2⟩, c, hc1, hc2⟩
      refine ⟨⟨?_, ⟨b, hb1, hb2⟩⟩, c, hc1, hc2⟩
      match B, hlen, hb1, hc1 with
      | [x, y], _, hb1, hc1 =>
        intro z hz
        simp only [List.mem_cons, List.not_mem_nil, or_false] at hb1 hc1 hz
        rcases hb1 with rfl | rfl <;> rcases hc1 with rfl | rfl <;> rcases hz with rfl | rfl <;>
          simp_all
  have all : ((B.map fun b => strip b.condition).all (· == "")) = true ↔ ∀ b ∈ bs, Says b "" := by
    simp only [w0, List.all_eq_true, List.mem_map, beq_iff_eq, forall_exists_index, and_imp, forall_apply_eq_imp_iff₂, ← perm.mem_iff]
  rw [show (∃ b ∈ bs, ¬Says b "") ↔ ¬∀ b ∈ bs, Says b "" by simp]
  split at hty
  · rename_i hd
    cases hty
    simp [dec.1 hd]
  · rename_i hd
    have hd := mt dec.2 hd
    split at hty
    · rename_i hp
      cases hty
      have := all.1 hp
      exact ⟨⟨fun e => by simp at e, fun e => absurd e hd⟩, ⟨fun _ => ⟨hd, this⟩, fun _ => rfl⟩, ⟨fun e => by simp at e, fun e => absurd this e.2⟩⟩
    · rename_i hp
      cases hty
      have := mt all.2 hp
      exact ⟨⟨fun e => by simp at e, fun e => absurd e hd⟩, ⟨fun e => by simp at e, fun e => absurd e.2 this⟩, ⟨fun _ => ⟨hd, this⟩, fun _ => rfl⟩⟩

set_option maxRecDepth 8000 in
/-- The split after row 1 of the example is a decision; the one after row 3 is parallel. -/
example : Decision [Row.mk "2a" "goto 1" "else" "" "" "", Row.mk "2b" "accept" "complete" "" "yes" ""] ∧
    Branches claimTable ("".toList ++ decimal 2) [Row.mk "2a" "goto 1" "else" "" "" "", Row.mk "2b" "accept" "complete" "" "yes" ""] ∧
    ¬HasOrder claimTable (decimal 2) ∧ HasOrder claimTable (decimal 2 ++ ['a']) ∧
    ∃ d, loadCsv claimTable {} = .ok d ∧ (d.getNodes.any (fun n => n.1 == "1_split" && n.2.type == some "exclusiveGateway") &&
      d.getNodes.any fun n => n.1 == "3_split" && n.2.type == some "parallelGateway") = true := by
  refine ⟨⟨rfl, Or.inr ⟨_, List.mem_cons_self, [], [], rfl, by simp, by simp⟩⟩, ⟨by decide, ?_⟩, ?_, ?_, ok_of_check _ (by decide +kernel)⟩
  · have key : ∀ b ∈ claimTable, matchesSplit "2" b.order = decide (b ∈ [Row.mk "2a" "goto 1" "else" "" "" "", Row.mk "2b" "accept" "complete" "" "yes" ""]) := by
      decide
    intro b
    rw [show ("".toList ++ decimal 2) = "2".toList by decide]
    constructor
    · intro hb
      have hm : b ∈ claimTable := by
        simp only [List.mem_cons, List.not_mem_nil, or_false] at hb
        rcases hb with rfl | rfl <;> decide
      refine ⟨hm, ?_⟩
      rw [← matchesSplit_start claim_table hm, String.ofList_toList, key b hm]
      simpa using hb
    · rintro ⟨hm, hb⟩
      rw [← matchesSplit_start claim_table hm, String.ofList_toList, key b hm] at hb
      simpa using hb
  · rw [hasOrder_iff]; decide
  · rw [hasOrder_iff]; decide

/-! ## C47 -/

/-- **C47, sequence.** After a successful import, a row with order p n that is not terminated leads to the row with order p (n+1), when
there is one and neither is a `goto`.  The prefix p is empty or ends in a letter. -/
theorem C47_sequence (rows : List Row) (t : Table rows) (d : Diagram) (h : loadCsv rows {} = .ok d)
    (r : Row) (hr : r ∈ rows) (ht : r.terminated ≠ "yes") (hg : ¬GotoRow r) (p : List Char) (n : Nat) (hp : Prefix p)
    (ho : r.order.toList = p ++ decimal n) (q : Row) (hq : q ∈ rows) (hq2 : ¬GotoRow q) (hqo : q.order.toList = p ++ decimal (n + 1)) :
    Leads d r.order q.order := by
  obtain ⟨d0, F, d1, d2, s⟩ := stages t h
  obtain ⟨dr, g, l, hP, hF, -, -⟩ := s.plan t hr
  have := hP.of_sequence t hr (prefix_ends hp) ho ht ⟨q, hq, hqo⟩
  subst this
  have hin := hF (r.order, q.order) (by rw [← order_eq hqo]; simp)
  have w2 := s.wired2 hin (notGoto_row t hr hg) (notGoto_row t hq hq2)
  exact (s.keep.wired _ _ w2 (s.stays t hr hg).1 (s.stays t hq hq2).1).leads s.keep.inv

/-- **C47, split.** After a successful import, a row with order p n that is not terminated, without a row p (n+1) but with a first branch
and at least two branches, leads to a gateway (unless it is a `goto` itself), and the gateway to every branch that is not a `goto`. -/
theorem C47_split (rows : List Row) (t : Table rows) (d : Diagram) (h : loadCsv rows {} = .ok d)
    (r : Row) (hr : r ∈ rows) (ht : r.terminated ≠ "yes") (p : List Char) (n : Nat) (hp : Prefix p) (ho : r.order.toList = p ++ decimal n)
    (hn : ¬HasOrder rows (p ++ decimal (n + 1)))
    (ha : HasOrder rows (p ++ decimal (n + 1) ++ ['a']) ∨ HasOrder rows (p ++ decimal (n + 1) ++ ['a', '1']))
    (bs : List Row) (hb : Branches rows (p ++ decimal (n + 1)) bs) (h2 : 2 ≤ bs.length) :
    (¬GotoRow r → Leads d r.order (r.order ++ "_split")) ∧ ∀ b ∈ bs, ¬GotoRow b → Leads d (r.order ++ "_split") b.order := by
  obtain ⟨g, hg1, hg2, -⟩ := C46_gateway_type rows t d h r hr ht p n hp ho hn ha bs hb h2
  obtain ⟨d0, F, d1, d2, s⟩ := stages t h
  have hid : r.order ++ "_split" ∈ ids d := hg2 ▸ (id_of_node s.keep.inv hg1).1
  obtain ⟨dr, g, l, hP, hF, -, -⟩ := s.plan t hr
  obtain ⟨ty, rfl, hty, rfl⟩ := hP.of_split t hr (prefix_ends hp) ho ht hn ha
  have ng := notGoto_gateway t.under (underscore_split r.order)
  constructor
  · intro hgr
    have w2 := s.wired2 (hF (r.order, r.order ++ "_split") (by simp)) (notGoto_row t hr hgr) ng
    exact (s.keep.wired _ _ w2 (s.stays t hr hgr).1 hid).leads s.keep.inv
  · intro b hbm hgb
    have hb2 := (hb.2 b).1 hbm
    have w2 := s.wired2 (hF (r.order ++ "_split", b.order) (by
      refine List.mem_cons_of_mem _ (List.mem_map.2 ⟨b, List.mem_filter.2 ⟨hb2.1, (matchesSplit_start t hb2.1).2 hb2.2⟩, rfl⟩)))
      ng (notGoto_row t hb2.1 hgb)
    exact (s.keep.wired _ _ w2 hid (s.stays t hb2.1 hgb).1).leads s.keep.inv

/-- **C47, join.** After a successful import, the last row of a branch k c of the main line, not terminated, leads to the row k+1, which
exists: directly or over a gateway. -/
theorem C47_join (rows : List Row) (t : Table rows) (d : Diagram) (h : loadCsv rows {} = .ok d)
    (r : Row) (hr : r ∈ rows) (ht : r.terminated ≠ "yes") (hg : ¬GotoRow r) (k : Nat) (c : Char) (hc : 'a' ≤ c ∧ c ≤ 'z')
    (ho : LastStep rows (decimal k ++ [c]) r.order.toList) :
    ∃ q ∈ rows, q.order.toList = decimal (k + 1) ∧ (¬GotoRow q → Leads d r.order q.order ∨
      ∃ g ∈ d.getNodes, g.2.type ∈ gatewayTypes ∧ Leads d r.order g.1 ∧ Leads d g.1 q.order) := by
  obtain ⟨d0, F, d1, d2, s⟩ := stages t h
  obtain ⟨dr, g, l, hP, hF, -, -⟩ := s.plan t hr
  have hbp : BranchPrefix (decimal k ++ [c]) := by
    have := BranchPrefix.step k BranchPrefix.nil hc.1 hc.2
    simpa using this
  have hnum : Numbers (decimal k ++ [c]) [k] := Numbers.cons k hc.1 hc.2 Numbers.nil
  have hl : isLetter c = true := (letter_range hc.1 hc.2).1
  have key : mergeSuccessors r.order = .ok [toString (k + 1)] ∧ anyPresent (sequenceSuccessors r.order) (rows.map Row.order) = false ∧
      anyPresent (splitCandidates r.order) (rows.map Row.order) = false := by
    rcases ho with ho | ⟨m, ho, n1, n2, n3⟩
    · rw [order_eq ho]
      refine ⟨(mergeSuccessors_branch hnum hbp (by simp) 0).2, ?_, ?_⟩
      · rw [sequenceSuccessors_letter _ hl]; rfl
      · rw [splitCandidates_letter _ hl]; rfl
    · rw [order_eq ho]
      refine ⟨(mergeSuccessors_branch hnum hbp (by simp) m).1, ?_, ?_⟩
      · rw [sequenceSuccessors_decimal m hbp.ends, anyPresent_false]
        intro x hx
        rw [List.mem_singleton] at hx; subst hx
        exact mt hasOrder_iff.2 n1
      · rw [splitCandidates_decimal m hbp.ends, anyPresent_false]
        intro x hx
        simp only [List.mem_cons, List.not_mem_nil, or_false] at hx
        rcases hx with rfl | rfl
        · exact mt hasOrder_iff.2 n2
        · exact mt hasOrder_iff.2 n3
  obtain ⟨hm, hk⟩ := hP.of_merge t hr key.1 key.2.1 key.2.2 ht
  obtain ⟨q, hq, hqo⟩ := List.mem_map.1 hk
  refine ⟨q, hq, by rw [hqo]; rfl, fun hgq => ?_⟩
  have hin := hF _ hm
  have hj := (s.wired1 _ hin).tgt
  have hin2 := s.join_next t hj
  have ng := notGoto_gateway t.under (underscore_join (toString (k + 1)))
  have w1 := s.wired2 hin (notGoto_row t hr hg) ng
  have w2 := s.wired2 hin2 ng (hqo ▸ notGoto_row t hq hgq)
  rcases s.cleaned.through s.keep2.inv w1 w2 (s.stays t hr hg).1 (hqo ▸ (s.stays t hq hgq).1) with ⟨a, b⟩ | a
  · right
    obtain ⟨n, hn, e1, -, -, e2, -⟩ := node_of_id s.keep.inv a.tgt
    refine ⟨n, hn, ?_, by rw [e1]; exact a.leads s.keep.inv, by rw [e1, hqo]; exact b.leads s.keep.inv⟩
    rcases s.nodes t a.tgt with ⟨r', hr', -, e⟩ | ⟨-, h2⟩
    · have := t.under _ (by rw [keys_dictOf]; exact List.mem_map_of_mem hr')
      exact absurd (e ▸ underscore_join (toString (k + 1))) this
    · obtain ⟨ty, h3, h4⟩ := gatewayKind_iff.1 h2
      rw [e2, h3]
      rcases h4 with rfl | rfl | rfl <;> simp [gatewayTypes]
  · left
    rw [hqo]; exact a.leads s.keep.inv

set_option maxRecDepth 8000 in
/-- In the example: 0 leads to 1 and 4a1 to 4a2; 3 over a gateway to 4a1 and 4b; 2b directly to 3; 4a2 and 4b over a gateway to 5. -/
example : Table claimTable ∧ LastStep claimTable (decimal 2 ++ ['b']) "2b".toList ∧ LastStep claimTable (decimal 4 ++ ['a']) "4a2".toList ∧
    ∃ d, loadCsv claimTable {} = .ok d ∧ (d.sequenceFlows.keys == ["0__1", "1__1_split", "1_split__2b", "3__3_split", "3_split__4a1", "3_split__4b",
      "4a1__4a2", "5_join__5", "4a2__5_join", "4b__5_join", "1_split__1", "2b__3"]) = true := by
  refine ⟨claim_table, Or.inl (by decide), Or.inr ⟨2, by decide, ?_⟩, ok_of_check _ (by decide +kernel)⟩
  simp only [hasOrder_iff]
  decide

/-! ## C48 -/

/-- **C48.** After a successful import: when a split after row p n has a branch c with a first step numbered 1, a tenth and an eleventh
step, all of them neither terminated nor `goto`, the eleventh step follows the tenth step and also the gateway itself. -/
theorem C48_eleventh_step (rows : List Row) (t : Table rows) (d : Diagram) (h : loadCsv rows {} = .ok d)
    (r : Row) (hr : r ∈ rows) (ht : r.terminated ≠ "yes") (p : List Char) (n : Nat) (hp : Prefix p) (ho : r.order.toList = p ++ decimal n)
    (hn : ¬HasOrder rows (p ++ decimal (n + 1)))
    (ha : HasOrder rows (p ++ decimal (n + 1) ++ ['a']) ∨ HasOrder rows (p ++ decimal (n + 1) ++ ['a', '1']))
    (c : Char) (hc : c.isAlpha = true) (h1 : HasOrder rows (p ++ decimal (n + 1) ++ [c, '1']))
    (x : Row) (hx : x ∈ rows) (hxo : x.order.toList = p ++ decimal (n + 1) ++ [c, '1', '0']) (hxg : ¬GotoRow x) (hxt : x.terminated ≠ "yes")
    (y : Row) (hy : y ∈ rows) (hyo : y.order.toList = p ++ decimal (n + 1) ++ [c, '1', '1']) (hyg : ¬GotoRow y) :
    Leads d x.order y.order ∧ Leads d (r.order ++ "_split") y.order := by
  constructor
  · refine C47_sequence rows t d h x hx hxt hxg (p ++ decimal (n + 1) ++ [c]) 10 (Or.inr ⟨_, c, rfl, hc⟩) ?_ y hy hyg ?_
    · rw [hxo]; simp [show decimal 10 = ['1', '0'] from rfl]
    · rw [hyo]; simp [show decimal (10 + 1) = ['1', '1'] from rfl]
  · have ndr : rows.Nodup := List.Pairwise.of_map _ (fun a b h e => h (by rw [e])) t.orders
    have hb : Branches rows (p ++ decimal (n + 1)) (rows.filter fun b => matchesSplit (String.ofList (p ++ decimal (n + 1))) b.order) := by
      refine ⟨ndr.filter _, fun b => ?_⟩
      rw [List.mem_filter]
      constructor
      · rintro ⟨h1, h2⟩; exact ⟨h1, (matchesSplit_start t h1).1 h2⟩
      · rintro ⟨h1, h2⟩; exact ⟨h1, (matchesSplit_start t h1).2 h2⟩
    obtain ⟨z, hz, hzo⟩ := h1
    have m1 := (hb.2 z).2 ⟨hz, c, ['1'], hzo, hc, by simp⟩
    have m2 := (hb.2 y).2 ⟨hy, c, ['1', '1'], hyo, hc, by simp⟩
    have hzy : z ≠ y := by
      rintro rfl
      rw [hzo] at hyo
      simp at hyo
    refine (C47_split rows t d h r hr ht p n hp ho hn ha _ hb ?_).2 y m2 hyg
    generalize (rows.filter fun b => matchesSplit (String.ofList (p ++ decimal (n + 1))) b.order) = B at m1 m2
    match B, m1, m2 with
    | [w], m1, m2 => simp only [List.mem_singleton] at m1 m2; exact absurd (m1.trans m2.symm) hzy
    | _ :: _ :: _, _, _ => simp

/-- A branch of eleven steps beside a branch of one. -/
def longTable : List Row :=
  [Row.mk "0" "s" "" "" "" ""] ++ ((List.range 11).map fun i => Row.mk ("1a" ++ toString (i + 1)) "t" "" "" "" "") ++
    [Row.mk "1b" "u" "" "" "" "", Row.mk "2" "e" "" "" "" "yes"]

set_option maxRecDepth 8000 in
example : Table longTable ∧ HasOrder longTable ("".toList ++ decimal 1 ++ ['a', '1']) ∧ ¬HasOrder longTable ("".toList ++ decimal 1) ∧
    ∃ d, loadCsv longTable {} = .ok d ∧ (d.sequenceFlows.has "0_split__1a11" && d.sequenceFlows.has "1a10__1a11") = true := by
  refine ⟨⟨by decide +kernel, by decide +kernel⟩, ?_, ?_, ok_of_check _ (by decide +kernel)⟩
  · rw [hasOrder_iff]; decide +kernel
  · rw [hasOrder_iff]; decide +kernel

end Bpmn.Props

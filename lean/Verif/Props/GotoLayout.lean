import Verif.Props.GotoLoops
import Verif.Props.LoopJoins
/-!
# Blocks behind loops made with `goto` rows (C115)
-/
set_option linter.unusedSimpArgs false
set_option linter.unusedVariables false

namespace Bpmn.Props
open Bpmn Spec Csv Spec.Csv Layouter

section
variable {rows : List Row} (T : GotoTable rows)
include T

/-- What leads to the gateway where branches come back. -/
theorem _root_.Bpmn.Spec.Csv.GotoTable.to_join {a k : String} (h : TableFlow rows a (k ++ "_join")) : ∃ y s, ComesBack rows y s ∧ s.order = k ∧ a = y.order := by
  have hu := tableUnder T.table
  have nr : ∀ {r : Row}, r ∈ rows → k ++ "_join" ≠ r.order := fun hr e => hu _ (List.mem_map_of_mem hr) (e ▸ underscore_join _)
  generalize e : k ++ "_join" = x at h nr
  cases h with
  | next h1 h2 => exact absurd rfl (nr h2)
  | nextGoto h1 h2 h3 h4 => exact absurd rfl (nr h4)
  | split => exact absurd e.symm (split_ne_join _ _)
  | branch h1 h2 h3 h4 => exact absurd rfl (nr h4)
  | branchGoto h1 h2 h3 h4 h5 h6 h7 => exact absurd rfl (nr h7)
  | toJoin h1 => exact ⟨_, _, h1, (join_inj e).symm, rfl⟩
  | join h1 => exact absurd rfl (nr h1.2.1)
  | alone h1 => exact absurd rfl (nr h1.2.1)

/-- Where such a gateway leads. -/
theorem _root_.Bpmn.Spec.Csv.GotoTable.from_join {b k : String} (h : TableFlow rows (k ++ "_join") b) : b = k := by
  have hu := tableUnder T.table
  have nr : ∀ {r : Row}, r ∈ rows → k ++ "_join" ≠ r.order := fun hr e => hu _ (List.mem_map_of_mem hr) (e ▸ underscore_join _)
  generalize e : k ++ "_join" = x at h nr
  cases h with
  | next h1 h2 => exact absurd rfl (nr h1)
  | nextGoto h1 h2 h3 h4 => exact absurd rfl (nr h1)
  | split h1 => exact absurd rfl (nr h1)
  | branch h1 h2 h3 h4 => exact absurd e.symm (split_ne_join _ _)
  | branchGoto h1 h2 h3 h4 h5 h6 h7 => exact absurd e.symm (split_ne_join _ _)
  | toJoin h1 => exact absurd rfl (nr h1.1)
  | join h1 => exact (join_inj e).symm
  | alone h1 => exact absurd rfl (nr h1.1)

variable (S : SplitTable rows) (N : NoTurn rows)
include S N

theorem _root_.Bpmn.Spec.Csv.GotoTable.feeds {d : Diagram} (h : loadCsv rows {} = .ok d) {n m : Node} (hn : n ∈ d.getNodes) (hm : m ∈ d.getNodes) :
    Feeds n m ↔ TableFlow rows n.1 m.1 := by
  refine ⟨?_, fun hf => ((T.ground S N h).2.2.2.1 n hn m hm hf).1⟩
  rintro ⟨p, h1, h2⟩
  obtain ⟨d0, F, d1, d2, s⟩ := stages T.table h
  have f := T.tidy S N s
  have i := f.exact.inv
  obtain ⟨k1, k2, -⟩ := id_of_node i hn
  obtain ⟨l1, -, l3, -⟩ := id_of_node i hm
  rw [k2] at h1
  rw [l3] at h2
  obtain ⟨t, rfl⟩ := i.outI _ _ h1
  obtain ⟨y, py, e⟩ := i.inI _ _ h2
  obtain ⟨-, rfl⟩ := flowId_inj (i.plain _ k1) py e
  exact T.sound S s N (f.exact.back _ _ h1) (i.plain _ k1)

/-- In the diagram of a table, what is a join is no split. -/
theorem _root_.Bpmn.Spec.Csv.GotoTable.joinsOrSplits {d : Diagram} (h : loadCsv rows {} = .ok d) {n : Node} (hn : n ∈ d.getNodes) (hj : Joins n) : ¬Splits n := by
  obtain ⟨G, g1, -⟩ := T.ground S N h
  have tn := (C113_nodes T S N d h n.1).1 ⟨n, hn, rfl⟩
  generalize hx : n.1 = x at tn
  intro hs
  cases tn with
  | row hr hg =>
    obtain ⟨n', k1, k2, k3⟩ := C62_one_way_on rows T.table d h _ hr hg
    have : n = n' := by
      have e1 := G.consistent.getNodeById hn
      rw [hx, ← k2, G.consistent.getNodeById k1] at e1
      simpa using e1.symm
    subst this
    unfold Splits at hs
    rw [k3] at hs
    split at hs <;> omega
  | split h1 h2 h3 =>
    have := g1 n hn (by
      intro a b ha hb
      rw [hx] at ha hb
      rw [T.to_split ha, T.to_split hb])
    unfold Joins at hj
    omega
  | join h1 h2 h3 =>
    obtain ⟨d0, F, d1, d2, s⟩ := stages T.table h
    have f := T.tidy S N s
    have i := f.exact.inv
    obtain ⟨k1, k2, -⟩ := id_of_node i hn
    unfold Splits at hs
    rw [k2] at hs
    obtain ⟨p, q, hp, hq, hne⟩ := two_of_nodup (f.exact.outNd n.1) hs
    obtain ⟨y, rfl⟩ := i.outI _ _ hp
    obtain ⟨z, rfl⟩ := i.outI _ _ hq
    have a1 := T.sound S s N (f.exact.back _ _ hp) (i.plain _ k1)
    have a2 := T.sound S s N (f.exact.back _ _ hq) (i.plain _ k1)
    rw [hx] at a1 a2
    rw [T.from_join a1, T.from_join a2] at hne
    exact hne rfl

theorem tableFlow_nodes {d : Diagram} (h : loadCsv rows {} = .ok d) {a b : String} (hf : TableFlow rows a b) :
    ∃ n m, StepTo d n m ∧ n.1 = a ∧ m.1 = b := by
  obtain ⟨d0, F, d1, d2, s⟩ := stages T.table h
  have i := (T.tidy S N s).exact.inv
  have w := T.complete S s N hf
  obtain ⟨n, hn, e, -⟩ := node_of_id i w.src
  obtain ⟨m, hm, e', -⟩ := node_of_id i w.tgt
  exact ⟨n, m, ⟨hn, hm, (T.feeds S N h hn hm).2 (e ▸ e' ▸ hf)⟩, e, e'⟩

theorem tableFlow_path {d : Diagram} (h : loadCsv rows {} = .ok d) {a b : String} (hf : Relation.TransGen (TableFlow rows) a b) {n m : Node} (hn : n ∈ d.getNodes)
    (hm : m ∈ d.getNodes) (e : n.1 = a) (e' : m.1 = b) : Relation.TransGen (StepTo d) n m := by
  have c := (T.ground S N h).1.consistent
  induction hf generalizing m with
  | single hab => exact .single ⟨hn, hm, (T.feeds S N h hn hm).2 (e ▸ e' ▸ hab)⟩
  | tail _ hbc ih =>
    obtain ⟨x, y, ⟨hx, hy, hxy⟩, ex, ey⟩ := tableFlow_nodes T S N h hbc
    have : y = m := c.node_eq hy hm (ey.trans e'.symm)
    subst this
    exact (ih hx ex).tail ⟨hx, hy, hxy⟩

/-- The gateway before row `s`, to which two branches come back, all of them from behind a loop. -/
theorem _root_.Bpmn.Spec.Csv.GotoTable.stray {d : Diagram} (h : loadCsv rows {} = .ok d) {a : String} (loop : Relation.TransGen (TableFlow rows) a a) {y z s : Row} (hy : ComesBack rows y s)
    (hz : ComesBack rows z s) (hne : y ≠ z)
    (behind : ∀ y, ComesBack rows y s → Relation.ReflTransGen (TableFlow rows) a y.order ∧ ∀ b c, TableFlow rows b y.order → TableFlow rows c y.order → b = c) :
    ∃ j, LateJoin d j ∧ j.1 = s.order ++ "_join" ∧ ∀ n ∈ d.getNodes, Feeds n j → AfterLoop d n := by
  obtain ⟨G, g1, g2, g3, -⟩ := T.ground S N h
  have c := G.consistent
  obtain ⟨j, hj, ej⟩ := (C113_nodes T S N d h _).2 (.join hy hz hne)
  obtain ⟨x0, hst, -⟩ := Relation.TransGen.head'_iff.1 loop
  obtain ⟨n0, m0, ⟨hn0, -, -⟩, e0, -⟩ := tableFlow_nodes T S N h hst
  have back : ∀ n ∈ d.getNodes, Feeds n j → AfterLoop d n ∧ ¬Joins n := by
    intro n hn hf
    have hf := (T.feeds S N h hn hj).1 hf
    rw [ej] at hf
    obtain ⟨y', s', hb, es, en⟩ := T.to_join hf
    have : s' = s := List.inj_on_of_nodup_map T.table.orders hb.2.1 hy.2.1 es
    subst this
    obtain ⟨b1, b2⟩ := behind y' hb
    rw [← en] at b1 b2
    constructor
    · refine ⟨n0, tableFlow_path T S N h loop hn0 hn0 e0 e0, ?_⟩
      rcases Relation.reflTransGen_iff_eq_or_transGen.1 b1 with e | hp
      · rw [c.node_eq hn hn0 (e.trans e0.symm)]
      · exact (tableFlow_path T S N h hp hn0 hn e0 rfl).to_reflTransGen
    · have := g1 n hn b2
      unfold Joins
      omega
  have f1 : TableFlow rows y.order (s.order ++ "_join") := .toJoin hy hz hne
  have f2 : TableFlow rows z.order (s.order ++ "_join") := .toJoin hz hy hne.symm
  refine ⟨j, ⟨hj, ?_, ?_, fun n hn hf => .inl (back n hn hf)⟩, ej, fun n hn hf => (back n hn hf).1⟩
  · refine g2 j hj y.order z.order (ej ▸ f1) (ej ▸ f2) fun e => hne (List.inj_on_of_nodup_map T.table.orders hy.1 hz.1 e)
  · obtain ⟨n, m, ⟨hn, hm, hf⟩, en, em⟩ := tableFlow_nodes T S N h f1
    have : m = j := c.node_eq hm hj (em.trans ej.symm)
    subst this
    exact (back n hn hf).1.step ⟨hn, hm, hf⟩

/-- **C115.** A table with `goto` rows in which a loop is followed by a row to which two branches come back, each of them from somewhere behind the loop, and from rows to which one
flow leads: if `generate_layout` returns on the imported diagram, the gateway before this row is drawn left of everything else, at (200, 50). -/
theorem C115_table (d d' : Diagram) (h : loadCsv rows {} = .ok d) {fuel : Nat} (hl : generateLayout fuel d = .ok d') {a : String} (loop : Relation.TransGen (TableFlow rows) a a) (y z s : Row)
    (hy : ComesBack rows y s) (hz : ComesBack rows z s) (hne : y ≠ z)
    (behind : ∀ y, ComesBack rows y s → Relation.ReflTransGen (TableFlow rows) a y.order ∧ ∀ b c, TableFlow rows b y.order → TableFlow rows c y.order → b = c) :
    ∀ n ∈ d'.getNodes, n.1 = s.order ++ "_join" → At n 200 50 := by
  obtain ⟨j, h1, h2, h3⟩ := T.stray S N h loop hy hz hne behind
  rw [← h2]
  exact C115_stray d d' (T.ground S N h).1.consistent (fun n hn _ hj => T.joinsOrSplits S N h hn hj) hl h1 h3

/-- **C115.** And if there are two such rows, `generate_layout` never returns on the imported diagram. -/
theorem C115_table_two (d : Diagram) (h : loadCsv rows {} = .ok d) {a : String} (loop : Relation.TransGen (TableFlow rows) a a) (y z s y' z' s' : Row)
    (hy : ComesBack rows y s) (hz : ComesBack rows z s) (hne : y ≠ z) (hy' : ComesBack rows y' s') (hz' : ComesBack rows z' s') (hne' : y' ≠ z') (hs : s ≠ s')
    (behind : ∀ y, ComesBack rows y s ∨ ComesBack rows y s' →
      Relation.ReflTransGen (TableFlow rows) a y.order ∧ ∀ b c, TableFlow rows b y.order → TableFlow rows c y.order → b = c) :
    ∀ fuel d', generateLayout fuel d ≠ .ok d' := by
  obtain ⟨j, h1, h2, h3⟩ := T.stray S N h loop hy hz hne fun y hy => behind y (.inl hy)
  obtain ⟨k, k1, k2, k3⟩ := T.stray S N h loop hy' hz' hne' fun y hy => behind y (.inr hy)
  refine C115_two_strays d (T.ground S N h).1.consistent (fun n hn _ hj => T.joinsOrSplits S N h hn hj) h1 k1 ?_ h3 k3
  rw [h2, k2]
  intro e
  exact hs (List.inj_on_of_nodup_map T.table.orders hy.2.1 hy'.2.1 (join_inj e))

end

/-! ## The hypotheses hold -/

/-- A row whose order ends with a letter, and which no `goto` names, is entered by one flow. -/
theorem entered_once {rows : List Row} (T : GotoTable rows) {r : Row} (hr : r ∈ rows) {a : List Char} {c : Char} (hc : isLetter c = true) (h1 : c ≠ '1') (e : r.order.toList = a ++ [c])
    (hn : ∀ g ∈ rows, GotoRow g → ¬GoesTo g r.order) {b : String} (h : TableFlow rows b r.order) : ∃ p n, BranchPrefix p ∧ a = p ++ decimal (n + 1) ∧
      b = String.ofList (p ++ decimal n) ++ "_split" := by
  have under := tableUnder T.table _ (List.mem_map_of_mem hr)
  have same : ∀ {v : Row}, v ∈ rows → v.order = r.order → v = r := fun hv e => List.inj_on_of_nodup_map T.table.orders hv hr e
  generalize ex : r.order = x at h
  have back : ∀ {y}, ¬ComesBack rows y r := by
    rintro y ⟨-, -, -, -, p, k, -, -, -, -, es, -⟩
    rw [e] at es
    exact not_letter_end (b := []) hc es
  cases h with
  | next h1 h2 h3 h4 h5 =>
    cases same h2 ex.symm
    obtain ⟨p, n, hp, e1, e2⟩ := h5
    rw [e] at e2
    exact (not_letter_end hc e2).elim
  | nextGoto h1 h2 h3 h4 h5 => exact absurd (ex ▸ h5) (hn _ h2 h3)
  | split => exact absurd (ex ▸ underscore_split _) under
  | branch h1 h2 h3 h4 h5 h6 =>
    cases same h4 ex.symm
    rw [e] at h6
    have := branchStart_at (u := []) h6 (by assumption) (by simp)
    subst this
    obtain ⟨p, n, hp, ew, eo, -⟩ := h3
    exact ⟨p, n, hp, eo, by rw [← ew, String.ofList_toList]⟩
  | branchGoto h1 h2 h3 h4 h5 h6 h7 h8 => exact absurd (ex ▸ h8) (hn _ h4 h5)
  | toJoin => exact absurd (ex ▸ underscore_join _) under
  | join h1 => cases same h1.2.1 ex.symm; exact absurd h1 back
  | alone h1 => cases same h1.2.1 ex.symm; exact absurd h1 back

theorem entered_once' {rows : List Row} (T : GotoTable rows) {r : Row} (hr : r ∈ rows) {a : List Char} {c : Char} (hc : isLetter c = true) (h1 : c ≠ '1') (e : r.order.toList = a ++ [c])
    (hn : ∀ g ∈ rows, GotoRow g → ¬GoesTo g r.order) (b b' : String) (h : TableFlow rows b r.order) (h' : TableFlow rows b' r.order) : b = b' := by
  obtain ⟨p, n, hp, e1, rfl⟩ := entered_once T hr hc h1 e hn h
  obtain ⟨p', n', hp', e1', rfl⟩ := entered_once T hr hc h1 e hn h'
  obtain ⟨rfl, e2⟩ := step_eq hp hp' e1 e1'
  rw [show n = n' by omega]

/-- A draft that is written, checked and mended until it is accepted. Then it is printed or stored; in the second table it is sold or given away afterwards. -/
def draftTable (t : Fin 2) : List Row :=
  [Row.mk "0" "asked" "" "" "" "", Row.mk "1" "write" "" "" "" "", Row.mk "2" "check" "" "" "" "", Row.mk "3a1" "mend" "no" "" "" "", Row.mk "3a2" "goto 1" "" "" "" "",
   Row.mk "3b" "accept" "yes" "" "" "", Row.mk "4" "plan" "" "" "" "", Row.mk "5a" "print" "" "" "" "", Row.mk "5b" "store" "" "" "" ""] ++
  if t = 0 then [Row.mk "6" "done" "" "" "" "yes"]
  else [Row.mk "6" "offer" "" "" "" "", Row.mk "7a" "sell" "" "" "" "", Row.mk "7b" "give" "" "" "" "", Row.mk "8" "done" "" "" "" "yes"]

def draftGoto : Row := Row.mk "3a2" "goto 1" "" "" "" ""

/-- The row behind the first block. -/
def draftSix (t : Fin 2) : Row := if t = 0 then Row.mk "6" "done" "" "" "" "yes" else Row.mk "6" "offer" "" "" "" ""

/-- Cases for the rows of the tables. -/
theorem draft_cases {t : Fin 2} {P : Row → Prop} (h0 : P (Row.mk "0" "asked" "" "" "" "")) (h1 : P (Row.mk "1" "write" "" "" "" "")) (h2 : P (Row.mk "2" "check" "" "" "" ""))
    (h3 : P (Row.mk "3a1" "mend" "no" "" "" "")) (h3' : P draftGoto) (h3b : P (Row.mk "3b" "accept" "yes" "" "" "")) (h4 : P (Row.mk "4" "plan" "" "" "" ""))
    (h5 : P (Row.mk "5a" "print" "" "" "" "")) (h5b : P (Row.mk "5b" "store" "" "" "" "")) (h6 : P (draftSix t)) (h7 : t = 1 → P (Row.mk "7a" "sell" "" "" "" ""))
    (h7b : t = 1 → P (Row.mk "7b" "give" "" "" "" "")) (h8 : t = 1 → P (Row.mk "8" "done" "" "" "" "yes")) : ∀ r ∈ draftTable t, P r := by
  intro r hr
  match t with
  | 0 =>
    simp only [draftTable, if_true, List.cons_append, List.nil_append, List.mem_cons, List.not_mem_nil, or_false] at hr
    rcases hr with rfl | rfl | rfl | rfl | rfl | rfl | rfl | rfl | rfl | rfl <;> assumption
  | 1 =>
    simp only [draftTable, if_neg (show ¬(1 : Fin 2) = 0 by decide), List.cons_append, List.nil_append, List.mem_cons, List.not_mem_nil, or_false] at hr
    rcases hr with rfl | rfl | rfl | rfl | rfl | rfl | rfl | rfl | rfl | rfl | rfl | rfl | rfl
    all_goals first | assumption | exact h7 rfl | exact h7b rfl | exact h8 rfl

theorem draft_table (t : Fin 2) : Table (draftTable t) := ⟨by revert t; decide, by revert t; decide⟩

theorem draft_six_plain (t : Fin 2) : isGoto (draftSix t).activity = false ∧ (draftSix t).order.toList.any Char.isAlpha = false ∧ ¬((draftSix t).order = "7a" ∨ (draftSix t).order = "7b") := by
  revert t; decide

theorem draft_one (t : Fin 2) (g : Row) (hg : g ∈ draftTable t) (hgo : GotoRow g) : g = draftGoto := by
  revert hgo
  refine draft_cases (P := fun g => GotoRow g → g = draftGoto) ?_ ?_ ?_ ?_ ?_ ?_ ?_ ?_ ?_ ?_ ?_ ?_ ?_ g hg
  all_goals intros
  all_goals first | rfl | exact absurd (by assumption) (goto_no (by decide)) | exact absurd (by assumption) (goto_no (draft_six_plain t).1)

theorem draft_isGoto : GotoRow draftGoto := (isGoto_iff _).1 (by decide)

theorem draft_goesTo : GoesTo draftGoto "1" := by
  refine ⟨"goto".toList, " ".toList, [], by decide, by decide, ?_, by decide, ?_, by decide, ?_, ?_⟩
  all_goals simp [White]

theorem draft_target {q : String} (h : GoesTo draftGoto q) : q = "1" := by
  have := second_word h
  rw [second_word draft_goesTo] at this
  simpa using this.symm

theorem draft_mem (t : Fin 2) : draftGoto ∈ draftTable t ∧ Row.mk "0" "asked" "" "" "" "" ∈ draftTable t ∧ Row.mk "1" "write" "" "" "" "" ∈ draftTable t ∧
    Row.mk "2" "check" "" "" "" "" ∈ draftTable t ∧ Row.mk "3a1" "mend" "no" "" "" "" ∈ draftTable t ∧ Row.mk "3b" "accept" "yes" "" "" "" ∈ draftTable t ∧
    Row.mk "4" "plan" "" "" "" "" ∈ draftTable t ∧ Row.mk "5a" "print" "" "" "" "" ∈ draftTable t ∧ Row.mk "5b" "store" "" "" "" "" ∈ draftTable t ∧ draftSix t ∈ draftTable t := by
  revert t; decide

theorem draft_six_order (t : Fin 2) : (draftSix t).order = "6" ∧ (draftSix t).order.toList = decimal 6 := by revert t; decide

theorem draft_prefix (n : Nat) (c : Char) (h1 : 'a' ≤ c) (h2 : c ≤ 'z') : BranchPrefix (decimal n ++ [c]) := by
  have := BranchPrefix.step n BranchPrefix.nil h1 h2; simpa using this

/-- No row has this order. -/
theorem draft_lacks {t : Fin 2} {o : String} (h : o ∉ (draftTable t).map (·.order)) : ¬HasOrder (draftTable t) o.toList := by
  rintro ⟨r, hr, e⟩
  exact h (List.mem_map.2 ⟨r, hr, String.toList_injective e⟩)

theorem draft_gap (t : Fin 2) : ¬HasOrder (draftTable t) (decimal 3 ++ ['a'] ++ decimal 3) ∧ ¬HasOrder (draftTable t) (decimal 3 ++ ['a'] ++ decimal 3 ++ ['a']) ∧
    ¬HasOrder (draftTable t) (decimal 3 ++ ['a'] ++ decimal 3 ++ ['a', '1']) ∧ ¬HasOrder (draftTable t) (decimal 3) ∧ ¬HasOrder (draftTable t) (decimal 5) := by
  refine ⟨draft_lacks (o := "3a3") ?_, draft_lacks (o := "3a3a") ?_, draft_lacks (o := "3a3a1") ?_, draft_lacks (o := "3") ?_, draft_lacks (o := "5") ?_⟩
  all_goals revert t; decide

/-- Where the branches begin. -/
theorem draft_starts (t : Fin 2) (r : Row) (hr : r ∈ draftTable t) : ∀ o, BranchStart o r.order.toList →
    (r.order ∈ ["3a1", "3b"] ∧ o = decimal 3) ∨ (r.order ∈ ["5a", "5b"] ∧ o = decimal 5) ∨ (t = 1 ∧ r.order ∈ ["7a", "7b"] ∧ o = decimal 7) := by
  have main : ∀ {l : List Char}, l.any Char.isAlpha = false → ∀ o, ¬BranchStart o l := by
    intro l h o hb
    rw [branchStart_letter hb] at h
    cases h
  refine draft_cases (P := fun r => ∀ o, BranchStart o r.order.toList →
    (r.order ∈ ["3a1", "3b"] ∧ o = decimal 3) ∨ (r.order ∈ ["5a", "5b"] ∧ o = decimal 5) ∨ (t = 1 ∧ r.order ∈ ["7a", "7b"] ∧ o = decimal 7))
    ?_ ?_ ?_ ?_ ?_ ?_ ?_ ?_ ?_ ?_ ?_ ?_ ?_ r hr
  · intro o h; exact absurd h (main (by decide) o)
  · intro o h; exact absurd h (main (by decide) o)
  · intro o h; exact absurd h (main (by decide) o)
  · intro o h; exact .inl ⟨by decide, branchStart_at (a := ['3']) (c := 'a') (u := ['1']) h (by decide) (by simp)⟩
  · rintro o ⟨c, ones, e, hc, ho⟩
    exfalso
    have e : ['3', 'a', '2'] = o ++ c :: ones := e
    rcases List.eq_nil_or_concat ones with rfl | ⟨l, x, rfl⟩
    · have := congrArg List.getLast? e
      simp at this
      subst this
      cases hc
    · have := congrArg List.getLast? e
      rw [List.concat_eq_append, ← List.cons_append, ← List.append_assoc, List.getLast?_concat] at this
      have := Option.some.inj this
      subst this
      have := ho '2' (by simp)
      cases this
  · intro o h; exact .inl ⟨by decide, branchStart_at (a := ['3']) (c := 'b') (u := []) h (by decide) (by simp)⟩
  · intro o h; exact absurd h (main (by decide) o)
  · intro o h; exact .inr (.inl ⟨by decide, branchStart_at (a := ['5']) (c := 'a') (u := []) h (by decide) (by simp)⟩)
  · intro o h; exact .inr (.inl ⟨by decide, branchStart_at (a := ['5']) (c := 'b') (u := []) h (by decide) (by simp)⟩)
  · intro o h; exact absurd h (main (draft_six_plain t).2.1 o)
  · intro ht o h; exact .inr (.inr ⟨ht, by decide, branchStart_at (a := ['7']) (c := 'a') (u := []) h (by decide) (by simp)⟩)
  · intro ht o h; exact .inr (.inr ⟨ht, by decide, branchStart_at (a := ['7']) (c := 'b') (u := []) h (by decide) (by simp)⟩)
  · intro ht o h; exact absurd h (main (by decide) o)

theorem draft_steps (t : Fin 2) : ∀ r ∈ draftTable t, ∃ p, StepOf p r.order.toList ∧ (r.order ∈ ["0", "1", "2", "4", "6", "8"] ∧ p = [] ∨
    r.order ∈ ["3a1", "3a2"] ∧ p = decimal 3 ++ ['a'] ∨ r.order = "3b" ∧ p = decimal 3 ++ ['b'] ∨ r.order = "5a" ∧ p = decimal 5 ++ ['a'] ∨ r.order = "5b" ∧ p = decimal 5 ++ ['b'] ∨
    r.order = "7a" ∧ p = decimal 7 ++ ['a'] ∨ r.order = "7b" ∧ p = decimal 7 ++ ['b']) := by
  refine draft_cases ?_ ?_ ?_ ?_ ?_ ?_ ?_ ?_ ?_ ?_ ?_ ?_ ?_
  · exact ⟨[], ⟨BranchPrefix.nil, Or.inr ⟨0, by decide⟩⟩, by decide⟩
  · exact ⟨[], ⟨BranchPrefix.nil, Or.inr ⟨1, by decide⟩⟩, by decide⟩
  · exact ⟨[], ⟨BranchPrefix.nil, Or.inr ⟨2, by decide⟩⟩, by decide⟩
  · exact ⟨_, ⟨draft_prefix 3 'a' (by decide) (by decide), Or.inr ⟨1, by decide⟩⟩, by decide⟩
  · exact ⟨_, ⟨draft_prefix 3 'a' (by decide) (by decide), Or.inr ⟨2, by decide⟩⟩, by decide⟩
  · exact ⟨_, ⟨draft_prefix 3 'b' (by decide) (by decide), Or.inl (by decide)⟩, by decide⟩
  · exact ⟨[], ⟨BranchPrefix.nil, Or.inr ⟨4, by decide⟩⟩, by decide⟩
  · exact ⟨_, ⟨draft_prefix 5 'a' (by decide) (by decide), Or.inl (by decide)⟩, by decide⟩
  · exact ⟨_, ⟨draft_prefix 5 'b' (by decide) (by decide), Or.inl (by decide)⟩, by decide⟩
  · exact ⟨[], ⟨BranchPrefix.nil, Or.inr ⟨6, by revert t; decide⟩⟩, by revert t; decide⟩
  · intro; exact ⟨_, ⟨draft_prefix 7 'a' (by decide) (by decide), Or.inl (by decide)⟩, by decide⟩
  · intro; exact ⟨_, ⟨draft_prefix 7 'b' (by decide) (by decide), Or.inl (by decide)⟩, by decide⟩
  · intro; exact ⟨[], ⟨BranchPrefix.nil, Or.inr ⟨8, by decide⟩⟩, by decide⟩

theorem draft_gotoTable (t : Fin 2) : GotoTable (draftTable t) := by
  refine ⟨draft_table t, ?_, ?_, ?_, ?_, ?_⟩
  · intro r hr
    obtain ⟨p, h, -⟩ := draft_steps t r hr
    exact ⟨p, h⟩
  · intro g hg hgo
    rw [draft_one t g hg hgo]; simp [draftGoto]
  · intro g hg hgo
    rw [draft_one t g hg hgo]
    exact ⟨_, by simp, draft_prefix 3 'a' (by decide) (by decide), Or.inr ⟨2, by decide, (draft_gap t).1, (draft_gap t).2.1, (draft_gap t).2.2.1⟩⟩
  · intro g hg hgo
    rw [draft_one t g hg hgo]
    exact ⟨_, (draft_mem t).2.2.1, goto_no (by decide), draft_goesTo⟩
  · intro g hg hgo o hb
    rw [draft_one t g hg hgo] at hb
    rcases draft_starts t _ (draft_mem t).1 o hb with h | h | h
    · exact absurd h.1 (by decide)
    · exact absurd h.1 (by decide)
    · exact absurd h.2.1 (by decide)

theorem draft_before {t : Fin 2} {w g : Row} (hg : g ∈ draftTable t) (hgo : GotoRow g) (h : ComesAfter (draftTable t) w.order.toList g.order.toList) : w.order.toList = ['3', 'a', '1'] := by
  have e := draft_one t g hg hgo
  subst e
  cases h with
  | @next p n h1 h2 h3 =>
    obtain ⟨rfl, e⟩ := step_eq (p := decimal 3 ++ ['a']) (m := 2) (draft_prefix 3 'a' (by decide) (by decide)) h1 (by decide) h3
    obtain rfl : n = 1 := by omega
    exact h2.trans (by decide)
  | branch h1 h2 h3 h4 h5 =>
    rcases draft_starts t _ hg _ h5 with h | h | h
    · exact absurd h.1 (by decide)
    · exact absurd h.1 (by decide)
    · exact absurd h.2.1 (by decide)

theorem draft_seven (t : Fin 2) (ht : t = 1) : Row.mk "7a" "sell" "" "" "" "" ∈ draftTable t ∧ Row.mk "7b" "give" "" "" "" "" ∈ draftTable t ∧
    Row.mk "8" "done" "" "" "" "yes" ∈ draftTable t := by subst ht; decide

theorem draft_splitTable (t : Fin 2) : SplitTable (draftTable t) := by
  constructor
  · intro b hb o h
    obtain ⟨-, -, -, -, m3, m3b, -, m5, m5b, -⟩ := draft_mem t
    rcases draft_starts t b hb o h with ⟨h1, rfl⟩ | ⟨h1, rfl⟩ | ⟨ht, h1, rfl⟩
    · by_cases e : b.order = "3b"
      · exact ⟨_, m3, by rintro rfl; simp at e, 'a', ['1'], by decide, by decide, by simp⟩
      · exact ⟨_, m3b, by rintro rfl; simp at e, 'b', [], by decide, by decide, by simp⟩
    · by_cases e : b.order = "5b"
      · exact ⟨_, m5, by rintro rfl; simp at e, 'a', [], by decide, by decide, by simp⟩
      · exact ⟨_, m5b, by rintro rfl; simp at e, 'b', [], by decide, by decide, by simp⟩
    · obtain ⟨m7, m7b, -⟩ := draft_seven t ht
      by_cases e : b.order = "7b"
      · exact ⟨_, m7, by rintro rfl; simp at e, 'a', [], by decide, by decide, by simp⟩
      · exact ⟨_, m7b, by rintro rfl; simp at e, 'b', [], by decide, by decide, by simp⟩
  · intro g hg hgo w hw w' hw' _ _ h h'
    exact List.inj_on_of_nodup_map (draft_table t).orders hw hw' (String.toList_injective ((draft_before hg hgo h).trans (draft_before hg hgo h').symm))

theorem draft_noTurn (t : Fin 2) : NoTurn (draftTable t) := by
  constructor
  · intro g hg hgo q hq hto w hw _ hn _
    obtain ⟨p, n, hp, e1, e2⟩ := hn
    have hw' := draft_before hg hgo (.next hp e1 e2)
    have e := draft_one t g hg hgo
    subst e
    have eq := draft_target hto
    refine ⟨?_, fun g' hg' hne hgo' => absurd (draft_one t g' hg' hgo') hne⟩
    rintro ⟨p', n', hp', k1, k2⟩
    rw [eq] at k1
    obtain ⟨rfl, e⟩ := step_eq (p := []) (m := 1) BranchPrefix.nil hp' rfl k1
    obtain rfl : n' = 1 := e.symm
    rw [hw'] at k2
    exact absurd k2 (by decide)
  · intro g hg hgo q hq hto w hw _ o ho hb
    have e := draft_one t g hg hgo
    subst e
    rcases draft_starts t _ hg o hb with h | h | h
    · exact absurd h.1 (by decide)
    · exact absurd h.1 (by decide)
    · exact absurd h.2.1 (by decide)

theorem draft_numbers (n : Nat) (c : Char) (h1 : 'a' ≤ c) (h2 : c ≤ 'z') {k : Nat} (h : NumberIn (decimal n ++ [c]) k) : k = n := by
  have := (numberIn_iff (p := decimal n ++ [c]) (l := [n]) (Numbers.cons n h1 h2 Numbers.nil) k).1 h
  simpa using this

/-- Which branches come back where. -/
theorem draft_back {t : Fin 2} {y s : Row} (h : ComesBack (draftTable t) y s) : y.order = "3b" ∧ s.order = "4" ∨ (y.order = "5a" ∨ y.order = "5b") ∧ s.order = "6" ∨
    (y.order = "7a" ∨ y.order = "7b") ∧ s.order = "8" := by
  obtain ⟨hy, hs, hg, hn, p, k, hp, hl, hk, h1, e, -⟩ := h
  obtain ⟨p', hp', hc⟩ := draft_steps t y hy
  have := stepOf_unique (lastStep_stepOf hp hl) hp'
  subst this
  have lead : ∀ n, k = n → ∀ o : String, o.toList = decimal (n + 1) → s.order = o := by
    rintro n rfl o ho
    exact String.toList_injective (e.trans ho.symm)
  rcases hc with ⟨-, rfl⟩ | ⟨ho, rfl⟩ | ⟨ho, rfl⟩ | ⟨ho, rfl⟩ | ⟨ho, rfl⟩ | ⟨ho, rfl⟩ | ⟨ho, rfl⟩
  · exact absurd rfl (numberIn_ne hk)
  · exfalso
    simp only [List.mem_cons, List.not_mem_nil, or_false] at ho
    rcases ho with ho | ho
    · rcases hl with hl | ⟨m, hl, h3, -⟩
      · rw [ho] at hl; exact absurd hl (by decide)
      · rw [ho] at hl
        obtain ⟨-, rfl⟩ := step_eq (p := decimal 3 ++ ['a']) (m := 1) hp hp (by decide) hl
        exact h3 ⟨draftGoto, (draft_mem t).1, by decide⟩
    · have : y = draftGoto := List.inj_on_of_nodup_map (draft_table t).orders hy (draft_mem t).1 ho
      exact hg (this ▸ draft_isGoto)
  · exact .inl ⟨ho, lead 3 (draft_numbers 3 'b' (by decide) (by decide) hk) "4" (by decide)⟩
  · exact .inr (.inl ⟨.inl ho, lead 5 (draft_numbers 5 'a' (by decide) (by decide) hk) "6" (by decide)⟩)
  · exact .inr (.inl ⟨.inr ho, lead 5 (draft_numbers 5 'b' (by decide) (by decide) hk) "6" (by decide)⟩)
  · exact .inr (.inr ⟨.inl ho, lead 7 (draft_numbers 7 'a' (by decide) (by decide) hk) "8" (by decide)⟩)
  · exact .inr (.inr ⟨.inr ho, lead 7 (draft_numbers 7 'b' (by decide) (by decide) hk) "8" (by decide)⟩)

theorem draft_comes {t : Fin 2} {y s : Row} (hy : y ∈ draftTable t) (hs : s ∈ draftTable t) (hg : isGoto y.activity = false) (ht : y.terminated ≠ "yes") (n : Nat) (hn : 1 ≤ n) (c : Char) (h1 : 'a' ≤ c)
    (h2 : c ≤ 'z') (e : y.order.toList = decimal n ++ [c]) (e' : s.order.toList = decimal (n + 1)) : ComesBack (draftTable t) y s :=
  ⟨hy, hs, goto_no hg, ht, _, n, draft_prefix n c h1 h2, Or.inl e, ⟨[], c, [], BranchPrefix.nil, BranchPrefix.nil, h1, h2, by simp⟩, hn, e', s, hs, rfl⟩

/-- The loop, and the way to the blocks behind it. -/
theorem draft_ways (t : Fin 2) : Relation.TransGen (TableFlow (draftTable t)) "1" "1" ∧ Relation.ReflTransGen (TableFlow (draftTable t)) "1" "4_split" ∧
    (t = 1 → Relation.ReflTransGen (TableFlow (draftTable t)) "1" "6_split") := by
  obtain ⟨mg, m0, m1, m2, m3, m3b, m4, m5, m5b, m6⟩ := draft_mem t
  have o3 : OpensSplit (draftTable t) ['2'] (decimal 3) := ⟨[], 2, BranchPrefix.nil, by decide, by decide, (draft_gap t).2.2.2.1, Or.inr ⟨_, m3, by decide⟩⟩
  have o5 : OpensSplit (draftTable t) ['4'] (decimal 5) := ⟨[], 4, BranchPrefix.nil, by decide, by decide, (draft_gap t).2.2.2.2, Or.inl ⟨_, m5, by decide⟩⟩
  have a : Relation.ReflTransGen (TableFlow (draftTable t)) "1" "2_split" :=
    .tail (.tail .refl (.next m1 m2 (goto_no (by decide)) (by decide) ⟨[], 1, BranchPrefix.nil, by decide, by decide⟩)) (.split m2 (by decide) o3)
  have b : TableFlow (draftTable t) "2_split" "3a1" := .branch m2 (by decide) o3 m3 (goto_no (by decide)) ⟨'a', ['1'], by decide, by decide, by simp⟩
  have b' : TableFlow (draftTable t) "2_split" "3b" := .branch m2 (by decide) o3 m3b (goto_no (by decide)) ⟨'b', [], by decide, by decide, by simp⟩
  have c : TableFlow (draftTable t) "3a1" "1" := .nextGoto m3 mg draft_isGoto m1 draft_goesTo (by decide) ⟨_, 1, draft_prefix 3 'a' (by decide) (by decide), by decide, by decide⟩
  have back4 : ComesBack (draftTable t) (Row.mk "3b" "accept" "yes" "" "" "") (Row.mk "4" "plan" "" "" "" "") :=
    draft_comes m3b m4 (by decide) (by decide) 3 (by decide) 'b' (by decide) (by decide) (by decide) (by decide)
  have e : TableFlow (draftTable t) "3b" "4" := .alone back4 (by
    intro z hz
    refine List.inj_on_of_nodup_map (draft_table t).orders hz.1 m3b ?_
    rcases draft_back hz with h | h | h
    · exact h.1
    · exact absurd h.2 (by decide)
    · exact absurd h.2 (by decide))
  have f : Relation.ReflTransGen (TableFlow (draftTable t)) "1" "4_split" := ((a.tail b').tail e).tail (.split m4 (by decide) o5)
  refine ⟨Relation.TransGen.tail' (a.tail b) c, f, fun ht => ?_⟩
  subst ht
  have g : TableFlow (draftTable 1) "4_split" "5a" := .branch m4 (by decide) o5 m5 (goto_no (by decide)) ⟨'a', [], by decide, by decide, by simp⟩
  have h6 : (draftSix 1).order.toList = decimal 6 := by decide
  have k1 := draft_comes m5 m6 (by decide) (by decide) 5 (by decide) 'a' (by decide) (by decide) (by decide) h6
  have k2 := draft_comes m5b m6 (by decide) (by decide) 5 (by decide) 'b' (by decide) (by decide) (by decide) h6
  have g1 : TableFlow (draftTable 1) "5a" "6_join" := .toJoin k1 k2 (by decide)
  have g2 : TableFlow (draftTable 1) "6_join" "6" := .join k1 k2 (by decide)
  have o7 : OpensSplit (draftTable 1) ['6'] (decimal 7) := ⟨[], 6, BranchPrefix.nil, by decide, by decide, draft_lacks (o := "7") (by decide), Or.inl ⟨_, (draft_seven 1 rfl).1, by decide⟩⟩
  exact (((f.tail g).tail g1).tail g2).tail (.split m6 (by decide) o7)

theorem draft_named {t : Fin 2} {r : Row} (h : r.order ≠ "1") : ∀ g ∈ draftTable t, GotoRow g → ¬GoesTo g r.order := by
  intro g hg hgo hto
  rw [draft_one t g hg hgo] at hto
  exact h (draft_target hto)

theorem draft_behind {t : Fin 2} {y s : Row} (h : ComesBack (draftTable t) y s) (hs : s.order = "6" ∨ s.order = "8") : Relation.ReflTransGen (TableFlow (draftTable t)) "1" y.order ∧
    ∀ b c, TableFlow (draftTable t) b y.order → TableFlow (draftTable t) c y.order → b = c := by
  obtain ⟨mg, m0, m1, m2, m3, m3b, m4, m5, m5b, m6⟩ := draft_mem t
  have o5 : OpensSplit (draftTable t) ['4'] (decimal 5) := ⟨[], 4, BranchPrefix.nil, by decide, by decide, (draft_gap t).2.2.2.2, Or.inl ⟨_, m5, by decide⟩⟩
  rcases draft_back h with ⟨-, e⟩ | ⟨hy, e⟩ | ⟨hy, e⟩
  · rw [e] at hs; exact absurd hs (by decide)
  · rcases hy with hy | hy
    · refine ⟨?_, entered_once' (draft_gotoTable t) h.1 (a := ['5']) (c := 'a') (by decide) (by decide) (by rw [hy]; rfl) (draft_named (by rw [hy]; decide))⟩
      rw [hy]
      exact (draft_ways t).2.1.tail (.branch m4 (by decide) o5 m5 (goto_no (by decide)) ⟨'a', [], by decide, by decide, by simp⟩)
    · refine ⟨?_, entered_once' (draft_gotoTable t) h.1 (a := ['5']) (c := 'b') (by decide) (by decide) (by rw [hy]; rfl) (draft_named (by rw [hy]; decide))⟩
      rw [hy]
      exact (draft_ways t).2.1.tail (.branch m4 (by decide) o5 m5b (goto_no (by decide)) ⟨'b', [], by decide, by decide, by simp⟩)
  · have ht : t = 1 := by
      have := h.1
      revert hy
      refine draft_cases (P := fun y => y.order = "7a" ∨ y.order = "7b" → t = 1) ?_ ?_ ?_ ?_ ?_ ?_ ?_ ?_ ?_ ?_ ?_ ?_ ?_ y this
      all_goals first | (intro hh; exact absurd hh (by decide)) | exact fun hh => absurd hh (draft_six_plain t).2.2 | exact fun h _ => h
    subst ht
    have o7 : OpensSplit (draftTable 1) (draftSix 1).order.toList (decimal 7) :=
      ⟨[], 6, BranchPrefix.nil, by decide, by decide, draft_lacks (o := "7") (by decide), Or.inl ⟨_, (draft_seven 1 rfl).1, by decide⟩⟩
    rcases hy with hy | hy
    · refine ⟨?_, entered_once' (draft_gotoTable 1) h.1 (a := ['7']) (c := 'a') (by decide) (by decide) (by rw [hy]; rfl) (draft_named (by rw [hy]; decide))⟩
      rw [hy]
      exact ((draft_ways 1).2.2 rfl).tail (.branch m6 (by decide) o7 (draft_seven 1 rfl).1 (goto_no (by decide)) ⟨'a', [], by decide, by decide, by simp⟩)
    · refine ⟨?_, entered_once' (draft_gotoTable 1) h.1 (a := ['7']) (c := 'b') (by decide) (by decide) (by rw [hy]; rfl) (draft_named (by rw [hy]; decide))⟩
      rw [hy]
      exact ((draft_ways 1).2.2 rfl).tail (.branch m6 (by decide) o7 (draft_seven 1 rfl).2.1 (goto_no (by decide)) ⟨'b', [], by decide, by decide, by simp⟩)

set_option maxRecDepth 8000 in
/-- The table with one block behind the loop: `generate_layout` returns, and the gateway where the block ends is drawn at (200, 50). -/
example : ∃ d d', loadCsv (draftTable 0) {} = .ok d ∧ generateLayout 40 d = .ok d' ∧ (∃ n ∈ d'.getNodes, n.1 = "6_join") ∧ ∀ n ∈ d'.getNodes, n.1 = "6_join" → At n 200 50 := by
  obtain ⟨d, hd, hp⟩ := ok_of_check (x := loadCsv (draftTable 0) {}) (fun d =>
    match (topologicalSort 40 d ((byType d).map ncOf)).bind fun r => gridLayout 40 d r.1 with
    | .ok g => (d.getNodes.all fun n => g.any fun c => c.nodeId == n.1) && d.getNodes.any fun n => n.1 == "6_join"
    | _ => false) (by decide +kernel)
  cases hs : topologicalSort 40 d ((byType d).map ncOf) with
  | error e => simp only [hs, Except.bind] at hp; cases hp
  | ok r =>
    obtain ⟨sorted, back⟩ := r
    simp only [hs, Except.bind] at hp
    cases hg : gridLayout 40 d sorted with
    | error e => rw [hg] at hp; cases hp
    | ok grid =>
      simp only [hg, Bool.and_eq_true, List.all_eq_true, List.any_eq_true, beq_iff_eq] at hp
      obtain ⟨d', ns, h1, h2, h3⟩ := layout_ok ((C111_exactly (draft_gotoTable 0) (draft_splitTable 0) d hd).2 (draft_noTurn 0)) hs hg hp.1
      refine ⟨d, d', hd, h1, ?_, ?_⟩
      · obtain ⟨n, hn, e⟩ := hp.2
        obtain ⟨m, hm, em⟩ := List.mem_map.1 (show bareNode n ∈ ns.map bareNode from setCoordinates_bare h2 ▸ List.mem_map_of_mem hn)
        exact ⟨m, h3 ▸ hm, (congrArg Prod.fst em).trans e⟩
      · obtain ⟨mg, m0, m1, m2, m3, m3b, m4, m5, m5b, m6⟩ := draft_mem 0
        exact C115_table (draft_gotoTable 0) (draft_splitTable 0) (draft_noTurn 0) d d' hd h1 (draft_ways 0).1 _ _ (draftSix 0)
          (draft_comes m5 m6 (by decide) (by decide) 5 (by decide) 'a' (by decide) (by decide) (by decide) (by decide))
          (draft_comes m5b m6 (by decide) (by decide) 5 (by decide) 'b' (by decide) (by decide) (by decide) (by decide)) (by decide)
          fun y hy => draft_behind hy (.inl (by decide))

set_option maxRecDepth 8000 in
/-- The table with two blocks behind the loop is imported and never laid out. -/
example : ∃ d, loadCsv (draftTable 1) {} = .ok d ∧ ∀ fuel d', generateLayout fuel d ≠ .ok d' := by
  obtain ⟨d, hd, -⟩ := ok_of_check (x := loadCsv (draftTable 1) {}) (fun _ => true) (by decide +kernel)
  obtain ⟨mg, m0, m1, m2, m3, m3b, m4, m5, m5b, m6⟩ := draft_mem 1
  obtain ⟨m7, m7b, m8⟩ := draft_seven 1 rfl
  exact ⟨d, hd, C115_table_two (draft_gotoTable 1) (draft_splitTable 1) (draft_noTurn 1) d hd (draft_ways 1).1 _ _ (draftSix 1) _ _ (Row.mk "8" "done" "" "" "" "yes")
    (draft_comes m5 m6 (by decide) (by decide) 5 (by decide) 'a' (by decide) (by decide) (by decide) (by decide))
    (draft_comes m5b m6 (by decide) (by decide) 5 (by decide) 'b' (by decide) (by decide) (by decide) (by decide)) (by decide)
    (draft_comes m7 m8 (by decide) (by decide) 7 (by decide) 'a' (by decide) (by decide) (by decide) (by decide))
    (draft_comes m7b m8 (by decide) (by decide) 7 (by decide) 'b' (by decide) (by decide) (by decide) (by decide)) (by decide) (by decide)
    fun y hy => hy.elim (fun h => draft_behind h (.inl (by decide))) (fun h => draft_behind h (.inr rfl))⟩

end Bpmn.Props

import Verif.Lemmas.Structured
import Verif.Lemmas.BlockLines
import Verif.Spec.SharedEnds
/-! The CSV export of processes whose ways end in the same end events. -/
set_option linter.unusedSimpArgs false
set_option linter.unusedVariables false

namespace Bpmn.Csv
open Bpmn.Spec Bpmn.Spec.Csv

variable {d : Diagram}

theorem Ground.meetingRuns (G : Ground d) {j : Option Node} : ∀ {l : Strand}, l.Runs d true j → ∃ q r, l.first none = some q ∧ l.entry true j = some r ∧ Joint d q (some r)
  | .stop e, h => by
    obtain ⟨h1, h3, h4, h5⟩ := h
    split at h5
    · cases h5
    obtain ⟨⟨h2, h2', h2''⟩, h5⟩ := h5
    exact ⟨e, e, rfl, rfl, h1, h2, fun _ _ _ _ => G.turned h1 h2' h2'' h2 (.inl ⟨h5 rfl, rfl⟩)⟩
  | .meet, h => by simp [Strand.Runs] at h
  | .step n rest, h => by
    obtain ⟨h1, ⟨h2, h2', h2''⟩, h3, ⟨i, h4, h4'⟩, h5, h6⟩ := h
    obtain ⟨m, hm, e, f, hf, ht⟩ := G.target h4'
    by_cases ha : IsActivity n
    · exact ⟨n, n, rfl, by simp [Strand.entry, ha], h1, h2, fun _ _ _ _ => G.turned h1 h2' h2'' h2 (.inl ⟨ha, rfl⟩)⟩
    · exact ⟨n, m, rfl, by simp [Strand.entry, ha, e], h1, h2, fun _ _ _ _ => G.turned h1 h2' h2'' h2 (.inr ⟨ha, i, f, h4, ht⟩)⟩
  | .block s bs rest, h => by
    obtain ⟨h1, ⟨h2, h2', h2''⟩, h3, h4, -⟩ := h
    exact ⟨s, s, rfl, rfl, h1, h2, fun _ _ _ _ => G.turned h1 h2' h2'' h2 (.inl ⟨h4 rfl, rfl⟩)⟩
  | .fork s bs, h => by
    obtain ⟨h1, ⟨h2, h2', h2''⟩, h3, h4, -⟩ := h
    exact ⟨s, s, rfl, rfl, h1, h2, fun _ _ _ _ => G.turned h1 h2' h2'' h2 (.inl ⟨h4 rfl, rfl⟩)⟩

mutual
theorem runs_ex (G : Ground d) : ∀ (l : Strand) (meets : Bool) (j r : Option Node), (∀ q, j = some q → Joint d q r) → l.Runs d meets j → ∀ flag : Bool,
    (l.IsMeet → flag = false) → (meets = true → flag = true) → ∀ n, l.entry meets j = some n → ∀ o pre c rows, (meets = true → c = "") →
    Ex d n o pre c "" flag rows (rows ++ l.table d meets pre o c, l.leaves r)
  | .stop e, meets, j, r, hj, h, flag, h0, h0', n, hn, o, pre, c, rows, hc => by
    obtain ⟨h1, h3, h4, h5⟩ := h
    cases hn
    obtain ⟨ty, -, hty⟩ := G.supported _ h1
    rw [Strand.table, Strand.leaves]
    by_cases he : ty = "endEvent"
    · subst he
      exact G.end h1 hty
    · rw [if_neg (by rw [IsEnd, hty]; simpa using he)] at h5
      exact G.last h1 hty (by rintro rfl; exact h4 hty) he h3 (entered h5.1 h0')
  | .meet, meets, j, r, hj, h, flag, h0, h0', n, hn, o, pre, c, rows, hc => by
    obtain rfl := h0 trivial
    rw [Strand.table, Strand.leaves, List.append_nil]
    exact (hj n hn).run o pre c rows
  | .step n rest, meets, j, r, hj, h, flag, h0, h0', m, hm, o, pre, c, rows, hc => by
    obtain ⟨h1, h2, h3, ⟨i, h4, h4'⟩, h5, h6⟩ := h
    obtain ⟨m', hm', e, f, hf, ht⟩ := G.target h4'
    rw [Strand.table, Strand.leaves]
    by_cases hs : meets = true ∧ ¬IsActivity n
    · rw [if_pos hs]
      obtain rfl := hc hs.1
      refine runs_ex G rest false j r hj h5 flag (fun hmt => absurd hmt (h6 hs.1 hs.2)) (by simp) m ?_ o pre "" rows (by simp)
      rw [entry_false]
      simpa [Strand.entry, hs] using hm
    · rw [if_neg hs]
      simp only [Strand.entry, hs, if_false, Option.some.injEq] at hm
      subst hm
      obtain ⟨ty, -, hty⟩ := G.supported _ h1
      have hx := runs_ex G rest false j r hj h5 false (fun _ => rfl) (by simp) m' (by rw [entry_false]; exact e) (o + 1) pre ""
        (rows ++ nodeRow n (pre ++ toString o) c) (by simp)
      rw [List.append_assoc] at hx
      by_cases he : ty = "startEvent"
      · subst he
        exact G.start h1 hty h4 ht hx
      · exact G.inner h1 hty he (by rintro rfl; exact h3 hty) h4 ht (entered h2 h0') hx
  | .block s bs rest, meets, j, r, hj, h, flag, h0, h0', n, hn, o, pre, c, rows, hc => by
    obtain ⟨h1, h2, ⟨h3, h3', h3'', h3x⟩, h4, h5, h6, h7⟩ := h
    cases hn
    obtain ⟨ty, -, hty⟩ := G.supported _ h1
    obtain ⟨q, r', e1, e2, J⟩ := G.meetingRuns h7
    rw [Strand.table, Strand.leaves]
    obtain ⟨F, hF⟩ := run_ex G bs s ty hty (rest.first none) (some r') (by intro q' e; rw [e1] at e; cases e; exact J) (outs s) 0 (by omega) h5 o pre
      (rows ++ nodeRow s (pre ++ toString o) c) none
    rw [bs_leaves_some bs none (.inl rfl) (.inr h6)] at hF
    refine G.split h1 hty (by rintro rfl; exact h3 hty) (by rintro rfl; exact h3' hty) h3'' (entered h2 h0') ⟨F, hF⟩ ?_
    have := runs_ex G rest true j r hj h7 true (by intro hm; cases rest <;> simp [Strand.IsMeet, Strand.Runs] at hm h7) (fun _ => rfl) r' e2 (o + 1) pre ""
      (rows ++ nodeRow s (pre ++ toString o) c ++ bs.table d s pre o (outs s) 0) (fun _ => rfl)
    simpa only [List.append_assoc] using this
  | .fork s bs, meets, j, r, hj, h, flag, h0, h0', n, hn, o, pre, c, rows, hc => by
    obtain ⟨h1, h2, ⟨h3, h3', h3'', h3x⟩, h4, h5⟩ := h
    cases hn
    obtain ⟨ty, -, hty⟩ := G.supported _ h1
    rw [Strand.table, Strand.leaves]
    obtain ⟨F, hF⟩ := run_ex G bs s ty hty none none (by simp) (outs s) 0 (by omega) h5 o pre
      (rows ++ nodeRow s (pre ++ toString o) c) none
    rw [bs_leaves_none] at hF
    refine G.split h1 hty (by rintro rfl; exact h3 hty) (by rintro rfl; exact h3' hty) h3'' (entered h2 h0') ⟨F, hF⟩ ?_
    simp only [List.append_assoc]

theorem run_ex (G : Ground d) : ∀ (bs : Branches) (s : Node) (ty : String), s.2.type = some ty → ∀ (j r : Option Node), (∀ q, j = some q → Joint d q r) →
    ∀ (fs : List String) (k : Nat), k + fs.length ≤ 26 → bs.Run d j fs → ∀ o pre rows next, ∃ F, ∀ g ≥ F,
      splitLoop d (table d) (exportNode d (table d) g) ty (defaultFlow s ty) o pre "" fs k rows next = .ok (rows ++ bs.table d s pre o fs k, bs.leaves r next)
  | .nil, s, ty, hty, j, r, hj, fs, k, hk, h, o, pre, rows, next => by
    have : fs = [] := h
    subst this
    exact ⟨0, fun g _ => by simp [splitLoop, Branches.table, Branches.leaves]⟩
  | .cons l b, s, ty, hty, j, r, hj, fs, k, hk, h, o, pre, rows, next => by
    obtain ⟨i, gs, rfl, h1, hfew, h2, h3⟩ := h
    obtain ⟨n, hn, e, f, hf, ht⟩ := G.target h1
    simp only [List.length_cons] at hk
    have hcond : (if ty ≠ "parallelGateway" then f.2.2.name.getD "" else "") = flowCondition s f := by
      unfold flowCondition
      rw [hty]
      by_cases hp : ty = "parallelGateway" <;> simp [hp]
    by_cases hm : l.IsMeet
    · cases l with
      | meet =>
        obtain ⟨F, hF⟩ := run_ex G b s ty hty j r hj gs (k + 1) (by omega) h3 o pre (rows ++ [Row.mk (pre ++ toString o ++ String.ofList [letter k] ++ "1")
          ("goto " ++ pre ++ toString (o + 1)) (skipCondition d s i) "" "" ""]) next
        have J := hj n e
        have jl : "Join" ∈ Spec.labels n := by rw [join_mem_labels]; exact J.join
        have hc : skipCondition d s i = flowCondition s f := by rw [skipCondition, hf]
        refine ⟨F, fun g hg => ?_⟩
        simp only [splitLoop, ht, except_bind_ok, asciiLower_letter (show k < 26 by omega), found, G.labels hn, need_some, jl, if_true, hcond]
        have := hF g hg
        rw [hc] at this
        rw [Branches.table, Branches.leaves, hc]
        rw [List.append_assoc] at this
        exact this
      | _ => simp [Strand.IsMeet] at hm
    · have few := hfew hm n e
      have nj : ¬"Join" ∈ Spec.labels n := by rw [join_mem_labels]; omega
      obtain ⟨f1, hf1⟩ := runs_ex G l false j r hj h2 false (fun _ => rfl) (by simp) n (by rw [entry_false]; exact e) 1
        (pre ++ toString o ++ String.ofList [letter k]) (splitCondition d s i) rows (by simp)
      obtain ⟨F, hF⟩ := run_ex G b s ty hty j r hj gs (k + 1) (by omega) h3 o pre
        (rows ++ l.table d false (pre ++ toString o ++ String.ofList [letter k]) 1 (splitCondition d s i)) (later next (l.leaves r))
      have hc : (if some i = defaultFlow s ty then "else" else flowCondition s f) = splitCondition d s i := by
        rw [splitCondition, hf]
        simp only [branchCondition, defaultFlow, hty]
        by_cases hp : ty = "parallelGateway"
        · simp [hp]
        · simp only [ne_eq, hp, not_false_eq_true, if_true, Option.some.injEq, true_and]
          rcases s.2.default with _ | _ | x
          · simp
          · simp
          · by_cases hx : i = x <;> simp [hx, eq_comm]
      refine ⟨max F f1, fun g hg => ?_⟩
      simp only [splitLoop, ht, except_bind_ok, asciiLower_letter (show k < 26 by omega), found, G.labels hn, need_some, nj, if_false, hcond, hc,
        exportNode_mono (show f1 ≤ g by omega) _ _ _ _ _ _ _ _ hf1]
      rw [cons_table hm, cons_leaves hm, ← List.append_assoc]
      have := hF g (by omega)
      cases hl : l.leaves r with
      | none => rw [hl] at this; exact this
      | some q => rw [hl] at this; exact this
end

/-- The table of a process whose ways end in the same end events is what the export writes. -/
theorem shared_rows {l : Strand} (h : Consistent d) (s : SharedEnds d l) : ∃ N, ∀ fuel ≥ N, exportRows d fuel = .ok (l.table d false "" 0 "") := by
  have G : Ground d := ⟨h, s.supported, s.named⟩
  obtain ⟨n, hn⟩ : ∃ n, l.first none = some n := by
    have := s.runs
    cases l <;> simp [Strand.first, Strand.Runs] at this ⊢
  have hmem : n ∈ d.getNodes := by
    have := s.runs
    cases l <;> simp only [Strand.first, Option.some.injEq, reduceCtorEq] at hn
    all_goals subst hn; exact this.1
  obtain ⟨f, hf⟩ := runs_ex G l false none none (by simp) s.runs false (fun _ => rfl) (by simp) n (by rw [entry_false]; exact hn) 0 "" "" [] (by simp)
  refine ⟨f, fun fuel hfuel => exportRows_mono hfuel ?_⟩
  have starts : d.getNodes.filter (fun n => (Spec.ins n).length = 0) = [n] := by
    refine only_one (h.ids.of_map.filter _) (List.mem_filter.2 ⟨hmem, ?_⟩) ?_
    · rw [decide_eq_true_eq, List.length_eq_zero_iff]
      exact (s.start n hmem).2 hn
    · intro b hb
      obtain ⟨hb1, hb2⟩ := List.mem_filter.1 hb
      rw [decide_eq_true_eq, List.length_eq_zero_iff] at hb2
      have := (s.start b hb1).1 hb2
      rw [hn] at this
      exact (Option.some.inj this).symm
  unfold exportRows
  rw [startNodes_eq fun n hn => (h.lists n hn).1, starts]
  simp only [except_bind_ok, nodes_eq h.complete h.ids]
  rw [show (byType d).map (fun n => (n.1, Spec.labels n)) = table d from rfl, hf]
  simp

/-! ## One row for each way into an end event -/

theorem end_row (n : Node) (o c : String) : ((nodeRow n o c).filter fun r => r.terminated = "yes").map content = ([n].filter fun n => IsEnd n).map caption := by
  unfold nodeRow
  by_cases he : IsEnd n
  · have hr : HasRow n := by simp only [IsEnd] at he; simp [HasRow, he]
    have hc : (caption n).2.2 = "yes" := by simp only [IsEnd] at he; simp [caption, he]
    simp only [hr, if_true]
    rw [List.filter_cons_of_pos (by simpa using hc), List.filter_cons_of_pos (by simpa using he)]
    rfl
  · have hc : (caption n).2.2 ≠ "yes" := by
      simp only [IsEnd] at he
      unfold caption
      by_cases h1 : n.2.type = some "startEvent"
      · simp [h1]
      · by_cases h2 : n.2.type = some "subProcess" <;> simp [h1, h2, he]
    by_cases hr : HasRow n <;> simp [hr, he, hc]

mutual
/-- The rows that are marked as ends are those of the end events, in the order of the line. -/
theorem line_ends : ∀ (l : Strand) (meets : Bool) (j : Option Node), l.Runs d meets j → ∀ pre o c,
    ((l.table d meets pre o c).filter fun r => r.terminated = "yes").map content = (l.nodes.filter fun n => IsEnd n).map caption
  | .stop e, meets, j, h, pre, o, c => by rw [Strand.table, Strand.nodes, end_row]
  | .meet, meets, j, h, pre, o, c => by simp [Strand.table, Strand.nodes]
  | .step n rest, meets, j, h, pre, o, c => by
    obtain ⟨h1, h2, h3, h4, h5, h6⟩ := h
    rw [Strand.table, Strand.nodes, List.filter_cons_of_neg (by simpa using h3)]
    by_cases hs : meets = true ∧ ¬IsActivity n
    · rw [if_pos hs]
      exact line_ends rest false j h5 pre o ""
    · rw [if_neg hs, List.filter_append, List.map_append, end_row, line_ends rest false j h5 pre (o + 1) ""]
      simp [h3]
  | .block s bs rest, meets, j, h, pre, o, c => by
    obtain ⟨h1, h2, h3, h4, h5, h6, h7⟩ := h
    have hs : ¬IsEnd s := h3.2.1
    rw [Strand.table, Strand.nodes, List.filter_cons_of_neg (by simpa using hs), List.filter_append, List.filter_append, List.map_append, List.map_append, end_row,
      branches_ends bs s (rest.first none) (outs s) h5 pre o 0, line_ends rest true j h7 pre (o + 1) "", List.filter_append, List.map_append]
    simp [hs]
  | .fork s bs, meets, j, h, pre, o, c => by
    obtain ⟨h1, h2, h3, h4, h5⟩ := h
    have hs : ¬IsEnd s := h3.2.1
    rw [Strand.table, Strand.nodes, List.filter_cons_of_neg (by simpa using hs), List.filter_append, List.map_append, end_row,
      branches_ends bs s none (outs s) h5 pre o 0]
    simp [hs]

theorem branches_ends : ∀ (bs : Branches) (s : Node) (j : Option Node) (fs : List String), bs.Run d j fs → ∀ pre o k,
    ((bs.table d s pre o fs k).filter fun r => r.terminated = "yes").map content = (bs.nodes.filter fun n => IsEnd n).map caption
  | .nil, s, j, fs, h, pre, o, k => by simp [Branches.table, Branches.nodes]
  | .cons l b, s, j, fs, h, pre, o, k => by
    obtain ⟨i, gs, rfl, h1, hfew, h2, h3⟩ := h
    have ib := branches_ends b s j gs h3 pre o (k + 1)
    have il := line_ends l false j h2 (pre ++ toString o ++ String.ofList [letter k]) 1 (splitCondition d s i)
    by_cases hm : l.IsMeet
    · cases l with
      | meet =>
        rw [Branches.table, Branches.nodes, Strand.nodes, List.nil_append, ← ib]
        simp
      | _ => simp [Strand.IsMeet] at hm
    · rw [cons_table hm, Branches.nodes, List.filter_append, List.map_append, il, ib, List.filter_append, List.map_append]
end

/-- A flow leads into the node whose list of incoming flows has it. -/
theorem leads_in (c : Consistent d) {n m e : Node} (hn : n ∈ d.getNodes) (he : e ∈ d.getNodes) {i : String} (hi : i ∈ outs n) (h : LeadsTo d i (some m)) :
    i ∈ ins e ↔ m = e := by
  obtain ⟨m', hm, e1, f, hf, ht⟩ := h
  cases e1
  obtain ⟨q, hq, ⟨a, b, x, g1, g2, g3, g4⟩, hin⟩ := c.outFlow n hn i hi
  rw [hf] at g1
  cases g1
  rw [ht] at g4
  have hmq : m = q := c.node_eq hm hq (Option.some.inj g4)
  subst hmq
  constructor
  · intro h
    obtain ⟨q', hq', ⟨a', b', x', g1, -, -, g5⟩, -⟩ := c.inFlow e he i h
    rw [hf] at g1
    cases g1
    rw [ht] at g5
    exact c.node_eq hm he (Option.some.inj g5)
  · rintro rfl
    exact hin

/-- How often a line reaches a node behind its first one. -/
def waysIn (e : Node) (ns : List Node) : Nat := ((ns.flatMap outs).filter fun i => i ∈ ins e).length

theorem ways_append {e : Node} (a b : List Node) : waysIn e (a ++ b) = waysIn e a + waysIn e b := by simp [waysIn]

theorem ways_cons {e : Node} (a : Node) (b : List Node) : waysIn e (a :: b) = ((outs a).filter fun i => i ∈ ins e).length + waysIn e b := by simp [waysIn]

def isFirst (e : Node) (o : Option Node) : Nat := if o = some e then 1 else 0

mutual
theorem line_count (c : Consistent d) {e : Node} (he : e ∈ d.getNodes) (hE : IsEnd e) : ∀ (l : Strand) (meets : Bool) (j : Option Node), l.Runs d meets j → j ≠ some e →
    l.nodes.count e = (if l.IsMeet then 0 else isFirst e (l.first j)) + waysIn e l.nodes
  | .stop n, meets, j, h, hj => by
    obtain ⟨h1, h3, h4, h5⟩ := h
    simp [Strand.nodes, Strand.IsMeet, Strand.first, isFirst, waysIn, h3, List.count_cons]
  | .meet, meets, j, h, hj => by simp [Strand.nodes, Strand.IsMeet, waysIn]
  | .step n rest, meets, j, h, hj => by
    obtain ⟨h1, h2, h3, ⟨i, h4, h4'⟩, h5, h6⟩ := h
    have ih := line_count c he hE rest false j h5 hj
    have hne : n ≠ e := by rintro rfl; exact h3 hE
    rw [Strand.nodes, ways_cons, List.count_cons_of_ne (by simpa using hne), ih, h4]
    have hl := @leads_in d c n
    have : ([i].filter fun i => i ∈ ins e).length = (if rest.IsMeet then 0 else isFirst e (rest.first j)) := by
      obtain ⟨m, hm, e1, -⟩ := id h4'
      rw [e1] at h4' ⊢
      have q := hl h1 he (by simp [h4]) h4'
      by_cases hme : m = e
      · rw [if_neg (by intro hmt; cases rest <;> simp [Strand.IsMeet, Strand.first] at hmt e1; exact hj (hme ▸ e1))]
        simp [q, hme, isFirst]
      · simp [q, hme, isFirst]
    rw [show (if (Strand.step n rest).IsMeet then 0 else isFirst e ((Strand.step n rest).first j)) = 0 by simp [Strand.IsMeet, Strand.first, isFirst, hne], ← this,
      Nat.zero_add]
  | .block s bs rest, meets, j, h, hj => by
    obtain ⟨h1, h2, h3, h4, h5, h6, h7⟩ := h
    have hne : s ≠ e := by rintro rfl; exact h3.2.1 hE
    have hr : rest.first none ≠ some e := by
      intro hf
      cases rest with
      | stop n => cases hf; have := h7.2.2.2; simp [hE] at this
      | meet => cases hf
      | step n r => cases hf; exact h7.2.2.1 hE
      | block n b r => cases hf; exact h7.2.2.1.2.1 hE
      | fork n b => cases hf; exact h7.2.2.1.2.1 hE
    have hrm : ¬rest.IsMeet := by intro hm; cases rest <;> simp [Strand.IsMeet, Strand.Runs] at hm h7
    have ir := line_count c he hE rest true j h7 hj
    have ib := branches_count c he hE bs s h1 (rest.first none) hr (outs s) (fun _ h => h) h5
    have hrj : rest.first j ≠ some e := by
      intro hf
      apply hr
      cases rest <;> first | exact hf | exact absurd trivial hrm
    rw [Strand.nodes, ways_cons, ways_append, List.count_cons_of_ne (by simpa using hne), List.count_append, ir, ib]
    rw [show (if (Strand.block s bs rest).IsMeet then 0 else isFirst e ((Strand.block s bs rest).first j)) = 0 by simp [Strand.IsMeet, Strand.first, isFirst, hne],
      show (if rest.IsMeet then 0 else isFirst e (rest.first j)) = 0 by simp [hrm, isFirst, hrj]]
    omega
  | .fork s bs, meets, j, h, hj => by
    obtain ⟨h1, h2, h3, h4, h5⟩ := h
    have hne : s ≠ e := by rintro rfl; exact h3.2.1 hE
    have ib := branches_count c he hE bs s h1 none (by simp) (outs s) (fun _ h => h) h5
    rw [Strand.nodes, ways_cons, List.count_cons_of_ne (by simpa using hne), ib]
    simp only [Strand.IsMeet, if_false, Strand.first, isFirst, Option.some.injEq, hne]
    omega

theorem branches_count (c : Consistent d) {e : Node} (he : e ∈ d.getNodes) (hE : IsEnd e) : ∀ (bs : Branches) (s : Node), s ∈ d.getNodes → ∀ (j : Option Node), j ≠ some e →
    ∀ (fs : List String), (∀ i ∈ fs, i ∈ outs s) → bs.Run d j fs → bs.nodes.count e = (fs.filter fun i => i ∈ ins e).length + waysIn e bs.nodes
  | .nil, s, hs, j, hj, fs, hfs, h => by
    have : fs = [] := h
    subst this
    simp [Branches.nodes, waysIn]
  | .cons l b, s, hs, j, hj, fs, hfs, h => by
    obtain ⟨i, gs, rfl, h1, hfew, h2, h3⟩ := h
    have ib := branches_count c he hE b s hs j hj gs (fun i hi => hfs i (by simp [hi])) h3
    have il := line_count c he hE l false j h2 hj
    have : ([i].filter fun i => i ∈ ins e).length = (if l.IsMeet then 0 else isFirst e (l.first j)) := by
      obtain ⟨m, hm, e1, -⟩ := id h1
      rw [e1] at h1 ⊢
      have q := leads_in c hs he (hfs i (by simp)) h1
      by_cases hme : m = e
      · rw [if_neg (by intro hmt; cases l <;> simp [Strand.IsMeet, Strand.first] at hmt e1; exact hj (hme ▸ e1))]
        simp [q, hme, isFirst]
      · simp [q, hme, isFirst]
    rw [Branches.nodes, ways_append, List.count_append, il, ib, ← this]
    by_cases q : i ∈ ins e <;> simp [q] <;> omega
end

mutual
theorem ends_out : ∀ (l : Strand) (meets : Bool) (j : Option Node), l.Runs d meets j → ∀ n ∈ l.nodes, IsEnd n → outs n = []
  | .stop e, meets, j, h, n, hn, hE => by
    rw [Strand.nodes, List.mem_singleton] at hn
    exact hn ▸ h.2.1
  | .meet, meets, j, h, n, hn, hE => by simp [Strand.nodes] at hn
  | .step m rest, meets, j, h, n, hn, hE => by
    rw [Strand.nodes, List.mem_cons] at hn
    rcases hn with rfl | hn
    · exact absurd hE h.2.2.1
    · exact ends_out rest false j h.2.2.2.2.1 n hn hE
  | .block s bs rest, meets, j, h, n, hn, hE => by
    rw [Strand.nodes, List.mem_cons, List.mem_append] at hn
    rcases hn with rfl | hn | hn
    · exact absurd hE h.2.2.1.2.1
    · exact branches_out bs _ _ h.2.2.2.2.1 n hn hE
    · exact ends_out rest true j h.2.2.2.2.2.2 n hn hE
  | .fork s bs, meets, j, h, n, hn, hE => by
    rw [Strand.nodes, List.mem_cons] at hn
    rcases hn with rfl | hn
    · exact absurd hE h.2.2.1.2.1
    · exact branches_out bs _ _ h.2.2.2.2 n hn hE

theorem branches_out : ∀ (bs : Branches) (j : Option Node) (fs : List String), bs.Run d j fs → ∀ n ∈ bs.nodes, IsEnd n → outs n = []
  | .nil, j, fs, h, n, hn, hE => by simp [Branches.nodes] at hn
  | .cons l b, j, fs, h, n, hn, hE => by
    obtain ⟨i, gs, rfl, h1, hfew, h2, h3⟩ := h
    rw [Branches.nodes, List.mem_append] at hn
    rcases hn with hn | hn
    · exact ends_out l false j h2 n hn hE
    · exact branches_out b j gs h3 n hn hE
end

theorem ways_inner {e : Node} : ∀ {ns : List Node}, (∀ n ∈ ns, IsEnd n → outs n = []) → waysIn e ns = waysIn e (ns.filter fun n => ¬IsEnd n)
  | [], _ => rfl
  | a :: b, h => by
    have ih := ways_inner (e := e) (ns := b) fun n hn => h n (by simp [hn])
    by_cases ha : IsEnd a
    · rw [List.filter_cons_of_neg (by simpa using ha), ways_cons, h a (by simp) ha, ih]
      simp
    · rw [List.filter_cons_of_pos (by simpa using ha), ways_cons, ways_cons, ih]

theorem ways_perm {e : Node} {a b : List Node} (h : a.Perm b) : waysIn e a = waysIn e b := ((h.flatMap_right _).filter _).length_eq

/-- An end event that is no start is in the lines as often as flows lead into it. -/
theorem shared_count {l : Strand} (c : Consistent d) (s : SharedEnds d l) {e : Node} (he : e ∈ d.getNodes) (hE : IsEnd e) (hi : ins e ≠ []) :
    l.nodes.count e = (ins e).length := by
  have hf : l.first none ≠ some e := fun h => hi ((s.start e he).2 h)
  have := line_count c he hE l false none s.runs (by simp)
  rw [this]
  have h0 : (if l.IsMeet then 0 else isFirst e (l.first none)) = 0 := by split <;> simp [isFirst, hf]
  have out : ∀ n ∈ l.nodes, IsEnd n → outs n = [] := ends_out l false none s.runs
  rw [h0, Nat.zero_add, ways_inner out, ways_perm s.once, ← ways_inner fun n hn => out n ((s.nodes n).2 hn)]
  refine List.Perm.length_eq ((List.perm_ext_iff_of_nodup ((Props.outs_nodup c (fun _ h => h) c.ids.of_map).filter _) (c.lists e he).2.2.1).2 fun i => ?_)
  rw [List.mem_filter, List.mem_flatMap, decide_eq_true_eq]
  refine ⟨fun h => h.2, fun h => ⟨?_, h⟩⟩
  obtain ⟨n, hn, -, ho⟩ := c.inFlow e he i h
  exact ⟨n, hn, ho⟩

/-! ## Checking the structure -/

mutual
def runsB (d : Diagram) (meets : Bool) (j : Option Node) : Strand → Bool
  | .stop e => decide (e ∈ d.getNodes) && decide (outs e = []) && decide (e.2.type ≠ some "startEvent") &&
      decide (if IsEnd e then meets = false else Entered meets e ∧ (meets = true → IsActivity e))
  | .meet => decide (meets = false) && j.isSome
  | .step n rest => decide (n ∈ d.getNodes) && decide (Entered meets n) && decide (¬IsEnd n) &&
      (match outs n with | [i] => leadsB d i (rest.first j) | _ => false) && runsB d false j rest && decide (meets = true → ¬IsActivity n → ¬rest.IsMeet)
  | .block s bs rest => decide (s ∈ d.getNodes) && decide (Entered meets s) && decide (IsSplit s) && decide (meets = true → IsActivity s) &&
      runB d (rest.first none) bs (outs s) && someB bs && runsB d true j rest
  | .fork s bs => decide (s ∈ d.getNodes) && decide (Entered meets s) && decide (IsSplit s) && decide (meets = true → IsActivity s) && runB d none bs (outs s)

def runB (d : Diagram) (j : Option Node) : Branches → List String → Bool
  | .nil, fs => fs.isEmpty
  | .cons l r, fs => match fs with | i :: gs => leadsB d i (l.first j) && (decide l.IsMeet || (l.first j).all fun n => decide ((ins n).length ≤ 1)) && runsB d false j l && runB d j r gs | [] => false
end

mutual
theorem runs_of_check : ∀ {l : Strand} {meets : Bool} {j : Option Node}, runsB d meets j l = true → l.Runs d meets j
  | .stop e, meets, j, h => by
    simp only [runsB, Bool.and_eq_true, decide_eq_true_eq] at h
    exact ⟨h.1.1.1, h.1.1.2, h.1.2, h.2⟩
  | .meet, meets, j, h => by
    simp only [runsB, Bool.and_eq_true, decide_eq_true_eq] at h
    exact h
  | .step n rest, meets, j, h => by
    simp only [runsB, Bool.and_eq_true, decide_eq_true_eq] at h
    obtain ⟨⟨⟨⟨⟨h1, h2⟩, h3⟩, h4⟩, h5⟩, h6⟩ := h
    refine ⟨h1, h2, h3, ?_, runs_of_check h5, h6⟩
    split at h4
    · rename_i i e; exact ⟨i, e, leads_of_check h4⟩
    · simp at h4
  | .block s bs rest, meets, j, h => by
    simp only [runsB, Bool.and_eq_true, decide_eq_true_eq] at h
    obtain ⟨⟨⟨⟨⟨⟨h1, h2⟩, h3⟩, h4⟩, h5⟩, h6⟩, h7⟩ := h
    exact ⟨h1, h2, h3, h4, run_of_check h5, some_of_check h6, runs_of_check h7⟩
  | .fork s bs, meets, j, h => by
    simp only [runsB, Bool.and_eq_true, decide_eq_true_eq] at h
    obtain ⟨⟨⟨⟨h1, h2⟩, h3⟩, h4⟩, h5⟩ := h
    exact ⟨h1, h2, h3, h4, run_of_check h5⟩

theorem run_of_check : ∀ {b : Branches} {j : Option Node} {fs : List String}, runB d j b fs = true → b.Run d j fs
  | .nil, j, fs, h => by
    simp [runB] at h
    exact h
  | .cons l r, j, fs, h => by
    simp only [runB] at h
    split at h
    · rename_i i gs
      simp only [Bool.and_eq_true, decide_eq_true_eq] at h
      refine ⟨i, gs, rfl, leads_of_check h.1.1.1, fun hm n hn => ?_, runs_of_check h.1.2, run_of_check h.2⟩
      have := h.1.1.2
      rw [hn] at this
      simpa [hm] using this
    · simp at h
end

def sharedB (l : Strand) (d : Diagram) : Bool :=
  l.nodes.all (fun n => decide (n ∈ d.getNodes)) && d.getNodes.all (fun n => decide (n ∈ l.nodes)) &&
    decide ((l.nodes.filter fun n => ¬IsEnd n).Perm (d.getNodes.filter fun n => ¬IsEnd n)) &&
    d.getNodes.all (fun n => decide (Supported n) && n.2.nodeName.isSome && decide (ins n = [] ↔ l.first none = some n)) && runsB d false none l

theorem shared_of_check {l : Strand} (h : sharedB l d = true) : SharedEnds d l := by
  simp only [sharedB, Bool.and_eq_true, decide_eq_true_eq, List.all_eq_true] at h
  obtain ⟨⟨⟨⟨h1, h1'⟩, h1''⟩, h2⟩, h3⟩ := h
  exact ⟨fun n => ⟨h1 n, h1' n⟩, h1'', fun n hn => (h2 n hn).1.1, fun n hn => (h2 n hn).1.2, fun n hn => (h2 n hn).2, runs_of_check h3⟩

end Bpmn.Csv

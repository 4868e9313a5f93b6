import Verif.Spec.CsvLoops
import Verif.Lemmas.Structured
/-!
# Loops and the CSV export
-/
set_option linter.unusedSimpArgs false
set_option linter.unusedVariables false

namespace Bpmn.Csv
open Bpmn.Spec Bpmn.Spec.Csv

/-! ## Loops with a direct way back -/

open Classical in
/-- The number of nodes that can be reached. -/
noncomputable def rankApart (d : Diagram) (n : Node) : Nat := (d.getNodes.filter fun m => decide (Relation.TransGen (NextApart d) n m)).length

open Classical in
theorem rankApart_lt {d : Diagram} (ha : LoopsDirect d) {n m : Node} (hm : m ∈ d.getNodes) (hnm : Relation.TransGen (NextApart d) n m) :
    rankApart d m < rankApart d n := by
  have hlt : ∀ l : List Node, m ∈ l →
      (l.filter fun k => decide (Relation.TransGen (NextApart d) m k)).length < (l.filter fun k => decide (Relation.TransGen (NextApart d) n k)).length := by
    have hle : ∀ l : List Node,
        (l.filter fun k => decide (Relation.TransGen (NextApart d) m k)).length ≤ (l.filter fun k => decide (Relation.TransGen (NextApart d) n k)).length := by
      intro l
      induction l with
      | nil => simp
      | cons x l ih =>
        simp only [List.filter_cons, decide_eq_true_eq]
        by_cases h1 : Relation.TransGen (NextApart d) m x
        · simp only [h1, hnm.trans h1, if_true, List.length_cons]; omega
        · by_cases h2 : Relation.TransGen (NextApart d) n x
          · simp only [h1, h2, if_true, if_false, List.length_cons]; omega
          · simp only [h1, h2, if_false]; omega
    intro l hl
    induction l with
    | nil => simp at hl
    | cons x l ih =>
      simp only [List.filter_cons, decide_eq_true_eq]
      rcases List.mem_cons.1 hl with rfl | hl
      · have := hle l
        simp only [ha m hm, if_false, hnm, if_true, List.length_cons]
        omega
      · have := ih hl
        by_cases h1 : Relation.TransGen (NextApart d) m x
        · simp only [h1, hnm.trans h1, if_true, List.length_cons]; omega
        · by_cases h2 : Relation.TransGen (NextApart d) n x
          · simp only [h1, h2, if_true, if_false, List.length_cons]; omega
          · simp only [h1, h2, if_false]; omega
  exact hlt _ hm

theorem rankApart_lt_length {d : Diagram} (ha : LoopsDirect d) {n : Node} (hn : n ∈ d.getNodes) : rankApart d n < d.getNodes.length := by
  unfold rankApart
  rw [List.length_filter_lt_length_iff_exists]
  exact ⟨n, hn, by simpa using ha n hn⟩

/-- The result of a call is fine: it succeeds, and a returned node can be reached. -/
def FineApart (d : Diagram) (n : Node) (x : Py (List Row × Option Node)) : Prop :=
  ∃ rows nx, x = .ok (rows, nx) ∧ ∀ m ∈ nx, m ∈ d.getNodes ∧ Relation.ReflTransGen (NextApart d) n m

theorem splitLoop_apart {d : Diagram} (h : Consistent d) (hx : ∀ n ∈ d.getNodes, Supported n) {rec : Rec} {n : Node} (hn : n ∈ d.getNodes)
    (hrec : ∀ m ∈ d.getNodes, NextApart d n m → ∀ o p c w j rows, FineApart d m (rec (some m) o p c w j rows))
    {ty : String} {df : Option String} {o : Nat} {pre who : String} :
    ∀ (fs : List String) (i : Nat) (rows : List Row) (next : Option Node), (∀ f ∈ fs, f ∈ outs n) → i + fs.length ≤ 26 →
      (∀ m ∈ next, m ∈ d.getNodes ∧ Relation.TransGen (NextApart d) n m) →
      ∃ rows' nx, splitLoop d (table d) rec ty df o pre who fs i rows next = .ok (rows', nx) ∧
        ∀ m ∈ nx, m ∈ d.getNodes ∧ Relation.TransGen (NextApart d) n m
  | [], i, rows, next, _, _, hnx => ⟨rows, next, rfl, hnx⟩
  | f :: fs, i, rows, next, hfs, hi, hnx => by
    obtain ⟨fl, m, hm, e1, hnm⟩ := flowTarget_out h hn (hfs f (by simp))
    obtain ⟨s, hs⟩ := asciiLower_lt (i := i) (by simp at hi; omega)
    have ih := fun rows next => splitLoop_apart h hx hn hrec (ty := ty) (df := df) (o := o) (pre := pre) (who := who) fs (i + 1) rows next
      (fun f hf => hfs f (List.mem_cons_of_mem _ hf)) (by simp at hi; omega)
    simp only [splitLoop, e1, hs, except_bind_ok, found, table_get h hm (hx m hm), need_some]
    split
    · exact ih _ _ hnx
    · rename_i hnj
      replace hnm : NextApart d n m := ⟨hnm, fun hd => hnj ((join_mem_labels m).2 hd.2.1)⟩
      obtain ⟨rows1, nx, e2, hr⟩ := hrec m hm hnm 1 (pre ++ toString o ++ s)
        (if some f = df then "else" else if ty ≠ "parallelGateway" then fl.2.2.name.getD "" else "") who false rows
      simp only [e2, except_bind_ok]
      apply ih
      cases nx with
      | none => exact hnx
      | some k =>
        intro k' hk'
        simp at hk'
        subst hk'
        obtain ⟨h1, h2⟩ := hr k rfl
        exact ⟨h1, Relation.TransGen.head' hnm h2⟩

theorem exportNode_apart {d : Diagram} (h : Consistent d) (ha : LoopsDirect d) (hx : Tabular d) : ∀ fuel, ∀ n ∈ d.getNodes, rankApart d n < fuel →
    ∀ o p c w j rows, FineApart d n (exportNode d (table d) fuel (some n) o p c w j rows)
  | 0, _, _, hf => by omega
  | fuel + 1, n, hn, hf => by
    intro o p c w j rows
    have ih : ∀ m ∈ d.getNodes, Relation.TransGen (NextApart d) n m → ∀ o p c w j rows, FineApart d m (exportNode d (table d) fuel (some m) o p c w j rows) :=
      fun m hm hnm => exportNode_apart h ha hx fuel m hm (by have := rankApart_lt ha hm hnm; omega)
    have up : ∀ {m : Node} {x}, Relation.TransGen (NextApart d) n m → FineApart d m x → FineApart d n x := by
      rintro m x hnm ⟨rows, nx, e, hr⟩
      exact ⟨rows, nx, e, fun k hk => ⟨(hr k hk).1, hnm.to_reflTransGen.trans (hr k hk).2⟩⟩
    obtain ⟨ty, hty⟩ := Option.isSome_iff_exists.1 (h.typed n hn)
    obtain ⟨name, hname⟩ := Option.isSome_iff_exists.1 (hx.named n hn)
    obtain ⟨out, hout⟩ := Option.isSome_iff_exists.1 (h.lists n hn).2.1
    have houts : outs n = out := by simp [outs, hout]
    simp only [exportNode, found, except_bind_ok, hty, need_some]
    split
    · rename_i hc
      subst hc
      obtain ⟨i, is, hi⟩ := List.exists_cons_of_ne_nil (hx.begins n hn hty)
      obtain ⟨fl, m, hm, e1, hnm⟩ := flowTarget_out h hn (i := i) (by simp [hi])
      replace hnm : NextApart d n m := ⟨hnm, fun hd => hd.2.2.1 hty⟩
      have : out = i :: is := by rw [← houts, hi]
      simp only [exportStart, hname, hout, need_some, except_bind_ok, this, pyIndex, List.getElem?_cons_zero, e1]
      exact up (.single hnm) (ih m hm (.single hnm) _ _ _ _ _ _)
    · split
      · simp only [exportEnd, hname, need_some, except_bind_ok, except_pure]
        exact ⟨_, none, rfl, by simp⟩
      · rename_i hc1 hc2
        simp only [exportElement, hty, need_some, except_bind_ok, table_get h hn (hx.supported n hn)]
        split
        · rename_i hj
          have h2 := (join_mem_labels n).1 hj.1
          by_cases hc : ty = "task" ∨ ty = "subProcess"
          · simp only [retract, if_pos hc, except_bind_ok, except_pure]
            refine ⟨_, _, rfl, ?_⟩
            intro m hm
            cases hm
            exact ⟨hn, .refl⟩
          · rw [not_or] at hc
            obtain ⟨i, is, hi⟩ := List.exists_cons_of_ne_nil (hx.joins n hn h2 (by rw [hty]; simpa using hc.1) (by rw [hty]; simpa using hc.2)
              (by rw [hty]; simpa using hc2))
            obtain ⟨fl, m, hm, e1, hnm⟩ := flowTarget_out h hn (i := i) (by simp [hi])
            replace hnm : NextApart d n m := ⟨hnm, fun hd => by
              have := hd.2.2.2 h2
              unfold IsActivity at this
              rw [hty] at this
              simp at this
              grind⟩
            have : out = i :: is := by rw [← houts, hi]
            simp only [retract, hc, or_self, if_false, hout, found, except_bind_ok, this, pyIndex, List.getElem?_cons_zero, e1, except_pure]
            refine ⟨_, _, rfl, ?_⟩
            intro k hk
            cases hk
            exact ⟨hm, .single hnm⟩
        · have hown : ∃ own, ownRow n ty o p c w = .ok own := by
            unfold ownRow
            split
            · simp [hname]
            · split <;> simp [hname]
          obtain ⟨own, hown⟩ := hown
          simp only [hown, except_bind_ok, exportNext, hout, found]
          split
          · obtain ⟨rows', nx, e, hnx⟩ := splitLoop_apart h hx.supported hn (fun m hm hnm => ih m hm (.single hnm)) (ty := ty) (df := defaultFlow n ty) (o := o)
              (pre := p) (who := w) out 0 (rows ++ own) none (by rw [houts]; exact fun _ h => h) (by have := hx.few n hn; rw [houts] at this; omega) (by simp)
            simp only [e, except_bind_ok]
            cases nx with
            | none => exact ⟨_, none, rfl, by simp⟩
            | some m =>
              obtain ⟨hm, hnm⟩ := hnx m rfl
              exact up hnm (ih m hm hnm _ _ _ _ _ _)
          · split
            · rename_i hl
              obtain ⟨i, hi⟩ := List.length_eq_one_iff.1 hl
              obtain ⟨fl, m, hm, e1, hnm⟩ := flowTarget_out h hn (i := i) (by simp [houts, hi])
              replace hnm : NextApart d n m := ⟨hnm, fun hd => by
                have := hd.1
                rw [houts, hi] at this
                simp at this⟩
              simp only [hi, pyIndex, List.getElem?_cons_zero, except_bind_ok, e1]
              exact up (.single hnm) (ih m hm (.single hnm) _ _ _ _ _ _)
            · exact ⟨_, none, rfl, by simp⟩

theorem exportRows_apart {d : Diagram} (h : Consistent d) (ha : LoopsDirect d) (hx : Tabular d) :
    ∃ rows, ∀ fuel ≥ d.getNodes.length, exportRows d fuel = .ok rows := by
  have key : ∃ rows, exportRows d d.getNodes.length = .ok rows := by
    unfold exportRows
    rw [startNodes_eq fun n hn => (h.lists n hn).1]
    obtain ⟨s, hs⟩ := List.length_eq_one_iff.1 hx.start
    have hm : s ∈ d.getNodes := (List.mem_filter.1 (by rw [show d.getNodes.filter (fun n => (ins n).length = 0) = [s] from hs]; simp)).1
    rw [show d.getNodes.filter (fun n => (ins n).length = 0) = [s] from hs]
    obtain ⟨rows, nx, e, _⟩ := exportNode_apart h ha hx _ s hm (rankApart_lt_length ha hm) 0 "" "" "" false []
    exact ⟨rows, by simp only [except_bind_ok, nodes_eq h.complete h.ids]; rw [show (byType d).map (fun n => (n.1, Spec.labels n)) = table d from rfl, e]; rfl⟩
  obtain ⟨rows, hr⟩ := key
  exact ⟨rows, fun fuel hf => exportRows_mono hf hr⟩

/-! ## A join outside of all splits -/

theorem Ground.turned_back {d : Diagram} (G : Ground d) (hx : Tabular d) {n : Node} (h : n ∈ d.getNodes) (h1 : n.2.type ≠ some "startEvent")
    (h2 : n.2.type ≠ some "endEvent") (hj : 2 ≤ (ins n).length) :
    ∃ r, ∀ o pre c rows, Ex d n o pre c "" false rows (rows, some r) := by
  obtain ⟨ty, -, hty⟩ := G.supported n h
  have n1 : ty ≠ "startEvent" := by rw [hty] at h1; simpa using h1
  have n2 : ty ≠ "endEvent" := by rw [hty] at h2; simpa using h2
  have hl : "Join" ∈ Spec.labels n := by rw [join_mem_labels]; omega
  have ht : ∃ r, retract d n ty = .ok (some r) := by
    unfold retract
    by_cases hc : ty = "task" ∨ ty = "subProcess"
    · rw [if_pos hc]; exact ⟨n, rfl⟩
    · rw [if_neg hc]
      rw [not_or] at hc
      obtain ⟨i, is, hi⟩ := List.exists_cons_of_ne_nil (hx.joins n h hj (by rw [hty]; simpa using hc.1) (by rw [hty]; simpa using hc.2) h2)
      obtain ⟨fl, m, hm, e1, hnm⟩ := flowTarget_out G.consistent h (i := i) (by simp [hi])
      exact ⟨m, by simp only [G.out h, hi, found, except_bind_ok, pyIndex_cons_zero, e1, except_pure]⟩
  obtain ⟨r, ht⟩ := ht
  refine ⟨r, fun o pre c rows => ⟨1, ?_⟩⟩
  simp only [exportNode, found, except_bind_ok, hty, need_some, n1, n2, if_false, exportElement, G.labels h, hl, and_self, if_true, ht, except_pure]

/-- The export up to a join outside of all splits. -/
theorem rows_to_join {d : Diagram} {l : Strand} {j : Node} (h : Consistent d) (hx : Tabular d) (hs : ∀ n ∈ d.getNodes, ins n = [] → l.first none = some n)
    (hf : l.Fits d false (some j)) (hj : j ∈ d.getNodes) (h1 : j.2.type ≠ some "startEvent") (h2 : j.2.type ≠ some "endEvent") (h3 : 2 ≤ (ins j).length) :
    ∃ N, ∀ fuel ≥ N, exportRows d fuel = .ok (l.table d false "" 0 "") := by
  have G : Ground d := ⟨h, hx.supported, hx.named⟩
  obtain ⟨s, es⟩ := List.length_eq_one_iff.1 hx.start
  have es' : d.getNodes.filter (fun n => (ins n).length = 0) = [s] := es
  obtain ⟨hm, h0⟩ := List.mem_filter.1 (show s ∈ d.getNodes.filter (fun n => (ins n).length = 0) by rw [es']; simp)
  have hfirst : l.first (some j) = some s := by
    have := hs s hm (List.length_eq_zero_iff.1 (by simpa using h0))
    cases l <;> simp [Strand.first] at this ⊢ <;> exact this
  obtain ⟨r, hr⟩ := G.turned_back hx hj h1 h2 h3
  obtain ⟨f, e⟩ := line_ex G l false (some j) (some r) (by rintro q ⟨⟩; exact ⟨hj, h3, hr⟩) hf false (fun _ => rfl) (by simp) s
    (by rw [entry_false]; exact hfirst) 0 "" "" [] (by simp)
  refine ⟨f, fun fuel hfuel => exportRows_mono hfuel ?_⟩
  unfold exportRows
  rw [startNodes_eq fun n hn => (h.lists n hn).1, es']
  simp only [except_bind_ok, nodes_eq h.complete h.ids]
  rw [show (byType d).map (fun n => (n.1, Spec.labels n)) = table d from rfl, e]
  simp

/-! ## What can go wrong -/

/-- What a call gives. -/
def Outcome (d : Diagram) (x : Py (List Row × Option Node)) : Prop :=
  (∃ rows nx, x = .ok (rows, nx) ∧ ∀ m ∈ nx, m ∈ d.getNodes) ∨ x = .error .outOfFuel ∨ (x = .error .keyError ∧ Unnamed d) ∨ (x = .error .indexError ∧ Stuck d)

theorem table_some {d : Diagram} (h : Consistent d) {n : Node} (hn : n ∈ d.getNodes) :
    (table d).get? n.1 = some (Spec.labels n) ∨ ((table d).get? n.1 = none ∧ Unnamed d) := by
  by_cases hs : Supported n
  · exact .inl (table_get h hn hs)
  · right
    refine ⟨?_, n, hn, .inl hs⟩
    cases e : (table d).get? n.1 with
    | none => rfl
    | some l =>
      exfalso
      obtain ⟨m, hm, he⟩ := List.mem_map.1 (Dict.mem_of_get? e)
      obtain ⟨hm, hs'⟩ := mem_byType.1 hm
      have : m = n := by
        have h1 := h.getNodeById hm
        have h2 := h.getNodeById hn
        rw [show m.1 = n.1 from (Prod.mk.inj he).1, h2] at h1
        simpa using h1.symm
      exact hs (this ▸ hs')

theorem splitLoop_outcome {d : Diagram} (h : Consistent d) {rec : Rec} {n : Node} (hn : n ∈ d.getNodes)
    (hrec : ∀ m ∈ d.getNodes, ∀ o p c w j rows, Outcome d (rec (some m) o p c w j rows))
    {ty : String} {df : Option String} {o : Nat} {pre who : String} :
    ∀ (fs : List String) (i : Nat) (rows : List Row) (next : Option Node), (∀ f ∈ fs, f ∈ outs n) → i + fs.length = (outs n).length →
      (∀ m ∈ next, m ∈ d.getNodes) → Outcome d (splitLoop d (table d) rec ty df o pre who fs i rows next)
  | [], i, rows, next, _, _, hnx => .inl ⟨rows, next, rfl, hnx⟩
  | f :: fs, i, rows, next, hfs, hi, hnx => by
    obtain ⟨fl, m, hm, e1, hnm⟩ := flowTarget_out h hn (hfs f (by simp))
    have ih := fun rows next => splitLoop_outcome h hn hrec (ty := ty) (df := df) (o := o) (pre := pre) (who := who) fs (i + 1) rows next
      (fun f hf => hfs f (List.mem_cons_of_mem _ hf)) (by simp at hi; omega)
    by_cases h26 : i < 26
    · obtain ⟨s, hs⟩ := asciiLower_lt (i := i) h26
      rcases table_some h hm with e2 | ⟨e2, hu⟩
      · simp only [splitLoop, e1, hs, except_bind_ok, found, e2, need_some]
        split
        · exact ih _ _ hnx
        · rcases hrec m hm 1 (pre ++ toString o ++ s)
            (if some f = df then "else" else if ty ≠ "parallelGateway" then fl.2.2.name.getD "" else "") who false rows with
            ⟨rows1, nx, e3, hr⟩ | e3 | ⟨e3, hu⟩ | ⟨e3, hu⟩
          · simp only [e3, except_bind_ok]
            apply ih
            cases nx with
            | none => exact hnx
            | some k => exact hr
          · simp only [e3, except_bind_error]; exact .inr (.inl rfl)
          · simp only [e3, except_bind_error]; exact .inr (.inr (.inl ⟨rfl, hu⟩))
          · simp only [e3, except_bind_error]; exact .inr (.inr (.inr ⟨rfl, hu⟩))
      · simp only [splitLoop, e1, hs, except_bind_ok, found, e2]
        exact .inr (.inr (.inl ⟨rfl, hu⟩))
    · have hs : asciiLower i = .error .indexError := by
        have : "abcdefghijklmnopqrstuvwxyz".toList[i]? = none := List.getElem?_eq_none (by simpa using Nat.not_lt.1 h26)
        simp only [asciiLower, pyIndex, this, except_bind_error]
      simp only [splitLoop, e1, hs, except_bind_ok, except_bind_error]
      exact .inr (.inr (.inr ⟨rfl, n, hn, .inl (by simp at hi; omega)⟩))

theorem exportNode_outcome {d : Diagram} (h : Consistent d) : ∀ fuel, ∀ n ∈ d.getNodes,
    ∀ o p c w j rows, Outcome d (exportNode d (table d) fuel (some n) o p c w j rows)
  | 0, _, _ => fun _ _ _ _ _ _ => .inr (.inl rfl)
  | fuel + 1, n, hn => by
    intro o p c w j rows
    have ih := exportNode_outcome h fuel
    obtain ⟨ty, hty⟩ := Option.isSome_iff_exists.1 (h.typed n hn)
    obtain ⟨out, hout⟩ := Option.isSome_iff_exists.1 (h.lists n hn).2.1
    have houts : outs n = out := by simp [outs, hout]
    have hno : n.2.nodeName = none → Unnamed d := fun e => ⟨n, hn, .inr e⟩
    simp only [exportNode, found, except_bind_ok, hty, need_some]
    split
    · rename_i hc
      subst hc
      cases hname : n.2.nodeName with
      | none =>
        simp only [exportStart, hname]
        exact .inr (.inr (.inl ⟨rfl, hno hname⟩))
      | some name =>
        cases out with
        | nil =>
          simp only [exportStart, hname, hout, need_some, except_bind_ok, pyIndex, List.getElem?_nil]
          exact .inr (.inr (.inr ⟨rfl, n, hn, .inr ⟨houts, .inl hty⟩⟩))
        | cons i is =>
          obtain ⟨fl, m, hm, e1, hnm⟩ := flowTarget_out h hn (i := i) (by simp [houts])
          simp only [exportStart, hname, hout, need_some, except_bind_ok, pyIndex, List.getElem?_cons_zero, e1]
          exact ih m hm _ _ _ _ _ _
    · split
      · cases hname : n.2.nodeName with
        | none =>
          simp only [exportEnd, hname]
          exact .inr (.inr (.inl ⟨rfl, hno hname⟩))
        | some name =>
          simp only [exportEnd, hname, need_some, except_bind_ok, except_pure]
          exact .inl ⟨_, none, rfl, by simp⟩
      · rename_i hc1 hc2
        rcases table_some h hn with e2 | ⟨e2, hu⟩
        · simp only [exportElement, hty, need_some, except_bind_ok, e2]
          split
          · rename_i hj
            have h2 := (join_mem_labels n).1 hj.1
            by_cases hc : ty = "task" ∨ ty = "subProcess"
            · simp only [retract, if_pos hc, except_bind_ok, except_pure]
              refine .inl ⟨_, _, rfl, ?_⟩
              intro m hm
              cases hm
              exact hn
            · simp only [retract, if_neg hc, hout, found, except_bind_ok]
              cases out with
              | nil =>
                simp only [pyIndex, List.getElem?_nil]
                refine .inr (.inr (.inr ⟨rfl, n, hn, .inr ⟨houts, .inr ⟨h2, ?_, ?_⟩⟩⟩))
                · unfold IsActivity; rw [hty]; simpa using hc
                · rw [hty]; simpa using hc2
              | cons i is =>
                obtain ⟨fl, m, hm, e1, hnm⟩ := flowTarget_out h hn (i := i) (by simp [houts])
                simp only [pyIndex, List.getElem?_cons_zero, e1, except_bind_ok, except_pure]
                refine .inl ⟨_, _, rfl, ?_⟩
                intro k hk
                cases hk
                exact hm
          · have hown : (∃ own, ownRow n ty o p c w = .ok own) ∨ (ownRow n ty o p c w = .error .keyError ∧ Unnamed d) := by
              unfold ownRow
              cases hname : n.2.nodeName with
              | some name =>
                left
                split
                · simp
                · split <;> simp
              | none =>
                split
                · exact .inr ⟨rfl, hno hname⟩
                · split
                  · exact .inr ⟨rfl, hno hname⟩
                  · exact .inl ⟨_, rfl⟩
            rcases hown with ⟨own, hown⟩ | ⟨hown, hu⟩
            · simp only [hown, except_bind_ok, exportNext, hout, found]
              split
              · rcases splitLoop_outcome h hn ih (ty := ty) (df := defaultFlow n ty) (o := o)
                  (pre := p) (who := w) out 0 (rows ++ own) none (by rw [houts]; exact fun _ h => h) (by rw [houts]; omega) (by simp) with
                  ⟨rows', nx, e, hnx⟩ | e | ⟨e, hu⟩ | ⟨e, hu⟩
                · simp only [e, except_bind_ok]
                  cases nx with
                  | none => exact .inl ⟨_, none, rfl, by simp⟩
                  | some m => exact ih m (hnx m rfl) _ _ _ _ _ _
                · simp only [e, except_bind_error]; exact .inr (.inl rfl)
                · simp only [e, except_bind_error]; exact .inr (.inr (.inl ⟨rfl, hu⟩))
                · simp only [e, except_bind_error]; exact .inr (.inr (.inr ⟨rfl, hu⟩))
              · split
                · rename_i hl
                  obtain ⟨i, hi⟩ := List.length_eq_one_iff.1 hl
                  obtain ⟨fl, m, hm, e1, hnm⟩ := flowTarget_out h hn (i := i) (by simp [houts, hi])
                  simp only [hi, pyIndex, List.getElem?_cons_zero, except_bind_ok, e1]
                  exact ih m hm _ _ _ _ _ _
                · exact .inl ⟨_, none, rfl, by simp⟩
            · simp only [hown, except_bind_error]
              exact .inr (.inr (.inl ⟨rfl, hu⟩))
        · simp only [exportElement, hty, need_some, except_bind_ok, e2]
          exact .inr (.inr (.inl ⟨rfl, hu⟩))

theorem exportRows_outcome {d : Diagram} (h : Consistent d) (hs : (starts d).length = 1) (fuel : Nat) :
    (∃ rows, exportRows d fuel = .ok rows) ∨ exportRows d fuel = .error .outOfFuel ∨ (exportRows d fuel = .error .keyError ∧ Unnamed d) ∨
      (exportRows d fuel = .error .indexError ∧ Stuck d) := by
  obtain ⟨s, hs⟩ := List.length_eq_one_iff.1 hs
  have hm : s ∈ d.getNodes := (List.mem_filter.1 (by rw [show d.getNodes.filter (fun n => (ins n).length = 0) = [s] from hs]; simp)).1
  have e : exportRows d fuel = (do
      let (rows, _) ← exportNode d (table d) fuel (some s) 0 "" "" "" false []
      pure rows) := by
    unfold exportRows
    rw [startNodes_eq fun n hn => (h.lists n hn).1, show d.getNodes.filter (fun n => (ins n).length = 0) = [s] from hs]
    simp only [except_bind_ok, nodes_eq h.complete h.ids]
    rw [show (byType d).map (fun n => (n.1, Spec.labels n)) = table d from rfl]
  rw [e]
  rcases exportNode_outcome h fuel s hm 0 "" "" "" false [] with ⟨rows, nx, e, _⟩ | e | ⟨e, hu⟩ | ⟨e, hu⟩
  · rw [e]; exact .inl ⟨rows, rfl⟩
  · rw [e]; exact .inr (.inl rfl)
  · rw [e]; exact .inr (.inr (.inl ⟨rfl, hu⟩))
  · rw [e]; exact .inr (.inr (.inr ⟨rfl, hu⟩))

end Bpmn.Csv

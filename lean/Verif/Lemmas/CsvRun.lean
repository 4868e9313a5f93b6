import Verif.Lemmas.CsvExport
import Verif.Lemmas.Classify
import Verif.Lemmas.Consistent
import Mathlib.Logic.Relation
/-! Errors, success and termination of the CSV export. -/
set_option linter.unusedSimpArgs false
set_option linter.unusedVariables false

namespace Bpmn.Csv
open Bpmn.Spec Bpmn.Spec.Csv

/-! ### No `BpmnPythonError` from the recursion -/

/-- Not a `BpmnPythonError`. -/
def NoBpmn {α : Type} (x : Py α) : Prop := x ≠ .error .bpmnError

theorem NoBpmn.bind {α β : Type} {x : Py α} {f : α → Py β} (hx : NoBpmn x) (hf : ∀ a, x = .ok a → NoBpmn (f a)) : NoBpmn (x >>= f) := by
  cases x with
  | error e => intro h; apply hx; simpa using h
  | ok a => exact hf a rfl

theorem noBpmn_ok {α : Type} (a : α) : NoBpmn (.ok a : Py α) := by simp [NoBpmn]
theorem noBpmn_need {α : Type} (a : Option α) : NoBpmn (need a) := by cases a <;> simp [NoBpmn]
theorem noBpmn_found {α : Type} (a : Option α) : NoBpmn (found a) := by cases a <;> simp [NoBpmn, found]
theorem noBpmn_pyIndex {α : Type} (l : List α) (i : Nat) : NoBpmn (pyIndex l i) := by
  unfold pyIndex; split <;> simp [NoBpmn]
theorem noBpmn_pyFind {α : Type} {p : α → Py Bool} (hp : ∀ a, NoBpmn (p a)) : ∀ l : List α, NoBpmn (pyFind p l)
  | [] => by simp [pyFind, NoBpmn]
  | a :: l => by
    simp only [pyFind]
    refine (hp a).bind fun b _ => ?_
    split
    · simp [NoBpmn]
    · exact noBpmn_pyFind hp l
theorem noBpmn_pyFilter {α : Type} {p : α → Py Bool} (hp : ∀ a, NoBpmn (p a)) : ∀ l : List α, NoBpmn (pyFilter p l)
  | [] => by simp [pyFilter, NoBpmn]
  | a :: l => by
    simp only [pyFilter]
    refine (hp a).bind fun b _ => (noBpmn_pyFilter hp l).bind fun r _ => ?_
    split <;> simp [NoBpmn]

theorem noBpmn_flowTarget (d : Diagram) (i : String) : NoBpmn (flowTarget d i) := by
  unfold flowTarget
  refine NoBpmn.bind (noBpmn_pyFind (fun f => (noBpmn_need _).bind fun _ _ => noBpmn_ok _) _) fun _ _ => ?_
  exact (noBpmn_found _).bind fun _ _ => (noBpmn_need _).bind fun _ _ => noBpmn_ok _

theorem noBpmn_asciiLower (i : Nat) : NoBpmn (asciiLower i) := (noBpmn_pyIndex _ _).bind fun _ _ => noBpmn_ok _

def RecNo (rec : Rec) : Prop := ∀ n o p c w j rows, NoBpmn (rec n o p c w j rows)

theorem splitLoop_no {d : Diagram} {cls : Dict String (List String)} {rec : Rec} (hr : RecNo rec) {ty : String} {df : Option String}
    {o : Nat} {pre who : String} : ∀ (fs : List String) (i : Nat) (rows : List Row) (next : Option Node),
    NoBpmn (splitLoop d cls rec ty df o pre who fs i rows next)
  | [], _, _, _ => noBpmn_ok _
  | f :: fs, i, rows, next => by
    simp only [splitLoop]
    refine (noBpmn_flowTarget _ _).bind fun _ _ => (noBpmn_asciiLower _).bind fun _ _ => (noBpmn_found _).bind fun _ _ =>
      (noBpmn_need _).bind fun _ _ => ?_
    split
    · exact splitLoop_no hr _ _ _ _
    · exact (hr _ _ _ _ _ _ _).bind fun _ _ => splitLoop_no hr _ _ _ _

theorem exportElement_no {d : Diagram} {cls : Dict String (List String)} {rec : Rec} (hr : RecNo rec) (node : Node) (o : Nat)
    (pre c w : String) (j : Bool) (rows : List Row) : NoBpmn (exportElement d cls rec node o pre c w j rows) := by
  unfold exportElement
  refine (noBpmn_need _).bind fun _ _ => (noBpmn_need _).bind fun _ _ => ?_
  split
  · refine NoBpmn.bind ?_ fun _ _ => noBpmn_ok _
    unfold retract
    split
    · exact noBpmn_ok _
    · exact (noBpmn_found _).bind fun _ _ => (noBpmn_pyIndex _ _).bind fun _ _ => (noBpmn_flowTarget _ _).bind fun _ _ => noBpmn_ok _
  · refine NoBpmn.bind ?_ fun _ _ => ?_
    · unfold ownRow
      split
      · exact (noBpmn_need _).bind fun _ _ => noBpmn_ok _
      · split
        · exact (noBpmn_need _).bind fun _ _ => noBpmn_ok _
        · exact noBpmn_ok _
    · unfold exportNext
      refine (noBpmn_found _).bind fun _ _ => ?_
      split
      · refine (splitLoop_no hr _ _ _ _).bind fun x _ => ?_
        obtain ⟨rows, next⟩ := x
        cases next with
        | none => exact noBpmn_ok _
        | some n => exact hr _ _ _ _ _ _ _
      · split
        · exact (noBpmn_pyIndex _ _).bind fun _ _ => (noBpmn_flowTarget _ _).bind fun _ _ => hr _ _ _ _ _ _ _
        · exact noBpmn_ok _

theorem exportNode_no (d : Diagram) (cls : Dict String (List String)) : ∀ fuel, RecNo (exportNode d cls fuel)
  | 0 => by intro _ _ _ _ _ _ _; simp [exportNode, NoBpmn]
  | fuel + 1 => by
    intro n o p c w j rows
    simp only [exportNode]
    refine (noBpmn_found _).bind fun _ _ => (noBpmn_need _).bind fun _ _ => ?_
    split
    · unfold exportStart
      exact (noBpmn_need _).bind fun _ _ => (noBpmn_need _).bind fun _ _ => (noBpmn_pyIndex _ _).bind fun _ _ =>
        (noBpmn_flowTarget _ _).bind fun _ _ => exportNode_no d cls fuel _ _ _ _ _ _ _
    · split
      · unfold exportEnd
        exact (noBpmn_need _).bind fun _ _ => noBpmn_ok _
      · exact exportElement_no (exportNode_no d cls fuel) _ _ _ _ _ _ _

theorem classify_no (d : Diagram) : NoBpmn (Classify.generateNodesClassification d) := by
  have h2 : ∀ (ls : List String) (ns : List Node) (t : Dict String (List String)), NoBpmn (Classify.classifyAll ls ns t) := by
    intro ls ns
    induction ns with
    | nil => intro t; exact noBpmn_ok _
    | cons n ns ih =>
      intro t
      simp only [Classify.classifyAll]
      refine NoBpmn.bind ?_ fun _ _ => ih _
      unfold Classify.splitJoin
      exact (noBpmn_need _).bind fun _ _ => (noBpmn_need _).bind fun _ _ => noBpmn_ok _
  have h1 : ∀ (ts : List (String × List String)) (t : Dict String (List String)), NoBpmn (Classify.nodesLoop d ts t) := by
    intro ts
    induction ts with
    | nil => intro t; exact noBpmn_ok _
    | cons x ts ih =>
      intro t
      obtain ⟨ty, ls⟩ := x
      simp only [Classify.nodesLoop]
      refine NoBpmn.bind ?_ fun _ _ => (h2 _ _ _).bind fun _ _ => ih _
      unfold Diagram.getNodesOfType
      split
      · exact noBpmn_ok _
      · exact noBpmn_pyFilter (fun a => (noBpmn_need _).bind fun _ _ => noBpmn_ok _) _
  exact h1 _ _

theorem startNodes_eq : ∀ {l : List Node}, (∀ n ∈ l, n.2.incoming.isSome) → startNodes l = .ok (l.filter fun n => (ins n).length = 0)
  | [], _ => rfl
  | n :: l, h => by
    obtain ⟨i, hi⟩ := Option.isSome_iff_exists.1 (h n (by simp))
    have ih := startNodes_eq (l := l) fun m hm => h m (List.mem_cons_of_mem _ hm)
    simp only [startNodes, hi, found, except_bind_ok, ih, except_pure, List.filter_cons, ins, Option.getD_some, decide_eq_true_eq]

/-! ### More budget, same result -/

def RecLe (r s : Rec) : Prop := ∀ n o p c w j rows x, r n o p c w j rows = .ok x → s n o p c w j rows = .ok x

theorem splitLoop_mono {d : Diagram} {cls : Dict String (List String)} {rec rec' : Rec} (hr : RecLe rec rec') {ty : String}
    {df : Option String} {o : Nat} {pre who : String} : ∀ (fs : List String) (i : Nat) (rows : List Row) (next : Option Node) (x),
    splitLoop d cls rec ty df o pre who fs i rows next = .ok x → splitLoop d cls rec' ty df o pre who fs i rows next = .ok x
  | [], _, _, _, _, h => h
  | f :: fs, i, rows, next, x, h => by
    simp only [splitLoop] at h ⊢
    obtain ⟨⟨flow, target⟩, h1, h⟩ := except_bind_eq_ok h
    obtain ⟨suffix, h2, h⟩ := except_bind_eq_ok h
    obtain ⟨t, h3, h⟩ := except_bind_eq_ok h
    obtain ⟨labels, h4, h⟩ := except_bind_eq_ok h
    simp only [h1, h2, h3, h4, except_bind_ok]
    split at h
    · rename_i hj
      rw [if_pos hj]
      exact splitLoop_mono hr _ _ _ _ _ h
    · rename_i hj
      rw [if_neg hj]
      obtain ⟨y, h5, h⟩ := except_bind_eq_ok h
      rw [hr _ _ _ _ _ _ _ _ h5]
      exact splitLoop_mono hr _ _ _ _ _ h

theorem exportNode_mono1 (d : Diagram) (cls : Dict String (List String)) : ∀ fuel, RecLe (exportNode d cls fuel) (exportNode d cls (fuel + 1))
  | 0 => by intro _ _ _ _ _ _ _ _ h; simp [exportNode] at h
  | fuel + 1 => by
    have ih := exportNode_mono1 d cls fuel
    intro n o p c w j rows x h
    rw [exportNode] at h ⊢
    obtain ⟨n, h1, h⟩ := except_bind_eq_ok h
    obtain ⟨ty, h2, h⟩ := except_bind_eq_ok h
    simp only [h1, h2, except_bind_ok]
    split at h
    · rename_i hc
      rw [if_pos hc]
      unfold exportStart at h ⊢
      obtain ⟨name, e1, h⟩ := except_bind_eq_ok h
      obtain ⟨out, e2, h⟩ := except_bind_eq_ok h
      obtain ⟨fid, e3, h⟩ := except_bind_eq_ok h
      obtain ⟨⟨fl, t⟩, e4, h⟩ := except_bind_eq_ok h
      simp only [e1, e2, e3, e4, except_bind_ok]
      exact ih _ _ _ _ _ _ _ _ h
    · rename_i hc
      rw [if_neg hc]
      split at h
      · rename_i hc
        rw [if_pos hc]
        exact h
      · rename_i hc
        rw [if_neg hc]
        unfold exportElement at h ⊢
        obtain ⟨ty', e1, h⟩ := except_bind_eq_ok h
        obtain ⟨labels, e2, h⟩ := except_bind_eq_ok h
        simp only [e1, e2, except_bind_ok]
        split at h
        · rename_i hc
          rw [if_pos hc]
          exact h
        · rename_i hc
          rw [if_neg hc]
          obtain ⟨own, e3, h⟩ := except_bind_eq_ok h
          simp only [e3, except_bind_ok]
          unfold exportNext at h ⊢
          obtain ⟨out, e4, h⟩ := except_bind_eq_ok h
          simp only [e4, except_bind_ok]
          split at h
          · rename_i hc
            rw [if_pos hc]
            obtain ⟨⟨rows2, next⟩, e5, h⟩ := except_bind_eq_ok h
            rw [splitLoop_mono ih _ _ _ _ _ e5]
            cases next with
            | none => exact h
            | some m => exact ih _ _ _ _ _ _ _ _ h
          · rename_i hc
            rw [if_neg hc]
            split at h
            · rename_i hc
              rw [if_pos hc]
              obtain ⟨fid, e3, h⟩ := except_bind_eq_ok h
              obtain ⟨⟨fl, t⟩, e4, h⟩ := except_bind_eq_ok h
              simp only [e3, e4, except_bind_ok]
              exact ih _ _ _ _ _ _ _ _ h
            · rename_i hc
              rw [if_neg hc]
              exact h

theorem exportNode_mono {d : Diagram} {cls : Dict String (List String)} {f g : Nat} (hfg : f ≤ g) :
    RecLe (exportNode d cls f) (exportNode d cls g) := by
  induction hfg with
  | refl => exact fun _ _ _ _ _ _ _ _ h => h
  | step _ ih => exact fun _ _ _ _ _ _ _ _ h => exportNode_mono1 d cls _ _ _ _ _ _ _ _ _ (ih _ _ _ _ _ _ _ _ h)

theorem exportRows_mono {d : Diagram} {f g : Nat} (hfg : f ≤ g) {rows : List Row} (h : exportRows d f = .ok rows) :
    exportRows d g = .ok rows := by
  unfold exportRows at h ⊢
  obtain ⟨st, h1, h⟩ := except_bind_eq_ok h
  simp only [h1, except_bind_ok]
  split at h
  · obtain ⟨cls, h2, h⟩ := except_bind_eq_ok h
    obtain ⟨x, h3, h⟩ := except_bind_eq_ok h
    simp only [h2, except_bind_ok, exportNode_mono hfg _ _ _ _ _ _ _ _ h3]
    exact h
  · simp at h

/-! ### Success -/

/-- The table that the classification returns. -/
def table (d : Diagram) : Dict String (List String) := (byType d).map fun n => (n.1, Spec.labels n)

theorem table_get {d : Diagram} (h : Consistent d) {n : Node} (hn : n ∈ d.getNodes) (hs : Supported n) :
    (table d).get? n.1 = some (Spec.labels n) := by
  refine Dict.get?_of_mem ?_ (List.mem_map.2 ⟨n, mem_byType.2 ⟨hn, hs⟩, rfl⟩)
  have := byType_ids h.ids
  unfold table Dict.keys
  rw [List.map_map]
  exact this

theorem flowTarget_out {d : Diagram} (h : Consistent d) {n : Node} (hn : n ∈ d.getNodes) {i : String} (hi : i ∈ outs n) :
    ∃ f m, m ∈ d.getNodes ∧ flowTarget d i = .ok (f, some m) ∧ Next d n m := by
  obtain ⟨m, hm, ⟨a, b, e, h1, h2, h3, h4⟩, h5⟩ := h.outFlow n hn i hi
  refine ⟨(a, b, e), m, hm, ?_, i, hi, (a, b, e), h1, h4, h.getNodeById hm⟩
  simp [flowTarget, h1, h4, found, h.getNodeById hm]

open Classical in
/-- The number of nodes that can be reached. -/
noncomputable def rank (d : Diagram) (n : Node) : Nat := (d.getNodes.filter fun m => decide (Relation.TransGen (Next d) n m)).length

open Classical in
theorem rank_lt {d : Diagram} (ha : Acyclic d) {n m : Node} (hm : m ∈ d.getNodes) (hnm : Relation.TransGen (Next d) n m) :
    rank d m < rank d n := by
  have hlt : ∀ l : List Node, m ∈ l →
      (l.filter fun k => decide (Relation.TransGen (Next d) m k)).length < (l.filter fun k => decide (Relation.TransGen (Next d) n k)).length := by
    have hle : ∀ l : List Node,
        (l.filter fun k => decide (Relation.TransGen (Next d) m k)).length ≤ (l.filter fun k => decide (Relation.TransGen (Next d) n k)).length := by
      intro l
      induction l with
      | nil => simp
      | cons x l ih =>
        simp only [List.filter_cons, decide_eq_true_eq]
        by_cases h1 : Relation.TransGen (Next d) m x
        · simp only [h1, hnm.trans h1, if_true, List.length_cons]; omega
        · by_cases h2 : Relation.TransGen (Next d) n x
          · simp only [h1, h2, if_true, if_false, List.length_cons]; omega
          · simp only [h1, h2, if_false]; omega
    intro l hl
    induction l with
    | nil => simp at hl
    | cons x l ih =>
      simp only [List.filter_cons, decide_eq_true_eq]
      rcases List.mem_cons.1 hl with rfl | hl
      · have := hle l
        simp only [ha m hm, if_false, hnm, if_true, List.length_cons]
        omega
      · have := ih hl
        by_cases h1 : Relation.TransGen (Next d) m x
        · simp only [h1, hnm.trans h1, if_true, List.length_cons]; omega
        · by_cases h2 : Relation.TransGen (Next d) n x
          · simp only [h1, h2, if_true, if_false, List.length_cons]; omega
          · simp only [h1, h2, if_false]; omega
  exact hlt _ hm

theorem rank_lt_length {d : Diagram} (ha : Acyclic d) {n : Node} (hn : n ∈ d.getNodes) : rank d n < d.getNodes.length := by
  unfold rank
  rw [List.length_filter_lt_length_iff_exists]
  exact ⟨n, hn, by simpa using ha n hn⟩

/-- The result of a call is fine: it succeeds, and a returned node can be reached. -/
def Fine (d : Diagram) (n : Node) (x : Py (List Row × Option Node)) : Prop :=
  ∃ rows nx, x = .ok (rows, nx) ∧ ∀ m ∈ nx, m ∈ d.getNodes ∧ Relation.ReflTransGen (Next d) n m

theorem pyIndex_ok {α : Type} {l : List α} {i : Nat} {a : α} (h : l[i]? = some a) : pyIndex l i = .ok a := by simp [pyIndex, h]

theorem asciiLower_lt {i : Nat} (h : i < 26) : ∃ s, asciiLower i = .ok s := by
  obtain ⟨c, hc⟩ : ∃ c, "abcdefghijklmnopqrstuvwxyz".toList[i]? = some c := ⟨_, List.getElem?_eq_getElem (by simpa using h)⟩
  exact ⟨String.ofList [c], by simp only [asciiLower, pyIndex_ok hc, except_bind_ok, except_pure]⟩

theorem splitLoop_fine {d : Diagram} (h : Consistent d) (hx : ∀ n ∈ d.getNodes, Supported n) {rec : Rec} {n : Node} (hn : n ∈ d.getNodes)
    (hrec : ∀ m ∈ d.getNodes, Next d n m → ∀ o p c w j rows, Fine d m (rec (some m) o p c w j rows))
    {ty : String} {df : Option String} {o : Nat} {pre who : String} :
    ∀ (fs : List String) (i : Nat) (rows : List Row) (next : Option Node), (∀ f ∈ fs, f ∈ outs n) → i + fs.length ≤ 26 →
      (∀ m ∈ next, m ∈ d.getNodes ∧ Relation.TransGen (Next d) n m) →
      ∃ rows' nx, splitLoop d (table d) rec ty df o pre who fs i rows next = .ok (rows', nx) ∧
        ∀ m ∈ nx, m ∈ d.getNodes ∧ Relation.TransGen (Next d) n m
  | [], i, rows, next, _, _, hnx => ⟨rows, next, rfl, hnx⟩
  | f :: fs, i, rows, next, hfs, hi, hnx => by
    obtain ⟨fl, m, hm, e1, hnm⟩ := flowTarget_out h hn (hfs f (by simp))
    obtain ⟨s, hs⟩ := asciiLower_lt (i := i) (by simp at hi; omega)
    have ih := fun rows next => splitLoop_fine h hx hn hrec (ty := ty) (df := df) (o := o) (pre := pre) (who := who) fs (i + 1) rows next
      (fun f hf => hfs f (List.mem_cons_of_mem _ hf)) (by simp at hi; omega)
    simp only [splitLoop, e1, hs, except_bind_ok, found, table_get h hm (hx m hm), need_some]
    split
    · exact ih _ _ hnx
    · obtain ⟨rows1, nx, e2, hr⟩ := hrec m hm hnm 1 (pre ++ toString o ++ s)
        (if some f = df then "else" else if ty ≠ "parallelGateway" then fl.2.2.name.getD "" else "") who false rows
      simp only [e2, except_bind_ok]
      apply ih
      cases nx with
      | none => exact hnx
      | some k =>
        intro k' hk'
        simp at hk'
        subst hk'
        obtain ⟨h1, h2⟩ := hr k rfl
        exact ⟨h1, Relation.TransGen.head' hnm h2⟩

theorem exportNode_fine {d : Diagram} (h : Consistent d) (ha : Acyclic d) (hx : Tabular d) : ∀ fuel, ∀ n ∈ d.getNodes, rank d n < fuel →
    ∀ o p c w j rows, Fine d n (exportNode d (table d) fuel (some n) o p c w j rows)
  | 0, _, _, hf => by omega
  | fuel + 1, n, hn, hf => by
    intro o p c w j rows
    have ih : ∀ m ∈ d.getNodes, Relation.TransGen (Next d) n m → ∀ o p c w j rows, Fine d m (exportNode d (table d) fuel (some m) o p c w j rows) :=
      fun m hm hnm => exportNode_fine h ha hx fuel m hm (by have := rank_lt ha hm hnm; omega)
    have up : ∀ {m : Node} {x}, Relation.TransGen (Next d) n m → Fine d m x → Fine d n x := by
      rintro m x hnm ⟨rows, nx, e, hr⟩
      exact ⟨rows, nx, e, fun k hk => ⟨(hr k hk).1, hnm.to_reflTransGen.trans (hr k hk).2⟩⟩
    obtain ⟨ty, hty⟩ := Option.isSome_iff_exists.1 (h.typed n hn)
    obtain ⟨name, hname⟩ := Option.isSome_iff_exists.1 (hx.named n hn)
    obtain ⟨out, hout⟩ := Option.isSome_iff_exists.1 (h.lists n hn).2.1
    have houts : outs n = out := by simp [outs, hout]
    simp only [exportNode, found, except_bind_ok, hty, need_some]
    split
    · rename_i hc
      subst hc
      obtain ⟨i, is, hi⟩ := List.exists_cons_of_ne_nil (hx.begins n hn hty)
      obtain ⟨fl, m, hm, e1, hnm⟩ := flowTarget_out h hn (i := i) (by simp [hi])
      have : out = i :: is := by rw [← houts, hi]
      simp only [exportStart, hname, hout, need_some, except_bind_ok, this, pyIndex, List.getElem?_cons_zero, e1]
      exact up (.single hnm) (ih m hm (.single hnm) _ _ _ _ _ _)
    · split
      · simp only [exportEnd, hname, need_some, except_bind_ok, except_pure]
        exact ⟨_, none, rfl, by simp⟩
      · rename_i hc1 hc2
        simp only [exportElement, hty, need_some, except_bind_ok, table_get h hn (hx.supported n hn)]
        split
        · rename_i hj
          have h2 := (join_mem_labels n).1 hj.1
          by_cases hc : ty = "task" ∨ ty = "subProcess"
          · simp only [retract, if_pos hc, except_bind_ok, except_pure]
            refine ⟨_, _, rfl, ?_⟩
            intro m hm
            cases hm
            exact ⟨hn, .refl⟩
          · rw [not_or] at hc
            obtain ⟨i, is, hi⟩ := List.exists_cons_of_ne_nil (hx.joins n hn h2 (by rw [hty]; simpa using hc.1) (by rw [hty]; simpa using hc.2)
              (by rw [hty]; simpa using hc2))
            obtain ⟨fl, m, hm, e1, hnm⟩ := flowTarget_out h hn (i := i) (by simp [hi])
            have : out = i :: is := by rw [← houts, hi]
            simp only [retract, hc, or_self, if_false, hout, found, except_bind_ok, this, pyIndex, List.getElem?_cons_zero, e1, except_pure]
            refine ⟨_, _, rfl, ?_⟩
            intro k hk
            cases hk
            exact ⟨hm, .single hnm⟩
        · have hown : ∃ own, ownRow n ty o p c w = .ok own := by
            unfold ownRow
            split
            · simp [hname]
            · split <;> simp [hname]
          obtain ⟨own, hown⟩ := hown
          simp only [hown, except_bind_ok, exportNext, hout, found]
          split
          · obtain ⟨rows', nx, e, hnx⟩ := splitLoop_fine h hx.supported hn (fun m hm hnm => ih m hm (.single hnm)) (ty := ty) (df := defaultFlow n ty) (o := o)
              (pre := p) (who := w) out 0 (rows ++ own) none (by rw [houts]; exact fun _ h => h) (by have := hx.few n hn; rw [houts] at this; omega) (by simp)
            simp only [e, except_bind_ok]
            cases nx with
            | none => exact ⟨_, none, rfl, by simp⟩
            | some m =>
              obtain ⟨hm, hnm⟩ := hnx m rfl
              exact up hnm (ih m hm hnm _ _ _ _ _ _)
          · split
            · rename_i hl
              obtain ⟨i, hi⟩ := List.length_eq_one_iff.1 hl
              obtain ⟨fl, m, hm, e1, hnm⟩ := flowTarget_out h hn (i := i) (by simp [houts, hi])
              simp only [hi, pyIndex, List.getElem?_cons_zero, except_bind_ok, e1]
              exact up (.single hnm) (ih m hm (.single hnm) _ _ _ _ _ _)
            · exact ⟨_, none, rfl, by simp⟩

theorem exportRows_fine {d : Diagram} (h : Consistent d) (ha : Acyclic d) (hx : Tabular d) :
    ∃ rows, ∀ fuel ≥ d.getNodes.length, exportRows d fuel = .ok rows := by
  have key : ∃ rows, exportRows d d.getNodes.length = .ok rows := by
    unfold exportRows
    rw [startNodes_eq fun n hn => (h.lists n hn).1]
    obtain ⟨s, hs⟩ := List.length_eq_one_iff.1 hx.start
    have hm : s ∈ d.getNodes := (List.mem_filter.1 (by rw [show d.getNodes.filter (fun n => (ins n).length = 0) = [s] from hs]; simp)).1
    rw [show d.getNodes.filter (fun n => (ins n).length = 0) = [s] from hs]
    obtain ⟨rows, nx, e, _⟩ := exportNode_fine h ha hx _ s hm (rank_lt_length ha hm) 0 "" "" "" false []
    exact ⟨rows, by simp only [except_bind_ok, nodes_eq h.complete h.ids]; rw [show (byType d).map (fun n => (n.1, Spec.labels n)) = table d from rfl, e]; rfl⟩
  obtain ⟨rows, hr⟩ := key
  exact ⟨rows, fun fuel hf => exportRows_mono hf hr⟩

end Bpmn.Csv

import Verif.Lemmas.CsvRun
import Mathlib.Data.List.Nodup
/-! The CSV export of diagrams without joins. -/
set_option linter.unusedSimpArgs false
set_option linter.unusedVariables false

namespace Bpmn.Csv
open Bpmn.Spec Bpmn.Spec.Csv

variable {d : Diagram}

/-- `b` is `k` flows behind `a`. -/
inductive Steps (d : Diagram) (a : Node) : Nat → Node → Prop where
  | zero : Steps d a 0 a
  | succ {k b c} : Steps d a k b → Next d b c → Steps d a (k + 1) c

theorem Steps.reach {a b : Node} {k : Nat} (h : Steps d a k b) : Relation.ReflTransGen (Next d) a b := by
  induction h with
  | zero => exact .refl
  | succ _ h ih => exact .tail ih h

theorem reach_steps {a b : Node} (h : Relation.ReflTransGen (Next d) a b) : ∃ k, Steps d a k b := by
  induction h with
  | refl => exact ⟨0, .zero⟩
  | tail _ h ih => obtain ⟨k, hk⟩ := ih; exact ⟨k + 1, .succ hk h⟩

theorem Steps.trans {a b c : Node} {k l : Nat} (h : Steps d a k b) (h' : Steps d b l c) : Steps d a (k + l) c := by
  induction h' with
  | zero => exact h
  | succ _ hn ih => exact .succ ih hn

theorem next_mem {a b : Node} (h : Next d a b) : b ∈ d.getNodes := by
  obtain ⟨_, _, _, _, _, h3⟩ := h
  exact (Consistent.mem_of_getNodeById h3).1

theorem Steps.mem {a b : Node} {k : Nat} (ha : a ∈ d.getNodes) (h : Steps d a k b) : b ∈ d.getNodes := by
  cases h with
  | zero => exact ha
  | succ _ hn => exact next_mem hn

/-- A flow in the outgoing list that leads to `m` is in the incoming list of `m`. -/
theorem out_in (h : Consistent d) {a m : Node} (ha : a ∈ d.getNodes) {i : String} (hi : i ∈ outs a) {f : Flow}
    (hf : d.getFlowById i = .ok (some f)) (ht : f.2.2.targetRef = some m.1) (hm : m ∈ d.getNodes) :
    i ∈ ins m ∧ f.2.2.sourceRef = some a.1 := by
  obtain ⟨m', hm', ⟨x, y, e, h1, h2, h3, h4⟩, h5⟩ := h.outFlow a ha i hi
  rw [hf] at h1
  simp only [Except.ok.injEq, Option.some.injEq] at h1
  subst h1
  simp only at ht h4
  rw [h4] at ht
  have : m' = m := h.node_eq hm' hm (by simpa using ht)
  subst this
  exact ⟨h5, h3⟩

theorem length_le_one_eq {l : List String} (h : l.length ≤ 1) {i j : String} (hi : i ∈ l) (hj : j ∈ l) : i = j := by
  match l, h with
  | [x], _ => simp at hi hj; rw [hi, hj]

theorem pred_unique (h : Consistent d) (ht : Treelike d) {a b m : Node} (ha : a ∈ d.getNodes) (hb : b ∈ d.getNodes)
    (h1 : Next d a m) (h2 : Next d b m) : a = b := by
  have hm := next_mem h1
  obtain ⟨i, hi, f, e1, e2, _⟩ := h1
  obtain ⟨j, hj, g, e3, e4, _⟩ := h2
  obtain ⟨p1, p2⟩ := out_in h ha hi e1 e2 hm
  obtain ⟨p3, p4⟩ := out_in h hb hj e3 e4 hm
  have : i = j := length_le_one_eq (ht.noJoin m hm) p1 p3
  subst this
  rw [e1] at e3
  simp only [Except.ok.injEq, Option.some.injEq] at e3
  subst e3
  rw [p2] at p4
  exact h.node_eq ha hb (by simpa using p4)

theorem Steps.back (h : Consistent d) (ht : Treelike d) {a b m : Node} (ha : a ∈ d.getNodes) (hb : b ∈ d.getNodes) {k : Nat}
    (h1 : Steps d a k m) (h2 : Steps d b k m) : a = b := by
  induction h1 with
  | zero => cases h2; rfl
  | succ hs hn ih =>
    cases h2 with
    | succ hs' hn' =>
      have e := pred_unique h ht (hs.mem ha) (hs'.mem hb) hn hn'
      subst e
      exact ih hs'

theorem no_next_start (h : Consistent d) {a s : Node} (ha : a ∈ d.getNodes) (hs : ins s = []) : ¬Next d a s := by
  intro hn
  have hm := next_mem hn
  obtain ⟨i, hi, f, e1, e2, _⟩ := hn
  have := (out_in h ha hi e1 e2 hm).1
  rw [hs] at this
  simp at this

theorem Steps.depth (h : Consistent d) (ht : Treelike d) {s m : Node} (hs : s ∈ d.getNodes) (h0 : ins s = []) {k l : Nat}
    (h1 : Steps d s k m) (h2 : Steps d s l m) : k = l := by
  induction h1 generalizing l with
  | zero =>
    cases h2 with
    | zero => rfl
    | succ hp hn => exact absurd hn (no_next_start h (hp.mem hs) h0)
  | succ hp hn ih =>
    cases h2 with
    | zero => exact absurd hn (no_next_start h (hp.mem hs) h0)
    | succ hp' hn' =>
      have e := pred_unique h ht (hp.mem hs) (hp'.mem hs) hn hn'
      subst e
      rw [ih hp']

/-- Different nodes at the same depth have no common descendant. -/
theorem disjoint_of_depth (h : Consistent d) (ht : Treelike d) {s a b m : Node} (hs : s ∈ d.getNodes) (h0 : ins s = []) {k : Nat}
    (ha : Steps d s k a) (hb : Steps d s k b) (h1 : Relation.ReflTransGen (Next d) a m) (h2 : Relation.ReflTransGen (Next d) b m) : a = b := by
  obtain ⟨i, hi⟩ := reach_steps h1
  obtain ⟨j, hj⟩ := reach_steps h2
  have := Steps.depth h ht hs h0 (ha.trans hi) (hb.trans hj)
  have : i = j := by omega
  subst this
  exact Steps.back h ht (ha.mem hs) (hb.mem hs) hi hj

/-- The new rows are those of the listed nodes. -/
def Lists (rows rows' : List Row) (P : Node → Prop) : Prop :=
  ∃ (new : List Row) (ns : List Node), rows' = rows ++ new ∧ new.map content = ns.map caption ∧ ns.Nodup ∧ ∀ m, m ∈ ns ↔ P m

theorem lists_nil (rows : List Row) {P : Node → Prop} (h : ∀ m, ¬P m) : Lists rows rows P := ⟨[], [], by simp, rfl, by simp, by simpa using h⟩

theorem Lists.congr {rows rows' : List Row} {P Q : Node → Prop} (h : Lists rows rows' P) (hq : ∀ m, P m ↔ Q m) : Lists rows rows' Q := by
  obtain ⟨new, ns, e1, e2, e3, e4⟩ := h
  exact ⟨new, ns, e1, e2, e3, fun m => (e4 m).trans (hq m)⟩

/-- What is to be shown of the recursion at nodes at depth `k`. -/
def RecLists (d : Diagram) (rec : Rec) (s : Node) : Prop :=
  ∀ k n, Steps d s k n → ∀ o p c w j rows rows' nx, rec (some n) o p c w j rows = .ok (rows', nx) →
    nx = none ∧ Lists rows rows' fun m => Relation.ReflTransGen (Next d) n m ∧ HasRow m

theorem flowTarget_next (h : Consistent d) {n : Node} (hn : n ∈ d.getNodes) {i : String} (hi : i ∈ outs n) {f : Flow} {t : Option Node}
    (e : flowTarget d i = .ok (f, t)) : ∃ m, t = some m ∧ m ∈ d.getNodes ∧ Next d n m ∧ i ∈ ins m ∧ FlowFromTo d i n.1 m.1 := by
  obtain ⟨m, hm, ⟨a, b, e', h1, h2, h3, h4⟩, h5⟩ := h.outFlow n hn i hi
  simp [flowTarget, h1, h4, found, h.getNodeById hm] at e
  exact ⟨m, e.2.symm, hm, ⟨i, hi, (a, b, e'), h1, h4, h.getNodeById hm⟩, h5, a, b, e', h1, h2, h3, h4⟩

theorem not_join (h : Consistent d) (ht : Treelike d) {n : Node} (hn : n ∈ d.getNodes) {labels : List String}
    (e : (table d).get? n.1 = some labels) : labels = Spec.labels n ∧ "Join" ∉ labels := by
  have hm := Dict.mem_of_get? e
  obtain ⟨n', hn', e'⟩ := List.mem_map.1 hm
  simp only [Prod.mk.injEq] at e'
  have : n' = n := h.node_eq (mem_byType.1 hn').1 hn e'.1
  subst this
  refine ⟨e'.2.symm, ?_⟩
  rw [← e'.2, join_mem_labels]
  have := ht.noJoin n' hn
  omega

/-- A node below one of the flows. -/
def Below (d : Diagram) (fs : List String) (n m : Node) : Prop :=
  ∃ i ∈ fs, ∃ c, FlowFromTo d i n.1 c.1 ∧ c ∈ d.getNodes ∧ Relation.ReflTransGen (Next d) c m

theorem flow_unique {i s t s' t' : String} (h : FlowFromTo d i s t) (h' : FlowFromTo d i s' t') : s = s' ∧ t = t' := by
  obtain ⟨a, b, e, h1, _, h3, h4⟩ := h
  obtain ⟨a', b', e', h1', _, h3', h4'⟩ := h'
  rw [h1] at h1'
  simp only [Except.ok.injEq, Option.some.injEq, Prod.mk.injEq] at h1'
  obtain ⟨_, _, rfl⟩ := h1'
  rw [h3] at h3'; rw [h4] at h4'
  exact ⟨by simpa using h3', by simpa using h4'⟩

theorem splitLoop_lists (h : Consistent d) (ht : Treelike d) {s : Node} (hs : s ∈ d.getNodes) (h0 : ins s = []) {rec : Rec}
    (hrec : RecLists d rec s) {k : Nat} {n : Node} (hk : Steps d s k n) {ty : String} {df : Option String} {o : Nat} {pre who : String} :
    ∀ (fs : List String) (i : Nat) (rows rows' : List Row) (nx : Option Node), (∀ f ∈ fs, f ∈ outs n) → fs.Nodup →
      splitLoop d (table d) rec ty df o pre who fs i rows none = .ok (rows', nx) →
      nx = none ∧ Lists rows rows' fun m => Below d fs n m ∧ HasRow m
  | [], i, rows, rows', nx, _, _, e => by
    simp only [splitLoop, Except.ok.injEq, Prod.mk.injEq] at e
    exact ⟨e.2.symm, [], [], by simp [e.1, Below]⟩
  | f :: fs, i, rows, rows', nx, hfs, hnd, e => by
    have hn := hk.mem hs
    simp only [splitLoop] at e
    obtain ⟨⟨flow, target⟩, e1, e⟩ := except_bind_eq_ok e
    obtain ⟨suffix, e2, e⟩ := except_bind_eq_ok e
    obtain ⟨t, e3, e⟩ := except_bind_eq_ok e
    obtain ⟨labels, e4, e⟩ := except_bind_eq_ok e
    obtain ⟨c, rfl, hc, hnc, hin, hft⟩ := flowTarget_next h hn (hfs f (by simp)) e1
    simp only [found, Except.ok.injEq] at e3
    subst e3
    have e4' : (table d).get? c.1 = some labels := by
      cases hq : (table d).get? c.1 with
      | none => simp [hq] at e4
      | some l => simp [hq] at e4; rw [e4]
    rw [if_neg (not_join h ht hc e4').2] at e
    obtain ⟨⟨rows1, tmp⟩, e5, e⟩ := except_bind_eq_ok e
    obtain ⟨rfl, new1, ns1, l1, l2, l3, l4⟩ := hrec (k + 1) c (.succ hk hnc) _ _ _ _ _ _ _ _ e5
    obtain ⟨hnx, new2, ns2, m1, m2, m3, m4⟩ := splitLoop_lists h ht hs h0 hrec hk fs (i + 1) rows1 rows' nx
      (fun g hg => hfs g (List.mem_cons_of_mem _ hg)) hnd.of_cons e
    refine ⟨hnx, new1 ++ new2, ns1 ++ ns2, by rw [m1, l1, List.append_assoc], by simp [l2, m2], ?_, ?_⟩
    · rw [List.nodup_append]
      refine ⟨l3, m3, ?_⟩
      rintro x hx y hy rfl
      obtain ⟨hx, _⟩ := (l4 x).1 hx
      obtain ⟨⟨g, hg, c', hft', hc', hx'⟩, _⟩ := (m4 x).1 hy
      have hg' : g ∈ outs n := hfs g (List.mem_cons_of_mem _ hg)
      obtain ⟨m', hm', hfm, hgm⟩ := h.outFlow n hn g hg'
      have ec : m' = c' := h.node_eq hm' hc' (flow_unique hfm hft').2
      subst ec
      have hnc' : Next d n m' := by
        obtain ⟨a, b, e', q1, q2, q3, q4⟩ := hfm
        exact ⟨g, hg', (a, b, e'), q1, q4, h.getNodeById hm'⟩
      have := disjoint_of_depth h ht hs h0 (.succ hk hnc) (.succ hk hnc') hx hx'
      subst this
      have : f = g := length_le_one_eq (ht.noJoin c hc) hin hgm
      subst this
      exact (List.nodup_cons.1 hnd).1 hg
    · intro m
      rw [List.mem_append, l4, m4]
      constructor
      · rintro (⟨h1, h2⟩ | ⟨⟨g, hg, rest⟩, h2⟩)
        · exact ⟨⟨f, by simp, c, hft, hc, h1⟩, h2⟩
        · exact ⟨⟨g, List.mem_cons_of_mem _ hg, rest⟩, h2⟩
      · rintro ⟨⟨g, hg, c', hft', hc', hx'⟩, h2⟩
        rcases List.mem_cons.1 hg with rfl | hg
        · have : c = c' := h.node_eq hc hc' (flow_unique hft hft').2
          subst this
          exact .inl ⟨hx', h2⟩
        · exact .inr ⟨⟨g, hg, c', hft', hc', hx'⟩, h2⟩

/-- A node reaches itself and what is below its flows. -/
theorem reach_iff (h : Consistent d) {n : Node} (hn : n ∈ d.getNodes) {m : Node} :
    Relation.ReflTransGen (Next d) n m ↔ m = n ∨ Below d (outs n) n m := by
  constructor
  · intro hr
    rcases Relation.ReflTransGen.cases_head hr with rfl | ⟨c, hc, hr⟩
    · exact .inl rfl
    · right
      have hm := next_mem hc
      obtain ⟨i, hi, f, e1, e2, e3⟩ := hc
      refine ⟨i, hi, c, ?_, hm, hr⟩
      obtain ⟨m', hm', hf, _⟩ := h.outFlow n hn i hi
      have hf' := hf
      obtain ⟨a, b, e', q1, q2, q3, q4⟩ := hf
      rw [e1] at q1
      simp only [Except.ok.injEq, Option.some.injEq] at q1
      subst q1
      simp only at e2
      rw [e2] at q4
      simp only [Option.some.injEq] at q4
      rwa [← q4] at hf'
  · rintro (rfl | ⟨i, hi, c, ⟨a, b, e', q1, q2, q3, q4⟩, hc, hr⟩)
    · exact .refl
    · exact .head ⟨i, hi, (a, b, e'), q1, q4, h.getNodeById hc⟩ hr

theorem not_below (h : Consistent d) (ht : Treelike d) {s : Node} (hs : s ∈ d.getNodes) (h0 : ins s = []) {k : Nat} {n : Node}
    (hk : Steps d s k n) {fs : List String} (hfs : ∀ f ∈ fs, f ∈ outs n) : ¬Below d fs n n := by
  rintro ⟨i, hi, c, ⟨a, b, e', q1, q2, q3, q4⟩, hc, hr⟩
  have hnc : Next d n c := ⟨i, hfs i hi, (a, b, e'), q1, q4, h.getNodeById hc⟩
  obtain ⟨l, hl⟩ := reach_steps hr
  have := Steps.depth h ht hs h0 hk ((Steps.succ hk hnc).trans hl)
  omega

/-- The row of the node itself, then those below. -/
theorem lists_own (h : Consistent d) (ht : Treelike d) {s : Node} (hs : s ∈ d.getNodes) (h0 : ins s = []) {k : Nat} {n : Node}
    (hk : Steps d s k n) {own rows rows' : List Row} (ho : (HasRow n ∧ own.map content = [caption n]) ∨ (¬HasRow n ∧ own = []))
    (hl : Lists (rows ++ own) rows' fun m => Below d (outs n) n m ∧ HasRow m) :
    Lists rows rows' fun m => Relation.ReflTransGen (Next d) n m ∧ HasRow m := by
  obtain ⟨new, ns, e1, e2, e3, e4⟩ := hl
  have hn := hk.mem hs
  rcases ho with ⟨hr, ho⟩ | ⟨hr, rfl⟩
  · refine ⟨own ++ new, n :: ns, by rw [e1, List.append_assoc], by simp [e2, ho], ?_, ?_⟩
    · refine List.nodup_cons.2 ⟨?_, e3⟩
      intro hm
      exact not_below h ht hs h0 hk (fun _ h => h) ((e4 n).1 hm).1
    · intro m
      rw [List.mem_cons, e4]
      beta_reduce
      rw [reach_iff h hn]
      constructor
      · rintro (rfl | ⟨h1, h2⟩)
        · exact ⟨.inl rfl, hr⟩
        · exact ⟨.inr h1, h2⟩
      · rintro ⟨rfl | h1, h2⟩
        · exact .inl rfl
        · exact .inr ⟨h1, h2⟩
  · refine ⟨new, ns, by simpa using e1, e2, e3, ?_⟩
    intro m
    rw [e4]
    beta_reduce
    rw [reach_iff h hn]
    constructor
    · rintro ⟨h1, h2⟩
      exact ⟨.inr h1, h2⟩
    · rintro ⟨rfl | h1, h2⟩
      · exact absurd h2 hr
      · exact ⟨h1, h2⟩

/-- One outgoing flow: what is below it is what the target reaches. -/
theorem below_single (h : Consistent d) {n c : Node} {i : String} (hc : c ∈ d.getNodes) (hf : FlowFromTo d i n.1 c.1) {m : Node} :
    Below d [i] n m ↔ Relation.ReflTransGen (Next d) c m := by
  constructor
  · rintro ⟨j, hj, c', hf', hc', hr⟩
    simp at hj
    subst hj
    have : c = c' := h.node_eq hc hc' (flow_unique hf hf').2
    exact this ▸ hr
  · exact fun hr => ⟨i, by simp, c, hf, hc, hr⟩

theorem exportNode_lists (h : Consistent d) (ht : Treelike d) {s : Node} (hs : s ∈ d.getNodes) (h0 : ins s = []) :
    ∀ fuel, RecLists d (exportNode d (table d) fuel) s
  | 0 => by intro _ _ _ _ _ _ _ _ _ _ _ e; simp [exportNode] at e
  | fuel + 1 => by
    have ih := exportNode_lists h ht hs h0 fuel
    intro k n hk o p c w j rows rows' nx e
    have hn := hk.mem hs
    obtain ⟨out, hout⟩ := Option.isSome_iff_exists.1 (h.lists n hn).2.1
    have houts : outs n = out := by simp [outs, hout]
    simp only [exportNode, found, except_bind_ok] at e
    obtain ⟨ty, e2, e⟩ := except_bind_eq_ok e
    have hty : n.2.type = some ty := by
      cases hq : n.2.type with
      | none => simp [hq] at e2
      | some l => simp [hq] at e2; rw [e2]
    split at e
    · rename_i hc
      subst hc
      unfold exportStart at e
      obtain ⟨name, e3, e⟩ := except_bind_eq_ok e
      have hname : n.2.nodeName = some name := by
        cases hq : n.2.nodeName with
        | none => simp [hq] at e3
        | some l => simp [hq] at e3; rw [e3]
      simp only [hout, need_some, except_bind_ok] at e
      obtain ⟨i, hi⟩ := List.length_eq_one_iff.1 (ht.begins n hn hty)
      have : out = [i] := by rw [← houts, hi]
      subst this
      simp only [pyIndex, List.getElem?_cons_zero, except_bind_ok] at e
      obtain ⟨⟨fl, t⟩, e4, e⟩ := except_bind_eq_ok e
      obtain ⟨m, rfl, hm, hnm, hin, hft⟩ := flowTarget_next h hn (by simp [houts]) e4
      obtain ⟨hnx, hl⟩ := ih (k + 1) m (.succ hk hnm) _ _ _ _ _ _ _ _ e
      have hl' := hl.congr (Q := fun m => Below d (outs n) n m ∧ HasRow m) (by intro m; beta_reduce; rw [hi, below_single h hm hft])
      refine ⟨hnx, lists_own h ht hs h0 hk (.inl ⟨by simp [HasRow, hty], ?_⟩) hl'⟩
      · simp only [content, caption, hty, hname, trigger, List.map_cons, List.map_nil, if_true, Option.getD_some]
        cases hd : n.2.eventDefinitions with
        | none => simp
        | some l =>
          cases l with
          | nil => simp
          | cons a l => simp
    · split at e
      · rename_i hc
        subst hc
        unfold exportEnd at e
        obtain ⟨name, e3, e⟩ := except_bind_eq_ok e
        have hname : n.2.nodeName = some name := by
          cases hq : n.2.nodeName with
          | none => simp [hq] at e3
          | some l => simp [hq] at e3; rw [e3]
        simp only [except_pure, Except.ok.injEq, Prod.mk.injEq] at e
        obtain ⟨e5, e6⟩ := e
        subst e5
        refine ⟨e6.symm, lists_own h ht hs h0 hk (.inl ⟨by simp [HasRow, hty], ?_⟩)
          (lists_nil _ (by intro m; rw [ht.ends n hn hty]; simp [Below]))⟩
        · simp only [content, caption, hty, hname, trigger, List.map_cons, List.map_nil, if_true, Option.getD_some]
          cases hd : n.2.eventDefinitions with
          | none => simp
          | some l =>
            cases l with
            | nil => simp
            | cons a l => simp
      · rename_i hc1 hc2
        unfold exportElement at e
        simp only [hty, need_some, except_bind_ok] at e
        obtain ⟨labels, e4, e⟩ := except_bind_eq_ok e
        have e4' : (table d).get? n.1 = some labels := by
          cases hq : (table d).get? n.1 with
          | none => simp [hq] at e4
          | some l => simp [hq] at e4; rw [e4]
        obtain ⟨rfl, hj⟩ := not_join h ht hn e4'
        rw [if_neg (fun hh => hj hh.1)] at e
        obtain ⟨own, e5, e⟩ := except_bind_eq_ok e
        have hown : (HasRow n ∧ own.map content = [caption n]) ∨ (¬HasRow n ∧ own = []) := by
          unfold ownRow at e5
          split at e5
          · rename_i hc
            subst hc
            obtain ⟨name, e3, e5⟩ := except_bind_eq_ok e5
            have hname : n.2.nodeName = some name := by
              cases hq : n.2.nodeName with
              | none => simp [hq] at e3
              | some l => simp [hq] at e3; rw [e3]
            simp only [except_pure, Except.ok.injEq] at e5
            subst e5
            exact .inl ⟨by simp [HasRow, hty], by simp [content, caption, hty, hname]⟩
          · split at e5
            · rename_i hc
              subst hc
              obtain ⟨name, e3, e5⟩ := except_bind_eq_ok e5
              have hname : n.2.nodeName = some name := by
                cases hq : n.2.nodeName with
                | none => simp [hq] at e3
                | some l => simp [hq] at e3; rw [e3]
              simp only [except_pure, Except.ok.injEq] at e5
              subst e5
              exact .inl ⟨by simp [HasRow, hty], by simp [content, caption, hty, hname]⟩
            · rename_i q1 q2
              simp only [Except.ok.injEq] at e5
              exact .inr ⟨by simp [HasRow, hty, q1, q2, hc1, hc2], e5.symm⟩
        unfold exportNext at e
        simp only [hout, found, except_bind_ok] at e
        split at e
        · obtain ⟨⟨rows2, next⟩, e6, e⟩ := except_bind_eq_ok e
          have hnod := (h.lists n hn).2.2.2
          rw [houts] at hnod
          obtain ⟨rfl, hl⟩ := splitLoop_lists h ht hs h0 ih hk out 0 _ _ _ (by rw [houts]; exact fun _ h => h) hnod e6
          simp only [except_pure, Except.ok.injEq, Prod.mk.injEq] at e
          obtain ⟨rfl, e7⟩ := e
          exact ⟨e7.symm, lists_own h ht hs h0 hk hown (by rw [houts]; exact hl)⟩
        · rename_i hsp
          split at e
          · rename_i hlen
            obtain ⟨i, hi⟩ := List.length_eq_one_iff.1 hlen
            subst hi
            simp only [pyIndex, List.getElem?_cons_zero, except_bind_ok] at e
            obtain ⟨⟨fl, t⟩, e6, e⟩ := except_bind_eq_ok e
            obtain ⟨m, rfl, hm, hnm, hin, hft⟩ := flowTarget_next h hn (by simp [houts]) e6
            obtain ⟨hnx, hl⟩ := ih (k + 1) m (.succ hk hnm) _ _ _ _ _ _ _ _ e
            refine ⟨hnx, lists_own h ht hs h0 hk hown ?_⟩
            exact hl.congr (by intro m; beta_reduce; rw [houts, below_single h hm hft])
          · rename_i hlen
            simp only [except_pure, Except.ok.injEq, Prod.mk.injEq] at e
            obtain ⟨rfl, e7⟩ := e
            have hz : out = [] := by
              rw [split_mem_labels, houts] at hsp
              cases out with
              | nil => rfl
              | cons a r => cases r with
                | nil => simp at hlen
                | cons b r => simp at hsp
            refine ⟨e7.symm, lists_own h ht hs h0 hk hown (lists_nil _ ?_)⟩
            intro m
            rw [houts, hz]
            simp [Below]

end Bpmn.Csv

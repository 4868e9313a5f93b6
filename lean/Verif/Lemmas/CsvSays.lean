import Verif.Lemmas.CsvTree
/-! Every row of the CSV export says something that holds in the diagram. -/
set_option linter.unusedSimpArgs false
set_option linter.unusedVariables false

namespace Bpmn.Csv
open Bpmn.Spec Bpmn.Spec.Csv

variable {d : Diagram}

theorem table_labels (h : Consistent d) {n : Node} (hn : n ∈ d.getNodes) {labels : List String}
    (e : (table d).get? n.1 = some labels) : labels = Spec.labels n := by
  have hm := Dict.mem_of_get? e
  obtain ⟨n', hn', e'⟩ := List.mem_map.1 hm
  simp only [Prod.mk.injEq] at e'
  have : n' = n := h.node_eq (mem_byType.1 hn').1 hn e'.1
  subst this
  exact e'.2.symm

theorem need_some_of_ok {α : Type} {x : Option α} {a : α} (h : need x = .ok a) : x = some a := by
  cases x with
  | none => simp at h
  | some l => simp at h; rw [h]

/-- Rows that have been added, all of which are explained. -/
def Explained (d : Diagram) (s : Node) (rows rows' : List Row) : Prop :=
  ∃ new, rows' = rows ++ new ∧ ∀ r ∈ new, NodeRow d s r ∨ SkipRow d s r

theorem Explained.refl {s : Node} (rows : List Row) : Explained d s rows rows := ⟨[], by simp, by simp⟩
theorem Explained.trans {s : Node} {a b c : List Row} (h : Explained d s a b) (h' : Explained d s b c) : Explained d s a c := by
  obtain ⟨x, rfl, hx⟩ := h
  obtain ⟨y, rfl, hy⟩ := h'
  refine ⟨x ++ y, by simp, ?_⟩
  intro r hr
  rcases List.mem_append.1 hr with hr | hr
  · exact hx r hr
  · exact hy r hr
theorem Explained.one {s : Node} {rows : List Row} {r : Row} (h : NodeRow d s r ∨ SkipRow d s r) : Explained d s rows (rows ++ [r]) :=
  ⟨[r], rfl, by simpa using h⟩

/-- What the recursion returns is a node to go on with. -/
def Onward (d : Diagram) (s : Node) (nx : Option Node) : Prop := ∀ m, nx = some m → Reaches d s m ∧ ConditionOf d s m ""

def RecSays (d : Diagram) (rec : Rec) (s : Node) : Prop :=
  ∀ n c p, Reaches d s n → ConditionOf d s n c → BranchPrefix p.toList → ∀ o j rows rows' nx, rec (some n) o p c "" j rows = .ok (rows', nx) →
    Explained d s rows rows' ∧ Onward d s nx

theorem Reaches.mem {s n : Node} (hs : s ∈ d.getNodes) (h : Reaches d s n) : n ∈ d.getNodes := by
  obtain ⟨k, hk⟩ := reach_steps h
  exact hk.mem hs

theorem flowTarget_flow {i : String} {f : Flow} {t : Option Node} (e : flowTarget d i = .ok (f, t)) :
    d.getFlowById i = .ok (some f) ∧ ∃ x, f.2.2.targetRef = some x ∧ t = d.getNodeById x := by
  unfold flowTarget at e
  obtain ⟨a, e1, e⟩ := except_bind_eq_ok e
  obtain ⟨b, e2, e⟩ := except_bind_eq_ok e
  obtain ⟨x, e3, e⟩ := except_bind_eq_ok e
  simp only [except_pure, Except.ok.injEq, Prod.mk.injEq] at e
  obtain ⟨rfl, rfl⟩ := e
  cases a with
  | none => simp [found] at e2
  | some a =>
    simp only [found, Except.ok.injEq] at e2
    subst e2
    exact ⟨e1, x, need_some_of_ok e3, rfl⟩

theorem splitLoop_says (h : Consistent d) {s : Node} (hs : s ∈ d.getNodes) {rec : Rec} (hrec : RecSays d rec s) {g : Node} (hg : Reaches d s g)
    (h2 : 2 ≤ (outs g).length) {ty : String} (hty : g.2.type = some ty) {o : Nat} {pre : String} (hpre : BranchPrefix pre.toList) :
    ∀ (fs : List String) (k : Nat) (rows rows' : List Row) (next nx : Option Node), (∀ l, fs[l]? = (outs g)[k + l]?) → Onward d s next →
      splitLoop d (table d) rec ty (defaultFlow g ty) o pre "" fs k rows next = .ok (rows', nx) → Explained d s rows rows' ∧ Onward d s nx
  | [], k, rows, rows', next, nx, _, hn, e => by
    simp only [splitLoop, Except.ok.injEq, Prod.mk.injEq] at e
    obtain ⟨rfl, rfl⟩ := e
    exact ⟨.refl _, hn⟩
  | f :: fs, k, rows, rows', next, nx, hfs, hn, e => by
    have hgm := Reaches.mem hs hg
    simp only [splitLoop] at e
    obtain ⟨⟨flow, target⟩, e1, e⟩ := except_bind_eq_ok e
    obtain ⟨suffix, e2, e⟩ := except_bind_eq_ok e
    obtain ⟨t, e3, e⟩ := except_bind_eq_ok e
    obtain ⟨labels, e4, e⟩ := except_bind_eq_ok e
    have hk : (outs g)[k]? = some f := by have := hfs 0; simpa using this.symm
    have hfs' : ∀ l, fs[l]? = (outs g)[k + 1 + l]? := by
      intro l
      have := hfs (l + 1)
      simp only [List.getElem?_cons_succ] at this
      rw [this]; congr 1; omega
    have hfm : f ∈ outs g := List.mem_of_getElem? hk
    obtain ⟨c, rfl, hc, hnc, hin, hft⟩ := flowTarget_next h hgm hfm e1
    simp only [found, Except.ok.injEq] at e3
    subst e3
    obtain ⟨q1, x, q2, q3⟩ := flowTarget_flow e1
    have hx : x = c.1 := by
      exact ((Consistent.mem_of_getNodeById q3.symm).2).symm
    subst hx
    have hb : Branch d g f flow c := ⟨h2, hfm, q1, q2, hc⟩
    have el := table_labels h hc (need_some_of_ok e4)
    obtain ⟨ch, hch, hsuf⟩ : ∃ ch, "abcdefghijklmnopqrstuvwxyz".toList[k]? = some ch ∧ suffix.toList = [ch] := by
      unfold asciiLower at e2
      obtain ⟨ch, a1, a2⟩ := except_bind_eq_ok e2
      simp only [except_pure, Except.ok.injEq] at a2
      refine ⟨ch, ?_, by rw [← a2, String.toList_ofList]⟩
      unfold pyIndex at a1
      split at a1
      · rename_i y hy; rw [hy]; simpa using a1
      · simp at a1
    obtain ⟨c', hl, hsuf'⟩ := asciiLower_ok e2
    have : c' = ch := by rw [hsuf] at hsuf'; simpa using hsuf'.symm
    subst this
    have hpre' : (pre ++ toString o ++ suffix).toList = pre.toList ++ decimal o ++ [c'] := by
      simp [hsuf, decimal_eq]
    have hbp : BranchPrefix (pre ++ toString o ++ suffix).toList := by
      rw [hpre']; exact .step o hpre hl.range.1 hl.range.2
    have hcond : (if ty ≠ "parallelGateway" then flow.2.2.name.getD "" else "") = flowCondition g flow := by
      unfold flowCondition
      rw [hty]
      by_cases hq : ty = "parallelGateway" <;> simp [hq]
    split at e
    · rename_i hj
      rw [el, join_mem_labels] at hj
      obtain ⟨r1, r2⟩ := splitLoop_says h hs hrec hg h2 hty hpre fs (k + 1) _ _ _ _ hfs' hn e
      refine ⟨Explained.trans (.one (.inr ⟨⟨g, k, f, flow, c, hg, hb, hk, hj, hcond, pre.toList, o, c', hpre, hch, ?_, ?_⟩, rfl, rfl, rfl⟩)) r1, r2⟩
      · rw [String.toList_append, hpre']; rfl
      · show ("goto " ++ pre ++ toString (o + 1)).toList = _
        rw [String.toList_append, String.toList_append]; rfl
    · rename_i hj
      rw [el, join_mem_labels] at hj
      obtain ⟨⟨rows1, tmp⟩, e5, e⟩ := except_bind_eq_ok e
      have hcond' : (if some f = defaultFlow g ty then "else" else (if ty ≠ "parallelGateway" then flow.2.2.name.getD "" else "")) = branchCondition g f flow := by
        rw [hcond]
        unfold branchCondition defaultFlow
        rw [hty]
        by_cases hq : ty = "parallelGateway"
        · simp [hq]
        · cases hd : g.2.default with
          | none => simp [hq, hd]
          | some y =>
            cases y with
            | none => simp [hq, hd]
            | some y =>
              by_cases hy : f = y
              · simp [hq, hd, hy]
              · simp [hq, hd, hy, Ne.symm hy]
      rw [hcond'] at e5
      obtain ⟨r1, r2⟩ := hrec c _ _ (.tail hg hnc) (.branch g f flow hg hb (by omega)) hbp _ _ _ _ _ e5
      cases tmp with
      | none =>
        obtain ⟨r3, r4⟩ := splitLoop_says h hs hrec hg h2 hty hpre fs (k + 1) _ _ _ _ hfs' hn e
        exact ⟨r1.trans r3, r4⟩
      | some m =>
        obtain ⟨r3, r4⟩ := splitLoop_says h hs hrec hg h2 hty hpre fs (k + 1) _ _ _ _ hfs' r2 e
        exact ⟨r1.trans r3, r4⟩

theorem exportNode_says (h : Consistent d) {s : Node} (hs : s ∈ d.getNodes) : ∀ fuel, RecSays d (exportNode d (table d) fuel) s
  | 0 => by intro _ _ _ _ _ _ _ _ _ _ _ e; simp [exportNode] at e
  | fuel + 1 => by
    have ih := exportNode_says h hs fuel
    intro n c p hr hc hp o j rows rows' nx e
    have hn := Reaches.mem hs hr
    obtain ⟨out, hout⟩ := Option.isSome_iff_exists.1 (h.lists n hn).2.1
    have houts : outs n = out := by simp [outs, hout]
    simp only [exportNode, found, except_bind_ok] at e
    obtain ⟨ty, e2, e⟩ := except_bind_eq_ok e
    have hty := need_some_of_ok e2
    split at e
    · rename_i hc'
      subst hc'
      unfold exportStart at e
      obtain ⟨name, e3, e⟩ := except_bind_eq_ok e
      have hname := need_some_of_ok e3
      simp only [hout, need_some, except_bind_ok] at e
      obtain ⟨i, e5, e⟩ := except_bind_eq_ok e
      have hi : i ∈ outs n := by
        rw [houts]
        unfold pyIndex at e5
        split at e5
        · rename_i y hy
          simp only [Except.ok.injEq] at e5
          subst e5
          exact List.mem_of_getElem? hy
        · simp at e5
      obtain ⟨⟨fl, t⟩, e4, e⟩ := except_bind_eq_ok e
      obtain ⟨m, rfl, hm, hnm, hin, hft⟩ := flowTarget_next h hn hi e4
      obtain ⟨r1, r2⟩ := ih m _ _ (.tail hr hnm) (.after n hr hnm (.inr (.inl hty))) hp _ _ _ _ _ e
      refine ⟨Explained.trans (.one (.inl ⟨⟨n, hr, by simp [HasRow, hty], ?_, hc⟩, rfl⟩)) r1, r2⟩
      simp only [content, caption, hty, hname, trigger, List.map_cons, List.map_nil, if_true, Option.getD_some]
      cases hd : n.2.eventDefinitions with
      | none => simp
      | some l =>
        cases l with
        | nil => simp
        | cons a l => simp
    · split at e
      · rename_i hc'
        subst hc'
        unfold exportEnd at e
        obtain ⟨name, e3, e⟩ := except_bind_eq_ok e
        have hname := need_some_of_ok e3
        simp only [except_pure, Except.ok.injEq, Prod.mk.injEq] at e
        obtain ⟨e5, e6⟩ := e
        subst e5 e6
        refine ⟨.one (.inl ⟨⟨n, hr, by simp [HasRow, hty], ?_, hc⟩, rfl⟩), by intro m hm; cases hm⟩
        simp only [content, caption, hty, hname, trigger, List.map_cons, List.map_nil, if_true, Option.getD_some]
        cases hd : n.2.eventDefinitions with
        | none => simp
        | some l =>
          cases l with
          | nil => simp
          | cons a l => simp
      · rename_i hc1 hc2
        unfold exportElement at e
        simp only [hty, need_some, except_bind_ok] at e
        obtain ⟨labels, e4, e⟩ := except_bind_eq_ok e
        have el := table_labels h hn (need_some_of_ok e4)
        subst el
        split at e
        · rename_i hj
          have hj := (join_mem_labels n).1 hj.1
          obtain ⟨nx', e5, e⟩ := except_bind_eq_ok e
          simp only [except_pure, Except.ok.injEq, Prod.mk.injEq] at e
          obtain ⟨rfl, rfl⟩ := e
          refine ⟨.refl _, ?_⟩
          unfold retract at e5
          split at e5
          · simp only [Except.ok.injEq] at e5
            subst e5
            intro m hm
            cases hm
            exact ⟨hr, .join hj⟩
          · simp only [hout, found, except_bind_ok] at e5
            obtain ⟨i, e6, e5⟩ := except_bind_eq_ok e5
            have hi : i ∈ outs n := by
              rw [houts]
              unfold pyIndex at e6
              split at e6
              · rename_i y hy
                simp only [Except.ok.injEq] at e6
                subst e6
                exact List.mem_of_getElem? hy
              · simp at e6
            obtain ⟨⟨fl, t⟩, e7, e5⟩ := except_bind_eq_ok e5
            obtain ⟨m, rfl, hm, hnm, hin, hft⟩ := flowTarget_next h hn hi e7
            simp only [except_pure, Except.ok.injEq] at e5
            subst e5
            intro m' hm'
            cases hm'
            exact ⟨.tail hr hnm, .after n hr hnm (.inr (.inr hj))⟩
        · obtain ⟨own, e5, e⟩ := except_bind_eq_ok e
          have hown : Explained d s rows (rows ++ own) := by
            unfold ownRow at e5
            split at e5
            · rename_i hc'
              subst hc'
              obtain ⟨name, e3, e5⟩ := except_bind_eq_ok e5
              have hname := need_some_of_ok e3
              simp only [except_pure, Except.ok.injEq] at e5
              subst e5
              exact .one (.inl ⟨⟨n, hr, by simp [HasRow, hty], by simp [content, caption, hty, hname], hc⟩, rfl⟩)
            · split at e5
              · rename_i hc'
                subst hc'
                obtain ⟨name, e3, e5⟩ := except_bind_eq_ok e5
                have hname := need_some_of_ok e3
                simp only [except_pure, Except.ok.injEq] at e5
                subst e5
                exact .one (.inl ⟨⟨n, hr, by simp [HasRow, hty], by simp [content, caption, hty, hname], hc⟩, rfl⟩)
              · simp only [Except.ok.injEq] at e5
                subst e5
                exact ⟨[], by simp, by simp⟩
          unfold exportNext at e
          simp only [hout, found, except_bind_ok] at e
          split at e
          · rename_i hsp
            obtain ⟨⟨rows2, next⟩, e6, e⟩ := except_bind_eq_ok e
            rw [split_mem_labels] at hsp
            obtain ⟨r1, r2⟩ := splitLoop_says h hs ih hr hsp hty hp out 0 _ _ _ _ (by intro l; rw [houts]; simp)
              (by intro m hm; cases hm) e6
            cases next with
            | none =>
              simp only [except_pure, Except.ok.injEq, Prod.mk.injEq] at e
              obtain ⟨rfl, rfl⟩ := e
              exact ⟨hown.trans r1, r2⟩
            | some m =>
              obtain ⟨q1, q2⟩ := r2 m rfl
              obtain ⟨r3, r4⟩ := ih m _ _ q1 q2 hp _ _ _ _ _ e
              exact ⟨(hown.trans r1).trans r3, r4⟩
          · rename_i hsp
            split at e
            · rename_i hlen
              obtain ⟨i, hi⟩ := List.length_eq_one_iff.1 hlen
              subst hi
              simp only [pyIndex, List.getElem?_cons_zero, except_bind_ok] at e
              obtain ⟨⟨fl, t⟩, e6, e⟩ := except_bind_eq_ok e
              obtain ⟨m, rfl, hm, hnm, hin, hft⟩ := flowTarget_next h hn (by simp [houts]) e6
              obtain ⟨r1, r2⟩ := ih m _ _ (.tail hr hnm) (.after n hr hnm (.inl (by rw [houts]; rfl))) hp _ _ _ _ _ e
              exact ⟨hown.trans r1, r2⟩
            · simp only [except_pure, Except.ok.injEq, Prod.mk.injEq] at e
              obtain ⟨rfl, rfl⟩ := e
              exact ⟨hown, by intro m hm; cases hm⟩

end Bpmn.Csv

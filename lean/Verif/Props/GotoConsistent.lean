import Verif.Lemmas.CsvGotoExact
import Verif.Props.GotoAccept
import Mathlib.Data.List.Perm.Subperm
/-!
# When the diagram imported from a table with `goto` rows is consistent (C111)
-/
set_option linter.unusedSimpArgs false
set_option linter.unusedVariables false

namespace Bpmn.Props
open Bpmn Spec Csv Spec.Csv

theorem gotoOf {rows : List Row} {o : String} {l : Line} (h : (o, l) ∈ dictOf rows) (hg : isGoto l.activity = true) :
    ∃ r ∈ rows, GotoRow r ∧ o = r.order ∧ l.activity = r.activity := by
  obtain ⟨r, hr, rfl, rfl⟩ := mem_dictOf_iff h
  exact ⟨r, hr, (isGoto_iff r).1 hg, rfl, rfl⟩

theorem step_eq {p q o : List Char} {m n : Nat} (hp : BranchPrefix p) (hq : BranchPrefix q) (h : o = p ++ decimal m) (k : o = q ++ decimal n) : p = q ∧ m = n := by
  have := stepOf_unique (o := o) ⟨hp, Or.inr ⟨m, h⟩⟩ ⟨hq, Or.inr ⟨n, k⟩⟩
  subst this
  rw [h] at k
  exact ⟨rfl, decimal_inj (List.append_cancel_left k)⟩

theorem opensSplit_unique {rows : List Row} {w o o' : List Char} (h : OpensSplit rows w o) (k : OpensSplit rows w o') : o = o' := by
  obtain ⟨p, n, h1, h2, rfl, -⟩ := h
  obtain ⟨q, m, k1, k2, rfl, -⟩ := k
  obtain ⟨rfl, rfl⟩ := step_eq h1 k1 h2 k2
  rfl

theorem opensSplit_last {rows : List Row} {w o b : List Char} (h : OpensSplit rows w o) (k : NextNumber w b) (hb : HasOrder rows b) : False := by
  obtain ⟨p, n, h1, h2, rfl, h3, -⟩ := h
  obtain ⟨q, m, k1, k2, rfl⟩ := k
  obtain ⟨rfl, rfl⟩ := step_eq h1 k1 h2 k2
  exact h3 hb

theorem comesAfter_next {rows : List Row} {w g : List Char} (h : NextNumber w g) : ComesAfter rows w g := by
  obtain ⟨p, n, h1, h2, h3⟩ := h
  exact ComesAfter.next h1 h2 h3

theorem comesAfter_branch {rows : List Row} {w o g : List Char} (h : OpensSplit rows w o) (hb : BranchStart o g) : ComesAfter rows w g := by
  obtain ⟨p, n, h1, h2, rfl, h3, h4⟩ := h
  exact ComesAfter.branch h1 h2 h3 h4 hb

section
variable {rows : List Row} (T : GotoTable rows)
include T

/-- What leads to a row. -/
theorem _root_.Bpmn.Spec.Csv.GotoTable.into {d0 d1 : Diagram} {F : List (String × String)} (s : Filled rows d0 F d1) {b : Row} (hb : b ∈ rows) {x : String}
    (h : (x, b.order) ∈ F) :
    (∃ w ∈ rows, w.terminated ≠ "yes" ∧ x = w.order ∧ NextNumber w.order.toList b.order.toList) ∨
    (∃ w ∈ rows, w.terminated ≠ "yes" ∧ x = w.order ++ "_split" ∧ ∃ o, OpensSplit rows w.order.toList o ∧ BranchStart o b.order.toList) ∨
    (x = b.order ++ "_join" ∧ ∃ k, b.order.toList = decimal k) := by
  have hu := tableUnder T.table
  have ub := hu _ (List.mem_map_of_mem hb)
  obtain ⟨w, hw, dr', g', l', hP, hl⟩ := s.rounds.origin _ h
  obtain ⟨w, hwr, rfl⟩ := List.mem_map.1 hw
  have hk := get?_dictOf T.table hwr
  cases hP with
  | stop => simp at hl
  | sequence h1 h2 _ h4 =>
    simp at hl
    rw [hk] at h1; cases h1
    refine Or.inl ⟨w, hwr, h2, hl.1, ?_⟩
    have hss := (onlyPresent_mem h4).1
    rw [← hl.2] at hss
    unfold sequenceSuccessors at hss
    cases htw : trailingNumber w.order with
    | none => rw [htw] at hss; simp at hss
    | some a =>
      obtain ⟨pre, m⟩ := a
      rw [htw, List.mem_singleton] at hss
      obtain ⟨e1, e2⟩ := step_trailing T.table T.steps hwr htw
      refine ⟨_, _, e2, e1, ?_⟩
      rw [hss, String.toList_append]; rfl
  | split h1 h2 h3 h4 _ h6 =>
    simp at hl
    rw [hk] at h1; cases h1
    rcases hl with ⟨_, e⟩ | ⟨hm, e⟩
    · exact absurd (e ▸ underscore_split _) ub
    · refine Or.inr (Or.inl ⟨w, hwr, h2, e.symm, ?_⟩)
      unfold splitSuccessors at h6
      cases htw : trailingNumber w.order with
      | none => rw [htw] at h6; cases h6
      | some a =>
        obtain ⟨pre, m⟩ := a
        rw [htw] at h6; cases h6
        obtain ⟨e1, e2⟩ := step_trailing T.table T.steps hwr htw
        have st := anyPresent_next (rows := rows) e2 m
        rw [← order_eq e1] at st
        have hm := (List.mem_filter.1 hm).2
        rw [← String.ofList_toList (s := pre), append_toString] at hm
        refine ⟨_, ⟨_, _, e2, e1, rfl, ?_, st.2.1 h4⟩, (matchesSplit_start T.table hb).1 hm⟩
        intro hh
        rw [st.1.2 hh] at h3; cases h3
  | join =>
    simp at hl
    exact absurd (hl.2 ▸ underscore_join _) ub
  | newJoin h1 h2 h3 h4 h5 h6 =>
    simp only [List.mem_cons, List.not_mem_nil, or_false, Prod.mk.injEq] at hl
    rcases hl with ⟨e0, e⟩ | ⟨_, e⟩
    · obtain ⟨p, hp⟩ := T.steps w hwr
      obtain ⟨j, j1, j2, j3, j4⟩ := merge_numbers hp (by rw [String.ofList_toList]; exact h5) h6
      rw [← e] at j2 e0
      exact Or.inr (Or.inr ⟨e0, j + 1, by rw [j2, String.toList_ofList]⟩)
    · exact absurd (e ▸ underscore_join _) ub

/-- From a row only one flow goes out. -/
theorem _root_.Bpmn.Spec.Csv.GotoTable.one_out {d0 d1 : Diagram} {F : List (String × String)} (s : Filled rows d0 F d1) {w : Row} (hw : w ∈ rows) {x y : String}
    (hx : (w.order, x) ∈ F) (hy : (w.order, y) ∈ F) : x = y := by
  have hl := s.row_out T.table hw
  rw [s.out] at hl
  have m1 : flowId w.order x ∈ leaving w.order F := mem_leaving.2 ⟨_, hx, rfl⟩
  have m2 : flowId w.order y ∈ leaving w.order F := mem_leaving.2 ⟨_, hy, rfl⟩
  have pw := plain_of_no_underscore (tableUnder T.table _ (List.mem_map_of_mem hw))
  generalize leaving w.order F = l at hl m1 m2
  match l, hl, m1, m2 with
  | [], _, m1, _ => simp at m1
  | [a], _, m1, m2 =>
    simp only [List.mem_singleton] at m1 m2
    exact (flowId_inj pw pw (m1.trans m2.symm)).2
  | _ :: _ :: _, hl, _, _ => simp at hl; split at hl <;> omega

/-- Behind the row before it, or behind the split. -/
theorem _root_.Bpmn.Spec.Csv.GotoTable.into_goto {d0 d1 : Diagram} {F : List (String × String)} (s : Filled rows d0 F d1) {g : Row} (hg : g ∈ rows) (hgo : GotoRow g)
    {x : String} (h : (x, g.order) ∈ F) : ∃ w ∈ rows, w.terminated ≠ "yes" ∧
      (x = w.order ∧ NextNumber w.order.toList g.order.toList ∨
        x = w.order ++ "_split" ∧ ∃ o, OpensSplit rows w.order.toList o ∧ BranchStart o g.order.toList) := by
  rcases T.into s hg h with ⟨w, h1, h2, h3⟩ | ⟨w, h1, h2, h3⟩ | ⟨h1, k, h2⟩
  · exact ⟨w, h1, h2, Or.inl h3⟩
  · exact ⟨w, h1, h2, Or.inr h3⟩
  · exact absurd hgo (T.main hg h2)

theorem _root_.Bpmn.Spec.Csv.GotoTable.one_in (S : SplitTable rows) {d0 d1 : Diagram} {F : List (String × String)} (s : Filled rows d0 F d1) {g : Row} (hg : g ∈ rows)
    (hgo : GotoRow g) {x y : String} (hx : (x, g.order) ∈ F) (hy : (y, g.order) ∈ F) : x = y := by
  have af : ∀ {x : String} {w : Row}, (x = w.order ∧ NextNumber w.order.toList g.order.toList ∨
        x = w.order ++ "_split" ∧ ∃ o, OpensSplit rows w.order.toList o ∧ BranchStart o g.order.toList) → ComesAfter rows w.order.toList g.order.toList := by
    rintro x w (⟨-, h⟩ | ⟨-, o, h, h'⟩)
    · exact comesAfter_next h
    · exact comesAfter_branch h h'
  obtain ⟨w, h1, h2, h3⟩ := T.into_goto s hg hgo hx
  obtain ⟨w', k1, k2, k3⟩ := T.into_goto s hg hgo hy
  have := S.once g hg hgo w h1 w' k1 h2 k2 (af h3) (af k3)
  subst this
  rcases h3 with ⟨rfl, h3⟩ | ⟨rfl, o, h3, h4⟩ <;> rcases k3 with ⟨rfl, k3⟩ | ⟨rfl, o', k3, k4⟩
  · rfl
  · exact (opensSplit_last k3 h3 ⟨g, hg, rfl⟩).elim
  · exact (opensSplit_last h3 k3 ⟨g, hg, rfl⟩).elim
  · rfl

theorem _root_.Bpmn.Spec.Csv.GotoTable.turning (S : SplitTable rows) (N : NoTurn rows) {d0 d1 : Diagram} {F : List (String × String)} (s : Filled rows d0 F d1) :
    Turning (dictOf rows) (legacyAdjustment d1) := by
  have hu := tableUnder T.table
  obtain ⟨x1, p1⟩ := s.exact T.table
  have inF : ∀ {r : Row}, r ∈ rows → ∀ {x : String}, Csv.Plain x → flowId x r.order ∈ inOf (legacyAdjustment d1) r.order → (x, r.order) ∈ F := by
    intro r hr x px h
    rw [legacy_inn] at h
    exact p1 _ _ px (x1.backIn _ _ px h)
  have outF : ∀ {r : Row}, r ∈ rows → ∀ {y : String}, flowId r.order y ∈ outOf (legacyAdjustment d1) r.order → (r.order, y) ∈ F := by
    intro r hr y h
    rw [legacy_out] at h
    exact p1 _ _ (plain_of_no_underscore (hu _ (List.mem_map_of_mem hr))) (x1.back _ _ h)
  have tgt : ∀ {g : Row}, g ∈ rows → GotoRow g → ∀ {t : String}, pyIndex (words (strip g.activity)) 1 = .ok t →
      ∃ q ∈ rows, ¬GotoRow q ∧ GoesTo g q.order ∧ t = q.order := by
    intro g hg hgo t ht
    obtain ⟨q, h1, h2, h3⟩ := T.target g hg hgo
    rw [second_word h3] at ht
    cases ht
    exact ⟨q, h1, h2, h3, rfl⟩
  have same : ∀ {a b : Row}, a ∈ rows → b ∈ rows → a.order = b.order → a = b := fun ha hb e => List.inj_on_of_nodup_map T.table.orders ha hb e
  have under : ∀ {a : Row}, a ∈ rows → ∀ k, a.order ≠ k ++ "_split" := fun ha k e => hu _ (List.mem_map_of_mem ha) (e ▸ underscore_split _)
  refine ⟨x1.legacy, ?_, ?_, ?_, ?_, ?_, ?_⟩
  · intro o l hm hgl
    obtain ⟨g, hg, hgo, rfl, e⟩ := gotoOf hm hgl
    rw [legacy_inn, legacy_out, s.row_out T.table hg]
    refine ⟨?_, by split <;> omega⟩
    have nd := x1.inNd g.order
    have hall : ∀ f ∈ inOf d1 g.order, ∃ x, Csv.Plain x ∧ f = flowId x g.order ∧ (x, g.order) ∈ F := by
      intro f hf
      obtain ⟨x, px, rfl⟩ := x1.inv.inI _ _ hf
      exact ⟨x, px, rfl, p1 _ _ px (x1.backIn _ _ px hf)⟩
    match h : inOf d1 g.order, nd, hall with
    | [], _, _ => simp
    | [_], _, _ => simp
    | a :: b :: _, nd, hall =>
      exfalso
      obtain ⟨x, px, rfl, hx⟩ := hall a (by simp)
      obtain ⟨y, py, rfl, hy⟩ := hall b (by simp)
      rw [T.one_in S s hg hgo hx hy] at nd
      simp at nd
  · intro o l hm hgl t ht
    obtain ⟨g, hg, hgo, rfl, e⟩ := gotoOf hm hgl
    rw [e] at ht
    obtain ⟨q, hq, hqn, -, rfl⟩ := tgt hg hgo ht
    exact ⟨notGoto_row T.table hq hqn, plain_of_no_underscore (hu _ (List.mem_map_of_mem hq))⟩
  · intro o l hm hgl x px hx
    obtain ⟨g, hg, hgo, rfl, e⟩ := gotoOf hm hgl
    exact T.into_not s hg hgo (inF hg px hx)
  · intro o l hm hgl y hy
    obtain ⟨g, hg, hgo, rfl, e⟩ := gotoOf hm hgl
    exact T.onward_not s hg hgo (outF hg hy)
  · intro o l hm hgl t ht x px hx
    obtain ⟨g, hg, hgo, rfl, e⟩ := gotoOf hm hgl
    rw [e] at ht
    obtain ⟨q, hq, hqn, hto, rfl⟩ := tgt hg hgo ht
    have pq := plain_of_no_underscore (hu _ (List.mem_map_of_mem hq))
    obtain ⟨w, hw, hwt, ⟨rfl, hn⟩ | ⟨rfl, o, ho, hb⟩⟩ := T.into_goto s hg hgo (inF hg px hx)
    · constructor
      · intro he
        have := T.one_out s hw (p1 _ _ px he) (inF hg px hx)
        exact hqn (same hq hg this ▸ hgo)
      · intro he
        rcases T.into s hw (p1 _ _ pq he) with ⟨v, hv, hvt, e, hvn⟩ | ⟨v, hv, hvt, e, -⟩ | ⟨e, -⟩
        · have := same hq hv e; subst this
          exact (N.next g hg hgo q hq hto w hw hwt hn hvt).1 hvn
        · exact under hq _ e
        · exact hu _ (List.mem_map_of_mem hq) (e ▸ underscore_join _)
    · obtain ⟨n1, n2, -⟩ := N.branch g hg hgo q hq hto w hw hwt o ho hb
      constructor
      · intro he
        rcases T.into s hq (p1 _ _ px he) with ⟨v, hv, hvt, e, hvn⟩ | ⟨v, hv, hvt, e, o', ho', hb'⟩ | ⟨e, -⟩
        · exact under hv _ e.symm
        · have := same hw hv (split_inj e); subst this
          rw [opensSplit_unique ho ho'] at n2
          exact n2 hb'
        · exact split_ne_join _ _ e
      · intro he
        have sh := s.rounds.shape (fun _ h => h) (tableAlnum T.table) _ (p1 _ _ pq he)
        rcases sh.cases hu with ⟨-, h, -⟩ | ⟨-, h⟩ | ⟨r, -, h, -⟩ | ⟨-, u, -, h, -⟩ | ⟨-, h⟩
        · exact hu _ h (underscore_split _)
        · exact n1 (same hw hq (split_inj h)).symm
        · exact under hq _ h
        · exact split_ne_join _ _ h
        · exact hu _ (List.mem_map_of_mem hq) (h ▸ underscore_join _)
  · intro o l o' l' hm hm' hgl hgl' hne t t' ht ht' x x' px px' hx hx'
    obtain ⟨g, hg, hgo, rfl, e⟩ := gotoOf hm hgl
    obtain ⟨g', hg', hgo', rfl, e'⟩ := gotoOf hm' hgl'
    rw [e] at ht
    rw [e'] at ht'
    obtain ⟨q, hq, hqn, hto, rfl⟩ := tgt hg hgo ht
    obtain ⟨q', hq', hqn', hto', rfl⟩ := tgt hg' hgo' ht'
    have gg : g' ≠ g := fun h => hne (by rw [h])
    obtain ⟨w, hw, hwt, hc⟩ := T.into_goto s hg hgo (inF hg px hx)
    obtain ⟨w', hw', hwt', hc'⟩ := T.into_goto s hg' hgo' (inF hg' px' hx')
    constructor
    · rintro ⟨rfl, e2⟩
      have := same hq hq' e2; subst this
      rcases hc with ⟨rfl, hn⟩ | ⟨rfl, o, ho, hb⟩
      · exact hne (T.one_out s hw (inF hg px hx) (inF hg' px' hx'))
      · rcases hc' with ⟨e3, -⟩ | ⟨e3, o', ho', hb'⟩
        · exact under hw' _ e3.symm
        · have := same hw hw' (split_inj e3); subst this
          rw [← opensSplit_unique ho ho'] at hb'
          exact (N.branch g hg hgo q hq hto w hw hwt o ho hb).2.2 g' hg' gg hgo' hb' hto'
    · rintro ⟨rfl, rfl⟩
      rcases hc with ⟨e3, hn⟩ | ⟨e3, -⟩
      · rcases hc' with ⟨e4, hn'⟩ | ⟨e4, -⟩
        · have := same hq' hw e3; subst this
          have := same hq hw' e4; subst this
          exact (N.next g hg hgo q hq hto q' hw hwt hn hwt').2 g' hg' gg hgo' hto' hn'
        · exact under hq _ e4
      · exact under hq' _ e3

/-- What the last loop keeps: lists and flows agree, rows have one flow out, splits have two, and a flow is one of the rounds, or leads to the row that a `goto`
names, or past a join. -/
structure _root_.Bpmn.Props.Tidy (rows : List Row) (F : List (String × String)) (d : Diagram) : Prop where
  exact : Exact d
  named : ∀ x ∈ ids d, Named (rows.map Row.order) (rows.map Row.order) x
  one : ∀ r ∈ rows, (outOf d r.order).length ≤ 1
  rows' : ∀ r ∈ rows, ¬GatewayKind d r.order
  splits : ∀ k, k ++ "_split" ∈ ids d → 2 ≤ (outOf d (k ++ "_split")).length
  edges : ∀ a b, Csv.Plain a → EdgeOf d a b → (a, b) ∈ F ∨ (∃ g ∈ rows, GotoRow g ∧ (a, g.order) ∈ F ∧ GoesTo g b ∧ ∃ q ∈ rows, b = q.order) ∨
    (a, b ++ "_join") ∈ F

theorem _root_.Bpmn.Props.Tidy.bypass {d0 d1 : Diagram} {F : List (String × String)} (s : Filled rows d0 F d1) {pd : Dict String Line} {d d' : Diagram}
    (f : Tidy rows F d) {n src tgt : String} (hg : GatewayKind d n) (hi : (inOf d n).length < 2) (ho : (outOf d n).length < 2)
    (b : Bypass pd d n src tgt tgt d') : Tidy rows F d' := by
  have hu := tableUnder T.table
  have sh := s.rounds.shape (fun _ h => h) (tableAlnum T.table)
  have i := f.exact.inv
  have hne := b.src_ne i
  obtain ⟨dm, pd', hs, r, c⟩ := b.step
  have pn := i.plain _ r.node
  have psrc := i.plain _ r.hasSrc
  have ptgt := i.plain _ r.hasTgt
  have nr : ∀ w ∈ rows, w.order ≠ n := by rintro w hw rfl; exact f.rows' w hw hg
  have under : ∀ {a : Row}, a ∈ rows → ∀ k, a.order ≠ k ++ "_join" := fun ha k e => hu _ (List.mem_map_of_mem ha) (e ▸ underscore_join _)
  -- it is a join
  obtain ⟨u, hu', rfl⟩ : ∃ u ∈ rows.map Row.order, n = u ++ "_join" := by
    rcases f.named n r.node with h | ⟨k, -, rfl⟩ | h
    · obtain ⟨w, hw, e⟩ := List.mem_map.1 h
      exact absurd e (nr w hw)
    · have := f.splits k r.node; omega
    · exact h
  obtain ⟨ur, hur, rfl⟩ := List.mem_map.1 hu'
  have hout := r.outHead.resolve_right hne.1
  have e1 := f.exact.backIn _ _ psrc (List.mem_of_head? r.inHead)
  have e2 := f.exact.back _ _ (List.mem_of_head? hout)
  have k1 : (src, ur.order ++ "_join") ∈ F := by
    rcases f.edges _ _ psrc e1 with h | ⟨g, -, -, -, -, q, hq, e⟩ | h
    · exact h
    · exact absurd e.symm (under hq _)
    · exfalso
      rcases (sh _ h).cases hu with ⟨-, h, -⟩ | ⟨-, h⟩ | ⟨r, -, -, h, -⟩ | ⟨-, v, hv, h, -⟩ | ⟨h, -⟩
      · exact hu _ h (underscore_join _)
      · exact split_ne_join _ _ h.symm
      · exact hu _ h (underscore_join _)
      · exact hu _ hv (join_inj h ▸ underscore_join _)
      · exact hu _ h (underscore_join _)
  obtain ⟨y, hy, rfl, hyt, p, m, hp, hlast, hnum, hm1, eu, -⟩ := T.join_from s k1
  have hpne := numberIn_ne hnum
  have ysteps := lastStep_stepOf hp hlast
  have notmain : ∀ k, y.order.toList ≠ decimal k := fun k e => hpne (stepOf_unique (e ▸ ysteps) (main_stepOf k))
  have toU : ∀ {b : String}, (ur.order ++ "_join", b) ∈ F → b = ur.order := by
    intro b h
    rcases (sh _ h).cases hu with ⟨h, -⟩ | ⟨h, -⟩ | ⟨r, -, h, -⟩ | ⟨h, -⟩ | ⟨-, h⟩
    · exact absurd (underscore_join _) (hu _ h)
    · exact absurd (underscore_join _) (hu _ h)
    · exact absurd h.symm (split_ne_join _ _)
    · exact absurd (underscore_join _) (hu _ h)
    · exact (join_inj h).symm
  have k2 : tgt = ur.order := by
    rcases f.edges _ _ pn e2 with h | ⟨g, hgm, hgo, h, -⟩ | h
    · exact toU h
    · have := toU h
      have := List.inj_on_of_nodup_map T.table.orders hgm hur this
      subst this
      exact absurd hgo (T.main hgm eu)
    · exact absurd (toU h).symm (under hur _)
  subst k2
  have x1 := f.exact.removed r hi ho hne.1
  have hno : dm.graph.hasEdge y.order ur.order = false := by
    refine x1.inv.noEdge (fun he => ?_) (fun he => ?_)
    · have he := ((r.edgeOf i psrc).1 he).1
      have w := (i.edge psrc he).1.out
      have w' := (i.edge psrc e1).1.out
      have hone := f.one y hy
      match hl : outOf d y.order, hone with
      | [], _ => rw [hl] at w; simp at w
      | [z], _ =>
        rw [hl, List.mem_singleton] at w w'
        exact under hur _ (flowId_inj psrc psrc (w.trans w'.symm)).2
      | _ :: _ :: _, hone => simp at hone
    · have he := ((r.edgeOf i ptgt).1 he).1
      have onward : ∀ {c : Row}, c ∈ rows → (ur.order, c.order) ∈ F → ∃ k, c.order.toList = decimal k := by
        intro c hc h
        rcases T.into s hc h with ⟨w, hw, -, e, q, n, hq, e3, e4⟩ | ⟨w, hw, -, e, -⟩ | ⟨e, -⟩
        · rw [← e, eu] at e3
          have := (step_eq (p := []) BranchPrefix.nil hq rfl e3).1
          subst this
          exact ⟨_, e4⟩
        · exact absurd (e ▸ underscore_split _) (hu _ hu')
        · exact absurd (e ▸ underscore_join _) (hu _ hu')
      rcases f.edges _ _ ptgt he with h | ⟨g, hg, hgo, h, -⟩ | h
      · obtain ⟨k, e⟩ := onward hy h
        exact notmain k e
      · obtain ⟨k, e⟩ := onward hg h
        exact T.main hg e hgo
      · obtain ⟨z, hz, e, -, p', m', hp', hl', hn', -⟩ := T.join_from s h
        have := List.inj_on_of_nodup_map T.table.orders hur hz e
        subst this
        have st := lastStep_stepOf hp' hl'
        rw [eu] at st
        exact numberIn_ne hn' (stepOf_unique st (main_stepOf _))
  have nx : ∀ {x : String}, x ∈ ids d' → x ≠ ur.order ++ "_join" := by
    rintro x hx rfl
    rw [b.ids] at hx
    exact (List.Nodup.not_mem_erase i.nodup) hx
  refine ⟨x1.connected c hno, ?_, ?_, ?_, ?_, ?_⟩
  · intro x hx
    rw [b.ids] at hx
    exact f.named x (List.mem_of_mem_erase hx)
  · intro w hw
    rw [b.outLength (nr w hw)]; exact f.one w hw
  · intro w hw
    rw [GatewayKind.congr (b.bare (nr w hw))]; exact f.rows' w hw
  · intro k hk
    have := nx hk
    rw [b.outLength this]
    rw [b.ids] at hk
    exact f.splits k (List.mem_of_mem_erase hk)
  · intro a b pa hab
    rcases (c.edgeOf hno x1.inv pa).1 hab with h | ⟨rfl, rfl⟩
    · exact f.edges _ _ pa ((r.edgeOf i pa).1 h).1
    · exact Or.inr (Or.inr k1)

theorem _root_.Bpmn.Props.Tidy.cleaned {d0 d1 : Diagram} {F : List (String × String)} (s : Filled rows d0 F d1) {pd : Dict String Line} {todo : List String} {d d' : Diagram}
    (h : Cleaned pd todo d d') : Tidy rows F d → Tidy rows F d' := by
  induction h with
  | nil => exact id
  | keep _ _ ih => exact ih
  | cut hg hi ho b _ ih => exact fun f => ih (Tidy.bypass T s f hg hi ho b)

theorem _root_.Bpmn.Spec.Csv.GotoTable.tidy (S : SplitTable rows) (N : NoTurn rows) {d0 d1 d2 d : Diagram} {F : List (String × String)} (s : Stages rows d0 F d1 d2 d) :
    Tidy rows F d := by
  have hu := tableUnder T.table
  have nd : ((dictOf rows).map (·.1)).Nodup := by
    have := T.table.orders
    rw [← keys_dictOf] at this
    exact this
  have ft := s.filled.fit T.table
  have tn := T.turning S N s.filled
  obtain ⟨x2, p2⟩ := s.gotos.exact tn nd
  obtain ⟨x1, p1⟩ := s.filled.exact T.table
  refine Tidy.cleaned T s.filled s.cleaned ⟨x2, ?_, ?_, ?_, ?_, ?_⟩
  · intro x hx
    have := (s.keep2.sub x hx).1
    rw [legacy_ids] at this
    exact s.named1 x this
  · intro r hr
    by_cases hg : GotoRow r
    · have : outOf d2 r.order = [] := by
        refine List.eq_nil_iff_forall_not_mem.2 fun f hf => ?_
        have := (s.keep2.sub _ (outOf_mem hf)).2 _ (mem_dictOf hr)
        rw [(isGoto_iff r).2 hg] at this; cases this
      rw [this]; simp
    · rw [s.keep2.outLength _ (notGoto_row T.table hr hg)]
      exact ft.one _ (List.mem_map_of_mem hr)
  · intro r hr hgk
    by_cases hg : GotoRow r
    · obtain ⟨ty, hk, -⟩ := gatewayKind_iff.1 hgk
      have hm : r.order ∈ ids d2 := by
        rw [← Dict.get?_isSome_iff]
        cases hh : d2.graph.nodes.get? r.order with
        | some => rfl
        | none => simp [kind, hh] at hk
      have := (s.keep2.sub _ hm).2 _ (mem_dictOf hr)
      rw [(isGoto_iff r).2 hg] at this; cases this
    · rw [GatewayKind.congr (s.keep2.bare _ (notGoto_row T.table hr hg))] at hgk
      exact ft.rows _ (List.mem_map_of_mem hr) hgk
  · intro k hk
    have h1 := (s.keep2.sub _ hk).1
    rw [legacy_ids] at h1
    rw [s.keep2.outLength _ (notGoto_gateway T.table.under (underscore_split _)), legacy_out, s.out1]
    obtain ⟨r, hr, rfl, -, -, o, b, hb1, hb2, hall⟩ := T.split_from s.filled h1
    obtain ⟨c, hc1, hc2, hc3⟩ := S.full b hb1 o hb2
    have m1 : flowId (r.order ++ "_split") b.order ∈ leaving (r.order ++ "_split") F := mem_leaving.2 ⟨_, hall b hb1 hb2, rfl⟩
    have m2 : flowId (r.order ++ "_split") c.order ∈ leaving (r.order ++ "_split") F := mem_leaving.2 ⟨_, hall c hc1 hc3, rfl⟩
    have pk := plain_split (hu _ (List.mem_map_of_mem (f := Row.order) hr))
    generalize leaving (r.order ++ "_split") F = l at m1 m2
    match l, m1, m2 with
    | [a], m1, m2 =>
      simp only [List.mem_singleton] at m1 m2
      have := (flowId_inj pk pk (m1.trans m2.symm)).2
      exact absurd (List.inj_on_of_nodup_map T.table.orders hb1 hc1 this).symm hc2
    | _ :: _ :: _, _, _ => simp
  · intro a b pa hab
    rcases p2 a b pa hab with h | ⟨o, l, hm, hgl, hw, hin⟩
    · exact Or.inl (p1 a b pa h)
    · obtain ⟨g, hg, hgo, rfl, e⟩ := gotoOf hm hgl
      obtain ⟨q, hq, -, hto⟩ := T.target g hg hgo
      rw [e, second_word hto] at hw
      cases hw
      rw [legacy_inn] at hin
      exact Or.inr (Or.inl ⟨g, hg, hgo, p1 _ _ pa (x1.backIn _ _ pa hin), hto, q, hq, rfl⟩)

omit T in
theorem _root_.Bpmn.Props.pairwise_apart {α : Type} {R : α → α → Prop} {l : List α} (h : l.Pairwise R) (hs : ∀ a b, R a b → R b a) {a b : α} (ha : a ∈ l) (hb : b ∈ l)
    (hne : a ≠ b) : R a b := by
  induction h with
  | nil => simp at ha
  | cons h _ ih =>
    rcases List.mem_cons.1 ha with rfl | ha' <;> rcases List.mem_cons.1 hb with rfl | hb'
    · exact absurd rfl hne
    · exact h _ hb'
    · exact hs _ _ (h _ ha')
    · exact ih ha' hb'

omit T in
/-- In a consistent diagram no two nodes have a flow in each direction: networkx holds one edge for the pair. -/
theorem _root_.Bpmn.Props.no_both_ways {d : Diagram} (c : ∀ n ∈ d.getNodes, ∀ i ∈ outs n, ∃ f, d.getFlowById i = .ok (some f)) (i : Csv.Inv d) {x y : String} (hne : x ≠ y) (h1 : flowId x y ∈ outOf d x) (h2 : flowId y x ∈ outOf d y) : False := by
  have ed : ∀ {x y : String}, flowId x y ∈ outOf d x → EdgeOf d x y := by
    intro x y h
    obtain ⟨n, hn, rfl, e2, -⟩ := node_of_id i (outOf_mem h)
    rw [← e2] at h
    obtain ⟨f, h3⟩ := c n hn _ h
    obtain ⟨e', he, -, h5, -⟩ := getFlowById_some i.sane h3
    exact ⟨e', he, h5⟩
  have px := i.plain _ (outOf_mem h1)
  have py := i.plain _ (outOf_mem h2)
  obtain ⟨-, e, he, k1, -, -, p1⟩ := i.edge px (ed h1)
  obtain ⟨-, e', he', k2, -, -, p2⟩ := i.edge py (ed h2)
  have : e = e' := by
    by_contra hee
    refine pairwise_apart i.sane.onePerPair (fun a b h k => h ?_) he he' hee ?_
    · unfold SamePair at *
      rcases k with ⟨a1, a2⟩ | ⟨a1, a2⟩ <;> simp [a1, a2]
    · unfold SamePair at *
      rcases p1 with ⟨a1, a2⟩ | ⟨a1, a2⟩ <;> rcases p2 with ⟨b1, b2⟩ | ⟨b1, b2⟩ <;> simp [a1, a2, b1, b2]
  subst this
  rw [k1] at k2
  exact hne (flowId_inj px py (Option.some.inj k2)).1

open Classical in
/-- How often the node before a `goto` lists the flow to the row that the `goto` names. -/
theorem _root_.Bpmn.Spec.Csv.GotoTable.count (S : SplitTable rows) {d0 d1 d2 d : Diagram} {F : List (String × String)} (s : Stages rows d0 F d1 d2 d)
    {x : String} {q : Row} (hq : q ∈ rows) (hqn : ¬GotoRow q) (hx : x ∈ ids d) (gs : List Row) (nd : gs.Nodup)
    (hgs : ∀ g ∈ gs, g ∈ rows ∧ GotoRow g ∧ GoesTo g q.order ∧ (x, g.order) ∈ F) :
    (leaving x F).count (flowId x q.order) + gs.length ≤ (outOf d x).count (flowId x q.order) := by
  have nk : ((dictOf rows).map (·.1)).Nodup := by
    have := T.table.orders
    rw [← keys_dictOf] at this
    exact this
  have k2 := s.keep2.sub _ (s.keep.sub _ hx)
  have px := s.keep.inv.plain _ hx
  have h1 := s.gotos.count px k2.2 (notGoto_row T.table hq hqn) nk s.inv1.legacy
  have h2 := s.cleaned.count s.keep2.inv hx (s.stays T.table hq hqn).1
  rw [legacy_out, s.out1] at h1
  have h3 : gs.length ≤ (dictOf rows).countP (fun p => decide (LeadsBy (legacyAdjustment d1) x q.order p)) := by
    have hs : (dictOf gs) ⊆ dictOf rows := by
      intro p hp
      obtain ⟨g, hg, rfl⟩ := List.mem_map.1 hp
      exact mem_dictOf (hgs g hg).1
    have hn : (dictOf gs).Nodup := by
      refine List.Nodup.of_map (·.1) ?_
      show (dictOf gs).keys.Nodup
      rw [keys_dictOf]
      exact List.Nodup.map_on (fun a ha b hb e => List.inj_on_of_nodup_map T.table.orders (hgs a ha).1 (hgs b hb).1 e) nd
    have := (List.subperm_of_subset hn hs).countP_le (fun p => decide (LeadsBy (legacyAdjustment d1) x q.order p))
    refine Nat.le_trans (Nat.le_of_eq ?_) this
    have hall : (dictOf gs).countP (fun p => decide (LeadsBy (legacyAdjustment d1) x q.order p)) = (dictOf gs).length := by
      rw [List.countP_eq_length]
      intro p hp
      obtain ⟨g, hg, rfl⟩ := List.mem_map.1 hp
      obtain ⟨a1, a2, a3, a4⟩ := hgs g hg
      simp only [decide_eq_true_eq]
      refine ⟨(isGoto_iff g).2 a2, second_word a3, ?_⟩
      simp only
      rw [legacy_inn, s.inn1]
      have hm : flowId x g.order ∈ entering g.order F := mem_entering.2 ⟨x, a4, rfl⟩
      cases e : entering g.order F with
      | nil => rw [e] at hm; simp at hm
      | cons f r =>
        obtain ⟨z, b1, b2⟩ := mem_entering.1 (show f ∈ entering g.order F by rw [e]; exact List.mem_cons_self)
        rw [b2, T.one_in S s.filled a1 a2 b1 a4]; rfl
    rw [hall]
    simp [dictOf]
  omega

/-- What follows if all flows that are listed are there, and what if also no list has an entry twice. -/
theorem _root_.Bpmn.Spec.Csv.GotoTable.turns (S : SplitTable rows) {d : Diagram} (h : loadCsv rows {} = .ok d)
    (c : ∀ n ∈ d.getNodes, ∀ i ∈ outs n, ∃ f, d.getFlowById i = .ok (some f)) :
    NoWayBack rows ∧ ((∀ n ∈ d.getNodes, (outs n).Nodup) → NoTurn rows) := by
  obtain ⟨d0, F, d1, d2, s⟩ := stages T.table h
  have hu := tableUnder T.table
  have i := s.keep.inv
  have sf := s.filled
  have next_not : ∀ {w g : Row}, w ∈ rows → g ∈ rows → NextNumber w.order.toList g.order.toList → ¬GotoRow w := by
    rintro w g hw hg ⟨p, n, hp, e1, e2⟩ hgo
    have st := (anyPresent_next (rows := rows) hp n).1
    rw [← order_eq e1, (T.stops hw hgo).1] at st
    have := st.2 ⟨g, hg, e2⟩
    cases this
  have open_not : ∀ {w : Row} {o : List Char}, w ∈ rows → OpensSplit rows w.order.toList o → ¬GotoRow w := by
    rintro w o hw ⟨p, n, hp, e1, rfl, -, e2⟩ hgo
    have st := (anyPresent_next (rows := rows) hp n).2
    rw [← order_eq e1, (T.stops hw hgo).2] at st
    have := st.2 e2
    cases this
  have nextF : ∀ {w g : Row}, w ∈ rows → g ∈ rows → w.terminated ≠ "yes" → NextNumber w.order.toList g.order.toList → (w.order, g.order) ∈ F := by
    rintro w g hw hg ht ⟨p, n, hp, e1, e2⟩
    obtain ⟨dr, gg, l, hP, hF⟩ := Filled.plan_of sf hw
    have := hP.of_sequence T.table hw hp.ends e1 ht ⟨g, hg, e2⟩
    subst this
    rw [← order_eq e2] at hF
    exact hF _ List.mem_cons_self
  have openF : ∀ {w : Row} {o : List Char}, w ∈ rows → w.terminated ≠ "yes" → OpensSplit rows w.order.toList o → (w.order, w.order ++ "_split") ∈ F ∧
      ∀ b ∈ rows, BranchStart o b.order.toList → (w.order ++ "_split", b.order) ∈ F := by
    rintro w o hw ht ⟨p, n, hp, e1, rfl, e2, e3⟩
    obtain ⟨dr, gg, l, hP, hF⟩ := Filled.plan_of sf hw
    obtain ⟨ty, rfl, hty, rfl⟩ := hP.of_split T.table hw hp.ends e1 ht e2 e3
    exact ⟨hF _ List.mem_cons_self, fun b hb hbs =>
      hF _ (List.mem_cons_of_mem _ (List.mem_map.2 ⟨b, List.mem_filter.2 ⟨hb, (matchesSplit_start T.table hb).2 hbs⟩, rfl⟩))⟩
  have target : ∀ {g q : Row}, g ∈ rows → GotoRow g → q ∈ rows → GoesTo g q.order → ¬GotoRow q := by
    intro g q hg hgo hq hto
    obtain ⟨q', h1, h2, h3⟩ := T.target g hg hgo
    have := second_word hto
    rw [second_word h3] at this
    have : q'.order = q.order := by simpa using this
    have := List.inj_on_of_nodup_map T.table.orders h1 hq this
    exact this ▸ h2
  have listed : ∀ {g q : Row} {x : String}, g ∈ rows → GotoRow g → q ∈ rows → GoesTo g q.order → (x, g.order) ∈ F → x ∈ ids d → flowId x q.order ∈ outOf d x := by
    intro g q x hg hgo hq hto hx hxd
    have := T.count S s hq (target hg hgo hq hto) hxd [g] (by simp) (by simpa using ⟨hg, hgo, hto, hx⟩)
    exact List.count_pos_iff.1 (by simp at this; omega)
  have splitIn : ∀ {w : Row} {o : List Char}, w ∈ rows → w.terminated ≠ "yes" → OpensSplit rows w.order.toList o → ∀ b ∈ rows, BranchStart o b.order.toList →
      w.order ++ "_split" ∈ ids d := by
    intro w o hw ht ho b hb hbs
    obtain ⟨f1, f2⟩ := openF hw ht ho
    obtain ⟨c, hc1, hc2, hc3⟩ := S.full b hb o hbs
    refine (s.split_stays T.table (underscore_split _) (s.wired1 _ f1).tgt ?_).1
    have m1 : flowId (w.order ++ "_split") b.order ∈ leaving (w.order ++ "_split") F := mem_leaving.2 ⟨_, f2 b hb hbs, rfl⟩
    have m2 : flowId (w.order ++ "_split") c.order ∈ leaving (w.order ++ "_split") F := mem_leaving.2 ⟨_, f2 c hc1 hc3, rfl⟩
    have pk := plain_split (hu _ (List.mem_map_of_mem (f := Row.order) hw))
    generalize leaving (w.order ++ "_split") F = l at m1 m2
    match l, m1, m2 with
    | [a], m1, m2 =>
      simp only [List.mem_singleton] at m1 m2
      have := (flowId_inj pk pk (m1.trans m2.symm)).2
      exact absurd (List.inj_on_of_nodup_map T.table.orders hb hc1 this).symm hc2
    | _ :: _ :: _, _, _ => simp
  have inD : ∀ {r : Row}, r ∈ rows → ¬GotoRow r → r.order ∈ ids d := fun hr hn => (s.stays T.table hr hn).1
  have keepF : ∀ {x y : String}, (x, y) ∈ F → NotGoto (dictOf rows) x → NotGoto (dictOf rows) y → x ∈ ids d → y ∈ ids d → flowId x y ∈ outOf d x :=
    fun hF hx hy h1 h2 => (s.keep.wired _ _ (s.wired2 hF hx hy) h1 h2).out
  have back : NoWayBack rows := by
    constructor
    · intro g hg hgo q hq hto w hw hwt hn hqt
      have wn := next_not hw hg hn
      have qn := target hg hgo hq hto
      have l1 := listed hg hgo hq hto (nextF hw hg hwt hn) (inD hw wn)
      constructor
      · intro hqw
        have l2 := keepF (nextF hq hw hqt hqw) (notGoto_row T.table hq qn) (notGoto_row T.table hw wn) (inD hq qn) (inD hw wn)
        refine no_both_ways c i ?_ l1 l2
        intro e
        obtain ⟨p, n, hp, e1, e2⟩ := hqw
        rw [e, e1] at e2
        have := decimal_inj (List.append_cancel_left e2)
        omega
      · intro g' hg' hgg hgo' hto' hn'
        have l2 := listed hg' hgo' hw hto' (nextF hq hg' hqt hn') (inD hq qn)
        refine no_both_ways c i ?_ l1 l2
        intro e
        have := List.inj_on_of_nodup_map T.table.orders hw hq e
        subst this
        obtain ⟨p, n, hp, e1, e2⟩ := hn
        obtain ⟨p', n', hp', e1', e2'⟩ := hn'
        obtain ⟨rfl, rfl⟩ := step_eq hp hp' e1 e1'
        exact hgg (List.inj_on_of_nodup_map T.table.orders hg' hg (by rw [order_eq e2, order_eq e2']))
    · intro g hg hgo q hq hto w hw hwt o ho hb
      have wn := open_not hw ho
      have qn := target hg hgo hq hto
      obtain ⟨f1, f2⟩ := openF hw hwt ho
      have hin := splitIn hw hwt ho g hg hb
      rintro rfl
      have l1 := listed hg hgo hq hto (f2 g hg hb) hin
      have l2 := keepF f1 (notGoto_row T.table hq qn) (notGoto_gateway T.table.under (underscore_split _)) (inD hq qn) hin
      exact no_both_ways c i (fun e => hu _ (List.mem_map_of_mem hq) (by rw [← e]; exact underscore_split _)) l1 l2
  refine ⟨back, fun nd => ⟨back.next, ?_⟩⟩
  have nodup : ∀ x f, (outOf d x).count f ≤ 1 := by
    intro x f
    by_cases hx : x ∈ ids d
    · obtain ⟨n, hn, rfl, e2, -⟩ := node_of_id i hx
      rw [← e2]
      exact List.nodup_iff_count_le_one.1 (nd n hn) f
    · have : outOf d x = [] := List.eq_nil_iff_forall_not_mem.2 fun g hg => hx (outOf_mem hg)
      rw [this]; simp
  · intro g hg hgo q hq hto w hw hwt o ho hb
    have wn := open_not hw ho
    have qn := target hg hgo hq hto
    obtain ⟨f1, f2⟩ := openF hw hwt ho
    have hin := splitIn hw hwt ho g hg hb
    refine ⟨?_, ?_, ?_⟩
    · exact back.branch g hg hgo q hq hto w hw hwt o ho hb
    · intro hqb
      have := T.count S s hq qn hin [g] (by simp) (by simpa using ⟨hg, hgo, hto, f2 g hg hb⟩)
      have l1 : 0 < (leaving (w.order ++ "_split") F).count (flowId (w.order ++ "_split") q.order) :=
        List.count_pos_iff.2 (mem_leaving.2 ⟨_, f2 q hq hqb, rfl⟩)
      have := nodup (w.order ++ "_split") (flowId (w.order ++ "_split") q.order)
      simp only [List.length_singleton] at *
      omega
    · intro g' hg' hgg hgo' hb' hto'
      have := T.count S s hq qn hin [g, g'] (by simpa using Ne.symm hgg) (by
        intro a ha
        simp only [List.mem_cons, List.not_mem_nil, or_false] at ha
        rcases ha with rfl | rfl
        · exact ⟨hg, hgo, hto, f2 _ hg hb⟩
        · exact ⟨hg', hgo', hto', f2 _ hg' hb'⟩)
      have := nodup (w.order ++ "_split") (flowId (w.order ++ "_split") q.order)
      simp only [List.length_cons, List.length_nil] at *
      omega

theorem _root_.Bpmn.Spec.Csv.GotoTable.noTurn (S : SplitTable rows) {d : Diagram} (h : loadCsv rows {} = .ok d) (c : Consistent d) : NoTurn rows :=
  (T.turns S h fun n hn i hi => by
    obtain ⟨m, -, ⟨a, b, e, h3, -⟩, -⟩ := c.outFlow n hn i hi
    exact ⟨_, h3⟩).2 fun n hn => (c.lists n hn).2.2.2

/-- **C111.** A table with `goto` rows, each at the end of a branch and naming a row that is not a `goto`, where every split has two branches and every `goto` is reached
from one row: the diagram that the import makes of it is consistent exactly if no `goto` asks for a flow between two nodes that already have one. -/
theorem C111_exactly (S : SplitTable rows) (d : Diagram) (h : loadCsv rows {} = .ok d) : Consistent d ↔ NoTurn rows := by
  refine ⟨T.noTurn S h, fun N => ?_⟩
  obtain ⟨d0, F, d1, d2, s⟩ := stages T.table h
  exact (T.tidy S N s).exact.consistent s.listed (s.kinds T.table)

end

/-! ## The hypotheses hold -/

theorem branchStart_at {o a u : List Char} {c : Char} (h : BranchStart o (a ++ c :: u)) (hc : c ≠ '1') (hu : ∀ x ∈ u, x = '1') : o = a := by
  obtain ⟨c', ones, e, hc', ho⟩ := h
  have c1 : c' ≠ '1' := by rintro rfl; cases hc'
  exact (ones_split hc c1 hu ho e).1.symm

theorem branchStart_letter {o l : List Char} (h : BranchStart o l) : l.any Char.isAlpha = true := by
  obtain ⟨c', ones, rfl, hc', -⟩ := h
  simp [hc']

/-- One `goto` behind a split that names the row before the last one, one behind a step of a branch. -/
theorem goto_starts (r : Row) (hr : r ∈ gotoTable) (o : List Char) (h : BranchStart o r.order.toList) :
    o = decimal 3 ∧ (r.order = "3a" ∨ r.order = "3b1" ∨ r.order = "3c") := by
  simp only [gotoTable, List.mem_cons, List.not_mem_nil, or_false] at hr
  rcases hr with rfl | rfl | rfl | rfl | rfl | rfl | rfl | rfl
  · exact absurd (branchStart_letter h) (by decide)
  · exact absurd (branchStart_letter h) (by decide)
  · exact absurd (branchStart_letter h) (by decide)
  · exact ⟨branchStart_at (a := ['3']) (c := 'a') (u := []) h (by decide) (by simp), by simp⟩
  · exact ⟨branchStart_at (a := ['3']) (c := 'b') (u := ['1']) h (by decide) (by simp), by simp⟩
  · exact absurd h (no_branchStart (a := ['3', 'b']) (x := '2') (by decide) (by decide) o)
  · exact ⟨branchStart_at (a := ['3']) (c := 'c') (u := []) h (by decide) (by simp), by simp⟩
  · exact absurd (branchStart_letter h) (by decide)

theorem goto_two (g : Row) (hg : g ∈ gotoTable) (hgo : GotoRow g) : g = Row.mk "3a" "goto  1 again" "no" "" "" "" ∨ g = Row.mk "3b2" "GoTo 2" "" "" "" "" := by
  simp only [gotoTable, List.mem_cons, List.not_mem_nil, or_false] at hg
  rcases hg with rfl | rfl | rfl | rfl | rfl | rfl | rfl | rfl
  all_goals first | exact Or.inl rfl | exact Or.inr rfl | exact absurd hgo (goto_no (by decide))

theorem goto_prefix : BranchPrefix ['3', 'b'] := by
  have := BranchPrefix.step 3 BranchPrefix.nil (c := 'b') (by decide) (by decide)
  exact this

/-- What comes before the two `goto` rows. -/
theorem goto_next {a g : List Char} (hg : g = ['3', 'a'] ∨ g = ['3', 'b', '2']) (h : NextNumber a g) : g = ['3', 'b', '2'] ∧ a = ['3', 'b', '1'] := by
  obtain ⟨p, n, hp, e1, e2⟩ := h
  rcases hg with rfl | rfl
  · exact (not_letter_end (a := ['3']) (c := 'a') (by decide) e2).elim
  · obtain ⟨rfl, k⟩ := step_eq (m := 2) goto_prefix hp (by decide) e2
    obtain rfl : n = 1 := by omega
    exact ⟨rfl, e1.trans (by decide)⟩

theorem goto_opens {w o : List Char} (h : OpensSplit gotoTable w o) (e : o = decimal 3) : w = ['2'] := by
  obtain ⟨p, n, hp, rfl, e2, -⟩ := h
  rw [e] at e2
  obtain ⟨rfl, k⟩ := step_eq (p := []) (m := 3) BranchPrefix.nil hp rfl e2
  obtain rfl : n = 2 := by omega
  decide

theorem goto_before {w g : Row} (hw : w ∈ gotoTable) (hg : g ∈ gotoTable) (hgo : GotoRow g) (h : ComesAfter gotoTable w.order.toList g.order.toList) :
    w.order.toList = if g.order = "3a" then ['2'] else ['3', 'b', '1'] := by
  cases h with
  | next h1 h2 h3 =>
    have := goto_next (g := g.order.toList) (by rcases goto_two g hg hgo with rfl | rfl <;> decide) ⟨_, _, h1, h2, h3⟩
    rw [this.2, if_neg]
    intro e; rw [e] at this
    exact absurd this.1 (by decide)
  | branch h1 h2 h3 h4 h5 =>
    obtain ⟨k1, k2⟩ := goto_starts g hg _ h5
    rw [goto_opens ⟨_, _, h1, h2, rfl, h3, h4⟩ k1, if_pos]
    rcases goto_two g hg hgo with rfl | rfl
    · rfl
    · revert k2; decide

theorem goto_splitTable : SplitTable gotoTable := by
  constructor
  · intro b hb o h
    obtain ⟨rfl, -⟩ := goto_starts b hb o h
    by_cases e : b = Row.mk "3c" "print" "late" "" "" ""
    · subst e
      exact ⟨Row.mk "3a" "goto  1 again" "no" "" "" "", by decide, by decide, 'a', [], by decide, by decide, by simp⟩
    · exact ⟨Row.mk "3c" "print" "late" "" "" "", by decide, Ne.symm e, 'c', [], by decide, by decide, by simp⟩
  · intro g hg hgo w hw w' hw' _ _ h h'
    have e1 := goto_before hw hg hgo h
    have e2 := goto_before hw' hg hgo h'
    exact List.inj_on_of_nodup_map goto_table.orders hw hw' (String.toList_injective (e1.trans e2.symm))

theorem goto_target {g q : Row} (h : GoesTo g q.order) (hg : g = Row.mk "3a" "goto  1 again" "no" "" "" "" ∨ g = Row.mk "3b2" "GoTo 2" "" "" "" "") :
    q.order = if g.order = "3a" then "1" else "2" := by
  have := second_word h
  rcases hg with rfl | rfl
  · have k : pyIndex (words (strip "goto  1 again")) 1 = .ok "1" := by decide
    simp only [k] at this
    simpa using this.symm
  · have k : pyIndex (words (strip "GoTo 2")) 1 = .ok "2" := by decide
    simp only [k] at this
    simpa using this.symm

theorem goto_noTurn : NoTurn gotoTable := by
  constructor
  · intro g hg hgo q hq hto w hw _ hn _
    have two := goto_two g hg hgo
    have t := goto_target hto two
    obtain ⟨e1, e2⟩ := goto_next (g := g.order.toList) (by rcases two with rfl | rfl <;> decide) hn
    rcases two with rfl | rfl
    · exact absurd e1 (by decide)
    · rw [if_neg (by decide)] at t
      constructor
      · rintro ⟨p, n, hp, k1, k2⟩
        rw [e2] at k2
        obtain ⟨rfl, -⟩ := step_eq (m := 1) goto_prefix hp (by decide) k2
        rw [t] at k1
        have := congrArg List.head? k1
        simp at this
      · intro g' hg' hgg hgo' hto' _
        have two' := goto_two g' hg' hgo'
        have t' := goto_target hto' two'
        have : w.order = "3b1" := String.toList_injective e2
        rw [this] at t'
        split at t' <;> exact absurd t' (by decide)
  · intro g hg hgo q hq hto w hw _ o ho hb
    obtain ⟨rfl, k⟩ := goto_starts g hg o hb
    have t := goto_target hto (goto_two g hg hgo)
    have wo := goto_opens ho rfl
    rcases goto_two g hg hgo with rfl | rfl
    · rw [if_pos rfl] at t
      refine ⟨?_, ?_, ?_⟩
      · rintro rfl
        rw [t] at wo; exact absurd wo (by decide)
      · intro h
        rw [t] at h
        exact absurd (branchStart_letter h) (by decide)
      · intro g' hg' hgg hgo' hb' hto'
        rcases goto_two g' hg' hgo' with rfl | rfl
        · exact hgg rfl
        · exact absurd (goto_starts _ hg' _ hb').2 (by decide)
    · exact absurd k (by decide)

set_option maxRecDepth 8000 in
/-- The draft that is sent back: imported, and consistent. -/
example : GotoTable gotoTable ∧ SplitTable gotoTable ∧ NoTurn gotoTable ∧ ∃ d, loadCsv gotoTable {} = .ok d ∧ Consistent d := by
  obtain ⟨d, hd, -⟩ := ok_of_check (x := loadCsv gotoTable {}) (fun _ => true) (by decide +kernel)
  exact ⟨goto_gotoTable, goto_splitTable, goto_noTurn, d, hd, (C111_exactly goto_gotoTable goto_splitTable d hd).2 goto_noTurn⟩

/-- The check that is repeated: the `goto` of the first branch names the row before the split. -/
def checkTable : List Row :=
  [Row.mk "0" "asked" "" "" "" "", Row.mk "1" "check" "" "clerk" "" "", Row.mk "2a" "goto 1" "no" "" "" "", Row.mk "2b" "accept" "yes" "" "" "",
   Row.mk "3" "done" "" "" "" "yes"]

theorem check_table : Table checkTable := ⟨by decide, by decide⟩

theorem check_one (g : Row) (hg : g ∈ checkTable) (hgo : GotoRow g) : g = Row.mk "2a" "goto 1" "no" "" "" "" := by
  simp only [checkTable, List.mem_cons, List.not_mem_nil, or_false] at hg
  rcases hg with rfl | rfl | rfl | rfl | rfl
  all_goals first | rfl | exact absurd hgo (goto_no (by decide))

theorem check_starts (r : Row) (hr : r ∈ checkTable) (o : List Char) (h : BranchStart o r.order.toList) : o = decimal 2 := by
  simp only [checkTable, List.mem_cons, List.not_mem_nil, or_false] at hr
  rcases hr with rfl | rfl | rfl | rfl | rfl
  · exact absurd (branchStart_letter h) (by decide)
  · exact absurd (branchStart_letter h) (by decide)
  · exact branchStart_at (a := ['2']) (c := 'a') (u := []) h (by decide) (by simp)
  · exact branchStart_at (a := ['2']) (c := 'b') (u := []) h (by decide) (by simp)
  · exact absurd (branchStart_letter h) (by decide)

theorem check_goesTo : GoesTo (Row.mk "2a" "goto 1" "no" "" "" "") "1" := by
  refine ⟨"goto".toList, " ".toList, [], by decide, by decide, ?_, by decide, ?_, by decide, ?_, ?_⟩
  all_goals simp [White]

theorem check_gotoTable : GotoTable checkTable := by
  refine ⟨check_table, ?_, ?_, ?_, ?_, ?_⟩
  · intro r hr
    simp only [checkTable, List.mem_cons, List.not_mem_nil, or_false] at hr
    rcases hr with rfl | rfl | rfl | rfl | rfl
    · exact ⟨[], BranchPrefix.nil, Or.inr ⟨0, by decide⟩⟩
    · exact ⟨[], BranchPrefix.nil, Or.inr ⟨1, by decide⟩⟩
    · exact ⟨_, lost_branch 'a' (by decide) (by decide), Or.inl (by decide)⟩
    · exact ⟨_, lost_branch 'b' (by decide) (by decide), Or.inl (by decide)⟩
    · exact ⟨[], BranchPrefix.nil, Or.inr ⟨3, by decide⟩⟩
  · intro g hg hgo
    rw [check_one g hg hgo]; decide
  · intro g hg hgo
    rw [check_one g hg hgo]
    exact ⟨_, by simp, lost_branch 'a' (by decide) (by decide), Or.inl (by decide)⟩
  · intro g hg hgo
    rw [check_one g hg hgo]
    exact ⟨Row.mk "1" "check" "" "clerk" "" "", by decide, goto_no (by decide), check_goesTo⟩
  · intro g hg hgo o hb
    have := check_starts g hg o hb
    rw [check_one g hg hgo, this]
    exact ⟨Row.mk "2b" "accept" "yes" "" "" "", by decide, by decide, 'b', [], by decide, by decide, by simp⟩

theorem check_opens : OpensSplit checkTable (Row.mk "1" "check" "" "clerk" "" "").order.toList (decimal 2) :=
  ⟨[], 1, BranchPrefix.nil, by decide, by decide, by rw [hasOrder_iff]; decide, Or.inl (by rw [hasOrder_iff]; decide)⟩

theorem check_splitTable : SplitTable checkTable := by
  constructor
  · intro b hb o h
    obtain rfl := check_starts b hb o h
    by_cases e : b = Row.mk "2b" "accept" "yes" "" "" ""
    · subst e
      exact ⟨Row.mk "2a" "goto 1" "no" "" "" "", by decide, by decide, 'a', [], by decide, by decide, by simp⟩
    · exact ⟨Row.mk "2b" "accept" "yes" "" "" "", by decide, Ne.symm e, 'b', [], by decide, by decide, by simp⟩
  · intro g hg hgo w hw w' hw' _ _ h h'
    have key : ∀ w ∈ checkTable, ComesAfter checkTable w.order.toList g.order.toList → w.order.toList = ['1'] := by
      intro w hw h
      cases h with
      | next h1 h2 h3 =>
        rw [check_one g hg hgo] at h3
        exact (not_letter_end (a := ['2']) (c := 'a') (by decide) h3).elim
      | @branch p n h1 h2 h3 h4 h5 =>
        obtain ⟨rfl, k⟩ := step_eq (p := []) (m := 2) BranchPrefix.nil h1 rfl (check_starts g hg _ h5).symm
        rw [h2]
        obtain rfl : n = 1 := by omega
        decide
    exact List.inj_on_of_nodup_map check_table.orders hw hw' (String.toList_injective ((key w hw h).trans (key w' hw' h').symm))

/-- **C111, the loop around a check.** The plainest loop of all is one of the others: the table is imported, and lists and flows do not agree. -/
theorem C111_check : GotoTable checkTable ∧ SplitTable checkTable ∧ ∃ d, loadCsv checkTable {} = .ok d ∧ ¬Consistent d := by
  obtain ⟨d, hd, -⟩ := ok_of_check (x := loadCsv checkTable {}) (fun _ => true) (by decide +kernel)
  refine ⟨check_gotoTable, check_splitTable, d, hd, fun c => ?_⟩
  have N := (C111_exactly check_gotoTable check_splitTable d hd).1 c
  exact (N.branch (Row.mk "2a" "goto 1" "no" "" "" "") (by decide) ⟨'g', 'o', 't', 'o', " 1".toList, rfl, by simp⟩ (Row.mk "1" "check" "" "clerk" "" "") (by decide)
    check_goesTo (Row.mk "1" "check" "" "clerk" "" "") (by decide) (by decide) _ check_opens ⟨'a', [], by decide, by decide, by simp⟩).1 rfl

end Bpmn.Props

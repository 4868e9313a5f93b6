import Verif.Props.GotoConsistent
/-!
# Exactly which nodes and flows a table with `goto` rows gives (C113)
-/
set_option linter.unusedSimpArgs false
set_option linter.unusedVariables false

namespace Bpmn.Props
open Bpmn Spec Csv Spec.Csv

theorem two_of_nodup {α : Type} {l : List α} (h : l.Nodup) (h2 : 2 ≤ l.length) : ∃ a b, a ∈ l ∧ b ∈ l ∧ a ≠ b := by
  match l, h, h2 with
  | a :: b :: r, h, _ =>
    refine ⟨a, b, by simp, by simp, ?_⟩
    rintro rfl
    simp at h

theorem two_le_of_mem {α : Type} {l : List α} {a b : α} (ha : a ∈ l) (hb : b ∈ l) (hne : a ≠ b) : 2 ≤ l.length := by
  match l, ha, hb with
  | [x], ha, hb => simp at ha hb; exact absurd (ha.trans hb.symm) hne
  | _ :: _ :: _, _, _ => simp

theorem one_of_mem {α : Type} {l : List α} {a b : α} (h : l.length ≤ 1) (ha : a ∈ l) (hb : b ∈ l) : a = b := by
  by_contra hne
  have := two_le_of_mem ha hb hne
  omega

section
variable {rows : List Row} (T : GotoTable rows)
include T

theorem _root_.Bpmn.Spec.Csv.GotoTable.goto_target {g q : Row} (hg : g ∈ rows) (hgo : GotoRow g) (hq : q ∈ rows) (hto : GoesTo g q.order) : ¬GotoRow q := by
  obtain ⟨q', h1, h2, h3⟩ := T.target g hg hgo
  have := second_word hto
  rw [second_word h3] at this
  have : q'.order = q.order := by simpa using this
  have := List.inj_on_of_nodup_map T.table.orders h1 hq this
  exact this ▸ h2

theorem _root_.Bpmn.Spec.Csv.GotoTable.next_not {w g : Row} (hw : w ∈ rows) (hg : g ∈ rows) (h : NextNumber w.order.toList g.order.toList) : ¬GotoRow w := by
  obtain ⟨p, n, hp, e1, e2⟩ := h
  intro hgo
  have st := (anyPresent_next (rows := rows) hp n).1
  rw [← order_eq e1, (T.stops hw hgo).1] at st
  have := st.2 ⟨g, hg, e2⟩
  cases this

theorem _root_.Bpmn.Spec.Csv.GotoTable.open_not {w : Row} {o : List Char} (hw : w ∈ rows) (h : OpensSplit rows w.order.toList o) : ¬GotoRow w := by
  obtain ⟨p, n, hp, e1, rfl, -, e2⟩ := h
  intro hgo
  have st := (anyPresent_next (rows := rows) hp n).2
  rw [← order_eq e1, (T.stops hw hgo).2] at st
  have := st.2 e2
  cases this

section
variable {d0 d1 : Diagram} {F : List (String × String)} (sf : Filled rows d0 F d1)
include sf

theorem _root_.Bpmn.Spec.Csv.GotoTable.round_next {w g : Row} (hw : w ∈ rows) (hg : g ∈ rows) (ht : w.terminated ≠ "yes")
    (h : NextNumber w.order.toList g.order.toList) : (w.order, g.order) ∈ F := by
  obtain ⟨p, n, hp, e1, e2⟩ := h
  obtain ⟨dr, gg, l, hP, hF⟩ := Filled.plan_of sf hw
  have := hP.of_sequence T.table hw hp.ends e1 ht ⟨g, hg, e2⟩
  subst this
  rw [← order_eq e2] at hF
  exact hF _ List.mem_cons_self

theorem _root_.Bpmn.Spec.Csv.GotoTable.round_split {w : Row} {o : List Char} (hw : w ∈ rows) (ht : w.terminated ≠ "yes") (h : OpensSplit rows w.order.toList o) :
    (w.order, w.order ++ "_split") ∈ F ∧ ∀ b ∈ rows, BranchStart o b.order.toList → (w.order ++ "_split", b.order) ∈ F := by
  obtain ⟨p, n, hp, e1, rfl, e2, e3⟩ := h
  obtain ⟨dr, gg, l, hP, hF⟩ := Filled.plan_of sf hw
  obtain ⟨ty, rfl, hty, rfl⟩ := hP.of_split T.table hw hp.ends e1 ht e2 e3
  exact ⟨hF _ List.mem_cons_self, fun b hb hbs =>
    hF _ (List.mem_cons_of_mem _ (List.mem_map.2 ⟨b, List.mem_filter.2 ⟨hb, (matchesSplit_start T.table hb).2 hbs⟩, rfl⟩))⟩

theorem _root_.Bpmn.Spec.Csv.GotoTable.round_back {y s : Row} (hy : y ∈ rows) (hs : s ∈ rows) (ht : y.terminated ≠ "yes")
    (h : ReturnsTo rows y.order.toList s.order.toList) : (y.order, s.order ++ "_join") ∈ F := by
  have := T.join_in sf hy ht h
  rwa [String.ofList_toList] at this

/-- What leads to the gateway of a split. -/
theorem _root_.Bpmn.Spec.Csv.GotoTable.split_of {k : String} (h : k ++ "_split" ∈ ids d1) :
    ∃ w ∈ rows, w.order = k ∧ w.terminated ≠ "yes" ∧ ∃ o, OpensSplit rows w.order.toList o := by
  obtain ⟨r, hr, rfl, -, -, o, b, hb, hbs, hall⟩ := T.split_from sf h
  rcases T.into sf hb (hall b hb hbs) with ⟨w, hw, -, e, -⟩ | ⟨w, hw, ht, e, o', h1, -⟩ | ⟨e, -⟩
  · exact absurd (e ▸ underscore_split _) (tableUnder T.table _ (List.mem_map_of_mem hw))
  · have := split_inj e
    have := List.inj_on_of_nodup_map T.table.orders hr hw this
    subst this
    exact ⟨r, hr, rfl, ht, o', h1⟩
  · exact absurd e (split_ne_join _ _)
end

/-- How a row goes on in the table. -/
theorem _root_.Bpmn.Spec.Csv.GotoTable.ways {w : Row} (hw : w ∈ rows) {b : String} (h : TableFlow rows w.order b) :
    (∃ g ∈ rows, NextNumber w.order.toList g.order.toList ∧ (¬GotoRow g ∧ b = g.order ∨ GotoRow g ∧ GoesTo g b)) ∨
    (b = w.order ++ "_split" ∧ ∃ o, OpensSplit rows w.order.toList o) ∨
    ∃ t, ComesBack rows w t ∧ (b = t.order ++ "_join" ∧ (∃ z, z ≠ w ∧ ComesBack rows z t) ∨ b = t.order ∧ ∀ z, ComesBack rows z t → z = w) := by
  have hu := tableUnder T.table
  have same : ∀ {v : Row}, v ∈ rows → v.order = w.order → v = w := fun hv e => List.inj_on_of_nodup_map T.table.orders hv hw e
  have under := hu _ (List.mem_map_of_mem hw)
  generalize e : w.order = x at h
  cases h with
  | next h1 h2 h3 h4 h5 => cases same h1 e.symm; exact .inl ⟨_, h2, h5, .inl ⟨h3, rfl⟩⟩
  | nextGoto h1 h2 h3 h4 h5 h6 h7 => cases same h1 e.symm; exact .inl ⟨_, h2, h7, .inr ⟨h3, h5⟩⟩
  | split h1 h2 h3 => cases same h1 e.symm; exact .inr (.inl ⟨rfl, _, h3⟩)
  | branch => exact absurd (e ▸ underscore_split _) under
  | branchGoto => exact absurd (e ▸ underscore_split _) under
  | toJoin h1 h2 h3 => cases same h1.1 e.symm; exact .inr (.inr ⟨_, h1, .inl ⟨rfl, _, Ne.symm h3, h2⟩⟩)
  | join => exact absurd (e ▸ underscore_join _) under
  | alone h1 h2 => cases same h1.1 e.symm; exact .inr (.inr ⟨_, h1, .inr ⟨rfl, h2⟩⟩)

omit T in
theorem _root_.Bpmn.Props.returns_last {w u : List Char} (h : ReturnsTo rows w u) : (∀ g, NextNumber w g → ¬HasOrder rows g) ∧ ∀ o, ¬OpensSplit rows w o := by
  obtain ⟨p, k, hp, hl, hn, -⟩ := h
  have st := lastStep_stepOf hp hl
  have key : ∀ q n, BranchPrefix q → w = q ++ decimal n → q = p ∧ w = p ++ decimal n := by
    intro q n hq e
    have := stepOf_unique (o := w) ⟨hq, Or.inr ⟨n, e⟩⟩ st
    subst this
    exact ⟨rfl, e⟩
  have num : ∀ n, w = p ++ decimal n → ¬HasOrder rows (p ++ decimal (n + 1)) ∧ ¬HasOrder rows (p ++ decimal (n + 1) ++ ['a']) ∧
      ¬HasOrder rows (p ++ decimal (n + 1) ++ ['a', '1']) := by
    intro n e
    rcases hl with e' | ⟨m, e', h1, h2, h3⟩
    · have : decimal n = [] := by
        rw [e'] at e
        have := congrArg List.length e
        simp at this
        exact this
      exact absurd this (decimal_ne_nil n)
    · have := decimal_inj (List.append_cancel_left (e.symm.trans e'))
      subst this
      exact ⟨h1, h2, h3⟩
  constructor
  · rintro g ⟨q, n, hq, e, rfl⟩
    obtain ⟨rfl, e⟩ := key q n hq e
    exact (num n e).1
  · rintro o ⟨q, n, hq, e, rfl, -, h⟩
    obtain ⟨rfl, e⟩ := key q n hq e
    rcases h with h | h
    · exact (num n e).2.1 h
    · exact (num n e).2.2 h

/-- A row has one way on in the table. -/
theorem _root_.Bpmn.Spec.Csv.GotoTable.one_way {d0 d1 d2 d : Diagram} {F : List (String × String)} (s : Stages rows d0 F d1 d2 d) {w : Row} (hw : w ∈ rows) {b c : String}
    (h1 : TableFlow rows w.order b) (h2 : TableFlow rows w.order c) : b = c := by
  have hu := tableUnder T.table
  have order : ∀ {x y : Row}, x.order.toList = y.order.toList → x.order = y.order := fun e => by rw [order_eq e, String.ofList_toList]
  have last : ∀ {t g : Row}, ComesBack rows w t → g ∈ rows → ¬NextNumber w.order.toList g.order.toList := fun h hg hn =>
    (returns_last h.2.2.2.2).1 _ hn ⟨_, hg, rfl⟩
  have back : ∀ {t t' : Row}, ComesBack rows w t → ComesBack rows w t' → t = t' := by
    intro t t' h h'
    have f1 := T.round_back s.filled h.1 h.2.1 h.2.2.2.1 h.2.2.2.2
    have f2 := T.round_back s.filled h'.1 h'.2.1 h'.2.2.2.1 h'.2.2.2.2
    have hl := (s.filled.fit T.table).one _ (List.mem_map_of_mem hw)
    rw [legacy_out, s.out1] at hl
    have := one_of_mem hl (mem_leaving.2 ⟨_, f1, rfl⟩) (mem_leaving.2 ⟨_, f2, rfl⟩)
    have pw := s.keep.inv.plain _ (s.stays T.table hw h.2.2.1).1
    exact List.inj_on_of_nodup_map T.table.orders h.2.1 h'.2.1 (join_inj (flowId_inj pw pw this).2)
  rcases T.ways hw h1 with ⟨g, hg, hn, hb⟩ | ⟨rfl, o, ho⟩ | ⟨t, ht, hb⟩ <;> rcases T.ways hw h2 with ⟨g', hg', hn', hc⟩ | ⟨rfl, o', ho'⟩ | ⟨t', ht', hc⟩
  · obtain ⟨p, n, hp, e1, e2⟩ := hn
    obtain ⟨p', n', hp', e1', e2'⟩ := hn'
    obtain ⟨rfl, rfl⟩ := step_eq hp hp' e1 e1'
    have := List.inj_on_of_nodup_map T.table.orders hg hg' (order (e2.trans e2'.symm))
    subst this
    rcases hb with ⟨k1, rfl⟩ | ⟨k1, k2⟩ <;> rcases hc with ⟨k3, rfl⟩ | ⟨k3, k4⟩
    · rfl
    · exact absurd k3 k1
    · exact absurd k1 k3
    · have := second_word k2
      rw [second_word k4] at this
      simpa using this.symm
  · exact (opensSplit_last ho' hn ⟨_, hg, rfl⟩).elim
  · exact absurd hn (last ht' hg)
  · exact (opensSplit_last ho hn' ⟨_, hg', rfl⟩).elim
  · rfl
  · exact absurd ho ((returns_last ht'.2.2.2.2).2 _)
  · exact absurd hn' (last ht hg')
  · exact absurd ho' ((returns_last ht.2.2.2.2).2 _)
  · cases back ht ht'
    rcases hb with ⟨rfl, z, k1, k2⟩ | ⟨rfl, k1⟩ <;> rcases hc with ⟨rfl, z', k3, k4⟩ | ⟨rfl, k3⟩
    · rfl
    · exact absurd (k3 z k2) k1
    · exact absurd (k1 z' k4) k3
    · rfl

section
variable (S : SplitTable rows) {d0 d1 d2 d : Diagram} {F : List (String × String)} (s : Stages rows d0 F d1 d2 d)
include s

theorem _root_.Bpmn.Spec.Csv.GotoTable.kept {x y : String} (h : (x, y) ∈ F) (hx : NotGoto (dictOf rows) x) (hy : NotGoto (dictOf rows) y) (h1 : x ∈ ids d) (h2 : y ∈ ids d) :
    Wired d x y := s.keep.wired _ _ (s.wired2 h hx hy) h1 h2

include S in
theorem _root_.Bpmn.Spec.Csv.GotoTable.split_in {w : Row} {o : List Char} (hw : w ∈ rows) (ht : w.terminated ≠ "yes") (ho : OpensSplit rows w.order.toList o) :
    w.order ++ "_split" ∈ ids d := by
  obtain ⟨f1, f2⟩ := T.round_split s.filled hw ht ho
  obtain ⟨b, hb, hbs⟩ : ∃ b ∈ rows, BranchStart o b.order.toList := by
    obtain ⟨-, -, -, -, -, -, h | h⟩ := ho <;> obtain ⟨b, hb, e⟩ := h
    · exact ⟨b, hb, 'a', [], e, by decide, by simp⟩
    · exact ⟨b, hb, 'a', ['1'], e, by decide, by simp⟩
  obtain ⟨c, hc1, hc2, hc3⟩ := S.full b hb o hbs
  refine (s.split_stays T.table (underscore_split _) (s.wired1 _ f1).tgt ?_).1
  have pk := plain_split (tableUnder T.table _ (List.mem_map_of_mem (f := Row.order) hw))
  refine two_le_of_mem (mem_leaving.2 ⟨_, f2 b hb hbs, rfl⟩) (mem_leaving.2 ⟨_, f2 c hc1 hc3, rfl⟩) fun e => hc2 ?_
  exact List.inj_on_of_nodup_map T.table.orders hc1 hb (flowId_inj pk pk e).2.symm

theorem _root_.Bpmn.Spec.Csv.GotoTable.join_kept {y z t : Row} (h1 : ComesBack rows y t) (h2 : ComesBack rows z t) (hne : y ≠ z) : t.order ++ "_join" ∈ ids d := by
  have nj := notGoto_gateway T.table.under (underscore_join t.order)
  have w : ∀ {y : Row}, ComesBack rows y t → Wired d2 y.order (t.order ++ "_join") := by
    intro y h
    exact s.wired2 (T.round_back s.filled h.1 h.2.1 h.2.2.2.1 h.2.2.2.2) (notGoto_row T.table h.1 h.2.2.1) nj
  refine s.keep.stays _ (w h1).tgt fun hh => ?_
  have py := s.keep2.inv.plain _ (w h1).src
  have pz := s.keep2.inv.plain _ (w h2).src
  have := two_le_of_mem (w h1).inn (w h2).inn fun e => hne (List.inj_on_of_nodup_map T.table.orders h1.1 h2.1 (flowId_inj py pz e).1)
  omega

variable (N : NoTurn rows)
include S N

/-- The flows of the diagram are flows of the table. -/
theorem _root_.Bpmn.Spec.Csv.GotoTable.sound {a b : String} (hab : EdgeOf d a b) (pa : Csv.Plain a) : TableFlow rows a b := by
  have f := T.tidy S N s
  have i := f.exact.inv
  have hu := tableUnder T.table
  have w := (i.edge pa hab).1
  have sf := s.filled
  have sh := sf.rounds.shape (fun _ h => h) (tableAlnum T.table)
  have alive : ∀ {r : Row}, r ∈ rows → r.order ∈ ids d → ¬GotoRow r := by
    intro r hr hm hg
    have := (s.keep2.sub _ (s.keep.sub _ hm)).2 _ (mem_dictOf hr)
    rw [(isGoto_iff r).2 hg] at this; cases this
  have back : ∀ {x u : String}, (x, u ++ "_join") ∈ F → x ∈ ids d → ∃ y t, ComesBack rows y t ∧ x = y.order ∧ u = t.order := by
    intro x u h hx
    obtain ⟨y, hy, rfl, ht, hr⟩ := T.join_from sf h
    obtain ⟨-, -, -, -, -, -, -, t, hto, e⟩ := id hr
    have : u = t.order := by
      have := congrArg String.ofList e
      simpa [String.ofList_toList] using this.symm
    subst this
    exact ⟨y, t, ⟨hy, hto, alive hy hx, ht, hr⟩, rfl, rfl⟩
  have toJoin : ∀ {x u : String}, EdgeOf d x (u ++ "_join") → Csv.Plain x → (x, u ++ "_join") ∈ F := by
    intro x u h px
    rcases f.edges _ _ px h with h | ⟨g, -, -, -, -, q, hq, e⟩ | h
    · exact h
    · exact absurd (e ▸ underscore_join _) (hu _ (List.mem_map_of_mem hq))
    · exfalso
      obtain ⟨y, -, -, -, -, -, -, -, -, -, -, t, ht, e⟩ := T.join_from sf h
      have := congrArg String.ofList e
      rw [String.ofList_toList, String.ofList_toList] at this
      exact hu _ (List.mem_map_of_mem ht) (this ▸ underscore_join _)
  have outJoin : ∀ {u b : String}, (u ++ "_join", b) ∈ F → b = u := by
    intro u b h
    rcases (sh _ h).cases hu with ⟨h, -⟩ | ⟨h, -⟩ | ⟨r, -, h, -⟩ | ⟨h, -⟩ | ⟨-, h⟩
    · exact absurd (underscore_join _) (hu _ h)
    · exact absurd (underscore_join _) (hu _ h)
    · exact absurd h.symm (split_ne_join _ _)
    · exact absurd (underscore_join _) (hu _ h)
    · exact (join_inj h).symm
  have fromJoin : ∀ {u b : String}, EdgeOf d (u ++ "_join") b → Csv.Plain (u ++ "_join") → b = u := by
    intro u b h pj
    rcases f.edges _ _ pj h with h | ⟨g, hg, hgo, h, -⟩ | h
    · exact outJoin h
    · exfalso
      have e := outJoin h
      rcases T.into sf hg h with ⟨w, hw, -, e, -⟩ | ⟨w, hw, -, e, -⟩ | ⟨-, k, hk⟩
      · exact hu _ (List.mem_map_of_mem hw) (e ▸ underscore_join _)
      · exact split_ne_join _ _ e.symm
      · exact T.main hg hk hgo
    · exfalso
      obtain ⟨y, hy, e, -⟩ := T.join_from sf h
      exact hu _ (List.mem_map_of_mem hy) (e ▸ underscore_join _)
  have twoBack : ∀ {u : String}, u ++ "_join" ∈ ids d → ∃ y z t, ComesBack rows y t ∧ ComesBack rows z t ∧ y ≠ z ∧ u = t.order := by
    intro u hm
    have m2 := s.keep.sub _ hm
    have hk : GatewayKind d (u ++ "_join") := by
      rcases s.nodes T.table hm with ⟨r, hr, -, e⟩ | ⟨-, h⟩
      · exact absurd (e ▸ underscore_join _) (hu _ (List.mem_map_of_mem hr))
      · exact h
    have h2 : 2 ≤ (inOf d (u ++ "_join")).length := by
      refine (s.keep.busy _ m2 hm hk).resolve_right fun ho => ?_
      obtain ⟨p, q, hp, hq, hne⟩ := two_of_nodup (f.exact.outNd _) ho
      obtain ⟨p', rfl⟩ := i.outI _ _ hp
      obtain ⟨q', rfl⟩ := i.outI _ _ hq
      have pj := i.plain _ hm
      exact hne (by rw [fromJoin (f.exact.back _ _ hp) pj, fromJoin (f.exact.back _ _ hq) pj])
    obtain ⟨p, q, hp, hq, hne⟩ := two_of_nodup (f.exact.inNd _) h2
    obtain ⟨y, py, rfl⟩ := i.inI _ _ hp
    obtain ⟨z, pz, rfl⟩ := i.inI _ _ hq
    have e1 := f.exact.backIn _ _ py hp
    have e2 := f.exact.backIn _ _ pz hq
    obtain ⟨y, t, b1, rfl, rfl⟩ := back (toJoin e1 py) (i.edge py e1).1.src
    obtain ⟨z, t', b2, rfl, e⟩ := back (toJoin e2 pz) (i.edge pz e2).1.src
    have := List.inj_on_of_nodup_map T.table.orders b1.2.1 b2.2.1 e
    subst this
    exact ⟨y, z, t, b1, b2, fun h => hne (by rw [h]), rfl⟩
  rcases f.edges _ _ pa hab with h | ⟨g, hg, hgo, h, hto, q, hq, rfl⟩ | h
  · rcases (sh _ h).cases hu with ⟨h1, h2, -⟩ | ⟨h1, rfl⟩ | ⟨r, h1, rfl, h2, -⟩ | ⟨h1, u, h2, rfl, -⟩ | ⟨h1, rfl⟩
    · obtain ⟨r, hr, rfl⟩ := List.mem_map.1 h1
      obtain ⟨c, hc, rfl⟩ := List.mem_map.1 h2
      rcases T.into sf hc h with ⟨w', hw, ht, e, hn⟩ | ⟨w', hw, -, e, -⟩ | ⟨e, -⟩
      · have := List.inj_on_of_nodup_map T.table.orders hr hw e
        subst this
        exact .next hr hc (alive hc w.tgt) ht hn
      · exact absurd (e ▸ underscore_split _) (hu _ h1)
      · exact absurd (e ▸ underscore_join _) (hu _ h1)
    · obtain ⟨r, hr, rfl, ht, o, ho⟩ := T.split_of sf (s.wired1 _ h).tgt
      exact .split hr ht ho
    · obtain ⟨c, hc, rfl⟩ := List.mem_map.1 h2
      rcases T.into sf hc h with ⟨w', hw, -, e, -⟩ | ⟨w', hw, ht, e, o, ho, hb⟩ | ⟨e, -⟩
      · exact absurd (e ▸ underscore_split _) (hu _ (List.mem_map_of_mem hw))
      · rw [e]
        exact .branch hw ht ho hc (alive hc w.tgt) hb
      · exact absurd e (split_ne_join _ _)
    · obtain ⟨y, z, t, b1, b2, hne, rfl⟩ := twoBack w.tgt
      obtain ⟨x, t', b3, rfl, e⟩ := back h w.src
      have := List.inj_on_of_nodup_map T.table.orders b1.2.1 b3.2.1 e
      subst this
      by_cases hxy : x = y
      · subst hxy; exact .toJoin b3 b2 hne
      · exact .toJoin b3 b1 hxy
    · obtain ⟨y, z, t, b1, b2, hne, rfl⟩ := twoBack w.src
      exact .join b1 b2 hne
  · obtain ⟨w', hw, ht, ⟨rfl, hn⟩ | ⟨rfl, o, ho, hb⟩⟩ := T.into_goto sf hg hgo h
    · exact .nextGoto hw hg hgo hq hto ht hn
    · exact .branchGoto hw ht ho hg hgo hb hq hto
  · obtain ⟨y, t, b1, rfl, rfl⟩ := back h w.src
    refine .alone b1 fun z b2 => ?_
    by_contra hne
    have hj := T.join_kept s b1 b2 (fun e => hne e.symm)
    have k := T.kept s h (notGoto_row T.table b1.1 b1.2.2.1) (notGoto_gateway T.table.under (underscore_join _)) w.src hj
    have := one_of_mem (f.one y b1.1) w.out k.out
    exact hu _ (List.mem_map_of_mem b1.2.1) (by rw [(flowId_inj pa pa this).2]; exact underscore_join _)

/-- The flows of the table are flows of the diagram. -/
theorem _root_.Bpmn.Spec.Csv.GotoTable.complete {a b : String} (hab : TableFlow rows a b) : Wired d a b := by
  have f := T.tidy S N s
  have i := f.exact.inv
  have hu := tableUnder T.table
  have sf := s.filled
  have row : ∀ {r : Row}, r ∈ rows → ¬GotoRow r → r.terminated ≠ "yes" → TableFlow rows r.order b → Wired d r.order b := by
    intro r hr hg ht h
    have ho := s.row_out T.table hr hg
    rw [if_neg ht] at ho
    obtain ⟨x, hx⟩ := List.length_eq_one_iff.1 ho
    obtain ⟨c, rfl⟩ := i.outI r.order x (by rw [hx]; simp)
    have e := f.exact.back r.order c (by rw [hx]; simp)
    have pr := i.plain _ (s.stays T.table hr hg).1
    have := T.one_way s hr h (T.sound S s N e pr)
    subst this
    exact (i.edge pr e).1
  have listed : ∀ {g q : Row} {x : String}, g ∈ rows → GotoRow g → q ∈ rows → GoesTo g q.order → (x, g.order) ∈ F → x ∈ ids d → Wired d x q.order := by
    intro g q x hg hgo hq hto hx hxd
    have := T.count S s hq (T.goto_target hg hgo hq hto) hxd [g] (by simp) (by simpa using ⟨hg, hgo, hto, hx⟩)
    have e := f.exact.back x q.order (List.count_pos_iff.1 (by simp at this; omega))
    exact (i.edge (i.plain _ hxd) e).1
  have ns := fun k => notGoto_gateway T.table.under (underscore_split k)
  have nj := fun k => notGoto_gateway T.table.under (underscore_join k)
  have hc := hab
  cases hab with
  | next hw hb hg ht hn => exact row hw (T.next_not hw hb hn) ht hc
  | nextGoto hw hg hgo hq hto ht hn => exact row hw (T.next_not hw hg hn) ht hc
  | split hw ht ho => exact row hw (T.open_not hw ho) ht hc
  | branch hw ht ho hb hg hbs =>
    exact T.kept s ((T.round_split sf hw ht ho).2 _ hb hbs) (ns _) (notGoto_row T.table hb hg) (T.split_in S s hw ht ho) (s.stays T.table hb hg).1
  | branchGoto hw ht ho hg hgo hbs hq hto => exact listed hg hgo hq hto ((T.round_split sf hw ht ho).2 _ hg hbs) (T.split_in S s hw ht ho)
  | toJoin h1 h2 hne => exact row h1.1 h1.2.2.1 h1.2.2.2.1 hc
  | @join y z t h1 h2 hne =>
    have hm := T.join_kept s h1 h2 hne
    obtain ⟨p, k, -, -, -, -, e, -⟩ := h1.2.2.2.2
    have hg := T.main h1.2.1 e
    have m1 := (s.keep2.sub _ (s.keep.sub _ hm)).1
    rw [legacy_ids] at m1
    exact T.kept s (s.join_next T.table m1) (nj _) (notGoto_row T.table h1.2.1 hg) hm (s.stays T.table h1.2.1 hg).1
  | alone h1 ha => exact row h1.1 h1.2.2.1 h1.2.2.2.1 hc
end

section
variable (S : SplitTable rows) (N : NoTurn rows)
include S N

/-- **C113.** The nodes of the diagram that the import makes of a table with `goto` rows, in which no `goto` asks for a flow between two nodes that already have one, are exactly:
the rows but for the `goto` rows, a gateway for every split, and a gateway before every row to which two branches come back. -/
theorem C113_nodes (d : Diagram) (h : loadCsv rows {} = .ok d) (x : String) : (∃ n ∈ d.getNodes, n.1 = x) ↔ TableNode rows x := by
  obtain ⟨d0, F, d1, d2, s⟩ := stages T.table h
  have f := T.tidy S N s
  have i := f.exact.inv
  have hu := tableUnder T.table
  have mem : (∃ n ∈ d.getNodes, n.1 = x) ↔ x ∈ ids d := by
    constructor
    · rintro ⟨n, hn, rfl⟩; exact (id_of_node i hn).1
    · intro hx
      obtain ⟨n, hn, e, -⟩ := node_of_id i hx
      exact ⟨n, hn, e⟩
  rw [mem]
  constructor
  · intro hx
    rcases f.named x hx with h | ⟨k, -, rfl⟩ | ⟨u, hum, rfl⟩
    · rcases s.nodes T.table hx with ⟨r, hr, hg, rfl⟩ | ⟨hn, -⟩
      · exact .row hr hg
      · exact absurd h hn
    · have := (s.keep2.sub _ (s.keep.sub _ hx)).1
      rw [legacy_ids] at this
      obtain ⟨w, hw, rfl, ht, o, ho⟩ := T.split_of s.filled this
      exact .split hw ht ho
    · have hk : GatewayKind d (u ++ "_join") := by
        rcases s.nodes T.table hx with ⟨r, hr, -, e⟩ | ⟨-, hk⟩
        · exact absurd (e ▸ underscore_join _) (hu _ (List.mem_map_of_mem hr))
        · exact hk
      have px := i.plain _ hx
      have key : ∀ {a b : String}, TableFlow rows a b → a = u ++ "_join" ∨ b = u ++ "_join" → TableNode rows (u ++ "_join") := by
        intro a b hab e
        have nr : ∀ {r : Row}, r ∈ rows → r.order ≠ u ++ "_join" := fun hr e => hu _ (List.mem_map_of_mem hr) (e ▸ underscore_join _)
        have ns : ∀ {k : String}, k ++ "_split" ≠ u ++ "_join" := split_ne_join _ _
        cases hab with
        | next h1 h2 => exact (e.elim (nr h1) (nr h2)).elim
        | nextGoto h1 h2 h3 h4 => exact (e.elim (nr h1) (nr h4)).elim
        | split h1 => exact (e.elim (nr h1) ns).elim
        | branch h1 h2 h3 h4 => exact (e.elim ns (nr h4)).elim
        | branchGoto h1 h2 h3 h4 h5 h6 h7 => exact (e.elim ns (nr h7)).elim
        | toJoin h1 h2 h3 => rw [← e.resolve_left (nr h1.1)]; exact .join h1 h2 h3
        | join h1 h2 h3 => rw [← e.resolve_right (nr h1.2.1)]; exact .join h1 h2 h3
        | alone h1 => exact (e.elim (nr h1.1) (nr h1.2.1)).elim
      rcases s.keep.busy _ (s.keep.sub _ hx) hx hk with hb | hb
      · obtain ⟨p, -, hp, -⟩ := two_of_nodup (f.exact.inNd _) hb
        obtain ⟨y, py, rfl⟩ := i.inI _ _ hp
        exact key (T.sound S s N (f.exact.backIn _ _ py hp) py) (.inr rfl)
      · obtain ⟨p, -, hp, -⟩ := two_of_nodup (f.exact.outNd _) hb
        obtain ⟨y, rfl⟩ := i.outI _ _ hp
        exact key (T.sound S s N (f.exact.back _ _ hp) px) (.inl rfl)
  · rintro (⟨hr, hg⟩ | ⟨hw, ht, ho⟩ | ⟨h1, h2, hne⟩)
    · exact (s.stays T.table hr hg).1
    · exact T.split_in S s hw ht ho
    · exact T.join_kept s h1 h2 hne

/-- **C113.** And its flows are exactly those that the table stands for: to the next number; to the gateway of a split and from there to the first step of every branch; from the
last step of a branch to the row behind the split, over the gateway before it if there is one; and instead of a flow to a `goto` a flow to the row that it names. -/
theorem C113_flows (d : Diagram) (h : loadCsv rows {} = .ok d) (a b : String) : Leads d a b ↔ TableFlow rows a b := by
  obtain ⟨d0, F, d1, d2, s⟩ := stages T.table h
  have f := T.tidy S N s
  have i := f.exact.inv
  constructor
  · rintro ⟨j, sf, n, hn, m, hm, rfl, rfl, h1, h2, h3, h4, h5⟩
    obtain ⟨k1, k2, -⟩ := id_of_node i hn
    rw [k2] at h1
    have := (i.flowI _ _ h3).2.1
    rw [h4, h5] at this
    subst this
    exact T.sound S s N (f.exact.back _ _ h1) (i.plain _ k1)
  · intro hab
    exact (T.complete S s N hab).leads i
end
end

/-! ## The hypotheses hold -/

theorem goto_back {y t : Row} (h : ComesBack gotoTable y t) : y = Row.mk "3c" "print" "late" "" "" "" := by
  obtain ⟨hy, ht, hg, hn, hr⟩ := h
  obtain ⟨k1, k2⟩ := returns_last hr
  obtain ⟨p, k, hp, hl, hk, -⟩ := id hr
  have main : ∀ n, y.order.toList = decimal n → False := fun n e =>
    numberIn_ne hk (stepOf_unique (lastStep_stepOf hp hl) (e ▸ main_stepOf n))
  simp only [gotoTable, List.mem_cons, List.not_mem_nil, or_false] at hy
  rcases hy with rfl | rfl | rfl | rfl | rfl | rfl | rfl | rfl
  · exact (main 0 (by decide)).elim
  · exact (main 1 (by decide)).elim
  · exact (main 2 (by decide)).elim
  · exact absurd ((isGoto_iff _).1 (by decide)) hg
  · exact absurd ⟨Row.mk "3b2" "GoTo 2" "" "" "" "", by decide, rfl⟩ (k1 _ ⟨['3', 'b'], 1, goto_prefix, by decide, by decide⟩)
  · exact absurd ((isGoto_iff _).1 (by decide)) hg
  · rfl
  · exact (main 4 (by decide)).elim

theorem goto_comesBack : ComesBack gotoTable (Row.mk "3c" "print" "late" "" "" "") (Row.mk "4" "done" "" "" "" "yes") := by
  refine ⟨by decide, by decide, goto_no (by decide), by decide, ['3', 'c'], 3, ?_, Or.inl (by decide), ⟨[], 'c', [], BranchPrefix.nil, BranchPrefix.nil, by decide, by decide, by decide⟩,
    by decide, by decide, Row.mk "4" "done" "" "" "" "yes", by decide, by decide⟩
  have := BranchPrefix.step 3 BranchPrefix.nil (c := 'c') (by decide) (by decide)
  exact this

theorem goto_opened : OpensSplit gotoTable ['2'] (decimal 3) :=
  ⟨[], 2, BranchPrefix.nil, by decide, by decide, by rintro ⟨r, hr, e⟩; revert e; revert r; decide, Or.inl ⟨Row.mk "3a" "goto  1 again" "no" "" "" "", by decide, by decide⟩⟩

theorem goto_goes1 : GoesTo (Row.mk "3a" "goto  1 again" "no" "" "" "") "1" := by
  refine ⟨"goto".toList, "  ".toList, " again".toList, by decide, by decide, ?_, by decide, ?_, by decide, ?_, ?_⟩
  all_goals simp [White]

theorem goto_goes2 : GoesTo (Row.mk "3b2" "GoTo 2" "" "" "" "") "2" := by
  refine ⟨"GoTo".toList, " ".toList, [], by decide, by decide, ?_, by decide, ?_, by decide, ?_, ?_⟩
  all_goals simp [White]

set_option maxRecDepth 8000 in
/-- The draft that is sent back: both ways back, the only branch that goes on, and no gateway before row 4. -/
example : GotoTable gotoTable ∧ SplitTable gotoTable ∧ NoTurn gotoTable ∧ ∃ d, loadCsv gotoTable {} = .ok d ∧
    Leads d "2_split" "1" ∧ Leads d "3b1" "2" ∧ Leads d "3c" "4" ∧ ¬Leads d "3b1" "4" ∧ ∀ n ∈ d.getNodes, n.1 ≠ "4_join" := by
  obtain ⟨d, hd, -⟩ := ok_of_check (x := loadCsv gotoTable {}) (fun _ => true) (by decide +kernel)
  have fl := C113_flows goto_gotoTable goto_splitTable goto_noTurn d hd
  refine ⟨goto_gotoTable, goto_splitTable, goto_noTurn, d, hd, (fl _ _).2 ?_, (fl _ _).2 ?_, (fl _ _).2 ?_, ?_, ?_⟩
  · exact .branchGoto (w := Row.mk "2" "check" "" "editor" "" "") (g := Row.mk "3a" "goto  1 again" "no" "" "" "") (q := Row.mk "1" "write" "" "author" "" "")
      (by decide) (by decide) goto_opened (by decide) ((isGoto_iff _).1 (by decide)) ⟨'a', [], by decide, by decide, by simp⟩ (by decide) goto_goes1
  · exact .nextGoto (w := Row.mk "3b1" "look" "yes" "" "" "") (g := Row.mk "3b2" "GoTo 2" "" "" "" "") (q := Row.mk "2" "check" "" "editor" "" "")
      (by decide) (by decide) ((isGoto_iff _).1 (by decide)) (by decide) goto_goes2 (by decide) ⟨['3', 'b'], 1, goto_prefix, by decide, by decide⟩
  · exact .alone goto_comesBack fun z hz => goto_back hz
  · intro h
    obtain ⟨g, hg, hn, hb⟩ | ⟨e, -⟩ | ⟨t, ht, -⟩ := goto_gotoTable.ways (w := Row.mk "3b1" "look" "yes" "" "" "") (by decide) ((fl _ _).1 h)
    · obtain ⟨p, n, hp, e1, e2⟩ := hn
      obtain ⟨rfl, rfl⟩ := step_eq (m := 1) goto_prefix hp (by decide) e1
      have : g.order = "3b2" := String.toList_injective (e2.trans (by decide))
      have := List.inj_on_of_nodup_map goto_table.orders hg (show Row.mk "3b2" "GoTo 2" "" "" "" "" ∈ gotoTable by decide) this
      subst this
      rcases hb with ⟨k, -⟩ | ⟨-, k⟩
      · exact k ((isGoto_iff _).1 (by decide))
      · have := second_word k
        rw [second_word goto_goes2] at this
        exact absurd this (by decide)
    · exact absurd e (by decide)
    · exact absurd (goto_back ht) (by decide)
  · intro n hn e
    have k := (C113_nodes goto_gotoTable goto_splitTable goto_noTurn d hd _).1 ⟨n, hn, e⟩
    generalize hx : "4_join" = x at k
    cases k with
    | row hr _ => exact tableUnder goto_table _ (List.mem_map_of_mem hr) (hx ▸ by decide)
    | split => exact split_ne_join _ "4" hx.symm
    | join h1 h2 hne => exact hne ((goto_back h1).trans (goto_back h2).symm)
end Bpmn.Props

import Verif.Lemmas.TreeTable
import Verif.Props.Structured
import Verif.Props.CsvResult
import Verif.Props.CsvAccept
import Verif.Props.CsvExport
import Verif.Lemmas.CsvFiled
import Verif.Props.FlatProcess
/-! # C129: a process without joins comes back from its table -/
set_option linter.unusedSimpArgs false
set_option linter.unusedVariables false

namespace Bpmn.Csv
open Bpmn.Spec Bpmn.Spec.Csv

/-- The id of the node at a place, after the import of the table. -/
def TreeSpot.name (x : TreeSpot) : String :=
  match x.line with
  | .fork _ _ => String.ofList (x.pre ++ decimal (x.num - 1)) ++ "_split"
  | _ => String.ofList (x.pre ++ decimal x.num)

theorem name_long {x : TreeSpot} (h : 1 ≤ x.line.long) : x.name = String.ofList (x.pre ++ decimal x.num) := by
  obtain ⟨m, p, k, c⟩ := x
  cases m <;> simp [Strand.long, TreeSpot.name] at h ⊢

theorem name_row {x : TreeSpot} {r : Row} (h : r ∈ x.rows) : r.order = x.name := by
  obtain ⟨-, h1, h2, -⟩ := spot_rows h
  rw [name_long h2, h1]

theorem prefix_alnum {p : List Char} (h : BranchPrefix p) : ∀ c ∈ p, c.isAlphanum = true := by
  induction h with
  | nil => simp
  | step n _ h1 h2 ih =>
    intro c hc
    simp only [List.mem_append, List.mem_singleton] at hc
    rcases hc with (hc | hc) | rfl
    · exact ih c hc
    · simp [Char.isAlphanum, decimal_isDigit hc]
    · simp [Char.isAlphanum, letter_alpha (letter_range h1 h2).1 (letter_range h1 h2).2]

theorem branch_prefix {p : List Char} (h : BranchPrefix p) : Prefix p := by
  cases h with
  | nil => exact .inl rfl
  | step n _ h1 h2 => exact .inr ⟨_, _, rfl, letter_alpha (letter_range h1 h2).1 (letter_range h1 h2).2⟩

section
variable {d : Diagram} {s : Node} {l : Strand} (T : TreeProcess d s l) (con : Consistent d)
include T

local notation "ROWS" => Strand.table d false "" 0 "" (Strand.step s l)

theorem TreeP.order_alnum {x : TreeSpot} (h : OnTree d s l x) (k : Nat) : ∀ c ∈ x.pre ++ decimal k, c.isAlphanum = true := by
  intro c hc
  rcases List.mem_append.1 hc with hc | hc
  · exact prefix_alnum (TreeP.fine T h).pref c hc
  · simp [Char.isAlphanum, decimal_isDigit hc]

theorem TreeP.no_goto {r : Row} (hr : r ∈ ROWS) : ¬GotoRow r := by
  obtain ⟨x, hx, h⟩ := (TreeP.mem_rows T).1 hr
  have f := TreeP.fine T hx
  have key : ∀ n : Node, n ∈ d.getNodes → HasRow n → ∀ c o b, ¬GotoRow ((cellOf n c).row o b) := by
    intro n hn hh c o b hg
    exact T.plain n hn hh hg
  obtain ⟨m, p, k, c⟩ := x
  have ff := f.fits
  cases m with
  | step n rest =>
    simp only [TreeSpot.rows, List.mem_singleton] at h
    rw [Strand.Fits] at ff
    subst h
    refine key n ff.1 ?_ _ _ _
    by_cases hk : k = 0
    · have := f.zero hk
      simp only [treeRoot, TreeSpot.mk.injEq, Strand.step.injEq] at this
      rw [this.1.1]
      simp [HasRow, T.begins]
    · have := f.tree hk
      rw [Strand.IsTree] at this
      rcases this.1 with e | e <;> simp [HasRow, e]
  | stop n =>
    simp only [TreeSpot.rows, List.mem_singleton] at h
    rw [Strand.Fits] at ff
    subst h
    refine key n ff.1 ?_ _ _ _
    have hk : k ≠ 0 := fun hk => by
      have := f.zero hk
      simp [treeRoot] at this
    have := f.tree hk
    simp only [Strand.IsTree] at this
    simp [HasRow, this]
  | _ => simp [TreeSpot.rows] at h

include con in
theorem TreeP.table : Table ROWS := by
  obtain ⟨N, h⟩ := Props.C96_rows d _ con T.structured
  refine ⟨(Props.C42_orders d N _ (h N (Nat.le_refl _))).1, ?_⟩
  intro r hr c hc
  obtain ⟨x, hx, hxr⟩ := (TreeP.mem_rows T).1 hr
  rw [(spot_rows hxr).1] at hc
  exact TreeP.order_alnum T hx _ c hc

theorem TreeP.steps {r : Row} (hr : r ∈ ROWS) : ∃ p, StepOf p r.order.toList := by
  obtain ⟨x, hx, h⟩ := (TreeP.mem_rows T).1 hr
  exact ⟨x.pre, (TreeP.fine T hx).pref, .inr ⟨x.num, (spot_rows h).1⟩⟩

theorem TreeP.continues {r : Row} (hr : r ∈ ROWS) (ht : r.terminated ≠ "yes") : Continues ROWS r.order.toList := by
  obtain ⟨x, hx, h⟩ := (TreeP.mem_rows T).1 hr
  obtain ⟨n, rest, p, k, c, rfl, -⟩ := open_row h ht
  refine .next (TreeP.fine T hx).pref (spot_rows h).1 ?_
  rcases TreeP.after T hx with ⟨-, h1⟩ | ⟨-, -, -, -, h1, -⟩
  · exact .inl h1
  · exact .inr (.inr h1)

include con in
theorem TreeP.gotoTable : GotoTable ROWS :=
  ⟨TreeP.table T con, fun r hr => TreeP.steps T hr, fun g hg h => absurd h (TreeP.no_goto T hg), fun g hg h => absurd h (TreeP.no_goto T hg),
    fun g hg h => absurd h (TreeP.no_goto T hg), fun g hg h => absurd h (TreeP.no_goto T hg)⟩

theorem TreeP.noTurn : NoTurn ROWS :=
  ⟨fun g hg h => absurd h (TreeP.no_goto T hg), fun g hg h => absurd h (TreeP.no_goto T hg)⟩

/-- The first step of a branch belongs to a split. -/
theorem TreeP.start_of {r : Row} (hr : r ∈ ROWS) {o : List Char} (h : BranchStart o r.order.toList) :
    ∃ g bs p k c, OnTree d s l ⟨.fork g bs, p, k, c⟩ ∧ o = p ++ decimal k := by
  obtain ⟨a, ones, e, ha, ho⟩ := h
  obtain ⟨x, hx, hxr⟩ := (TreeP.mem_rows T).1 hr
  obtain ⟨e1, -, e2, -⟩ := spot_rows hxr
  have fx := TreeP.fine T hx
  rw [e1, show o ++ a :: ones = (o ++ [a]) ++ ones by simp] at e
  obtain ⟨q1, q2⟩ := tail_digits (fun c hc => decimal_isDigit hc) (fun c hc => by rw [ho c hc]; rfl) (prefix_end fx.pref)
    (fun w c e => by have := (List.append_inj' e rfl).2; simp at this; rw [← this]; exact alpha_no_digit ha) e
  have hne : x.pre ≠ [] := by rw [q1]; simp
  have sh := fx.short hne
  have hnum := decimal_ones sh.1 (by omega) (by rw [q2]; exact ho)
  obtain ⟨y, hy, hyf, hc⟩ := TreeP.first_child T hx hnum hne
  cases hc with
  | next => simp [Strand.IsFork] at hyf
  | branch m1 m2 =>
    simp only at q1
    exact ⟨_, _, _, _, _, hy, (List.append_inj' q1 rfl).1.symm⟩

theorem TreeP.splitTable : SplitTable ROWS := by
  refine ⟨?_, fun g hg h => absurd h (TreeP.no_goto T hg)⟩
  intro b hb o ho
  obtain ⟨g, bs, p, k, c, hx, rfl⟩ := TreeP.start_of T hb ho
  obtain ⟨j, m, i, h1, h2, h3⟩ := (TreeP.starts T hx hb).1 ho
  have ff := (TreeP.fine T hx).fits
  rw [Strand.Fits] at ff
  obtain ⟨k1, k2⟩ := fit_branches ff.2.2.2.2
  have two := ff.2.2.1.2.2.1
  have top := ff.2.2.1.2.2.2
  have hj := (List.getElem?_eq_some_iff.1 h2).1
  obtain ⟨j', hj', hne⟩ : ∃ j', j' < (outs g).length ∧ j' ≠ j := by
    by_cases h0 : j = 0
    · exact ⟨1, by omega, by omega⟩
    · exact ⟨0, by omega, by omega⟩
  obtain ⟨i', hi'⟩ : ∃ i', (outs g)[j']? = some i' := ⟨_, List.getElem?_eq_getElem hj'⟩
  obtain ⟨m', hm'⟩ : ∃ m', (branchList bs)[j']? = some m' := ⟨_, List.getElem?_eq_getElem (by omega)⟩
  have hc : OnTree d s l _ := .tail hx (.branch hm' hi')
  obtain ⟨r, hr⟩ := rows_of_long ((TreeP.fine T hc).first (by simp) rfl)
  have hm : r ∈ ROWS := (TreeP.mem_rows T).2 ⟨_, hc, hr⟩
  refine ⟨r, hm, ?_, (TreeP.starts T hx hm).2 ⟨j', m', i', hm', hi', hr⟩⟩
  rintro rfl
  have e := (spot_rows hr).1.symm.trans (spot_rows h3).1
  have e2 := (List.append_inj' (List.append_inj' e rfl).1 rfl).2
  exact hne (letter_inj (by omega) (by omega) (List.cons.inj e2).1)

/-- No branch comes back. -/
theorem TreeP.no_back {y u : Row} : ¬ComesBack ROWS y u := by
  rintro ⟨hy, -, -, ht, p, k, hp, hl, -⟩
  obtain ⟨x, hx, h⟩ := (TreeP.mem_rows T).1 hy
  obtain ⟨n, rest, q, m, c, rfl, -⟩ := open_row h ht
  have fp := (TreeP.fine T hx).pref
  rcases hl with e | ⟨m', e, h1, h2, h3⟩
  · rw [(spot_rows h).1] at e
    have := (tail_digits (Y := []) (fun c hc => decimal_isDigit hc) (by simp) (prefix_end fp) (prefix_end hp) (by simpa using e)).2
    exact decimal_ne_nil _ this
  · obtain ⟨rfl, rfl⟩ := Props.step_eq hp fp e (spot_rows h).1
    rcases TreeP.after T hx with ⟨-, k1⟩ | ⟨-, -, -, -, k1, -⟩
    · exact h1 k1
    · exact h3 k1

/-- A split behind a row. -/
theorem TreeP.opens {w : Row} (hw : w ∈ ROWS) (ht : w.terminated ≠ "yes") {o : List Char} (ho : OpensSplit ROWS w.order.toList o) :
    ∃ n g bs p k c, OnTree d s l ⟨.step n (.fork g bs), p, k, c⟩ ∧ w ∈ (TreeSpot.mk (.step n (.fork g bs)) p k c).rows ∧ o = p ++ decimal (k + 1) := by
  obtain ⟨x, hx, h⟩ := (TreeP.mem_rows T).1 hw
  obtain ⟨n, rest, p, k, c, rfl, -⟩ := open_row h ht
  obtain ⟨p', k', hp, e, rfl, no, -⟩ := ho
  obtain ⟨rfl, rfl⟩ := Props.step_eq hp (TreeP.fine T hx).pref e (spot_rows h).1
  rcases TreeP.after T hx with ⟨-, h1⟩ | ⟨g, bs, rfl, -⟩
  · exact absurd h1 no
  · exact ⟨n, g, bs, p', k', c, hx, h, rfl⟩

theorem TreeP.tableNode {a : String} : TableNode ROWS a ↔ ∃ x, OnTree d s l x ∧ x.name = a := by
  constructor
  · rintro (⟨hr, -⟩ | ⟨hw, ht, ho⟩ | ⟨h1, -, -⟩)
    · obtain ⟨x, hx, h⟩ := (TreeP.mem_rows T).1 hr
      exact ⟨x, hx, (name_row h).symm⟩
    · obtain ⟨n, g, bs, p, k, c, hx, h, -⟩ := TreeP.opens T hw ht ho
      exact ⟨_, .tail hx .next, by rw [(spot_rows h).2.1]; rfl⟩
    · exact absurd h1 (TreeP.no_back T)
  · rintro ⟨x, hx, rfl⟩
    rcases TreeP.here T hx with hl | hf
    · obtain ⟨r, hr⟩ := rows_of_long hl
      have hm := (TreeP.mem_rows T).2 ⟨x, hx, hr⟩
      rw [← name_row hr]
      exact .row hm (TreeP.no_goto T hm)
    · obtain ⟨m, p, k, c⟩ := x
      cases m with
      | fork g bs =>
        obtain ⟨n, k', c', rfl, hy⟩ := TreeP.fork_next T hx
        have hr : (cellOf n c').row (p ++ decimal k') false ∈ (TreeSpot.mk (.step n (.fork g bs)) p k' c').rows := by simp [TreeSpot.rows]
        rcases TreeP.after T hy with ⟨h1, -⟩ | ⟨-, -, -, -, -, h1⟩
        · simp [Strand.long] at h1
        · have := TableNode.split ((TreeP.mem_rows T).2 ⟨_, hy, hr⟩) (by simp [Cell.row]) (by rw [(spot_rows hr).1]; exact h1)
          rw [(spot_rows hr).2.1] at this
          exact this
      | _ => simp [Strand.IsFork] at hf

theorem TreeP.tableFlow {a b : String} : TableFlow ROWS a b ↔ ∃ x y, OnTree d s l x ∧ Child d x y ∧ x.name = a ∧ y.name = b := by
  constructor
  · intro h
    cases h with
    | next hw hb hg ht hn =>
      obtain ⟨x, hx, h⟩ := (TreeP.mem_rows T).1 hw
      obtain ⟨n, rest, p, k, c, rfl, -⟩ := open_row h ht
      obtain ⟨p', k', hp, e1, e2⟩ := hn
      obtain ⟨rfl, rfl⟩ := Props.step_eq hp (TreeP.fine T hx).pref e1 (spot_rows h).1
      obtain ⟨y, hy, hyr, e3, e4⟩ := TreeP.at T hb hp e2
      have := TreeP.unique T hy (.tail hx .next) e3 e4
      subst this
      exact ⟨_, _, hx, .next, (name_row h).symm, (name_row hyr).symm⟩
    | nextGoto _ h1 h2 => exact absurd h2 (TreeP.no_goto T h1)
    | split hw ht ho =>
      obtain ⟨n, g, bs, p, k, c, hx, h, -⟩ := TreeP.opens T hw ht ho
      exact ⟨_, _, hx, .next, (name_row h).symm, by rw [(spot_rows h).2.1]; rfl⟩
    | branch hw ht ho hb hg hs =>
      obtain ⟨n, g, bs, p, k, c, hx, h, rfl⟩ := TreeP.opens T hw ht ho
      have hf : OnTree d s l _ := .tail hx .next
      obtain ⟨j, m, i, h1, h2, h3⟩ := (TreeP.starts T hf hb).1 hs
      exact ⟨_, _, hf, .branch h1 h2, by rw [(spot_rows h).2.1]; rfl, (name_row h3).symm⟩
    | branchGoto _ _ _ h1 h2 => exact absurd h2 (TreeP.no_goto T h1)
    | toJoin h1 => exact absurd h1 (TreeP.no_back T)
    | join h1 => exact absurd h1 (TreeP.no_back T)
    | alone h1 => exact absurd h1 (TreeP.no_back T)
  · rintro ⟨x, y, hx, hc, rfl, rfl⟩
    cases hc with
    | @next n rest p k c =>
      have hr : (cellOf n c).row (p ++ decimal k) false ∈ (TreeSpot.mk (.step n rest) p k c).rows := by simp [TreeSpot.rows]
      have hm := (TreeP.mem_rows T).2 ⟨_, hx, hr⟩
      have hy : OnTree d s l ⟨rest, p, k + 1, ""⟩ := .tail hx .next
      rcases TreeP.after T hx with ⟨h1, -⟩ | ⟨g, bs, rfl, -, -, h1⟩
      · obtain ⟨r, hr'⟩ := rows_of_long (x := ⟨rest, p, k + 1, ""⟩) h1
        have hm' := (TreeP.mem_rows T).2 ⟨_, hy, hr'⟩
        rw [← name_row hr, ← name_row hr']
        exact .next hm hm' (TreeP.no_goto T hm') (by simp [Cell.row]) ⟨p, k, (TreeP.fine T hx).pref, (spot_rows hr).1, (spot_rows hr').1⟩
      · have := TableFlow.split hm (by simp [Cell.row]) (by rw [(spot_rows hr).1]; exact h1)
        rw [(spot_rows hr).2.1] at this
        exact this
    | @branch g bs p k j c i b h1 h2 =>
      have hy : OnTree d s l _ := .tail hx (.branch h1 h2)
      obtain ⟨n, k', c', rfl, hw⟩ := TreeP.fork_next T hx
      have hr : (cellOf n c').row (p ++ decimal k') false ∈ (TreeSpot.mk (.step n (.fork g bs)) p k' c').rows := by simp [TreeSpot.rows]
      have hm := (TreeP.mem_rows T).2 ⟨_, hw, hr⟩
      obtain ⟨r, hr'⟩ := rows_of_long ((TreeP.fine T hy).first (by simp) rfl)
      have hm' := (TreeP.mem_rows T).2 ⟨_, hy, hr'⟩
      rcases TreeP.after T hw with ⟨k1, -⟩ | ⟨-, -, -, -, -, k1⟩
      · simp [Strand.long] at k1
      · have := TableFlow.branch hm (by simp [Cell.row]) (by rw [(spot_rows hr).1]; exact k1) hm' (TreeP.no_goto T hm') ((TreeP.starts T hx hm').2 ⟨j, b, i, h1, h2, hr'⟩)
        rw [(spot_rows hr).2.1, name_row hr'] at this
        exact this

theorem TreeP.name_inj {x y : TreeSpot} (hx : OnTree d s l x) (hy : OnTree d s l y) (e : x.name = y.name) : x = y := by
  have fx := TreeP.fine T hx
  have fy := TreeP.fine T hy
  have under : ∀ {x : TreeSpot}, OnTree d s l x → ∀ k, '_' ∉ (String.ofList (x.pre ++ decimal k)).toList := by
    intro x h k hm
    rw [String.toList_ofList] at hm
    exact absurd (TreeP.order_alnum T h k _ hm) (by decide)
  have mixed : ∀ {x y : TreeSpot}, OnTree d s l x → 1 ≤ x.line.long → y.line.IsFork → x.name ≠ y.name := by
    intro x y hx h1 h2 e
    rw [name_long h1] at e
    obtain ⟨m, p, k, c⟩ := y
    cases m with
    | fork g bs =>
      refine under hx x.num ?_
      rw [e]
      simp [TreeSpot.name]
    | _ => simp [Strand.IsFork] at h2
  rcases TreeP.here T hx with h1 | h1 <;> rcases TreeP.here T hy with h2 | h2
  · rw [name_long h1, name_long h2] at e
    obtain ⟨e1, e2⟩ := Props.step_eq fx.pref fy.pref rfl (ofList_inj e)
    exact TreeP.unique T hx hy e1 e2
  · exact absurd e (mixed hx h1 h2)
  · exact absurd e.symm (mixed hy h2 h1)
  · obtain ⟨m, p, k, c⟩ := x
    obtain ⟨m', p', k', c'⟩ := y
    cases m with
    | fork g bs =>
      cases m' with
      | fork g' bs' =>
        obtain ⟨n, a, -, rfl, -⟩ := TreeP.fork_next T hx
        obtain ⟨n', a', -, rfl, -⟩ := TreeP.fork_next T hy
        have e : String.ofList (p ++ decimal a) ++ "_split" = String.ofList (p' ++ decimal a') ++ "_split" := e
        have e' := congrArg String.toList e
        rw [String.toList_append, String.toList_append] at e'
        have := List.append_cancel_right e'
        rw [String.toList_ofList, String.toList_ofList] at this
        obtain ⟨rfl, rfl⟩ := Props.step_eq fx.pref fy.pref rfl this
        exact TreeP.unique T hx hy rfl rfl
      | _ => simp [Strand.IsFork] at h2
    | _ => simp [Strand.IsFork] at h1

/-! ## The order of the branches -/

omit T in
/-- The places directly after a place, in the order of the flows. -/
def kids (d : Diagram) (x : TreeSpot) : List TreeSpot :=
  match x.line with
  | .step _ rest => [⟨rest, x.pre, x.num + 1, ""⟩]
  | .fork g bs => (List.range (outs g).length).map fun j =>
      ⟨(branchList bs)[j]?.getD .meet, x.pre ++ decimal x.num ++ [letter j], 1, splitCondition d g ((outs g)[j]?.getD "")⟩
  | _ => []

theorem TreeP.kids_child {x y : TreeSpot} (hx : OnTree d s l x) : Child d x y ↔ y ∈ kids d x := by
  constructor
  · intro h
    cases h with
    | next => simp [kids]
    | @branch g bs p k j c i b h1 h2 =>
      simp only [kids, List.mem_map, List.mem_range]
      exact ⟨j, (List.getElem?_eq_some_iff.1 h2).1, by simp [h1, h2]⟩
  · intro h
    obtain ⟨m, p, k, c⟩ := x
    cases m with
    | step n rest => simp [kids] at h; subst h; exact .next
    | fork g bs =>
      simp only [kids, List.mem_map, List.mem_range] at h
      obtain ⟨j, hj, rfl⟩ := h
      have ff := (TreeP.fine T hx).fits
      rw [Strand.Fits] at ff
      obtain ⟨k1, k2⟩ := fit_branches ff.2.2.2.2
      have hj' : j < (branchList bs).length := by omega
      have := Child.branch (d := d) (s := g) (p := p) (k := k) (c := c) (List.getElem?_eq_getElem hj') (List.getElem?_eq_getElem hj)
      simpa [List.getElem?_eq_getElem hj', List.getElem?_eq_getElem hj] using this
    | _ => simp [kids] at h

omit T in
theorem heads_sublist {d : Diagram} {g : Node} {P : List Char} {o : Nat} : ∀ {bs : Branches} {fs : List String} {k : Nat}, (branchList bs).length = fs.length →
    (∀ b ∈ branchList bs, 1 ≤ b.long) →
    ((List.range fs.length).map fun j => TreeSpot.mk ((branchList bs)[j]?.getD .meet) (P ++ decimal o ++ [letter (k + j)]) 1 (splitCondition d g (fs[j]?.getD ""))).Sublist
      (branchSpots d g P o bs fs k)
  | .nil, fs, k, h, _ => by
    simp [branchList] at h
    have : fs = [] := List.eq_nil_of_length_eq_zero h.symm
    subst this
    simp
  | .cons m r, [], k, h, _ => by simp
  | .cons m r, i :: fs, k, h, hl => by
    have h' : (branchList r).length = fs.length := by simpa [branchList] using h
    have ih := heads_sublist (d := d) (g := g) (P := P) (o := o) (k := k + 1) h' (fun b hb => hl b (List.mem_cons_of_mem _ hb))
    have h1 := hl m (by simp [branchList])
    have hm : [TreeSpot.mk m (P ++ decimal o ++ [letter k]) 1 (splitCondition d g i)].Sublist (treeSpots d (P ++ decimal o ++ [letter k]) 1 (splitCondition d g i) m) :=
      List.singleton_sublist.2 (spots_self (x := ⟨m, _, 1, _⟩) (.inl h1))
    rw [branchSpots, List.length_cons, List.range_succ_eq_map, List.map_cons, List.map_map]
    have h3 := hm.append ih
    rw [List.singleton_append] at h3
    refine List.Sublist.trans (l₂ := _ :: _) ?_ h3
    simp [branchList, Function.comp_def, Nat.add_assoc, Nat.add_comm, Nat.add_left_comm]

omit T in
theorem flatMap_sublist {α β : Type} (f : α → List β) {a b : List α} (h : a.Sublist b) : (a.flatMap f).Sublist (b.flatMap f) := by
  induction h with
  | slnil => simp
  | cons x _ ih => rw [List.flatMap_cons]; exact ih.trans (List.sublist_append_right _ _)
  | cons_cons x _ ih => rw [List.flatMap_cons, List.flatMap_cons]; exact (List.Sublist.refl _).append ih

omit T in
theorem child_sublist {d : Diagram} {x y : TreeSpot} (h : Child d x y) : (y.all d).Sublist (x.all d) := by
  cases h with
  | next => exact List.sublist_cons_self _ _
  | @branch g bs p k j c i b h1 h2 =>
    refine .cons _ ?_
    have key : ∀ (bs : Branches) (fs : List String) (k' j : Nat), (branchList bs)[j]? = some b → fs[j]? = some i →
        (treeSpots d (p ++ decimal k ++ [letter (k' + j)]) 1 (splitCondition d g i) b).Sublist (branchSpots d g p k bs fs k') := by
      intro bs
      induction bs using Branches.rec (motive_1 := fun _ => True) with
      | nil => intro fs k' j h1; simp [branchList] at h1
      | cons m r _ ih =>
        intro fs k' j h1 h2
        cases fs with
        | nil => simp at h2
        | cons a fs =>
          rw [branchSpots]
          cases j with
          | zero =>
            simp [branchList] at h1 h2
            subst h1 h2
            exact List.sublist_append_left _ _
          | succ j =>
            have := ih fs (k' + 1) j (by simpa [branchList] using h1) (by simpa using h2)
            rw [show k' + 1 + j = k' + (j + 1) by omega] at this
            exact this.trans (List.sublist_append_right _ _)
      | _ => trivial
    have := key bs (outs g) 0 j h1 h2
    rwa [Nat.zero_add] at this

theorem TreeP.rows_all : ROWS = ((treeRoot s l).all d).flatMap TreeSpot.rows := by
  exact root_row T.begins T.tree

theorem TreeP.all_sublist {x : TreeSpot} (hx : OnTree d s l x) : (x.all d).Sublist ((treeRoot s l).all d) := by
  induction hx with
  | refl => exact .refl _
  | tail _ h ih => exact (child_sublist h).trans ih

omit T in
/-- The row of a place that has one. -/
def TreeSpot.row (x : TreeSpot) : Row := x.rows.headD (Row.mk "" "" "" "" "" "")

omit T in
theorem rows_row {x : TreeSpot} (h : 1 ≤ x.line.long) : x.rows = [x.row] := by
  obtain ⟨r, hr⟩ := rows_of_long h
  have := (spot_rows hr).2.2.2
  rw [TreeSpot.row, this]; rfl

include con in
/-- The first steps of the branches of a split, in the order of the table. -/
theorem TreeP.starts_eq {g : Node} {bs : Branches} {p : List Char} {k : Nat} {c : String} (hx : OnTree d s l ⟨.fork g bs, p, k, c⟩) :
    (List.filter (fun b => matchesSplit (String.ofList (p ++ decimal k)) b.order) ROWS) = (kids d ⟨.fork g bs, p, k, c⟩).map TreeSpot.row := by
  have tb := TreeP.table T con
  have nd : List.Nodup ROWS := tb.orders.of_map _
  have long : ∀ y ∈ kids d ⟨.fork g bs, p, k, c⟩, OnTree d s l y ∧ 1 ≤ y.line.long := by
    intro y hy
    have hc := (TreeP.kids_child T hx).2 hy
    have ho : OnTree d s l y := .tail hx hc
    refine ⟨ho, ?_⟩
    cases hc with
    | branch h1 h2 => exact (TreeP.fine T ho).first (by simp) rfl
  have sub : ((kids d ⟨.fork g bs, p, k, c⟩).map TreeSpot.row).Sublist ROWS := by
    have ff := (TreeP.fine T hx).fits
    rw [Strand.Fits] at ff
    obtain ⟨k1, k2⟩ := fit_branches ff.2.2.2.2
    have hl : ∀ b ∈ branchList bs, 1 ≤ b.long := by
      intro b hb
      obtain ⟨j, hj⟩ := List.mem_iff_getElem?.1 hb
      have hlt := (List.getElem?_eq_some_iff.1 hj).1
      have ho : OnTree d s l _ := .tail hx (.branch hj (List.getElem?_eq_getElem (show j < (outs g).length by omega)))
      exact (TreeP.fine T ho).first (by simp) rfl
    have h1 := heads_sublist (d := d) (g := g) (P := p) (o := k) (k := 0) k1 hl
    simp only [Nat.zero_add] at h1
    have h2 : (kids d ⟨.fork g bs, p, k, c⟩).Sublist ((treeRoot s l).all d) := (h1.cons _).trans (TreeP.all_sublist T hx)
    have h3 := flatMap_sublist TreeSpot.rows h2
    rw [← TreeP.rows_all T] at h3
    refine Eq.subst (motive := fun z : List Row => List.Sublist z ROWS) ?_ h3
    rw [List.map_eq_flatMap]
    exact List.flatMap_congr fun y hy => rows_row (long y hy).2
  symm
  refine List.Sublist.eq_of_length_le ?_ ?_
  · have := sub.filter fun b => matchesSplit (String.ofList (p ++ decimal k)) b.order
    rw [List.filter_eq_self.2] at this
    · exact this
    · intro r hr
      obtain ⟨y, hy, rfl⟩ := List.mem_map.1 hr
      have hm := sub.subset hr
      rw [matchesSplit_start tb hm]
      have hc := (TreeP.kids_child T hx).2 hy
      have hyr : y.row ∈ y.rows := by rw [rows_row (long y hy).2]; simp
      cases hc with
      | branch h1 h2 => exact (TreeP.starts T hx hm).2 ⟨_, _, _, h1, h2, hyr⟩
  · refine List.Subperm.length_le (List.subperm_of_subset (nd.filter _) ?_)
    intro r hr
    obtain ⟨hm, hr⟩ := List.mem_filter.1 hr
    rw [matchesSplit_start tb hm] at hr
    obtain ⟨j, b, i, h1, h2, h3⟩ := (TreeP.starts T hx hm).1 hr
    refine List.mem_map.2 ⟨_, (TreeP.kids_child T hx).1 (.branch h1 h2), ?_⟩
    rw [rows_row (spot_rows h3).2.2.1, List.mem_singleton] at h3
    exact h3.symm

omit T in
/-- The flows which the import adds for a row. -/
def waysOf (d : Diagram) (x : TreeSpot) : List (String × String) :=
  match x.line with
  | .step _ rest => (x.name, (TreeSpot.mk rest x.pre (x.num + 1) "").name) ::
      (match rest with
      | .fork g bs => (kids d ⟨.fork g bs, x.pre, x.num + 1, ""⟩).map fun z => ((TreeSpot.mk (.fork g bs) x.pre (x.num + 1) "").name, z.name)
      | _ => [])
  | _ => []

include con in
theorem TreeP.plan {x : TreeSpot} (hx : OnTree d s l x) {r : Row} (h : r ∈ x.rows) {dr : Diagram} {gw : Option (String × Option String)}
    {w : List (String × String)} (hp : Plan (dictOf ROWS) (List.map Row.order ROWS) dr r.order gw w) : w = waysOf d x := by
  have tb := TreeP.table T con
  have hm := (TreeP.mem_rows T).2 ⟨x, hx, h⟩
  have fx := TreeP.fine T hx
  by_cases ht : r.terminated = "yes"
  · have hk := get?_dictOf tb hm
    have e : waysOf d x = [] := by
      obtain ⟨m, p, k, c⟩ := x
      cases m with
      | step n rest => simp [TreeSpot.rows] at h; subst h; simp [Cell.row] at ht
      | _ => rfl
    rw [e]
    cases hp with
    | stop => rfl
    | sequence h1 h2 => rw [hk] at h1; cases h1; exact absurd ht h2
    | split h1 h2 => rw [hk] at h1; cases h1; exact absurd ht h2
    | join h1 h2 => rw [hk] at h1; cases h1; exact absurd ht h2
    | newJoin h1 h2 => rw [hk] at h1; cases h1; exact absurd ht h2
  · obtain ⟨n, rest, p, k, c, rfl, -⟩ := open_row h ht
    have hn : OnTree d s l ⟨rest, p, k + 1, ""⟩ := .tail hx .next
    rcases TreeP.after T hx with ⟨h1, h2⟩ | ⟨g, bs, rfl, no, h1, -⟩
    · have := Plan.of_sequence tb hm hp fx.pref.ends (spot_rows h).1 ht h2
      rw [this, name_row h, ← name_long (x := ⟨rest, p, k + 1, ""⟩) h1]
      cases rest <;> simp [waysOf, Strand.long] at h1 ⊢
    · obtain ⟨ty, -, -, e⟩ := Plan.of_split tb hm hp fx.pref.ends (spot_rows h).1 ht no (.inr h1)
      rw [e, TreeP.starts_eq T con hn, List.map_map]
      have e1 : r.order ++ "_split" = (TreeSpot.mk (.fork g bs) p (k + 1) "").name := by rw [(spot_rows h).2.1]; rfl
      rw [e1, name_row h]
      refine congrArg (List.cons _) (List.map_congr_left fun y hy => ?_)
      have hc := (TreeP.kids_child T hn).2 hy
      have ho : OnTree d s l y := .tail hn hc
      have hl : 1 ≤ y.line.long := by cases hc with | branch => exact (TreeP.fine T ho).first (by simp) rfl
      have : y.row.order = y.name := name_row (by rw [rows_row hl]; simp)
      simp [this]

include con in
theorem TreeP.row_ways {d0 d1 d2 d' : Diagram} {F : List (String × String)} (st : Stages ROWS d0 F d1 d2 d') {x : TreeSpot} (hx : OnTree d s l x) (hl : 1 ≤ x.line.long) :
    (∀ q ∈ waysOf d x, q ∈ F) ∧ Csv.leaving (x.name ++ "_split") F = Csv.leaving (x.name ++ "_split") (waysOf d x) := by
  obtain ⟨r, hr⟩ := rows_of_long hl
  obtain ⟨dr, gw, w, h1, h2, h3, -⟩ := st.plan (TreeP.table T con) ((TreeP.mem_rows T).2 ⟨x, hx, hr⟩)
  rw [TreeP.plan T con hx hr h1] at h2 h3
  rw [name_row hr] at h3
  exact ⟨h2, h3⟩

include con in
theorem TreeP.flows {d0 d1 d2 d' : Diagram} {F : List (String × String)} (st : Stages ROWS d0 F d1 d2 d') (q : String × String) :
    q ∈ F ↔ ∃ x y, OnTree d s l x ∧ y ∈ kids d x ∧ q = (x.name, y.name) := by
  constructor
  · intro hq
    obtain ⟨o, ho, dr, gw, w, hP, hw⟩ := st.rounds.origin q hq
    obtain ⟨r, hr, rfl⟩ := List.mem_map.1 ho
    obtain ⟨x, hx, hxr⟩ := (TreeP.mem_rows T).1 hr
    rw [TreeP.plan T con hx hxr hP] at hw
    obtain ⟨m, p, k, c⟩ := x
    cases m with
    | step n rest =>
      simp only [waysOf, List.mem_cons] at hw
      rcases hw with rfl | hw
      · exact ⟨_, _, hx, by simp [kids], rfl⟩
      · cases rest with
        | fork g bs =>
          obtain ⟨z, hz, rfl⟩ := List.mem_map.1 hw
          exact ⟨_, z, .tail hx .next, hz, rfl⟩
        | _ => simp at hw
    | _ => simp [waysOf] at hw
  · rintro ⟨x, y, hx, hy, rfl⟩
    obtain ⟨m, p, k, c⟩ := x
    cases m with
    | step n rest =>
      simp only [kids, List.mem_singleton] at hy
      subst hy
      exact (TreeP.row_ways T con st hx (by simp [Strand.long])).1 _ (by simp [waysOf])
    | fork g bs =>
      obtain ⟨n, k', c', rfl, hw⟩ := TreeP.fork_next T hx
      refine (TreeP.row_ways T con st hw (by simp [Strand.long])).1 _ ?_
      refine List.mem_cons_of_mem _ (List.mem_map.2 ⟨y, hy, rfl⟩)
    | _ => simp [kids] at hy

include con in
theorem TreeP.leaving {d0 d1 d2 d' : Diagram} {F : List (String × String)} (st : Stages ROWS d0 F d1 d2 d') {x : TreeSpot} (hx : OnTree d s l x) :
    Csv.leaving x.name F = (kids d x).map fun y => flowId x.name y.name := by
  have tb := TreeP.table T con
  have hu := tableUnder tb
  have nd : F.Nodup := (st.rounds.nodup hu tb.orders st.planted.inv (done := []) st.filled.named0 (fun _ h => h) tb.orders).1
  have from' : ∀ q ∈ F, q.1 = x.name → ∃ y ∈ kids d x, q = (x.name, y.name) := by
    intro q hq e
    obtain ⟨z, y, hz, hy, rfl⟩ := (TreeP.flows T con st q).1 hq
    have := TreeP.name_inj T hz hx e
    subst this
    exact ⟨y, hy, rfl⟩
  obtain ⟨m, p, k, c⟩ := x
  have stop : kids d ⟨m, p, k, c⟩ = [] → Csv.leaving (TreeSpot.mk m p k c).name F = (kids d ⟨m, p, k, c⟩).map fun y => flowId (TreeSpot.mk m p k c).name y.name := by
    intro e
    rw [e, List.map_nil, List.eq_nil_iff_forall_not_mem]
    intro f hf
    obtain ⟨t, ht, -⟩ := mem_leaving.1 hf
    obtain ⟨y, hy, -⟩ := from' _ ht rfl
    rw [e] at hy
    cases hy
  cases m with
  | step n rest =>
    have hm := (TreeP.flows T con st _).2 ⟨_, ⟨rest, p, k + 1, ""⟩, hx, by simp [kids], rfl⟩
    have : F.filter (·.1 = (TreeSpot.mk (.step n rest) p k c).name) = [((TreeSpot.mk (.step n rest) p k c).name, (TreeSpot.mk rest p (k + 1) "").name)] := by
      refine List.perm_singleton.1 ((List.perm_ext_iff_of_nodup (nd.filter _) (List.nodup_singleton _)).2 fun q => ?_)
      rw [List.mem_filter, List.mem_singleton]
      constructor
      · rintro ⟨h1, h2⟩
        obtain ⟨y, hy, rfl⟩ := from' q h1 (by simpa using h2)
        simp only [kids, List.mem_singleton] at hy
        rw [hy]
      · rintro rfl; exact ⟨hm, by simp⟩
    rw [Csv.leaving, this]
    rfl
  | fork g bs =>
    obtain ⟨n, k', c', rfl, hw⟩ := TreeP.fork_next T hx
    have h := (TreeP.row_ways T con st hw (by simp [Strand.long])).2
    have e : (TreeSpot.mk (.step n (.fork g bs)) p k' c').name ++ "_split" = (TreeSpot.mk (.fork g bs) p (k' + 1) c).name := rfl
    rw [e] at h
    rw [h]
    have ne : (TreeSpot.mk (.step n (.fork g bs)) p k' c').name ≠ (TreeSpot.mk (.fork g bs) p (k' + 1) c).name := by
      intro e
      have := TreeP.name_inj T hw hx e
      cases this
    rw [Csv.leaving, waysOf, List.filter_cons, if_neg (by simpa using ne), List.filter_eq_self.2]
    · rw [List.map_map]; rfl
    · intro q hq
      obtain ⟨y, -, rfl⟩ := List.mem_map.1 hq
      simp [TreeSpot.name]
  | _ => exact stop rfl

include con in
/-- The diagram is the one before the last clean-up. -/
theorem TreeP.same {d0 d1 d2 d' : Diagram} {F : List (String × String)} (st : Stages ROWS d0 F d1 d2 d') : d' = legacyAdjustment d1 := by
  have tb := TreeP.table T con
  have plain : ∀ r ∈ ROWS, ¬GotoRow r := fun r hr => TreeP.no_goto T hr
  have gone := st.no_goto plain
  have : d' = d2 := by
    refine st.cleaned.same ?_
    rw [gone]
    intro x hx hk
    rw [legacy_ids] at hx
    rw [legacy_inn, legacy_out, st.inn1, st.out1]
    have hno : x ∉ List.map Row.order ROWS := by
      intro hm
      obtain ⟨r, hr, rfl⟩ := List.mem_map.1 hm
      have := (st.looks2 tb hr (plain r hr)).2.kind
      rw [kindOf_row, gone] at this
      exact row_not_gateway this hk
    obtain ⟨-, h2⟩ := st.rounds.alive x hx (by rw [st.planted.ids, keys_dictOf]; exact hno)
    obtain ⟨f, hf⟩ := List.exists_mem_of_ne_nil _ h2
    obtain ⟨y, hy, -⟩ := mem_leaving.1 hf
    obtain ⟨z, w, hz, -, e⟩ := (TreeP.flows T con st _).1 hy
    cases e
    right
    rw [TreeP.leaving T con st hz, List.length_map]
    rcases TreeP.here T hz with hl | hl
    · obtain ⟨r, hr⟩ := rows_of_long hl
      exact absurd (List.mem_map.2 ⟨r, (TreeP.mem_rows T).2 ⟨z, hz, hr⟩, name_row hr⟩) hno
    · obtain ⟨m, p, k, c⟩ := z
      cases m with
      | fork g bs =>
        have ff := (TreeP.fine T hz).fits
        rw [Strand.Fits] at ff
        simp only [kids, List.length_map, List.length_range]
        exact ff.2.2.1.2.2.1
      | _ => simp [Strand.IsFork] at hl
  rw [this, gone]

include con in
/-- The outgoing flows of the imported nodes. -/
theorem TreeP.outs {d' : Diagram} (h : loadCsv ROWS {} = .ok d') {x : TreeSpot} (hx : OnTree d s l x) {n : Node} (hn : n ∈ d'.getNodes) (e : n.1 = x.name) :
    outs n = (kids d x).map fun y => flowId x.name y.name := by
  obtain ⟨d0, F, d1, d2, st⟩ := stages (TreeP.table T con) h
  obtain ⟨-, e2, -⟩ := id_of_node st.keep.inv hn
  rw [e2, TreeP.same T con st, legacy_out, st.out1, e, TreeP.leaving T con st hx]

include con in
theorem TreeP.ok : ∃ d', loadCsv ROWS {} = .ok d' :=
  (Props.C65_accepted _ (TreeP.table T con) (fun r hr => TreeP.steps T hr) (fun r hr => TreeP.no_goto T hr)).2 fun r hr ht => TreeP.continues T hr ht

include con in
theorem TreeP.consistent {d' : Diagram} (h : loadCsv ROWS {} = .ok d') : Consistent d' :=
  Props.C45_consistent _ (TreeP.table T con) (fun r hr => TreeP.no_goto T hr) d' h

include con in
/-- The targets of the flows of the imported diagram. -/
theorem TreeP.target {d' : Diagram} (h : loadCsv ROWS {} = .ok d') {n m : Node} (hn : n ∈ d'.getNodes) {b : String} (hi : flowId n.1 b ∈ Spec.outs n) :
    LeadsTo d' (flowId n.1 b) (some m) ↔ m ∈ d'.getNodes ∧ m.1 = b := by
  have tb := TreeP.table T con
  have c := TreeP.consistent T con h
  obtain ⟨d0, F, d1, d2, st⟩ := stages tb h
  obtain ⟨q, hq, ⟨a1, b1, e1, g1, g2, g3, g4⟩, -⟩ := c.outFlow n hn _ hi
  have hb : q.1 = b := by
    obtain ⟨ed, k1, k2, k3, -⟩ := getFlowById_some st.keep.inv.sane g1
    have := (d'.graph.flows_attrs_perm st.keep.inv.sane.wf).mem_iff.2 (List.mem_map_of_mem k1)
    obtain ⟨f', h4, h5⟩ := List.mem_map.1 this
    obtain ⟨u, hu, v, hv, sf, i1, i2, i3, -⟩ := Props.C45_flows _ tb d' h f' h4
    have e : f'.2.2 = e1 := h5.trans k2
    rw [e] at i1 i2 i3
    rw [g3] at i2
    rw [g4] at i3
    rw [k2] at k3
    have k3 : e1.id = some (flowId n.1 b) := k3
    rw [k3] at i1
    have e2 := Option.some.inj i2
    have e3 := Option.some.inj i3
    have := congrArg String.toList (Option.some.inj i1)
    rw [← e2, ← e3] at this
    simp only [flowId, String.toList_append] at this
    exact (String.toList_inj.1 (List.append_cancel_left this)).symm
  have hl : LeadsTo d' (flowId n.1 b) (some q) := ⟨q, hq, rfl, _, g1, g4⟩
  constructor
  · intro h'
    cases leadsTo_same c h' hl
    exact ⟨hq, hb⟩
  · rintro ⟨h1, h2⟩
    rw [c.node_eq h1 hq (h2.trans hb.symm)]
    exact hl

include con in
/-- The flows of the imported diagram, in their order. -/
theorem TreeP.goes {d' : Diagram} (h : loadCsv ROWS {} = .ok d') {x : TreeSpot} (hx : OnTree d s l x) {n m : Node} (hn : n ∈ d'.getNodes) (e : n.1 = x.name) (a : Nat) :
    Goes d' n a m ↔ ∃ y, (kids d x)[a]? = some y ∧ m ∈ d'.getNodes ∧ m.1 = y.name := by
  have ho := TreeP.outs T con h hx hn e
  unfold Goes
  constructor
  · rintro ⟨i, hi, hl⟩
    have hmem := List.mem_of_getElem? hi
    rw [ho, List.getElem?_map, Option.map_eq_some_iff] at hi
    obtain ⟨y, hy, rfl⟩ := hi
    rw [← e] at hl hmem
    exact ⟨y, hy, (TreeP.target T con h hn hmem).1 hl⟩
  · rintro ⟨y, hy, h1, h2⟩
    have hi : (Spec.outs n)[a]? = some (flowId n.1 y.name) := by rw [ho, List.getElem?_map, hy, e]; rfl
    exact ⟨_, hi, (TreeP.target T con h hn (List.mem_of_getElem? hi)).2 ⟨h1, h2⟩⟩

/-! ## The nodes of the process -/

omit T in
/-- The node at a place. -/
def TreeSpot.At (x : TreeSpot) (n : Node) : Prop := x.line.first none = some n

theorem TreeP.all_nodes : ((treeRoot s l).all d).map (fun x => x.line.first none) = (Strand.step s l).nodes.map some := by
  have hf := T.structured.fits
  rw [Strand.Fits] at hf
  have := nodes_spots (d := d) (j := none) l [] 1 "" T.tree hf.2.2.2.2.1
  show (treeSpots d [] 0 "" (.step s l)).map (fun x => x.line.first none) = _
  rw [treeSpots, List.map_cons, this, Strand.nodes]
  rfl

/-- Every node has a place. -/
theorem TreeP.place {n : Node} (hn : n ∈ d.getNodes) : ∃ x, OnTree d s l x ∧ x.At n := by
  have : some n ∈ (Strand.step s l).nodes.map some := List.mem_map_of_mem (T.structured.nodes.mem_iff.2 hn)
  rw [← TreeP.all_nodes T] at this
  obtain ⟨x, hx, e⟩ := List.mem_map.1 this
  exact ⟨x, spots_reached _ _ _ _ hx, e⟩

/-- Every place has a node. -/
theorem TreeP.node {x : TreeSpot} (hx : OnTree d s l x) : ∃ n ∈ d.getNodes, x.At n := by
  have := List.mem_map_of_mem (f := fun x : TreeSpot => x.line.first none) (reached_spots hx (TreeP.here T hx))
  rw [TreeP.all_nodes T] at this
  obtain ⟨n, hn, e⟩ := List.mem_map.1 this
  exact ⟨n, T.structured.nodes.mem_iff.1 hn, e.symm⟩

include con in
/-- A node has one place. -/
theorem TreeP.place_inj {x y : TreeSpot} (hx : OnTree d s l x) (hy : OnTree d s l y) {n : Node} (h1 : x.At n) (h2 : y.At n) : x = y := by
  have nd : (((treeRoot s l).all d).map (fun x => x.line.first none)).Nodup := by
    rw [TreeP.all_nodes T]
    refine List.Nodup.map (Option.some_injective _) ?_
    exact T.structured.nodes.nodup_iff.2 (con.ids.of_map _)
  exact List.inj_on_of_nodup_map nd (reached_spots hx (TreeP.here T hx)) (reached_spots hy (TreeP.here T hy)) (h1.trans h2.symm)

include con in
/-- The flows of the process, in their order. -/
theorem TreeP.goes_here {x : TreeSpot} (hx : OnTree d s l x) {n m : Node} (h : x.At n) (a : Nat) : Goes d n a m ↔ ∃ y, (kids d x)[a]? = some y ∧ y.At m := by
  have ff := (TreeP.fine T hx).fits
  have same : ∀ {i : String} {o : Option Node}, LeadsTo d i o → (LeadsTo d i (some m) ↔ o = some m) := by
    intro i o ho
    constructor
    · intro h'
      obtain ⟨q, -, rfl, -⟩ := id ho
      rw [leadsTo_same con ho h']
    · rintro rfl; exact ho
  unfold Goes
  obtain ⟨b, p, k, c⟩ := x
  cases b with
  | step n' rest =>
    cases h
    rw [Strand.Fits] at ff
    obtain ⟨i, hi, hl⟩ := ff.2.2.2.1
    cases a with
    | zero => simp [hi, kids, same hl, TreeSpot.At]
    | succ a => simp [hi, kids]
  | stop n' =>
    cases h
    rw [Strand.Fits] at ff
    simp [ff.2.2.1, kids]
  | fork g bs =>
    cases h
    rw [Strand.Fits] at ff
    obtain ⟨k1, k2⟩ := fit_branches ff.2.2.2.2
    by_cases ha : a < (Spec.outs n).length
    · have hb : a < (branchList bs).length := by omega
      have hl := (k2 a _ _ (List.getElem?_eq_getElem hb) (List.getElem?_eq_getElem ha)).1
      simp [kids, ha, hb, same hl, TreeSpot.At]
    · have : (Spec.outs n)[a]? = none := List.getElem?_eq_none (by omega)
      simp [kids, this, ha]
  | _ => have hh := TreeP.here T hx; simp [Strand.IsFork, Strand.long] at hh

include con in
/-- Types and names of the imported nodes. -/
theorem TreeP.kept {d' : Diagram} (h : loadCsv ROWS {} = .ok d') {x : TreeSpot} (hx : OnTree d s l x) {n n' : Node} (ha : x.At n) (hn : n' ∈ d'.getNodes) (e : n'.1 = x.name) :
    Kept n n' := by
  have tb := TreeP.table T con
  have c := TreeP.consistent T con h
  have fx := TreeP.fine T hx
  have key : ∀ (cond : String) (b : Bool), x.rows = [(cellOf n cond).row (x.pre ++ decimal x.num) b] → HasRow n →
      some (rowType ((cellOf n cond).row (x.pre ++ decimal x.num) b)) = n.2.type → Kept n n' := by
    intro cond b hr hh hty
    have hmem : (cellOf n cond).row (x.pre ++ decimal x.num) b ∈ x.rows := by rw [hr]; simp
    have hm := (TreeP.mem_rows T).2 ⟨x, hx, hmem⟩
    obtain ⟨q, hq, e1, e2, e3⟩ := Props.C60_rows _ tb d' h _ hm (TreeP.no_goto T hm)
    have : n' = q := c.node_eq hn hq (by rw [e, e1, name_row hmem])
    subst this
    rw [Kept, if_pos hh, e2, hty, e3]
    refine ⟨rfl, ?_⟩
    have he : (rowType ((cellOf n cond).row (x.pre ++ decimal x.num) b) = "endEvent") = (n.2.type = some "endEvent") := by
      conv_rhs => rw [← hty, Option.some.injEq]
    simp only [he]
    rfl
  have zero : x.num ≠ 0 → ¬String.ofList (x.pre ++ decimal x.num) = "0" := by
    intro hk e0
    have : x.pre ++ decimal x.num = [] ++ decimal 0 := ofList_inj (by rw [e0]; rfl)
    exact hk (Props.step_eq fx.pref .nil rfl this).2
  have typed : ∀ (cond : String) (b : Bool), x.num ≠ 0 → (IsActivity n ∧ b = false) ∨ (n.2.type = some "endEvent" ∧ b = true) →
      some (rowType ((cellOf n cond).row (x.pre ++ decimal x.num) b)) = n.2.type := by
    intro cond b hk ht
    rw [rowType, if_neg (show ¬((cellOf n cond).row _ _).order = "0" from zero hk)]
    rcases ht with ⟨ht | ht, rfl⟩ | ⟨ht, rfl⟩ <;> simp [Cell.row, cellOf, caption, ht]
  obtain ⟨b, p, k, cd⟩ := x
  have hk : (∀ u v, b ≠ .step u v) → k ≠ 0 := by
    intro hb hk
    have := fx.zero hk
    simp only [treeRoot, TreeSpot.mk.injEq] at this
    exact hb _ _ this.1
  cases b with
  | step n0 rest =>
    cases ha
    by_cases hk : k = 0
    · have := fx.zero hk
      simp only [treeRoot, TreeSpot.mk.injEq, Strand.step.injEq] at this
      obtain ⟨⟨rfl, rfl⟩, rfl, rfl, rfl⟩ := this
      exact key _ _ rfl (by simp [HasRow, T.begins]) (by simp [rowType, Cell.row, T.begins, decimal])
    · have := fx.tree hk
      rw [Strand.IsTree] at this
      exact key _ _ rfl (by rcases this.1 with e | e <;> simp [HasRow, e]) (typed _ _ hk (.inl ⟨this.1, rfl⟩))
  | stop n0 =>
    cases ha
    have hk := hk (by simp)
    have := fx.tree hk
    rw [Strand.IsTree] at this
    exact key _ _ rfl (by simp [HasRow, this]) (typed _ _ hk (.inr ⟨this, rfl⟩))
  | fork g bs =>
    cases ha
    have := fx.tree (hk (by simp))
    rw [Strand.IsTree] at this
    rw [Kept, if_neg (gateway_silent this.1).1]
    rcases (Props.C60_nodes _ tb d' h).2 n' hn with ⟨r, hr, -, er⟩ | ⟨-, hg⟩
    · have := tb.alnum r hr '_' (by rw [er, e]; simp [TreeSpot.name])
      exact absurd this (by decide)
    · simp [IsGateway, gatewayTypes] at hg ⊢
      tauto
  | _ => have hh := TreeP.here T hx; simp [Strand.IsFork, Strand.long] at hh

include con in
/-- The type of an imported split. -/
theorem TreeP.parallel {d' : Diagram} (h : loadCsv ROWS {} = .ok d') {g : Node} {bs : Branches} {p : List Char} {k : Nat} {cd : String} (hx : OnTree d s l ⟨.fork g bs, p, k, cd⟩)
    {n' : Node} (hn : n' ∈ d'.getNodes) (e : n'.1 = (TreeSpot.mk (.fork g bs) p k cd).name) :
    n'.2.type = some "parallelGateway" ↔ ∀ a ∈ Spec.outs g, ∀ x ∈ (splitCondition d g a).toList, White x := by
  have tb := TreeP.table T con
  have c := TreeP.consistent T con h
  have ff := (TreeP.fine T hx).fits
  rw [Strand.Fits] at ff
  obtain ⟨k1, k2⟩ := fit_branches ff.2.2.2.2
  have two := ff.2.2.1.2.2.1
  obtain ⟨n, k', c', rfl, hw⟩ := TreeP.fork_next T hx
  have hr : (cellOf n c').row (p ++ decimal k') false ∈ (TreeSpot.mk (.step n (.fork g bs)) p k' c').rows := by simp [TreeSpot.rows]
  have hm := (TreeP.mem_rows T).2 ⟨_, hw, hr⟩
  have fw := (TreeP.fine T hw).pref
  rcases TreeP.after T hw with ⟨h1, -⟩ | ⟨-, -, -, no, yes, -⟩
  · simp [Strand.long] at h1
  have hbs := TreeP.starts_eq T con hx
  have hB : Spec.Csv.Branches ROWS (p ++ decimal (k' + 1)) ((kids d ⟨.fork g bs, p, k' + 1, cd⟩).map TreeSpot.row) := by
    rw [← hbs]
    have nd : List.Nodup ROWS := tb.orders.of_map _
    refine ⟨nd.filter _, fun b => ?_⟩
    rw [List.mem_filter]
    constructor
    · rintro ⟨h1, h2⟩; exact ⟨h1, (matchesSplit_start tb h1).1 h2⟩
    · rintro ⟨h1, h2⟩; exact ⟨h1, (matchesSplit_start tb h1).2 h2⟩
  obtain ⟨q, hq, e1, -, h2, -⟩ := Props.C46_gateway_type _ tb d' h _ hm (by simp [Cell.row]) p k' (branch_prefix fw) (spot_rows hr).1 no (.inr yes) _ hB
    (by simp [kids]; exact two)
  have : n' = q := c.node_eq hn hq (by rw [e, e1, (spot_rows hr).2.1]; rfl)
  subst this
  rw [h2]
  have cond : ∀ j (hj : j < (Spec.outs g).length), ∃ y, (kids d ⟨.fork g bs, p, k' + 1, cd⟩)[j]? = some y ∧ y.row.condition = splitCondition d g (Spec.outs g)[j] := by
    intro j hj
    have hb : j < (branchList bs).length := by omega
    have hc : Child d ⟨.fork g bs, p, k' + 1, cd⟩ _ := .branch (List.getElem?_eq_getElem hb) (List.getElem?_eq_getElem hj)
    have ho : OnTree d s l _ := .tail hx hc
    have hl := (TreeP.fine T ho).first (by simp) rfl
    refine ⟨_, by simp [kids, hj]; rfl, ?_⟩
    simp only [List.getElem?_eq_getElem hb, Option.getD_some] at hl ⊢
    generalize (branchList bs)[j] = b at hl ⊢
    cases b <;> simp [Strand.long] at hl <;> simp [TreeSpot.row, TreeSpot.rows, Cell.row, cellOf]
  have all : (∀ b ∈ (kids d ⟨.fork g bs, p, k' + 1, cd⟩).map TreeSpot.row, Says b "") ↔ ∀ a ∈ Spec.outs g, ∀ x ∈ (splitCondition d g a).toList, White x := by
    constructor
    · intro hb a ha
      obtain ⟨j, hj, rfl⟩ := List.mem_iff_getElem.1 ha
      obtain ⟨y, hy, ey⟩ := cond j hj
      rw [← ey]
      exact (says_blank _).1 (hb _ (List.mem_map_of_mem (List.mem_of_getElem? hy)))
    · intro hu b hb
      obtain ⟨y, hy, rfl⟩ := List.mem_map.1 hb
      obtain ⟨j, hj⟩ := List.mem_iff_getElem?.1 hy
      have hlt : j < (Spec.outs g).length := by
        have := (List.getElem?_eq_some_iff.1 hj).1
        simpa [kids] using this
      obtain ⟨y', hy', ey⟩ := cond j hlt
      rw [hj] at hy'
      cases hy'
      rw [says_blank, ey]
      exact hu _ (List.getElem_mem hlt)
  rw [all]
  constructor
  · exact fun h => h.2
  · intro hu
    refine ⟨?_, hu⟩
    have hb := all.2 hu
    have no : ∀ w : String, w ≠ "" → (∀ c ∈ w.toList, isWhite c = false) → ¬∃ b ∈ (kids d ⟨.fork g bs, p, k' + 1, cd⟩).map TreeSpot.row, Says b w := by
      rintro w hw hwc ⟨b, hb1, hb2⟩
      have e1 := (Props.says_iff b w hwc).1 hb2
      have e2 := (Props.says_iff b "" (by simp)).1 (hb b hb1)
      exact hw (e1.symm.trans e2)
    rintro ⟨-, ⟨h3, -⟩ | h3⟩
    · exact no "yes" (by decide) (by decide) h3
    · exact no "else" (by decide) (by decide) h3

include con in
/-- The condition of an imported flow. -/
theorem TreeP.condition {d' : Diagram} (h : loadCsv ROWS {} = .ok d') {g : Node} {bs : Branches} {p : List Char} {k : Nat} {cd : String} (hx : OnTree d s l ⟨.fork g bs, p, k, cd⟩)
    {n' : Node} (hn : n' ∈ d'.getNodes) (e : n'.1 = (TreeSpot.mk (.fork g bs) p k cd).name) {i : Nat} {a : String} (ha : (Spec.outs g)[i]? = some a) :
    ∃ b fl, (Spec.outs n')[i]? = some b ∧ d'.getFlowById b = .ok (some fl) ∧
      fl.2.2.conditionExpression.map (·.expr) = if splitCondition d g a = "" then none else some (splitCondition d g a) := by
  have tb := TreeP.table T con
  have c := TreeP.consistent T con h
  obtain ⟨d0, F, d1, d2, st⟩ := stages tb h
  have ff := (TreeP.fine T hx).fits
  rw [Strand.Fits] at ff
  obtain ⟨k1, k2⟩ := fit_branches ff.2.2.2.2
  have hi := (List.getElem?_eq_some_iff.1 ha).1
  have hb : i < (branchList bs).length := by omega
  have hc : Child d ⟨.fork g bs, p, k, cd⟩ ⟨(branchList bs)[i], p ++ decimal k ++ [letter i], 1, splitCondition d g a⟩ := .branch (List.getElem?_eq_getElem hb) ha
  have ho : OnTree d s l _ := .tail hx hc
  have hl := (TreeP.fine T ho).first (by simp) rfl
  have hkid : (kids d ⟨.fork g bs, p, k, cd⟩)[i]? = some ⟨(branchList bs)[i], p ++ decimal k ++ [letter i], 1, splitCondition d g a⟩ := by
    simp only [kids, List.getElem?_map, List.getElem?_range hi, Option.map_some, ha, List.getElem?_eq_getElem hb, Option.getD_some]
  generalize hy : TreeSpot.mk (branchList bs)[i] (p ++ decimal k ++ [letter i]) 1 (splitCondition d g a) = y at hc ho hl hkid
  have hrow : y.row ∈ y.rows := by rw [rows_row hl]; simp
  have hcond : y.row.condition = splitCondition d g a := by
    subst hy
    generalize (branchList bs)[i] = b at hl ⊢
    cases b <;> simp [Strand.long] at hl <;> simp [TreeSpot.row, TreeSpot.rows, Cell.row, cellOf]
  have hm := (TreeP.mem_rows T).2 ⟨y, ho, hrow⟩
  have hout := TreeP.outs T con h hx hn e
  have hbid : (Spec.outs n')[i]? = some (flowId n'.1 y.name) := by rw [hout, List.getElem?_map, hkid, e]; rfl
  obtain ⟨q, hq, ⟨a1, b1, fl, g1, g2, g3, g4⟩, -⟩ := c.outFlow n' hn _ (List.mem_of_getElem? hbid)
  have hqy := ((TreeP.target T con h hn (List.mem_of_getElem? hbid)).1 ⟨q, hq, rfl, _, g1, g4⟩).2
  refine ⟨_, _, hbid, g1, ?_⟩
  obtain ⟨f', hfl, ef⟩ : ∃ f' ∈ d'.getFlows, f'.2.2 = fl := by
    obtain ⟨ed, m1, m2, -⟩ := getFlowById_some st.keep.inv.sane g1
    have := (d'.graph.flows_attrs_perm st.keep.inv.sane.wf).mem_iff.2 (List.mem_map_of_mem m1)
    obtain ⟨f', h4, h5⟩ := List.mem_map.1 this
    exact ⟨f', h4, h5.trans m2⟩
  have htgt : fl.targetRef = some y.row.order := by
    have : fl.targetRef = some q.1 := g4
    rw [this, hqy, name_row hrow]
  by_cases hcnd : splitCondition d g a = ""
  · rw [if_pos hcnd]
    cases hce : fl.conditionExpression with
    | none => rfl
    | some ce =>
      exfalso
      obtain ⟨hne, r, hr1, -, hr2, hr3⟩ := Props.C58_conditions _ tb d' h f' hfl ce (by rw [ef]; exact hce)
      rw [ef] at hr3
      rcases hr3 with hr3 | hr3
      · have g3 : fl.sourceRef = some n'.1 := g3
        rw [g3] at hr3
        have e3 := Option.some.inj hr3
        have := tb.alnum r hr1 '_' (by rw [← e3, e]; simp [TreeSpot.name])
        revert this
        decide
      · rw [htgt] at hr3
        have e3 := List.inj_on_of_nodup_map tb.orders hm hr1 (Option.some.inj hr3)
        rw [← e3] at hr2
        exact hne (by rw [← hr2, hcond]; exact hcnd)
  · rw [if_neg hcnd]
    obtain ⟨id, -, hce⟩ := Props.C58_carried _ tb d' h f' hfl _ hm (by rw [ef]; exact htgt) (by rw [hcond]; exact hcnd)
    show fl.conditionExpression.map (·.expr) = _
    rw [← ef, hce, hcond]
    rfl

end

end Bpmn.Csv

namespace Bpmn.Props
open Bpmn.Spec Bpmn.Spec.Csv Bpmn.Csv

/-- **C129.** A process without joins is exported to a table which can be imported, and the result is a copy of the process: its nodes correspond to each other one to one,
with types and names as far as the table has them, and so do the flows, in the order in which they leave the nodes. The copy of a gateway is parallel exactly if the
conditions of its branches are blank, and its flows have exactly these conditions. -/
theorem C129_tree_copy (d : Diagram) (s : Node) (l : Strand) (c : Consistent d) (T : TreeProcess d s l) :
    ∃ rows d' φ, (∃ N, ∀ fuel ≥ N, exportRows d fuel = .ok rows) ∧ loadCsv rows {} = .ok d' ∧ Consistent d' ∧ (d.getNodes.map φ).Perm d'.getNodes ∧
      ∀ n ∈ d.getNodes, Kept n (φ n) ∧ (∀ m ∈ d.getNodes, ∀ i, Goes d n i m ↔ Goes d' (φ n) i (φ m)) ∧
        (IsGateway n → ((φ n).2.type = some "parallelGateway" ↔ ∀ a ∈ outs n, ∀ x ∈ (splitCondition d n a).toList, White x) ∧
          ∀ (i : Nat) (a : String), (outs n)[i]? = some a → ∃ b fl, (outs (φ n))[i]? = some b ∧ d'.getFlowById b = .ok (some fl) ∧
            fl.2.2.conditionExpression.map (·.expr) = if splitCondition d n a = "" then none else some (splitCondition d n a)) := by
  obtain ⟨d', hd⟩ := TreeP.ok T c
  have c' := TreeP.consistent T c hd
  have nodes' : ∀ a, (∃ n ∈ d'.getNodes, n.1 = a) ↔ ∃ x, OnTree d s l x ∧ x.name = a := fun a =>
    (C113_nodes (TreeP.gotoTable T c) (TreeP.splitTable T) (TreeP.noTurn T) d' hd a).trans (TreeP.tableNode T)
  have ex : ∀ n : Node, ∃ n' : Node, n ∈ d.getNodes → n' ∈ d'.getNodes ∧ ∃ x, OnTree d s l x ∧ x.At n ∧ n'.1 = x.name := by
    intro n
    by_cases h : n ∈ d.getNodes
    · obtain ⟨x, hx, ha⟩ := TreeP.place T h
      obtain ⟨n', h1, h2⟩ := (nodes' _).2 ⟨x, hx, rfl⟩
      exact ⟨n', fun _ => ⟨h1, x, hx, ha, h2⟩⟩
    · exact ⟨n, fun h' => absurd h' h⟩
  choose φ hφ using ex
  refine ⟨_, d', φ, C96_rows d _ c T.structured, hd, c', ?_, ?_⟩
  · have nd : d.getNodes.Nodup := c.ids.of_map _
    refine (List.perm_ext_iff_of_nodup ?_ (c'.ids.of_map _)).2 ?_
    · refine nd.map_on ?_
      intro a ha b hb e
      obtain ⟨-, x, hx, a1, h1⟩ := hφ a ha
      obtain ⟨-, y, hy, a2, h2⟩ := hφ b hb
      have : x = y := TreeP.name_inj T hx hy (by rw [← h1, ← h2, e])
      subst this
      exact Option.some.inj (a1.symm.trans a2)
    · intro n'
      constructor
      · intro h
        obtain ⟨n, hn, rfl⟩ := List.mem_map.1 h
        exact (hφ n hn).1
      · intro h
        obtain ⟨x, hx, e⟩ := (nodes' n'.1).1 ⟨n', h, rfl⟩
        obtain ⟨n, hn, ha⟩ := TreeP.node T hx
        obtain ⟨h1, y, hy, a2, h2⟩ := hφ n hn
        refine List.mem_map.2 ⟨n, hn, c'.node_eq h1 h ?_⟩
        rw [h2, ← e, TreeP.place_inj T c hx hy ha a2]
  · intro n hn
    obtain ⟨h1, x, hx, a1, h2⟩ := hφ n hn
    refine ⟨TreeP.kept T c hd hx a1 h1 h2, ?_, ?_⟩
    · intro q hq i
      obtain ⟨k1, y, hy, a2, k2⟩ := hφ q hq
      rw [TreeP.goes_here T c hx a1, TreeP.goes T c hd hx h1 h2]
      constructor
      · rintro ⟨z, b1, b2⟩
        have hz : OnTree d s l z := .tail hx ((TreeP.kids_child T hx).2 (List.mem_of_getElem? b1))
        exact ⟨z, b1, k1, by rw [k2, TreeP.place_inj T c hz hy b2 a2]⟩
      · rintro ⟨z, b1, -, b2⟩
        have hz : OnTree d s l z := .tail hx ((TreeP.kids_child T hx).2 (List.mem_of_getElem? b1))
        have := TreeP.name_inj T hz hy (b2.symm.trans k2)
        subst this
        exact ⟨z, b1, a2⟩
    · intro hg
      obtain ⟨b, p, k, cd⟩ := x
      have fx := TreeP.fine T hx
      have silent := (gateway_silent hg).1
      cases b with
      | fork g bs =>
        cases a1
        exact ⟨TreeP.parallel T c hd hx h1 h2, fun i a ha => TreeP.condition T c hd hx h1 h2 ha⟩
      | step n0 rest =>
        cases a1
        exfalso
        by_cases hk : k = 0
        · have := fx.zero hk
          simp only [treeRoot, TreeSpot.mk.injEq, Strand.step.injEq] at this
          rw [this.1.1] at silent
          exact silent (by simp [HasRow, T.begins])
        · have := fx.tree hk
          rw [Strand.IsTree] at this
          exact silent (by rcases this.1 with e | e <;> simp [HasRow, e])
      | stop n0 =>
        cases a1
        exfalso
        have hk : k ≠ 0 := fun hk => by
          have := fx.zero hk
          simp [treeRoot] at this
        have := fx.tree hk
        rw [Strand.IsTree] at this
        exact silent (by simp [HasRow, this])
      | _ => have hh := TreeP.here T hx; simp [Strand.IsFork, Strand.long] at hh

/-! ## An example -/

/-- An order is packed, and then shipped and paid in parallel, or refused, or forgotten. -/
def branchyOps : List Op :=
  [.createNew "d" "D", .addProcess "p" false true "None" "PL" "P",
   .addStartEvent "P" "begin" none false true (some "s") "u1" "u2", .addTask "P" "order" (some "t0") "u",
   .addExclusiveGateway "P" "g" "Diverging" (some "f5") none "g", .addTask "P" "pack" (some "t1") "u",
   .addParallelGateway "P" "h" "Diverging" (some "h") "u", .addTask "P" "ship" (some "t2") "u", .addEndEvent "P" "shipped" none (some "e1") "u" "v",
   .addSubprocess "P" "bill" false false (some "t3") "u", .addEndEvent "P" "paid" none (some "e2") "u" "v",
   .addTask "P" "explain" (some "t4") "u", .addEndEvent "P" "refused" none (some "e3") "u" "v", .addEndEvent "P" "forgotten" none (some "e4") "u" "v",
   .addSequenceFlow "P" "s" "t0" "" "f1", .addSequenceFlow "P" "t0" "g" "" "f2",
   .addSequenceFlow "P" "g" "t1" "large" "f3", .addSequenceFlow "P" "g" "t4" "odd" "f4", .addSequenceFlow "P" "g" "e4" "small" "f5",
   .addSequenceFlow "P" "t1" "h" "" "f6", .addSequenceFlow "P" "h" "t2" "" "f7", .addSequenceFlow "P" "h" "t3" "" "f8",
   .addSequenceFlow "P" "t2" "e1" "" "f9", .addSequenceFlow "P" "t3" "e2" "" "f10", .addSequenceFlow "P" "t4" "e3" "" "f11"]

theorem branchy_allowed : AllowedHistory {} branchyOps := by
  simp [branchyOps, AllowedHistory, Allowed, step, declaredNode, declaredFlow, directionArg, directions, chosen]

def branchyLine (d : Diagram) : Strand :=
  let n := nodeOf d
  .step (n "t0") (.fork (n "g")
    (.cons (.step (n "t1") (.fork (n "h") (.cons (.step (n "t2") (.stop (n "e1"))) (.cons (.step (n "t3") (.stop (n "e2"))) .nil))))
    (.cons (.step (n "t4") (.stop (n "e3"))) (.cons (.stop (n "e4")) .nil))))

mutual
def IsTreeB : Strand → Bool
  | .stop e => decide (e.2.type = some "endEvent")
  | .step n rest => decide (IsActivity n) && IsTreeB rest
  | .fork s bs => decide (IsGateway s) && AreTreesB bs
  | _ => false

def AreTreesB : Spec.Branches → Bool
  | .nil => true
  | .cons l r => IsTreeB l && decide (1 ≤ l.long ∧ l.long ≤ 10) && AreTreesB r
end

mutual
theorem isTree_of : ∀ {l : Strand}, IsTreeB l = true → l.IsTree
  | .stop e, h => by simpa [IsTreeB, Strand.IsTree] using h
  | .step n rest, h => by
    simp only [IsTreeB, Bool.and_eq_true, decide_eq_true_eq] at h
    exact ⟨h.1, isTree_of h.2⟩
  | .fork s bs, h => by
    simp only [IsTreeB, Bool.and_eq_true, decide_eq_true_eq] at h
    exact ⟨h.1, areTrees_of h.2⟩
  | .meet, h => by simp [IsTreeB] at h
  | .block _ _ _, h => by simp [IsTreeB] at h

theorem areTrees_of : ∀ {bs : Spec.Branches}, AreTreesB bs = true → bs.AreTrees
  | .nil, _ => trivial
  | .cons l r, h => by
    simp only [AreTreesB, Bool.and_eq_true, decide_eq_true_eq] at h
    exact ⟨isTree_of h.1.1, h.1.2.1, h.1.2.2, areTrees_of h.2⟩
end

theorem tree_of_check {d : Diagram} {s : Node} {l : Strand} (h0 : structuredB (.step s l) d = true)
    (h : (decide (s.2.type = some "startEvent") && IsTreeB l && d.getNodes.all fun n => !decide (HasRow n) || !isGoto (caption n).1) = true) : TreeProcess d s l := by
  simp only [Bool.and_eq_true, decide_eq_true_eq, List.all_eq_true] at h
  refine ⟨structured_of_check h0, h.1.1, isTree_of h.1.2, ?_⟩
  intro n hn hr hg
  have := h.2 n hn
  simp only [hr, decide_true, Bool.not_true, Bool.false_or, Bool.not_eq_true'] at this
  rw [(isGoto_iff (Row.mk "" (caption n).1 "" "" "" "")).2 hg] at this
  cases this

set_option maxRecDepth 8000 in
theorem branchy_example : TreeProcess (Op.run {} branchyOps) (nodeOf (Op.run {} branchyOps) "s") (branchyLine (Op.run {} branchyOps)) := tree_of_check (by decide +kernel) (by decide +kernel)

set_option maxRecDepth 8000 in
/-- The hypotheses hold for it; its table. -/
example : Consistent (Op.run {} branchyOps) ∧ TreeProcess (Op.run {} branchyOps) (nodeOf (Op.run {} branchyOps) "s") (branchyLine (Op.run {} branchyOps)) ∧
    (∃ rows, exportRows (Op.run {} branchyOps) 20 = .ok rows ∧ (rows.map (fun r => (r.order, r.activity, r.condition, r.terminated)) == [("0", "begin", "", ""), ("1", "order", "", ""),
      ("2a1", "pack", "large", ""), ("2a2a1", "ship", "", ""), ("2a2a2", "shipped", "", "yes"), ("2a2b1", "bill", "", ""), ("2a2b2", "paid", "", "yes"),
      ("2b1", "explain", "odd", ""), ("2b2", "refused", "", "yes"), ("2c1", "forgotten", "else", "yes")]) = true) :=
  ⟨consistent_of_allowed _ branchy_allowed, branchy_example, ok_of_check _ (by decide +kernel)⟩

/-! ## Branches that begin with a gateway -/

/-- Orders are taken or refused; in one branch, numbered `swap`, the next gateway comes at once. -/
def bareOps (swap : Bool) : List Op :=
  [.createNew "d" "D", .addProcess "p" false true "None" "PL" "P",
   .addStartEvent "P" "begin" none false true (some "s") "u1" "u2", .addTask "P" "order" (some "t0") "u",
   .addExclusiveGateway "P" "g" "Diverging" none none "g", .addParallelGateway "P" "h" "Diverging" (some "h") "u",
   .addEndEvent "P" "shipped" none (some "e1") "u" "v", .addEndEvent "P" "paid" none (some "e2") "u" "v", .addEndEvent "P" "refused" none (some "e3") "u" "v",
   .addSequenceFlow "P" "s" "t0" "" "f1", .addSequenceFlow "P" "t0" "g" "" "f2"] ++
  (if swap then [.addSequenceFlow "P" "g" "e3" "no" "f3", .addSequenceFlow "P" "g" "h" "yes" "f4"]
    else [.addSequenceFlow "P" "g" "h" "yes" "f3", .addSequenceFlow "P" "g" "e3" "no" "f4"]) ++
  [.addSequenceFlow "P" "h" "e1" "" "f5", .addSequenceFlow "P" "h" "e2" "" "f6"]

theorem bare_allowed (swap : Bool) : AllowedHistory {} (bareOps swap) := by
  cases swap <;> simp [bareOps, AllowedHistory, Allowed, step, declaredNode, declaredFlow, directionArg, directions, chosen]

def bareLine (swap : Bool) (d : Diagram) : Strand :=
  let n := nodeOf d
  let a := Strand.fork (n "h") (.cons (.stop (n "e1")) (.cons (.stop (n "e2")) .nil))
  let b := Strand.stop (n "e3")
  .step (n "s") (.step (n "t0") (.fork (n "g") (if swap then .cons b (.cons a .nil) else .cons a (.cons b .nil))))

set_option maxRecDepth 8000 in
theorem bare_structured (swap : Bool) : Structured (Op.run {} (bareOps swap)) (bareLine swap (Op.run {} (bareOps swap))) := by
  cases swap <;> exact structured_of_check (by decide +kernel)

set_option maxRecDepth 8000 in
/-- **C129 (limit).** Behind a gateway that follows another gateway directly, in any branch but the first, everything is cut off: the table can be imported, but nothing
leads to the ends of this branch any more, and the first gateway is gone, too. -/
theorem C129_later_branch : ∃ d l, Consistent d ∧ Structured d l ∧ ∃ rows d', (∃ N, ∀ fuel ≥ N, exportRows d fuel = .ok rows) ∧ loadCsv rows {} = .ok d' ∧
    (∀ n ∈ d.getNodes, n.2.type = some "endEvent" → ins n ≠ []) ∧ (∃ n ∈ d'.getNodes, n.2.type = some "endEvent" ∧ ins n = []) ∧ ∀ n ∈ d'.getNodes, ¬IsGateway n := by
  have c := consistent_of_allowed _ (bare_allowed true)
  obtain ⟨d', h1, h2⟩ := ok_of_check (x := loadCsv ((bareLine true (Op.run {} (bareOps true))).table (Op.run {} (bareOps true)) false "" 0 "") {})
    (fun d' => (d'.getNodes.any fun n => n.2.type == some "endEvent" && (ins n).isEmpty) && d'.getNodes.all fun n => !decide (IsGateway n)) (by decide +kernel)
  refine ⟨_, _, c, bare_structured true, _, d', structured_rows c (bare_structured true), h1, by decide +kernel, ?_⟩
  simp only [Bool.and_eq_true, List.any_eq_true, List.all_eq_true, beq_iff_eq, List.isEmpty_iff, Bool.not_eq_true', decide_eq_false_iff_not] at h2
  exact h2

set_option maxRecDepth 8000 in
/-- **C129 (limit).** In the first branch, such a gateway gives a table which cannot be imported. -/
theorem C129_first_branch : ∃ d l, Consistent d ∧ Structured d l ∧ ∃ rows, (∃ N, ∀ fuel ≥ N, exportRows d fuel = .ok rows) ∧ loadCsv rows {} = .error .bpmnError := by
  have c := consistent_of_allowed _ (bare_allowed false)
  refine ⟨_, _, c, bare_structured false, _, structured_rows c (bare_structured false), ?_⟩
  have : (match loadCsv ((bareLine false (Op.run {} (bareOps false))).table (Op.run {} (bareOps false)) false "" 0 "") {} with
    | .error .bpmnError => true | _ => false) = true := by decide +kernel
  revert this
  generalize loadCsv _ _ = z
  intro h
  split at h <;> simp_all

end Bpmn.Props

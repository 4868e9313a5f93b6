import Verif.Props.Decisions
import Verif.Props.CsvKinds
import Verif.Props.XmlLosses
/-! # C131: processes without joins are exported to tables and imported again and again -/
set_option linter.unusedSimpArgs false
set_option linter.unusedVariables false

namespace Bpmn.Csv
open Bpmn.Spec Bpmn.Spec.Csv
open Bpmn.Layouter (feeds_flow)

mutual
/-- The same line with other nodes. -/
def strandMap (φ : Node → Node) : Strand → Strand
  | .stop e => .stop (φ e)
  | .meet => .meet
  | .step n rest => .step (φ n) (strandMap φ rest)
  | .block s bs rest => .block (φ s) (branchesMap φ bs) (strandMap φ rest)
  | .fork s bs => .fork (φ s) (branchesMap φ bs)

def branchesMap (φ : Node → Node) : Spec.Branches → Spec.Branches
  | .nil => .nil
  | .cons l r => .cons (strandMap φ l) (branchesMap φ r)
end

/-- The diagram `d'` is a copy of `d`, made from a table. -/
structure TreeCopy (d d' : Diagram) (φ : Node → Node) : Prop where
  con : Consistent d
  con' : Consistent d'
  perm : (d.getNodes.map φ).Perm d'.getNodes
  kept : ∀ n ∈ d.getNodes, Kept n (φ n)
  goes : ∀ n ∈ d.getNodes, ∀ m ∈ d.getNodes, ∀ i, Goes d n i m ↔ Goes d' (φ n) i (φ m)
  silent : ∀ n ∈ d'.getNodes, n.2.nodeName.isSome ∧ trigger n = none ∧ ∀ i, n.2.default ≠ some (some i)

/-- What happens to the conditions of the branches. -/
def Conds (d d' : Diagram) (φ : Node → Node) (γ : String → String) : Prop := ∀ s ∈ d.getNodes, 2 ≤ (outs s).length → ∀ (i : Nat) (a b : String),
  (outs s)[i]? = some a → (outs (φ s))[i]? = some b → splitCondition d' (φ s) b = γ (splitCondition d s a)

/-- What is kept of a row, apart from its condition, and what happened to its condition. -/
def shown (γ : String → String) (r : Row) : Row := { Spec.Csv.kept r with condition := γ r.condition }

theorem shown_blank : shown (fun _ => "") = Spec.Csv.kept := rfl

section
variable {d d' : Diagram} {φ : Node → Node} (C : TreeCopy d d' φ)
include C

theorem TreeCopy.mem {n : Node} (hn : n ∈ d.getNodes) : φ n ∈ d'.getNodes := C.perm.mem_iff.1 (List.mem_map_of_mem hn)

theorem TreeCopy.onto {n' : Node} (hn : n' ∈ d'.getNodes) : ∃ n ∈ d.getNodes, φ n = n' := List.mem_map.1 (C.perm.mem_iff.2 hn)

theorem TreeCopy.inj {n m : Node} (hn : n ∈ d.getNodes) (hm : m ∈ d.getNodes) (e : φ n = φ m) : n = m :=
  List.inj_on_of_nodup_map (C.perm.nodup_iff.2 (C.con'.ids.of_map _)) hn hm e

omit C in
theorem goes_total {d : Diagram} (c : Consistent d) {n : Node} (hn : n ∈ d.getNodes) {i : Nat} : i < (outs n).length ↔ ∃ m ∈ d.getNodes, Goes d n i m := by
  constructor
  · intro h
    obtain ⟨m, hm, ⟨a, b, e, h1, h2, h3, h4⟩, -⟩ := c.outFlow n hn _ (List.getElem_mem h)
    exact ⟨m, hm, _, List.getElem?_eq_getElem h, m, hm, rfl, _, h1, h4⟩
  · rintro ⟨m, -, a, ha, -⟩
    exact (List.getElem?_eq_some_iff.1 ha).1

omit C in
theorem goes_ins {d : Diagram} (c : Consistent d) {n m : Node} (hn : n ∈ d.getNodes) (hm : m ∈ d.getNodes) {i : Nat} {a : String} (ha : (outs n)[i]? = some a) :
    a ∈ ins m ↔ Goes d n i m := by
  have mo := List.mem_of_getElem? ha
  obtain ⟨m', hm', ⟨x, y, e, h1, h2, h3, h4⟩, hin⟩ := c.outFlow n hn a mo
  constructor
  · intro h
    obtain ⟨x', y', e', k1, -, -, k4⟩ := feeds_flow c hn hm mo h
    exact ⟨a, ha, m, hm, rfl, _, k1, k4⟩
  · rintro ⟨b, hb, q, hq, e1, f, hf, ht⟩
    cases e1
    rw [ha] at hb
    cases hb
    rw [h1] at hf
    cases hf
    simp only at ht
    rw [h4] at ht
    have : m' = m := c.node_eq hm' hm (Option.some.inj ht)
    rw [← this]
    exact hin

theorem TreeCopy.outs {n : Node} (hn : n ∈ d.getNodes) : (Spec.outs (φ n)).length = (Spec.outs n).length := by
  have key : ∀ i, i < (Spec.outs (φ n)).length ↔ i < (Spec.outs n).length := by
    intro i
    rw [goes_total C.con' (C.mem hn), goes_total C.con hn]
    constructor
    · rintro ⟨m', hm', h⟩
      obtain ⟨m, hm, rfl⟩ := C.onto hm'
      exact ⟨m, hm, (C.goes n hn m hm i).2 h⟩
    · rintro ⟨m, hm, h⟩
      exact ⟨φ m, C.mem hm, (C.goes n hn m hm i).1 h⟩
  have a := key (Spec.outs n).length
  have b := key (Spec.outs (φ n)).length
  omega

/-- Every flow into the copy has its counterpart. -/
theorem TreeCopy.entering {m : Node} (hm : m ∈ d.getNodes) {a : String} (ha : a ∈ ins (φ m)) :
    ∃ n ∈ d.getNodes, ∃ (i : Nat) (b : String), (Spec.outs (φ n))[i]? = some a ∧ (Spec.outs n)[i]? = some b ∧ b ∈ ins m := by
  obtain ⟨n', hn', hf, ho⟩ := C.con'.inFlow _ (C.mem hm) a ha
  obtain ⟨n, hn, rfl⟩ := C.onto hn'
  obtain ⟨i, hi⟩ := List.mem_iff_getElem?.1 ho
  have g := (C.goes n hn m hm i).2 ((goes_ins C.con' hn' (C.mem hm) hi).1 ha)
  obtain ⟨b, hb, -⟩ := id g
  exact ⟨n, hn, i, b, hi, hb, (goes_ins C.con hn hm hb).2 g⟩

theorem TreeCopy.start {m : Node} (hm : m ∈ d.getNodes) : ins (φ m) = [] ↔ ins m = [] := by
  constructor
  · intro h
    rw [List.eq_nil_iff_forall_not_mem]
    intro b hb
    obtain ⟨n, hn, hf, ho⟩ := C.con.inFlow m hm b hb
    obtain ⟨i, hi⟩ := List.mem_iff_getElem?.1 ho
    have g := (C.goes n hn m hm i).1 ((goes_ins C.con hn hm hi).1 hb)
    obtain ⟨a, ha, -⟩ := id g
    have := (goes_ins C.con' (C.mem hn) (C.mem hm) ha).2 g
    rw [h] at this
    simp at this
  · intro h
    rw [List.eq_nil_iff_forall_not_mem]
    intro a ha
    obtain ⟨n, hn, i, b, -, -, hb⟩ := C.entering hm ha
    rw [h] at hb
    simp at hb

theorem TreeCopy.entered {m : Node} (hm : m ∈ d.getNodes) (h : (ins m).length ≤ 1) : (ins (φ m)).length ≤ 1 := by
  by_contra hc
  have nd := (C.con'.lists _ (C.mem hm)).2.2.1
  have h0 : 0 < (ins (φ m)).length := by omega
  have h1 : 1 < (ins (φ m)).length := by omega
  obtain ⟨n1, hn1, i1, b1, p1, q1, r1⟩ := C.entering hm (List.getElem_mem h0)
  obtain ⟨n2, hn2, i2, b2, p2, q2, r2⟩ := C.entering hm (List.getElem_mem h1)
  have eb : b1 = b2 := by
    obtain ⟨j1, k1, e1⟩ := List.getElem_of_mem r1
    obtain ⟨j2, k2, e2⟩ := List.getElem_of_mem r2
    obtain rfl : j1 = 0 := by omega
    obtain rfl : j2 = 0 := by omega
    exact e1.symm.trans e2
  subst eb
  have en : n1 = n2 := by
    obtain ⟨x, y, e, h1, -, h3, -⟩ := feeds_flow C.con hn1 hm (List.mem_of_getElem? q1) r1
    obtain ⟨x', y', e', h1', -, h3', -⟩ := feeds_flow C.con hn2 hm (List.mem_of_getElem? q2) r1
    rw [h1] at h1'
    cases h1'
    rw [h3] at h3'
    exact C.con.node_eq hn1 hn2 (Option.some.inj h3')
  subst en
  have ei : i1 = i2 := by
    have nd2 := (C.con.lists _ hn1).2.2.2
    obtain ⟨z1, w1⟩ := List.getElem?_eq_some_iff.1 q1
    obtain ⟨z2, w2⟩ := List.getElem?_eq_some_iff.1 q2
    exact (nd2.getElem_inj_iff).1 (w1.trans w2.symm)
  subst ei
  have := Option.some.inj (p1.symm.trans p2)
  have := (nd.getElem_inj_iff).1 this
  omega

theorem TreeCopy.leads {n m : Node} (hn : n ∈ d.getNodes) {i : Nat} {a b : String} (ha : (Spec.outs n)[i]? = some a) (hb : (Spec.outs (φ n))[i]? = some b)
    (h : LeadsTo d a (some m)) : LeadsTo d' b (some (φ m)) := by
  have hm : m ∈ d.getNodes := by
    obtain ⟨q, hq, e, -⟩ := h
    cases e
    exact hq
  obtain ⟨b', hb', h'⟩ := (C.goes n hn m hm i).1 ⟨a, ha, h⟩
  rw [hb] at hb'
  cases hb'
  exact h'

theorem TreeCopy.type {n : Node} (hn : n ∈ d.getNodes) {t : String} (ht : t = "startEvent" ∨ t = "endEvent" ∨ t = "task" ∨ t = "subProcess") : (φ n).2.type = some t ↔ n.2.type = some t := by
  have k := C.kept n hn
  unfold Kept at k
  by_cases hr : HasRow n
  · rw [if_pos hr] at k
    rw [k.1]
  · rw [if_neg hr] at k
    constructor
    · intro e
      simp only [IsGateway, e, List.mem_cons, Option.some.injEq, List.not_mem_nil, or_false] at k
      rcases ht with rfl | rfl | rfl | rfl <;> simp at k
    · intro e
      exfalso
      apply hr
      unfold HasRow
      rw [e]
      rcases ht with rfl | rfl | rfl | rfl <;> simp

theorem TreeCopy.activity {n : Node} (hn : n ∈ d.getNodes) : IsActivity (φ n) ↔ IsActivity n := by
  unfold IsActivity
  rw [C.type hn (by simp), C.type hn (by simp)]

theorem TreeCopy.hasRow {n : Node} (hn : n ∈ d.getNodes) : HasRow (φ n) ↔ HasRow n := by
  simp only [HasRow, List.mem_cons, List.not_mem_nil, or_false]
  rw [C.type hn (by simp), C.type hn (by simp), C.type hn (by simp), C.type hn (by simp)]

theorem TreeCopy.gateway {n : Node} (hn : n ∈ d.getNodes) (h : IsGateway n) : IsGateway (φ n) := by
  have k := C.kept n hn
  unfold Kept at k
  rwa [if_neg (gateway_silent h).1] at k

theorem TreeCopy.caption {n : Node} (hn : n ∈ d.getNodes) (h : HasRow n) :
    caption (φ n) = (if n.2.type = some "endEvent" then "" else (caption n).1, (caption n).2.1, (caption n).2.2) := by
  have k := C.kept n hn
  unfold Kept at k
  rw [if_pos h] at k
  obtain ⟨k1, k2⟩ := k
  have tr := (C.silent _ (C.mem hn)).2.1
  have e1 : (Spec.Csv.caption (φ n)).1 = (φ n).2.nodeName.getD "" := by
    unfold Spec.Csv.caption
    rw [tr]
    split_ifs <;> first | rfl | contradiction
  have e2 : (Spec.Csv.caption (φ n)).2 = (Spec.Csv.caption n).2 := by
    unfold Spec.Csv.caption
    rw [k1]
    split_ifs <;> rfl
  rw [k2] at e1
  exact Prod.ext e1 e2

theorem TreeCopy.condition (blank : ∀ i f, d'.getFlowById i = .ok (some f) → f.2.2.name = some "") {s : Node} (hs : s ∈ d.getNodes) (a : String) :
    splitCondition d' (φ s) a = "" := by
  unfold splitCondition
  split
  · rename_i f hf
    unfold branchCondition
    rw [if_neg (fun k => (C.silent _ (C.mem hs)).2.2 a k.2)]
    unfold flowCondition
    rw [blank a f hf]
    split_ifs <;> rfl
  · rfl

theorem TreeCopy.blanks (blank : ∀ i f, d'.getFlowById i = .ok (some f) → f.2.2.name = some "") : Conds d d' φ fun _ => "" :=
  fun _ hs _ _ _ b _ _ => C.condition blank hs b

end

theorem order_pos {pre : String} {o : Nat} (h : o ≠ 0) : pre ++ toString o ≠ "0" := by
  intro e
  have e' := congrArg String.toList e
  rw [String.toList_append] at e'
  have l : (toString o).toList ≠ [] := decimal_ne_nil o
  cases hp : pre.toList with
  | nil =>
    rw [hp, List.nil_append] at e'
    exact h (decimal_inj (m := o) (n := 0) e')
  | cons c r =>
    rw [hp] at e'
    have := congrArg List.length e'
    cases hq : (toString o).toList with
    | nil => exact l hq
    | cons => rw [hq] at this; simp at this

theorem tree_spreads {l : Strand} (h : l.IsTree) : l.Spreads := by
  induction l using Strand.rec (motive_2 := fun bs => bs.AreTrees → bs.Spread) with
  | stop e => rw [Strand.Spreads]; trivial
  | meet => simp [Strand.IsTree] at h
  | step n rest ih => rw [Strand.IsTree] at h; rw [Strand.Spreads]; exact ih h.2
  | block s bs rest _ _ => simp [Strand.IsTree] at h
  | fork s bs ih => rw [Strand.IsTree] at h; rw [Strand.Spreads]; exact ih h.2
  | nil => rw [Branches.Spread]; trivial
  | cons l r ih1 ih2 =>
    rename_i h
    rw [Branches.AreTrees] at h
    rw [Branches.Spread]
    exact ⟨ih1 h.1, ih2 h.2.2.2⟩

section
variable {d d' : Diagram} {φ : Node → Node} (C : TreeCopy d d' φ)
include C

theorem TreeCopy.row (γ : String → String) {n : Node} (hn : n ∈ d.getNodes) {o : String} (c : String) (h : o = "0" → n.2.type ≠ some "subProcess") :
    nodeRow (φ n) o (γ c) = (nodeRow n o c).map (shown γ) := by
  unfold nodeRow
  by_cases hr : HasRow n
  · rw [if_pos ((C.hasRow hn).2 hr), if_pos hr, C.caption hn hr]
    simp only [List.map_cons, List.map_nil, shown, Spec.Csv.kept, List.cons.injEq, and_true]
    simp only [HasRow, List.mem_cons, List.not_mem_nil, or_false] at hr
    rcases hr with e | e | e | e <;> simp [Spec.Csv.caption, e]
    intro k
    exact h k e
  · rw [if_neg (fun k => hr ((C.hasRow hn).1 k)), if_neg hr]
    rfl

omit C in
theorem map_first {l : Strand} (h : l.Spreads) : (strandMap φ l).first none = (l.first none).map φ := by
  cases l <;> simp [strandMap, Strand.first, Strand.Spreads] at h ⊢

omit C in
theorem table_cons {d : Diagram} {s : Node} {pre : String} {o k : Nat} {l : Strand} (h : l.Spreads) (r : Spec.Branches) (i : String) (fs : List String) :
    (Branches.cons l r).table d s pre o (i :: fs) k =
      l.table d false (pre ++ toString o ++ String.ofList [letter k]) 1 (splitCondition d s i) ++ r.table d s pre o fs (k + 1) := by
  cases l with
  | meet => simp [Strand.Spreads] at h
  | _ => simp [Branches.table]

omit C in
theorem map_spreads {l : Strand} : (strandMap φ l).Spreads ↔ l.Spreads := by
  induction l using Strand.rec (motive_2 := fun bs => (branchesMap φ bs).Spread ↔ bs.Spread) with
  | stop e => simp [strandMap, Strand.Spreads]
  | meet => simp [strandMap, Strand.Spreads]
  | step n rest ih => simpa [strandMap, Strand.Spreads] using ih
  | block s bs rest _ _ => simp [strandMap, Strand.Spreads]
  | fork s bs ih => simpa [strandMap, Strand.Spreads] using ih
  | nil => simp [branchesMap, Branches.Spread]
  | cons l r ih1 ih2 => simp [branchesMap, Branches.Spread, ih1, ih2]

/-- The copy of a line fits, and its table has what is kept of the rows. -/
theorem TreeCopy.line {l : Strand} (hl : l.Spreads) : l.Fits d false none →
    (strandMap φ l).Fits d' false none ∧ ∀ γ, γ "" = "" → Conds d d' φ γ → ∀ pre o c, o ≠ 0 → (strandMap φ l).table d' false pre o (γ c) = (l.table d false pre o c).map (shown γ) := by
  induction l using Strand.rec (motive_2 := fun bs => bs.Spread → ∀ s ∈ d.getNodes, ∀ fs gs : List String, fs.length = gs.length →
      (∀ (i : Nat) (a b : String), fs[i]? = some a → gs[i]? = some b → ∀ m, LeadsTo d a (some m) → LeadsTo d' b (some (φ m))) → bs.Fit d none fs →
      (branchesMap φ bs).Fit d' none gs ∧ ∀ γ, γ "" = "" → Conds d d' φ γ →
        (∀ (i : Nat) (a b : String), fs[i]? = some a → gs[i]? = some b → splitCondition d' (φ s) b = γ (splitCondition d s a)) →
        ∀ pre o k, (branchesMap φ bs).table d' (φ s) pre o gs k = (bs.table d s pre o fs k).map (shown γ)) with
  | stop e =>
    intro f
    rw [Strand.Fits] at f
    obtain ⟨h1, h2, h3, h4, -⟩ := f
    refine ⟨?_, fun γ g0 hc pre o c ho => ?_⟩
    · rw [strandMap, Strand.Fits]
      refine ⟨C.mem h1, ?_, ?_, fun k => h4 ((C.type h1 (by simp)).1 k), by simp⟩
      · simpa [Entered] using C.entered h1 (by simpa [Entered] using h2)
      · have := C.outs h1
        rw [h3] at this
        exact List.length_eq_zero_iff.1 this
    · rw [strandMap, Strand.table, Strand.table]
      exact C.row γ h1 c fun k => absurd k (order_pos ho)
  | meet => simp [Strand.Spreads] at hl
  | step n rest ih =>
    intro f
    rw [Strand.Fits] at f
    obtain ⟨h1, h2, h3, ⟨i, h4, h5⟩, h6, -⟩ := f
    rw [Strand.Spreads] at hl
    obtain ⟨k1, k2⟩ := ih hl h6
    refine ⟨?_, fun γ g0 hc pre o c ho => ?_⟩
    · rw [strandMap, Strand.Fits]
      have lo := C.outs h1
      rw [h4] at lo
      obtain ⟨b, hb⟩ := List.length_eq_one_iff.1 lo
      refine ⟨C.mem h1, ?_, fun k => h3 ((C.type h1 (by simp)).1 k), ⟨b, hb, ?_⟩, k1, by simp⟩
      · simpa [Entered] using C.entered h1 (by simpa [Entered] using h2)
      · obtain ⟨m, hm, -⟩ := Props.first_some hl none
        rw [map_first hl, hm]
        rw [hm] at h5
        exact C.leads h1 (i := 0) (by rw [h4]; rfl) (by rw [hb]; rfl) h5
    · rw [strandMap, Strand.table, Strand.table, if_neg (by simp), if_neg (by simp), List.map_append, C.row γ h1 c fun k => absurd k (order_pos ho), ← k2 γ g0 hc _ _ "" (by omega), g0]
  | block s bs rest _ _ => simp [Strand.Spreads] at hl
  | fork s bs ih =>
    intro f
    rw [Strand.Fits] at f
    obtain ⟨h1, h2, ⟨h3, h4, h5, h6⟩, -, h7⟩ := f
    rw [Strand.Spreads] at hl
    have lo := C.outs h1
    obtain ⟨k1, k2⟩ := ih hl s h1 _ _ lo.symm (fun i a b ha hb m hm => C.leads h1 ha hb hm) h7
    refine ⟨?_, fun γ g0 hc pre o c ho => ?_⟩
    · rw [strandMap, Strand.Fits]
      refine ⟨C.mem h1, ?_, ⟨fun k => h3 ((C.type h1 (by simp)).1 k), fun k => h4 ((C.type h1 (by simp)).1 k), by omega, by omega⟩, by simp, k1⟩
      simpa [Entered] using C.entered h1 (by simpa [Entered] using h2)
    · rw [strandMap, Strand.table, Strand.table, List.map_append, C.row γ h1 c fun k => absurd k (order_pos ho), k2 γ g0 hc (hc s h1 h5)]
  | nil =>
    rename_i s hs fs gs e _ f
    rw [Branches.Fit] at f
    subst f
    refine ⟨?_, fun γ g0 hc hf pre o k => ?_⟩
    · rw [branchesMap, Branches.Fit]
      exact List.length_eq_zero_iff.1 e.symm
    · simp [branchesMap, Branches.table]
  | cons l r ih1 ih2 =>
    rename_i hb s hs fs gs e hg f
    rw [Branches.Spread] at hb
    rw [Branches.Fit] at f
    obtain ⟨i, fs', rfl, f1, f2, f3⟩ := f
    cases gs with
    | nil => simp at e
    | cons j gs' =>
      obtain ⟨a1, a2⟩ := ih1 hb.1 f2
      obtain ⟨b1, b2⟩ := ih2 hb.2 s hs fs' gs' (by simpa using e) (fun x a b ha hb => hg (x + 1) a b ha hb) f3
      refine ⟨?_, fun γ g0 hc hf pre o k => ?_⟩
      · rw [branchesMap, Branches.Fit]
        obtain ⟨m, hm, -⟩ := Props.first_some hb.1 none
        rw [hm] at f1
        exact ⟨j, gs', rfl, by rw [map_first hb.1, hm]; exact hg 0 i j rfl rfl m f1, a1, b1⟩
      · rw [branchesMap, table_cons (map_spreads.2 hb.1), table_cons hb.1, List.map_append, hf 0 i j rfl rfl, a2 γ g0 hc _ _ (splitCondition d s i) (by omega),
          b2 γ g0 hc fun x a b ha hb => hf (x + 1) a b ha hb]

omit C in
theorem map_nodes {l : Strand} : (strandMap φ l).nodes = l.nodes.map φ := by
  induction l using Strand.rec (motive_2 := fun bs => (branchesMap φ bs).nodes = bs.nodes.map φ) with
  | stop e => simp [strandMap, Strand.nodes]
  | meet => simp [strandMap, Strand.nodes]
  | step n rest ih => simp [strandMap, Strand.nodes, ih]
  | block s bs rest ih1 ih2 => simp [strandMap, Strand.nodes, ih1, ih2]
  | fork s bs ih => simp [strandMap, Strand.nodes, ih]
  | nil => simp [branchesMap, Branches.nodes]
  | cons l r ih1 ih2 => simp [branchesMap, Branches.nodes, ih1, ih2]

theorem TreeCopy.structured {l : Strand} (hl : l.Spreads) (st : Structured d l) : Structured d' (strandMap φ l) := by
  refine ⟨?_, ?_, fun n hn => (C.silent n hn).1, ?_, (C.line hl st.fits).1⟩
  · rw [map_nodes]
    exact (st.nodes.map φ).trans C.perm
  · intro n' hn'
    obtain ⟨n, hn, rfl⟩ := C.onto hn'
    have k := C.kept n hn
    unfold Kept at k
    by_cases hr : HasRow n
    · rw [if_pos hr] at k
      unfold Supported
      rw [k.1]
      exact st.supported n hn
    · rw [if_neg hr] at k
      simp only [IsGateway, List.mem_cons, List.not_mem_nil, or_false] at k
      unfold Supported
      rcases k with k | k | k | k | k <;> rw [k] <;> simp [supportedTypes]
  · intro n' hn'
    obtain ⟨n, hn, rfl⟩ := C.onto hn'
    rw [C.start hn, st.start n hn, map_first hl]
    obtain ⟨m, hm, mm⟩ := Props.first_some hl none
    rw [hm]
    simp only [Option.map_some, Option.some.injEq]
    exact ⟨fun e => by rw [e], fun e => C.inj (st.nodes.mem_iff.1 mm) hn e⟩

omit C in
theorem map_long : ∀ {l : Strand}, (strandMap φ l).long = l.long
  | .stop _ => by simp [strandMap, Strand.long]
  | .meet => by simp [strandMap, Strand.long]
  | .step n rest => by simp [strandMap, Strand.long, map_long (l := rest)]
  | .block _ _ _ => by simp [strandMap, Strand.long]
  | .fork _ _ => by simp [strandMap, Strand.long]

theorem TreeCopy.isTree {l : Strand} (hl : l.IsTree) : (∀ n ∈ l.nodes, n ∈ d.getNodes) → (strandMap φ l).IsTree := by
  induction l using Strand.rec (motive_2 := fun bs => bs.AreTrees → (∀ n ∈ bs.nodes, n ∈ d.getNodes) → (branchesMap φ bs).AreTrees) with
  | stop e =>
    intro hn
    rw [Strand.IsTree] at hl
    rw [strandMap, Strand.IsTree]
    exact (C.type (hn e (by simp [Strand.nodes])) (by simp)).2 hl
  | meet => simp [Strand.IsTree] at hl
  | step n rest ih =>
    intro hn
    rw [Strand.IsTree] at hl
    rw [strandMap, Strand.IsTree]
    exact ⟨(C.activity (hn n (by simp [Strand.nodes]))).2 hl.1, ih hl.2 fun m hm => hn m (by simp [Strand.nodes, hm])⟩
  | block s bs rest _ _ => simp [Strand.IsTree] at hl
  | fork s bs ih =>
    intro hn
    rw [Strand.IsTree] at hl
    rw [strandMap, Strand.IsTree]
    exact ⟨C.gateway (hn s (by simp [Strand.nodes])) hl.1, ih hl.2 fun m hm => hn m (by simp [Strand.nodes, hm])⟩
  | nil => rw [branchesMap, Branches.AreTrees]; trivial
  | cons l r ih1 ih2 =>
    rename_i h hn
    rw [Branches.AreTrees] at h
    rw [branchesMap, Branches.AreTrees, map_long]
    exact ⟨ih1 h.1 fun m hm => hn m (by simp [Branches.nodes, hm]), h.2.1, h.2.2.1, ih2 h.2.2.2 fun m hm => hn m (by simp [Branches.nodes, hm])⟩

theorem TreeCopy.again {s : Node} {l : Strand} (T : TreeProcess d s l) : TreeProcess d' (φ s) (strandMap φ l) := by
  have mem : ∀ n ∈ (Strand.step s l).nodes, n ∈ d.getNodes := fun n hn => T.structured.nodes.mem_iff.1 hn
  have sp : (Strand.step s l).Spreads := by rw [Strand.Spreads]; exact tree_spreads T.tree
  refine ⟨?_, (C.type (mem s (by simp [Strand.nodes])) (by simp)).2 T.begins, C.isTree T.tree fun n hn => mem n (by simp [Strand.nodes, hn]), ?_⟩
  · have := C.structured sp T.structured
    rwa [strandMap] at this
  · intro n' hn' hr
    obtain ⟨n, hn, rfl⟩ := C.onto hn'
    have hr' := (C.hasRow hn).1 hr
    rw [C.caption hn hr']
    by_cases he : n.2.type = some "endEvent"
    · rw [if_pos he]
      rw [← isGoto_iff]
      change ¬isGoto "" = true
      decide
    · rw [if_neg he]
      exact T.plain n hn hr'

theorem TreeCopy.table {γ : String → String} (g0 : γ "" = "") (hc : Conds d d' φ γ) {s : Node} {l : Strand} (T : TreeProcess d s l) :
    (Strand.step (φ s) (strandMap φ l)).table d' false "" 0 "" = ((Strand.step s l).table d false "" 0 "").map (shown γ) := by
  have hs : s ∈ d.getNodes := T.structured.nodes.mem_iff.1 (by simp [Strand.nodes])
  have f := T.structured.fits
  rw [Strand.Fits] at f
  have r := C.row γ hs (o := "" ++ toString 0) "" (fun _ => by rw [T.begins]; simp)
  have t := (C.line (tree_spreads T.tree) f.2.2.2.2.1).2 γ g0 hc "" (0 + 1) "" (by omega)
  rw [g0] at r t
  rw [Strand.table, Strand.table, if_neg (by simp), if_neg (by simp), List.map_append, r, t]

end

/-- The result of the import of the table of a tree is a copy of the tree. -/
theorem tree_copy {d : Diagram} {s : Node} {l : Strand} (c : Consistent d) (T : TreeProcess d s l) : ∃ d' φ, TreeCopy d d' φ ∧
    loadCsv ((Strand.step s l).table d false "" 0 "") {} = .ok d' ∧ (∀ i f, d'.getFlowById i = .ok (some f) → f.2.2.name = some "") ∧ ∀ n ∈ d.getNodes, IsGateway n →
      ((φ n).2.type = some "parallelGateway" ↔ ∀ a ∈ outs n, ∀ x ∈ (splitCondition d n a).toList, White x) ∧
        ∀ (i : Nat) (a : String), (outs n)[i]? = some a → ∃ b fl, (outs (φ n))[i]? = some b ∧ d'.getFlowById b = .ok (some fl) ∧
          fl.2.2.conditionExpression.map (·.expr) = if splitCondition d n a = "" then none else some (splitCondition d n a) := by
  obtain ⟨rows, d', φ, ⟨N, hN⟩, h1, h2, h3, h4⟩ := Props.C129_tree_copy d s l c T
  obtain ⟨M, hM⟩ := Props.C96_rows d _ c T.structured
  have e : rows = (Strand.step s l).table d false "" 0 "" := by
    have a := hN (max N M) (Nat.le_max_left _ _)
    rw [hM (max N M) (Nat.le_max_right _ _)] at a
    exact (Except.ok.inj a).symm
  subst e
  have tb := TreeP.table T c
  refine ⟨d', φ, ⟨c, h2, h3, fun n hn => (h4 n hn).1, fun n hn => (h4 n hn).2.1, ?_⟩, h1, ?_, fun n hn hg => (h4 n hn).2.2 hg⟩
  · intro n hn
    obtain ⟨ty, nm, e⟩ := Props.C82_nodes_say _ tb d' h1 n hn
    refine ⟨by rw [e]; rfl, by unfold trigger; rw [e]; rfl, fun i => ?_⟩
    rw [e]
    simp only [csvNode]
    split_ifs <;> simp
  · intro i f hf
    exact (Props.C82_flows_say _ tb d' h1 f (Props.getFlowById_mem hf).1).2.1

theorem kept_twice (r : Row) : Spec.Csv.kept (Spec.Csv.kept r) = Spec.Csv.kept r := by
  unfold Spec.Csv.kept
  by_cases h : r.terminated = "yes"
  · simp [h]
  · by_cases h' : r.order ≠ "0" ∧ r.terminated ≠ "yes" ∧ r.subprocess = "yes"
    · simp [h']
    · simp [h']
      exact fun a b => absurd a b

theorem map_heaviest {φ : Node → Node} {w w' : Node → Nat} {l : Strand} : (∀ n ∈ l.nodes, w' (φ n) = w n) → (strandMap φ l).heaviest w' = l.heaviest w := by
  induction l using Strand.rec (motive_2 := fun bs => (∀ n ∈ bs.nodes, w' (φ n) = w n) → (branchesMap φ bs).heaviest w' = bs.heaviest w) with
  | stop e => intro h; simp [strandMap, Strand.heaviest, h e (by simp [Strand.nodes])]
  | meet => intro h; simp [strandMap, Strand.heaviest]
  | step n rest ih =>
    intro h
    simp [strandMap, Strand.heaviest, h n (by simp [Strand.nodes]), ih fun m hm => h m (by simp [Strand.nodes, hm])]
  | block s bs rest ih1 ih2 => intro h; simp [strandMap, Strand.heaviest]
  | fork s bs ih =>
    intro h
    simp [strandMap, Strand.heaviest, h s (by simp [Strand.nodes]), ih fun m hm => h m (by simp [Strand.nodes, hm])]
  | nil => simp [branchesMap, Branches.heaviest]
  | cons l r ih1 ih2 =>
    rename_i h
    simp [branchesMap, Branches.heaviest, ih1 fun m hm => h m (by simp [Branches.nodes, hm]), ih2 fun m hm => h m (by simp [Branches.nodes, hm])]

theorem map_hasSplit {φ : Node → Node} : ∀ {l : Strand}, (strandMap φ l).HasSplit ↔ l.HasSplit
  | .stop _ => by simp [strandMap, Strand.HasSplit]
  | .meet => by simp [strandMap, Strand.HasSplit]
  | .step n rest => by simp [strandMap, Strand.HasSplit, map_hasSplit (l := rest)]
  | .block _ _ _ => by simp [strandMap, Strand.HasSplit]
  | .fork _ _ => by simp [strandMap, Strand.HasSplit]

theorem map_beside {φ : Node → Node} {a : Strand} : ∀ {bs : Spec.Branches}, (branchesMap φ bs).AllBeside (strandMap φ a) ↔ bs.AllBeside a
  | .nil => by simp [branchesMap, Branches.AllBeside]
  | .cons l r => by simp [branchesMap, Branches.AllBeside, Beside, map_hasSplit, map_long, map_beside (bs := r)]

theorem map_series {φ : Node → Node} {l : Strand} : (strandMap φ l).IsSeries ↔ l.IsSeries := by
  induction l using Strand.rec (motive_2 := fun bs => (branchesMap φ bs).AreSeries ↔ bs.AreSeries) with
  | stop e => simp [strandMap, Strand.IsSeries]
  | meet => simp [strandMap, Strand.IsSeries]
  | step n rest ih => simpa [strandMap, Strand.IsSeries] using ih
  | block s bs rest _ _ => simp [strandMap, Strand.IsSeries]
  | fork s bs ih => simpa [strandMap, Strand.IsSeries] using ih
  | nil => simp [branchesMap, Branches.AreSeries]
  | cons l r ih1 ih2 => simp [branchesMap, Branches.AreSeries, ih1, ih2, map_long, map_beside]

end Bpmn.Csv

namespace Bpmn.Props
open Bpmn Spec Spec.Csv Csv Layouter Classify LayoutMetrics

/-- **C131.** The table of a process without joins, imported and exported again, is the table without its conditions and without the texts of ends; a table that has been
imported and exported once does not change any more. -/
theorem C131_round_trip (d : Diagram) (s : Node) (l : Strand) (c : Consistent d) (T : TreeProcess d s l) :
    ∃ rows d' d'', (∃ N, ∀ fuel ≥ N, exportRows d fuel = .ok rows) ∧ loadCsv rows {} = .ok d' ∧ (∃ N, ∀ fuel ≥ N, exportRows d' fuel = .ok (rows.map kept)) ∧
      loadCsv (rows.map kept) {} = .ok d'' ∧ ∃ N, ∀ fuel ≥ N, exportRows d'' fuel = .ok (rows.map kept) := by
  obtain ⟨d', φ, C, h1, b1, -⟩ := tree_copy c T
  have T' := C.again T
  obtain ⟨d'', ψ, C', h2, b2, -⟩ := tree_copy C.con' T'
  have T'' := C'.again T'
  have e := C.table rfl (C.blanks b1) T
  have e' := C'.table rfl (C'.blanks b2) T'
  rw [shown_blank] at e e'
  rw [e] at e' h2
  rw [List.map_map, show kept ∘ kept = kept from funext kept_twice] at e'
  refine ⟨_, d', d'', C96_rows d _ c T.structured, h1, ?_, h2, ?_⟩
  · rw [← e]; exact C96_rows d' _ C.con' T'.structured
  · rw [← e']; exact C96_rows d'' _ C'.con' T''.structured

/-- **C131 (gateways).** After two rounds all gateways of the process are parallel: the table of the copy has no conditions. -/
theorem C131_all_parallel (d : Diagram) (s : Node) (l : Strand) (c : Consistent d) (T : TreeProcess d s l) :
    ∃ rows d' rows' d'', (∃ N, ∀ fuel ≥ N, exportRows d fuel = .ok rows) ∧ loadCsv rows {} = .ok d' ∧ (∃ N, ∀ fuel ≥ N, exportRows d' fuel = .ok rows') ∧
      loadCsv rows' {} = .ok d'' ∧ ∀ n ∈ d''.getNodes, ¬HasRow n → n.2.type = some "parallelGateway" := by
  obtain ⟨d', φ, C, h1, b1, -⟩ := tree_copy c T
  have T' := C.again T
  obtain ⟨d'', ψ, C', h2, -, h3⟩ := tree_copy C.con' T'
  refine ⟨_, d', _, d'', C96_rows d _ c T.structured, h1, C96_rows d' _ C.con' T'.structured, h2, ?_⟩
  intro n'' hn'' hr
  obtain ⟨n', hn', rfl⟩ := C'.onto hn''
  obtain ⟨n, hn, rfl⟩ := C.onto hn'
  have hr' : ¬HasRow (φ n) := fun k => hr ((C'.hasRow hn').2 k)
  have hr0 : ¬HasRow n := fun k => hr' ((C.hasRow hn).2 k)
  have k := C.kept n hn
  unfold Kept at k
  rw [if_neg hr0] at k
  refine (h3 _ hn' k).1.2 fun a ha => ?_
  rw [C.condition b1 hn]
  simp

/-- **C131 (metrics).** The copy that comes from the table has as many nodes and flows, the same coefficient of network complexity, and longest paths of the same length,
counted in nodes and in activities. -/
theorem C131_metrics (d : Diagram) (s : Node) (l : Strand) (c : Consistent d) (T : TreeProcess d s l) :
    ∃ rows d', (∃ N, ∀ fuel ≥ N, exportRows d fuel = .ok rows) ∧ loadCsv rows {} = .ok d' ∧
      d'.getNodes.length = d.getNodes.length ∧ d'.getFlows.length = d.getFlows.length ∧ Metrics.cnc d' = Metrics.cnc d ∧
      ∃ p q p' q' x y, ∀ fuel, 2 * d.getNodes.length < fuel → computeLongestPath fuel d = .ok (p, x) ∧ computeLongestPath fuel d' = .ok (p', x) ∧
        computeLongestPathTasks fuel d = .ok (q, y) ∧ computeLongestPathTasks fuel d' = .ok (q', y) := by
  obtain ⟨d', φ, C, h1, -⟩ := tree_copy c T
  have T' := C.again T
  have sp : (Strand.step s l).Spreads := by rw [Strand.Spreads]; exact tree_spreads T.tree
  have sp' : (Strand.step (φ s) (strandMap φ l)).Spreads := by rw [Strand.Spreads]; exact tree_spreads T'.tree
  have len : d'.getNodes.length = d.getNodes.length := by rw [← C.perm.length_eq, List.length_map]
  have z1 := (C130_size d c _ T.structured sp).1
  have z2 := (C130_size d' C.con' _ T'.structured sp').1
  obtain ⟨p, q, hp⟩ := C130_paths d c _ T.structured sp
  obtain ⟨p', q', hp'⟩ := C130_paths d' C.con' _ T'.structured sp'
  have mem : ∀ n ∈ (Strand.step s l).nodes, n ∈ d.getNodes := fun n hn => T.structured.nodes.mem_iff.1 hn
  refine ⟨_, d', C96_rows d _ c T.structured, h1, len, by omega, ?_, p, q, p', q', _, _, fun fuel hf => ⟨(hp fuel hf).1, ?_, (hp fuel hf).2, ?_⟩⟩
  · rw [C130_complexity d c _ T.structured sp, C130_complexity d' C.con' _ T'.structured sp', len]
  · rw [(hp' fuel (by omega)).1]
    have : (strandMap φ (Strand.step s l)).heaviest (fun _ => 1) = (Strand.step s l).heaviest fun _ => 1 := map_heaviest fun _ _ => rfl
    rw [strandMap] at this
    rw [this]
  · rw [(hp' fuel (by omega)).2]
    have : (strandMap φ (Strand.step s l)).heaviest (fun n => if IsActivity n then 1 else 0) = (Strand.step s l).heaviest fun n => if IsActivity n then 1 else 0 :=
      map_heaviest fun n hn => by simp only [C.activity (mem n hn)]
    rw [strandMap] at this
    rw [this]

/-- **C131 (drawing).** The copy of a series of decisions is drawn. -/
theorem C131_drawn (d : Diagram) (s : Node) (l : Strand) (c : Consistent d) (T : TreeProcess d s l) (hl : l.IsSeries) :
    ∃ rows d', (∃ N, ∀ fuel ≥ N, exportRows d fuel = .ok rows) ∧ loadCsv rows {} = .ok d' ∧
      ∃ order row col bound, FlowOrder d' order ∧ OnGrid d' order row col ∧ OneEach d' row col ∧ ∀ fuel ≥ bound, ∃ e, generateLayout fuel d' = .ok e ∧
        ∀ n ∈ d'.getNodes, ∃ n', e.getNodeById n.1 = some n' ∧ At n' (150 * col n.1 + 50) (100 * row n.1 + 50) := by
  obtain ⟨d', φ, C, h1, -⟩ := tree_copy c T
  have T' := C.again T
  refine ⟨_, d', C96_rows d _ c T.structured, h1, C130_series_drawn d' C.con' _ T'.structured ?_⟩
  rw [Strand.IsSeries]
  exact map_series.2 hl

/-- The example of C129: its gateway `g` is exclusive. -/
example : Consistent (Op.run {} branchyOps) ∧ TreeProcess (Op.run {} branchyOps) (nodeOf (Op.run {} branchyOps) "s") (branchyLine (Op.run {} branchyOps)) ∧
    (branchyLine (Op.run {} branchyOps)).IsSeries :=
  ⟨consistent_of_allowed _ branchy_allowed, branchy_example, by have := branchy_series (Op.run {} branchyOps); rwa [Strand.IsSeries] at this⟩

set_option maxRecDepth 8000 in
/-- Its table after one round: without the conditions and the names of the ends. -/
example : ∃ rows, (do let r ← exportRows (Op.run {} branchyOps) 20; let d ← loadCsv r {}; exportRows d 20) = .ok rows ∧
    (rows.map (fun r => (r.order, r.activity, r.condition, r.subprocess, r.terminated)) == [("0", "begin", "", "", ""), ("1", "order", "", "", ""),
      ("2a1", "pack", "", "", ""), ("2a2a1", "ship", "", "", ""), ("2a2a2", "", "", "", "yes"), ("2a2b1", "bill", "", "yes", ""), ("2a2b2", "", "", "", "yes"),
      ("2b1", "explain", "", "", ""), ("2b2", "", "", "", "yes"), ("2c1", "", "", "", "yes")]) = true := ok_of_check _ (by decide +kernel)

set_option maxRecDepth 8000 in
example : ∃ n ∈ (Op.run {} branchyOps).getNodes, ¬HasRow n ∧ n.2.type = some "exclusiveGateway" := by decide +kernel

end Bpmn.Props

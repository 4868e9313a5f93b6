import Verif.Spec.TreeProcess
import Verif.Lemmas.FlatProcess
import Verif.Props.GotoFlows
/-! Processes without joins: the places of their nodes in the table. -/
set_option linter.unusedSimpArgs false
set_option linter.unusedVariables false

namespace Bpmn.Csv
open Bpmn.Spec Bpmn.Spec.Csv

/-- The rest of a line, with the prefix and the number of its first node and the condition before it. -/
structure TreeSpot where
  line : Strand
  pre : List Char
  num : Nat
  cond : String

/-- The branches as a list. -/
def branchList : Branches → List Strand
  | .nil => []
  | .cons l r => l :: branchList r

mutual
/-- The places in a line. -/
def treeSpots (d : Diagram) (P : List Char) (o : Nat) (c : String) : Strand → List TreeSpot
  | .step n rest => ⟨.step n rest, P, o, c⟩ :: treeSpots d P (o + 1) "" rest
  | .stop e => [⟨.stop e, P, o, c⟩]
  | .fork s bs => ⟨.fork s bs, P, o, c⟩ :: branchSpots d s P o bs (outs s) 0
  | _ => []

def branchSpots (d : Diagram) (s : Node) (P : List Char) (o : Nat) : Branches → List String → Nat → List TreeSpot
  | .nil, _, _ => []
  | .cons _ _, [], _ => []
  | .cons l r, i :: fs, k => treeSpots d (P ++ decimal o ++ [letter k]) 1 (splitCondition d s i) l ++ branchSpots d s P o r fs (k + 1)
end

def TreeSpot.all (d : Diagram) (x : TreeSpot) : List TreeSpot := treeSpots d x.pre x.num x.cond x.line

/-- One place comes directly after another. -/
inductive Child (d : Diagram) : TreeSpot → TreeSpot → Prop where
  | next {n : Node} {rest : Strand} {p : List Char} {k : Nat} {c : String} : Child d ⟨.step n rest, p, k, c⟩ ⟨rest, p, k + 1, ""⟩
  | branch {s : Node} {bs : Branches} {p : List Char} {k j : Nat} {c i : String} {b : Strand} : (branchList bs)[j]? = some b → (outs s)[j]? = some i →
      Child d ⟨.fork s bs, p, k, c⟩ ⟨b, p ++ decimal k ++ [letter j], 1, splitCondition d s i⟩

/-- The row of a place. -/
def TreeSpot.rows (x : TreeSpot) : List Row :=
  match x.line with
  | .step n _ => [(cellOf n x.cond).row (x.pre ++ decimal x.num) false]
  | .stop n => [(cellOf n x.cond).row (x.pre ++ decimal x.num) true]
  | _ => []

theorem trees_iff : ∀ {bs : Branches}, bs.AreTrees ↔ ∀ b ∈ branchList bs, b.IsTree ∧ 1 ≤ b.long ∧ b.long ≤ 10
  | .nil => by simp [Branches.AreTrees, branchList]
  | .cons l r => by
    rw [Branches.AreTrees, branchList, trees_iff (bs := r), List.forall_mem_cons]
    simp only [and_assoc]

theorem fit_branches {d : Diagram} {j : Option Node} : ∀ {bs : Branches} {fs : List String}, bs.Fit d j fs →
    (branchList bs).length = fs.length ∧ ∀ (a : Nat) (b : Strand) (i : String), (branchList bs)[a]? = some b → fs[a]? = some i → LeadsTo d i (b.first j) ∧ b.Fits d false j
  | .nil, fs, h => by
    rw [Branches.Fit] at h
    subst h
    exact ⟨rfl, by simp [branchList]⟩
  | .cons l r, fs, h => by
    rw [Branches.Fit] at h
    obtain ⟨i, gs, rfl, h1, h2, h3⟩ := h
    obtain ⟨k1, k2⟩ := fit_branches h3
    refine ⟨by simp [branchList, k1], ?_⟩
    intro a b i' hb hi
    cases a with
    | zero => simp [branchList] at hb hi; subst hb hi; exact ⟨h1, h2⟩
    | succ a => exact k2 a b i' (by simpa [branchList] using hb) (by simpa using hi)

theorem mem_branchSpots {d : Diagram} {s : Node} {P : List Char} {o : Nat} {x : TreeSpot} : ∀ {bs : Branches} {fs : List String} {k : Nat},
    x ∈ branchSpots d s P o bs fs k ↔ ∃ j b i, (branchList bs)[j]? = some b ∧ fs[j]? = some i ∧
      x ∈ treeSpots d (P ++ decimal o ++ [letter (k + j)]) 1 (splitCondition d s i) b
  | .nil, fs, k => by simp [branchSpots, branchList]
  | .cons l r, [], k => by simp [branchSpots]
  | .cons l r, i :: fs, k => by
    rw [branchSpots, List.mem_append, mem_branchSpots (bs := r)]
    constructor
    · rintro (h | ⟨j, b, i', h1, h2, h3⟩)
      · exact ⟨0, l, i, by simp [branchList], by simp, h⟩
      · exact ⟨j + 1, b, i', by simpa [branchList] using h1, by simpa using h2, by rw [show k + (j + 1) = k + 1 + j by omega]; exact h3⟩
    · rintro ⟨j, b, i', h1, h2, h3⟩
      cases j with
      | zero => simp [branchList] at h1 h2; subst h1 h2; exact .inl h3
      | succ j => exact .inr ⟨j, b, i', by simpa [branchList] using h1, by simpa using h2, by rw [show k + 1 + j = k + (j + 1) by omega]; exact h3⟩

/-! ## Places are reached from the first place -/

mutual
theorem spots_reached {d : Diagram} {x : TreeSpot} : ∀ (l : Strand) (P : List Char) (o : Nat) (c : String), x ∈ treeSpots d P o c l →
    Relation.ReflTransGen (Child d) ⟨l, P, o, c⟩ x
  | .step n rest, P, o, c, h => by
    rw [treeSpots, List.mem_cons] at h
    rcases h with rfl | h
    · exact .refl
    · exact .head .next (spots_reached rest P (o + 1) "" h)
  | .stop e, P, o, c, h => by
    rw [treeSpots, List.mem_singleton] at h
    subst h; exact .refl
  | .fork s bs, P, o, c, h => by
    rw [treeSpots, List.mem_cons] at h
    rcases h with rfl | h
    · exact .refl
    · obtain ⟨j, b, i, h1, h2, h3⟩ := branches_reached bs s P o (outs s) 0 h
      rw [Nat.zero_add] at h3
      exact .head (.branch h1 h2) h3
  | .meet, P, o, c, h => by simp [treeSpots] at h
  | .block s bs rest, P, o, c, h => by simp [treeSpots] at h

theorem branches_reached {d : Diagram} {x : TreeSpot} : ∀ (bs : Branches) (s : Node) (P : List Char) (o : Nat) (fs : List String) (k : Nat), x ∈ branchSpots d s P o bs fs k →
    ∃ j b i, (branchList bs)[j]? = some b ∧ fs[j]? = some i ∧ Relation.ReflTransGen (Child d) ⟨b, P ++ decimal o ++ [letter (k + j)], 1, splitCondition d s i⟩ x
  | .nil, s, P, o, fs, k, h => by simp [branchSpots] at h
  | .cons l r, s, P, o, [], k, h => by simp [branchSpots] at h
  | .cons l r, s, P, o, i :: fs, k, h => by
    rw [branchSpots, List.mem_append] at h
    rcases h with h | h
    · exact ⟨0, l, i, by simp [branchList], by simp, spots_reached l _ _ _ h⟩
    · obtain ⟨j, b, i', h1, h2, h3⟩ := branches_reached r s P o fs (k + 1) h
      exact ⟨j + 1, b, i', by simpa [branchList] using h1, by simpa using h2, by rw [show k + (j + 1) = k + 1 + j by omega]; exact h3⟩
end

theorem spots_self {d : Diagram} {x : TreeSpot} (h : 1 ≤ x.line.long ∨ x.line.IsFork) : x ∈ x.all d := by
  obtain ⟨l, P, o, c⟩ := x
  cases l <;> simp [TreeSpot.all, treeSpots, Strand.long, Strand.IsFork] at h ⊢

theorem child_spots {d : Diagram} {x y : TreeSpot} (h : Child d x y) : ∀ z ∈ y.all d, z ∈ x.all d := by
  intro z hz
  cases h with
  | next => exact List.mem_cons_of_mem _ hz
  | branch h1 h2 => exact List.mem_cons_of_mem _ (mem_branchSpots.2 ⟨_, _, _, h1, h2, by rw [Nat.zero_add]; exact hz⟩)

theorem reached_spots {d : Diagram} {x y : TreeSpot} (h : Relation.ReflTransGen (Child d) x y) (hy : 1 ≤ y.line.long ∨ y.line.IsFork) : y ∈ x.all d := by
  induction h using Relation.ReflTransGen.head_induction_on with
  | refl => exact spots_self hy
  | head h1 _ ih => exact child_spots h1 _ ih

theorem long_or_fork {l : Strand} (h : l.IsTree) : 1 ≤ l.long ∨ l.IsFork := by
  cases l <;> simp [Strand.IsTree, Strand.long, Strand.IsFork] at h ⊢

/-! ## Rows and nodes of the places -/

mutual
theorem table_spots {d : Diagram} : ∀ (l : Strand) (P : List Char) (o : Nat) (c : String), l.IsTree →
    l.table d false (String.ofList P) o c = (treeSpots d P o c l).flatMap TreeSpot.rows
  | .step n rest, P, o, c, h => by
    rw [Strand.IsTree] at h
    rw [Strand.table, if_neg (by simp), row_activity h.1, treeSpots, List.flatMap_cons, table_spots rest P (o + 1) "" h.2]
    rfl
  | .stop e, P, o, c, h => by
    rw [Strand.IsTree] at h
    rw [Strand.table, row_end' h, treeSpots]
    simp [TreeSpot.rows]
  | .fork s bs, P, o, c, h => by
    rw [Strand.IsTree] at h
    rw [Strand.table, nodeRow, if_neg (gateway_silent h.1).1, List.nil_append, treeSpots, List.flatMap_cons, branch_table_spots bs s P o (outs s) 0 h.2]
    rfl
  | .meet, P, o, c, h => by simp [Strand.IsTree] at h
  | .block s bs rest, P, o, c, h => by simp [Strand.IsTree] at h

theorem branch_table_spots {d : Diagram} : ∀ (bs : Branches) (s : Node) (P : List Char) (o : Nat) (fs : List String) (k : Nat), bs.AreTrees →
    bs.table d s (String.ofList P) o fs k = (branchSpots d s P o bs fs k).flatMap TreeSpot.rows
  | .nil, s, P, o, fs, k, h => by simp [branchSpots, Branches.table]
  | .cons l r, s, P, o, [], k, h => by simp [branchSpots, Branches.table]
  | .cons l r, s, P, o, i :: fs, k, h => by
    rw [Branches.AreTrees] at h
    have hm : ¬l.IsMeet := by
      cases l <;> simp [Strand.IsMeet, Strand.IsTree] at h ⊢
    have e : String.ofList P ++ toString o ++ String.ofList [letter k] = String.ofList (P ++ decimal o ++ [letter k]) := by
      rw [String.ofList_append, String.ofList_append, name_str]
    rw [cons_table hm, e, table_spots l _ _ _ h.1, branch_table_spots r s P o fs (k + 1) h.2.2.2, branchSpots, List.flatMap_append]
end

mutual
theorem nodes_spots {d : Diagram} {j : Option Node} : ∀ (l : Strand) (P : List Char) (o : Nat) (c : String), l.IsTree → l.Fits d false j →
    (treeSpots d P o c l).map (fun x => x.line.first none) = l.nodes.map some
  | .step n rest, P, o, c, h, hf => by
    rw [Strand.IsTree] at h
    rw [Strand.Fits] at hf
    rw [treeSpots, List.map_cons, nodes_spots rest P (o + 1) "" h.2 hf.2.2.2.2.1, Strand.nodes]
    rfl
  | .stop e, P, o, c, h, hf => by simp [treeSpots, Strand.nodes, Strand.first]
  | .fork s bs, P, o, c, h, hf => by
    rw [Strand.IsTree] at h
    rw [Strand.Fits] at hf
    rw [treeSpots, List.map_cons, branch_nodes_spots bs s P o (outs s) 0 h.2 hf.2.2.2.2, Strand.nodes]
    rfl
  | .meet, P, o, c, h, hf => by simp [Strand.IsTree] at h
  | .block s bs rest, P, o, c, h, hf => by simp [Strand.IsTree] at h

theorem branch_nodes_spots {d : Diagram} {j : Option Node} : ∀ (bs : Branches) (s : Node) (P : List Char) (o : Nat) (fs : List String) (k : Nat), bs.AreTrees → bs.Fit d j fs →
    (branchSpots d s P o bs fs k).map (fun x => x.line.first none) = bs.nodes.map some
  | .nil, s, P, o, fs, k, h, hf => by simp [branchSpots, Branches.nodes]
  | .cons l r, s, P, o, fs, k, h, hf => by
    rw [Branches.AreTrees] at h
    rw [Branches.Fit] at hf
    obtain ⟨i, gs, rfl, h1, h2, h3⟩ := hf
    rw [branchSpots, List.map_append, nodes_spots l _ _ _ h.1 h2, branch_nodes_spots r s P o gs (k + 1) h.2.2.2 h3, Branches.nodes, List.map_append]
end

/-! ## The places of a process -/

def treeRoot (s : Node) (l : Strand) : TreeSpot := ⟨.step s l, [], 0, ""⟩

/-- A place of the process. -/
def OnTree (d : Diagram) (s : Node) (l : Strand) (x : TreeSpot) : Prop := Relation.ReflTransGen (Child d) (treeRoot s l) x

/-- What holds at every place. -/
structure FineSpot (d : Diagram) (s : Node) (l : Strand) (x : TreeSpot) : Prop where
  pref : BranchPrefix x.pre
  zero : x.num = 0 → x = treeRoot s l
  tree : x.num ≠ 0 → x.line.IsTree
  fits : x.line.Fits d false none
  short : x.pre ≠ [] → 1 ≤ x.num ∧ x.num + x.line.long ≤ 11
  first : x.pre ≠ [] → x.num = 1 → 1 ≤ x.line.long

section
variable {d : Diagram} {s : Node} {l : Strand} (T : TreeProcess d s l)
include T

theorem TreeP.fine {x : TreeSpot} (h : OnTree d s l x) : FineSpot d s l x := by
  induction h with
  | refl => exact ⟨.nil, fun _ => rfl, fun h => absurd rfl h, T.structured.fits, fun h => absurd rfl h, fun h => absurd rfl h⟩
  | tail _ hc ih =>
    cases hc with
    | @next n rest p k c =>
      have hf := ih.fits
      rw [Strand.Fits] at hf
      refine ⟨ih.pref, fun h => absurd h (Nat.succ_ne_zero _), fun _ => ?_, hf.2.2.2.2.1, fun h => ?_, fun h h1 => ?_⟩
      · by_cases hk : k = 0
        · have := ih.zero hk
          simp only [treeRoot, TreeSpot.mk.injEq, Strand.step.injEq] at this
          rw [this.1.2]; exact T.tree
        · have := ih.tree hk
          rw [Strand.IsTree] at this
          exact this.2
      · have := ih.short h
        simp only [Strand.long] at this ⊢
        exact ⟨by omega, by omega⟩
      · have := ih.short h
        simp only at this h1
        omega
    | @branch g bs p k j c i b h1 h2 =>
      have hf := ih.fits
      rw [Strand.Fits] at hf
      obtain ⟨k1, k2⟩ := fit_branches hf.2.2.2.2
      have hk : k ≠ 0 := fun hk => by
        have := ih.zero hk
        simp [treeRoot] at this
      have ht := ih.tree hk
      rw [Strand.IsTree] at ht
      obtain ⟨t1, t2, t3⟩ := trees_iff.1 ht.2 b (List.mem_of_getElem? h1)
      have hj := (List.getElem?_eq_some_iff.1 h2).1
      have h26 : j < 26 := by have := hf.2.2.1.2.2.2; omega
      exact ⟨.step k ih.pref (letter_ok h26).range.1 (letter_ok h26).range.2, fun h => absurd h (by simp), fun _ => t1, (k2 j b i h1 h2).2,
        fun _ => ⟨Nat.le_refl _, by simp only; omega⟩, fun _ _ => t2⟩

theorem TreeP.here {x : TreeSpot} (h : OnTree d s l x) : 1 ≤ x.line.long ∨ x.line.IsFork := by
  have f := TreeP.fine T h
  by_cases hx : x.num = 0
  · rw [f.zero hx]; simp [treeRoot, Strand.long]
  · exact long_or_fork (f.tree hx)

theorem TreeP.fork_next {g : Node} {bs : Branches} {p : List Char} {k : Nat} {c : String} (h : OnTree d s l ⟨.fork g bs, p, k, c⟩) :
    ∃ n k' c', k = k' + 1 ∧ OnTree d s l ⟨.step n (.fork g bs), p, k', c'⟩ := by
  generalize e : (⟨.fork g bs, p, k, c⟩ : TreeSpot) = x at h
  cases h with
  | refl => simp [treeRoot] at e
  | tail h' hc =>
    have fx := TreeP.fine T (.tail h' hc)
    cases hc with
    | @next n rest p' k' c' =>
      simp only [TreeSpot.mk.injEq] at e
      obtain ⟨rfl, rfl, rfl, rfl⟩ := e
      exact ⟨n, k', c', rfl, h'⟩
    | branch h1 h2 =>
      simp only [TreeSpot.mk.injEq] at e
      obtain ⟨rfl, rfl, rfl, rfl⟩ := e
      have := fx.first (by simp) rfl
      simp [Strand.long] at this

theorem TreeP.unique {x y : TreeSpot} (h : OnTree d s l x) (k : OnTree d s l y) (hp : x.pre = y.pre) (hn : x.num = y.num) : x = y := by
  induction h generalizing y with
  | refl => exact ((TreeP.fine T k).zero (by rw [← hn]; rfl)).symm
  | @tail x' x h' hc ih =>
    have fx := TreeP.fine T h'
    cases k with
    | refl => exact (TreeP.fine T (.tail h' hc)).zero (by rw [hn]; rfl)
    | @tail y' y k' kc =>
      have fy := TreeP.fine T k'
      cases hc with
      | @next n rest p a c =>
        cases kc with
        | @next n' rest' p' a' c' =>
          simp only at hp hn
          have := ih k' hp (by simp only; omega)
          simp only [TreeSpot.mk.injEq, Strand.step.injEq] at this ⊢
          exact ⟨this.1.2, hp, by omega, trivial⟩
        | @branch g bs p' a' j c' i b h1 h2 =>
          simp only at hp hn
          have := fx.short (by simp only; rw [hp]; simp)
          simp only at this
          omega
      | @branch g bs p a j c i b h1 h2 =>
        cases kc with
        | @next n' rest' p' a' c' =>
          simp only at hp hn
          have := fy.short (by simp only; rw [← hp]; simp)
          simp only at this
          omega
        | @branch g' bs' p' a' j' c' i' b' k1 k2 =>
          simp only at hp
          obtain ⟨e1, e2⟩ := List.append_inj' hp rfl
          obtain ⟨rfl, rfl⟩ := Props.step_eq fx.pref fy.pref rfl e1
          have e := ih k' rfl rfl
          simp only [TreeSpot.mk.injEq, Strand.fork.injEq] at e
          obtain ⟨⟨rfl, rfl⟩, -, -, rfl⟩ := e
          have hf := fx.fits
          rw [Strand.Fits] at hf
          have b1 := (List.getElem?_eq_some_iff.1 h2).1
          have b2 := (List.getElem?_eq_some_iff.1 k2).1
          have b3 := hf.2.2.1.2.2.2
          obtain rfl := letter_inj (by omega) (by omega) (List.cons.inj e2).1
          rw [h1] at k1; cases k1
          rw [h2] at k2; cases k2
          rfl

/-! ## The rows -/

omit T in
theorem root_row (hs : s.2.type = some "startEvent") (hl : l.IsTree) :
    (Strand.step s l).table d false "" 0 "" = ((treeRoot s l).all d).flatMap TreeSpot.rows := by
  rw [Strand.table, if_neg (by simp), row_start hs]
  show _ = (treeSpots d [] 0 "" (.step s l)).flatMap TreeSpot.rows
  rw [treeSpots, List.flatMap_cons]
  have := table_spots (d := d) l [] 1 "" hl
  rw [show String.ofList [] = "" from rfl] at this
  rw [this]
  simp [TreeSpot.rows]

theorem TreeP.mem_rows {r : Row} : r ∈ (Strand.step s l).table d false "" 0 "" ↔ ∃ x, OnTree d s l x ∧ r ∈ x.rows := by
  rw [root_row T.begins T.tree, List.mem_flatMap]
  constructor
  · rintro ⟨x, h1, h2⟩; exact ⟨x, spots_reached _ _ _ _ h1, h2⟩
  · rintro ⟨x, h1, h2⟩; exact ⟨x, reached_spots h1 (TreeP.here T h1), h2⟩

omit T in
theorem spot_rows {x : TreeSpot} {r : Row} (h : r ∈ x.rows) : r.order.toList = x.pre ++ decimal x.num ∧ r.order = String.ofList (x.pre ++ decimal x.num) ∧ 1 ≤ x.line.long ∧ x.rows = [r] := by
  obtain ⟨m, p, k, c⟩ := x
  cases m <;> simp only [TreeSpot.rows, List.mem_singleton, List.not_mem_nil] at h <;> subst h <;> simp [Cell.row, Strand.long, TreeSpot.rows]

omit T in
theorem rows_of_long {x : TreeSpot} (h : 1 ≤ x.line.long) : ∃ r, r ∈ x.rows := by
  obtain ⟨m, p, k, c⟩ := x
  cases m <;> simp [Strand.long, TreeSpot.rows] at h ⊢

omit T in
/-- A row that is not marked as an end is that of a step. -/
theorem open_row {x : TreeSpot} {r : Row} (h : r ∈ x.rows) (ht : r.terminated ≠ "yes") : ∃ n rest p k c, x = ⟨.step n rest, p, k, c⟩ ∧ r = (cellOf n c).row (p ++ decimal k) false := by
  obtain ⟨m, p, k, c⟩ := x
  cases m <;> simp only [TreeSpot.rows, List.mem_singleton, List.not_mem_nil] at h
  · subst h; simp [Cell.row] at ht
  · exact ⟨_, _, _, _, _, rfl, h⟩

local notation "ROWS" => Strand.table d false "" 0 "" (Strand.step s l)

theorem TreeP.has {p : List Char} {k : Nat} (hp : BranchPrefix p) : HasOrder ROWS (p ++ decimal k) ↔ ∃ x, OnTree d s l x ∧ x.pre = p ∧ x.num = k ∧ 1 ≤ x.line.long := by
  constructor
  · rintro ⟨r, hr, e⟩
    obtain ⟨x, hx, h⟩ := (TreeP.mem_rows T).1 hr
    obtain ⟨h1, -, h2, -⟩ := spot_rows h
    obtain ⟨rfl, rfl⟩ := Props.step_eq (TreeP.fine T hx).pref hp h1 e
    exact ⟨x, hx, rfl, rfl, h2⟩
  · rintro ⟨x, hx, rfl, rfl, h⟩
    obtain ⟨r, hr⟩ := rows_of_long h
    exact ⟨r, (TreeP.mem_rows T).2 ⟨x, hx, hr⟩, (spot_rows hr).1⟩

theorem TreeP.at {r : Row} (hr : r ∈ ROWS) {p : List Char} {k : Nat} (hp : BranchPrefix p) (e : r.order.toList = p ++ decimal k) :
    ∃ x, OnTree d s l x ∧ r ∈ x.rows ∧ x.pre = p ∧ x.num = k := by
  obtain ⟨x, hx, h⟩ := (TreeP.mem_rows T).1 hr
  obtain ⟨rfl, rfl⟩ := Props.step_eq (TreeP.fine T hx).pref hp (spot_rows h).1 e
  exact ⟨x, hx, h, rfl, rfl⟩

theorem TreeP.no_letter {o : List Char} {c : Char} (hc : c.isDigit = false) : ¬HasOrder ROWS (o ++ [c]) := by
  rintro ⟨r, hr, e⟩
  obtain ⟨x, hx, h⟩ := (TreeP.mem_rows T).1 hr
  rw [(spot_rows h).1] at e
  rcases List.eq_nil_or_concat (decimal x.num) with h0 | ⟨w, a, h0⟩
  · exact decimal_ne_nil _ h0
  · rw [h0, List.concat_eq_append, ← List.append_assoc] at e
    have ha : a = c := by simpa using (List.append_inj' e rfl).2
    have := decimal_isDigit (n := x.num) (c := a) (by rw [h0]; simp)
    rw [ha, hc] at this
    cases this

/-- Behind a step comes a row or a split. -/
theorem TreeP.after {n : Node} {rest : Strand} {p : List Char} {k : Nat} {c : String} (h : OnTree d s l ⟨.step n rest, p, k, c⟩) :
    (1 ≤ rest.long ∧ HasOrder ROWS (p ++ decimal (k + 1))) ∨
    ∃ g bs, rest = .fork g bs ∧ ¬HasOrder ROWS (p ++ decimal (k + 1)) ∧ HasOrder ROWS (p ++ decimal (k + 1) ++ ['a', '1']) ∧ OpensSplit ROWS (p ++ decimal k) (p ++ decimal (k + 1)) := by
  have hn : OnTree d s l ⟨rest, p, k + 1, ""⟩ := .tail h .next
  have fp := (TreeP.fine T h).pref
  rcases TreeP.here T hn with hl | hf
  · exact .inl ⟨hl, (TreeP.has T fp).2 ⟨_, hn, rfl, rfl, hl⟩⟩
  · cases rest with
    | fork g bs =>
      have f := TreeP.fine T hn
      have ff := f.fits
      rw [Strand.Fits] at ff
      obtain ⟨k1, k2⟩ := fit_branches ff.2.2.2.2
      have two := ff.2.2.1.2.2.1
      obtain ⟨i, hi⟩ : ∃ i, (outs g)[0]? = some i := ⟨_, List.getElem?_eq_getElem (by omega)⟩
      obtain ⟨b, hb⟩ : ∃ b, (branchList bs)[0]? = some b := ⟨_, List.getElem?_eq_getElem (by omega)⟩
      have hc : OnTree d s l _ := .tail hn (.branch hb hi)
      have fc := TreeP.fine T hc
      have no : ¬HasOrder ROWS (p ++ decimal (k + 1)) := by
        rw [TreeP.has T fp]
        rintro ⟨x, hx, e1, e2, e3⟩
        have := TreeP.unique T hx hn e1 e2
        subst this
        simp [Strand.long] at e3
      have yes : HasOrder ROWS (p ++ decimal (k + 1) ++ ['a', '1']) := by
        have := (TreeP.has T fc.pref (k := 1)).2 ⟨_, hc, rfl, rfl, fc.first (by simp) rfl⟩
        have e : p ++ decimal (k + 1) ++ [letter 0] ++ decimal 1 = p ++ decimal (k + 1) ++ ['a', '1'] := by
          rw [List.append_assoc]; rfl
        rw [← e]; exact this
      exact .inr ⟨g, bs, rfl, no, yes, p, k, fp, rfl, rfl, no, .inr yes⟩
    | _ => simp [Strand.IsFork] at hf

omit T in
theorem tail_digits {A B X Y : List Char} (hx : ∀ c ∈ X, c.isDigit = true) (hy : ∀ c ∈ Y, c.isDigit = true) (ha : ∀ w c, A = w ++ [c] → c.isDigit = false)
    (hb : ∀ w c, B = w ++ [c] → c.isDigit = false) (h : A ++ X = B ++ Y) : A = B ∧ X = Y := by
  rcases List.append_eq_append_iff.1 h with ⟨w, h1, h2⟩ | ⟨w, h1, h2⟩
  · rcases List.eq_nil_or_concat w with rfl | ⟨u, c, rfl⟩
    · simp at h1 h2; exact ⟨h1.symm, h2⟩
    · rw [List.concat_eq_append] at h1 h2
      have := hb (A ++ u) c (by rw [h1]; simp)
      rw [hx c (by rw [h2]; simp)] at this
      cases this
  · rcases List.eq_nil_or_concat w with rfl | ⟨u, c, rfl⟩
    · simp at h1 h2; exact ⟨h1, h2.symm⟩
    · rw [List.concat_eq_append] at h1 h2
      have := ha (B ++ u) c (by rw [h1]; simp)
      rw [hy c (by rw [h2]; simp)] at this
      cases this

omit T in
theorem prefix_end {p : List Char} (h : BranchPrefix p) : ∀ w c, p = w ++ [c] → c.isDigit = false := by
  intro w c e
  cases h with
  | nil => simp at e
  | step n _ h1 h2 =>
    have := (List.append_inj' e rfl).2
    simp at this
    subst this
    cases hd : Char.isDigit _ with
    | false => rfl
    | true =>
      simp only [Char.isDigit, Bool.and_eq_true, decide_eq_true_eq, ge_iff_le, UInt32.le_iff_toNat_le] at hd
      rw [Char.le_def, UInt32.le_iff_toNat_le] at h1
      have a2 : ('a' : Char).val.toNat = 97 := rfl
      have a3 : ('9' : Char).val.toNat = 57 := rfl
      omega

omit T in
theorem alpha_no_digit {c : Char} (h : c.isAlpha = true) : c.isDigit = false := by
  cases hc : c.isDigit with
  | false => rfl
  | true =>
    exfalso
    simp only [Char.isAlpha, Char.isUpper, Char.isLower, Char.isDigit, Bool.or_eq_true, Bool.and_eq_true, decide_eq_true_eq, ge_iff_le, UInt32.le_iff_toNat_le] at h hc
    have a1 : ('A' : Char).val.toNat = 65 := rfl
    have a2 : ('a' : Char).val.toNat = 97 := rfl
    have a3 : ('9' : Char).val.toNat = 57 := rfl
    omega

/-- The first step of a branch. -/
theorem TreeP.first_child {x : TreeSpot} (h : OnTree d s l x) (h1 : x.num = 1) (h2 : x.pre ≠ []) : ∃ y, OnTree d s l y ∧ y.line.IsFork ∧ Child d y x := by
  cases h with
  | refl => simp [treeRoot] at h1
  | tail h' hc =>
    have f := TreeP.fine T h'
    cases hc with
    | next =>
      have := f.short h2
      simp only at this h1
      omega
    | branch k1 k2 => exact ⟨_, h', by simp [Strand.IsFork], .branch k1 k2⟩

/-- The first steps of the branches of a split. -/
theorem TreeP.starts {g : Node} {bs : Branches} {p : List Char} {k : Nat} {c : String} (h : OnTree d s l ⟨.fork g bs, p, k, c⟩) {r : Row} (hr : r ∈ ROWS) :
    BranchStart (p ++ decimal k) r.order.toList ↔ ∃ j b i, (branchList bs)[j]? = some b ∧ (outs g)[j]? = some i ∧
      r ∈ (TreeSpot.mk b (p ++ decimal k ++ [letter j]) 1 (splitCondition d g i)).rows := by
  have f := TreeP.fine T h
  have ff := f.fits
  rw [Strand.Fits] at ff
  obtain ⟨k1, k2⟩ := fit_branches ff.2.2.2.2
  constructor
  · rintro ⟨a, ones, e, ha, ho⟩
    obtain ⟨x, hx, hxr⟩ := (TreeP.mem_rows T).1 hr
    obtain ⟨e1, -, e2, -⟩ := spot_rows hxr
    have fx := TreeP.fine T hx
    rw [e1, show p ++ decimal k ++ a :: ones = (p ++ decimal k ++ [a]) ++ ones by simp] at e
    obtain ⟨q1, q2⟩ := tail_digits (fun c hc => decimal_isDigit hc) (fun c hc => by rw [ho c hc]; rfl) (prefix_end fx.pref)
      (fun w c e => by have := (List.append_inj' e rfl).2; simp at this; rw [← this]; exact alpha_no_digit ha) e
    have hne : x.pre ≠ [] := by rw [q1]; simp
    have sh := fx.short hne
    have hnum := decimal_ones sh.1 (by omega) (by rw [q2]; exact ho)
    obtain ⟨y, hy, hyf, hc⟩ := TreeP.first_child T hx hnum hne
    cases hc with
    | next => simp [Strand.IsFork] at hyf
    | @branch g' bs' p' a' j c' i b m1 m2 =>
      simp only at q1
      obtain ⟨u1, u2⟩ := List.append_inj' q1 rfl
      obtain ⟨rfl, rfl⟩ := Props.step_eq (TreeP.fine T hy).pref f.pref rfl u1
      have e := TreeP.unique T hy h rfl rfl
      simp only [TreeSpot.mk.injEq, Strand.fork.injEq] at e
      obtain ⟨⟨rfl, rfl⟩, -, -, rfl⟩ := e
      exact ⟨j, b, i, m1, m2, hxr⟩
  · rintro ⟨j, b, i, h1, h2, h3⟩
    have hj := (List.getElem?_eq_some_iff.1 h2).1
    have h26 : j < 26 := by have := ff.2.2.1.2.2.2; omega
    rw [(spot_rows h3).1]
    exact ⟨letter j, ['1'], by simp [List.append_assoc]; rfl, letter_alpha (letter_isLetter h26) (by
      have := (letter_ok h26).range.2
      rintro e
      rw [e] at this
      exact absurd this (by decide)), by simp⟩

end

end Bpmn.Csv

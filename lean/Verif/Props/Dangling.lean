import Verif.Spec.Dangling
import Verif.Props.TreeProcess
import Verif.Props.GotoAccept
import Verif.Props.Decisions
/-! # C132: processes whose tables cannot be imported -/
set_option linter.unusedSimpArgs false
set_option linter.unusedVariables false

namespace Bpmn.Csv
open Bpmn.Spec Bpmn.Spec.Csv

/-- One of the orders that could follow. -/
def Near (q s : List Char) : Prop := s = q ∨ s = q ++ ['a'] ∨ s = q ++ ['a', '1']

theorem near_split {p w s : List Char} {a b : Nat} (hw : Stops w) (e : s = p ++ decimal a ++ w) (h : Near (p ++ decimal b) s) :
    a = b ∧ (w = [] ∨ w = ['a'] ∨ w = ['a', '1']) := by
  subst e
  rcases h with h | h | h
  · rw [List.append_assoc] at h
    have := decimal_split (n := b) (s := []) hw (by simp [Stops]) (by simpa using List.append_cancel_left h)
    exact ⟨this.1, .inl this.2⟩
  · rw [List.append_assoc, List.append_assoc] at h
    have := decimal_split hw (by simp [Stops]) (List.append_cancel_left h)
    exact ⟨this.1, .inr (.inl this.2)⟩
  · rw [List.append_assoc, List.append_assoc] at h
    have := decimal_split hw (by simp [Stops]) (List.append_cancel_left h)
    exact ⟨this.1, .inr (.inr this.2)⟩

theorem under_far {p : List Char} {o b : Nat} {s : String} (h : Under p o s) (hb : b < o) : ¬Near (p ++ decimal b) s.toList := by
  obtain ⟨k, w, h1, h2, e⟩ := h
  intro hn
  have := (near_split h2 e hn).1
  omega

theorem letter_digit (j : Nat) : (letter j).isDigit = false := by
  by_cases h : j < 26
  · exact (letter_ok h).notDigit
  · unfold letter
    rw [List.getD_eq_getElem?_getD, List.getElem?_eq_none (by simpa using h)]
    decide

theorem letter_a {j : Nat} (h : letter j = 'a') : j = 0 := by
  by_cases hj : j < 26
  · exact letter_inj hj (by omega) (h.trans (by decide))
  · unfold letter at h
    rw [List.getD_eq_getElem?_getD, List.getElem?_eq_none (by simpa using hj)] at h
    exact absurd h (by decide)

/-- The order is that of a row of the branch with the letter `j`, or of a later one. -/
def FromBranch (p : List Char) (o k : Nat) (s : String) : Prop := ∃ j, k ≤ j ∧ Under (p ++ decimal o ++ [letter j]) 1 s

theorem FromBranch.form {p : List Char} {o k : Nat} {s : String} (h : FromBranch p o k s) :
    ∃ j w, k ≤ j ∧ w ≠ [] ∧ Stops (letter j :: w) ∧ s.toList = p ++ decimal o ++ letter j :: w := by
  obtain ⟨j, hj, m, w, -, -, e⟩ := h
  refine ⟨j, decimal m ++ w, hj, by simp [decimal_ne_nil], ?_, by rw [e]; simp⟩
  intro c hc
  simp at hc
  rw [← hc]
  exact letter_digit j

theorem FromBranch.under {p : List Char} {o k : Nat} {s : String} (h : FromBranch p o k s) : Under p o s := by
  obtain ⟨j, w, -, -, h1, e⟩ := h.form
  exact ⟨o, _, Nat.le_refl _, h1, e⟩

theorem FromBranch.other {p : List Char} {o k b : Nat} {s : String} (h : FromBranch p o k s) (hb : b ≠ o) : ¬Near (p ++ decimal b) s.toList := by
  obtain ⟨j, w, -, -, h1, e⟩ := h.form
  intro hn
  exact hb (near_split h1 e hn).1.symm

theorem FromBranch.first {p : List Char} {o k : Nat} {s : String} (h : FromBranch p o k s) (hn : Near (p ++ decimal o) s.toList) :
    k = 0 ∧ s.toList = p ++ decimal o ++ ['a', '1'] := by
  obtain ⟨j, w, hj, hw, h1, e⟩ := h.form
  rcases (near_split h1 e hn).2 with h2 | h2 | h2
  · simp at h2
  · simp only [List.cons.injEq] at h2
    exact absurd h2.2 hw
  · simp only [List.cons.injEq] at h2
    have := letter_a h2.1
    refine ⟨by omega, ?_⟩
    rw [e, h2.1, h2.2]

theorem nodeRow_order {n : Node} {o c : String} {r : Row} (h : r ∈ nodeRow n o c) : r.order = o ∧ HasRow n := by
  unfold nodeRow at h
  split_ifs at h with hr
  · simp at h
    rw [h]
    exact ⟨rfl, hr⟩
  · simp at h

theorem branch_pre (pre : String) (o k : Nat) : (pre ++ toString o ++ String.ofList [letter k]).toList = pre.toList ++ decimal o ++ [letter k] := by
  rw [String.toList_append, toList_order, String.toList_ofList]

/-- The rows of a line are numbered from `o` on. -/
theorem table_under {d : Diagram} {l : Strand} : ∀ (m : Bool) (pre : String) (o : Nat) (c : String), ∀ r ∈ l.table d m pre o c, Under pre.toList o r.order := by
  induction l using Strand.rec (motive_2 := fun bs => ∀ (s : Node) (pre : String) (o : Nat) (fs : List String) (k : Nat), ∀ r ∈ bs.table d s pre o fs k,
      FromBranch pre.toList o k r.order) with
  | stop e =>
    intro m pre o c r hr
    rw [Strand.table] at hr
    rw [(nodeRow_order hr).1]
    exact order_under pre o
  | meet => intro m pre o c r hr; simp [Strand.table] at hr
  | step n rest ih =>
    intro m pre o c r hr
    rw [Strand.table] at hr
    split_ifs at hr
    · exact ih _ _ _ _ _ hr
    · rcases List.mem_append.1 hr with hr | hr
      · rw [(nodeRow_order hr).1]
        exact order_under pre o
      · exact (ih _ _ _ _ _ hr).mono (by omega)
  | block s bs rest ih1 ih2 =>
    intro m pre o c r hr
    rw [Strand.table] at hr
    rcases List.mem_append.1 hr with hr | hr
    · rcases List.mem_append.1 hr with hr | hr
      · rw [(nodeRow_order hr).1]
        exact order_under pre o
      · exact (ih1 _ _ _ _ _ _ hr).under
    · exact (ih2 _ _ _ _ _ hr).mono (by omega)
  | fork s bs ih =>
    intro m pre o c r hr
    rw [Strand.table] at hr
    rcases List.mem_append.1 hr with hr | hr
    · rw [(nodeRow_order hr).1]
      exact order_under pre o
    · exact (ih _ _ _ _ _ _ hr).under
  | nil =>
    rename_i hr
    simp [Branches.table] at hr
  | cons l r ih1 ih2 =>
    rename_i s pre o fs k x hr
    cases fs with
    | nil => simp [Branches.table] at hr
    | cons i fs =>
      have key : x ∈ l.table d false (pre ++ toString o ++ String.ofList [letter k]) 1 (splitCondition d s i) ++ r.table d s pre o fs (k + 1) ∨
          (x.order = pre ++ toString o ++ String.ofList [letter k] ++ "1") := by
        cases l with
        | meet =>
          simp only [Branches.table, List.mem_cons] at hr
          rcases hr with rfl | hr
          · exact .inr rfl
          · exact .inl (List.mem_append_right _ hr)
        | _ => simp only [Branches.table] at hr; exact .inl hr
      rcases key with hx | hx
      · rcases List.mem_append.1 hx with hx | hx
        · have := ih1 _ _ _ _ _ hx
          rw [branch_pre] at this
          exact ⟨k, Nat.le_refl _, this⟩
        · obtain ⟨j, hj, h⟩ := ih2 _ _ _ _ _ _ hx
          exact ⟨j, by omega, h⟩
      · refine ⟨k, Nat.le_refl _, 1, [], Nat.le_refl _, by simp [Stops], ?_⟩
        rw [hx, String.toList_append, branch_pre]
        simp [show decimal 1 = ['1'] from by decide]

theorem branches_from {d : Diagram} {s : Node} : ∀ {bs : Spec.Branches} {pre : String} {o k : Nat} {fs : List String}, ∀ r ∈ bs.table d s pre o fs k, FromBranch pre.toList o k r.order
  | .nil, _, _, _, _, r, hr => by simp [Branches.table] at hr
  | .cons l q, pre, o, k, [], r, hr => by simp [Branches.table] at hr
  | .cons l q, pre, o, k, i :: fs, r, hr => by
    have key : r ∈ l.table d false (pre ++ toString o ++ String.ofList [letter k]) 1 (splitCondition d s i) ++ q.table d s pre o fs (k + 1) ∨
        (r.order = pre ++ toString o ++ String.ofList [letter k] ++ "1") := by
      cases l with
      | meet =>
        simp only [Branches.table, List.mem_cons] at hr
        rcases hr with rfl | hr
        · exact .inr rfl
        · exact .inl (List.mem_append_right _ hr)
      | _ => simp only [Branches.table] at hr; exact .inl hr
    rcases key with hx | hx
    · rcases List.mem_append.1 hx with hx | hx
      · have := table_under _ _ _ _ _ hx
        rw [branch_pre] at this
        exact ⟨k, Nat.le_refl _, this⟩
      · obtain ⟨j, hj, h⟩ := branches_from _ hx
        exact ⟨j, by omega, h⟩
    · refine ⟨k, Nat.le_refl _, 1, [], Nat.le_refl _, by simp [Stops], ?_⟩
      rw [hx, String.toList_append, branch_pre]
      simp [show decimal 1 = ['1'] from by decide]

/-- A line that begins without a row has no row with its first number. -/
theorem begins_order {d : Diagram} {l : Strand} {pre : String} {o : Nat} {c : String} (hb : ¬l.Begins) {r : Row} (hr : r ∈ l.table d false pre o c) :
    r.order.toList ≠ pre.toList ++ decimal o := by
  intro e
  have near : Near (pre.toList ++ decimal o) r.order.toList := .inl e
  cases l with
  | stop n => rw [Strand.table] at hr; exact hb (nodeRow_order hr).2
  | meet => simp [Strand.table] at hr
  | step n rest =>
    rw [Strand.table, if_neg (by simp)] at hr
    rcases List.mem_append.1 hr with hr | hr
    · exact hb (nodeRow_order hr).2
    · exact under_far (table_under _ _ _ _ _ hr) (by omega) near
  | block s bs rest =>
    rw [Strand.table] at hr
    rcases List.mem_append.1 hr with hr | hr
    · rcases List.mem_append.1 hr with hr | hr
      · exact hb (nodeRow_order hr).2
      · have := ((branches_from _ hr).first near).2
        rw [e] at this
        simp at this
    · exact under_far (table_under _ _ _ _ _ hr) (by omega) near
  | fork s bs =>
    rw [Strand.table] at hr
    rcases List.mem_append.1 hr with hr | hr
    · exact hb (nodeRow_order hr).2
    · have := ((branches_from _ hr).first near).2
      rw [e] at this
      simp at this

theorem branches_hidden {d : Diagram} {s : Node} {bs : Spec.Branches} (hb : ¬bs.FirstBegins) {pre : String} {o : Nat} {fs : List String} {r : Row} (hr : r ∈ bs.table d s pre o fs 0) :
    ¬Near (pre.toList ++ decimal o) r.order.toList := by
  intro near
  have e := ((branches_from _ hr).first near).2
  cases bs with
  | nil => simp [Branches.table] at hr
  | cons l q =>
    cases fs with
    | nil => simp [Branches.table] at hr
    | cons i fs =>
      rw [Branches.FirstBegins] at hb
      push Not at hb
      have key : r ∈ l.table d false (pre ++ toString o ++ String.ofList [letter 0]) 1 (splitCondition d s i) ++ q.table d s pre o fs 1 := by
        cases l with
        | meet => exact absurd trivial hb.1
        | _ => simp only [Branches.table] at hr; exact hr
      rcases List.mem_append.1 key with h | h
      · refine begins_order hb.2 h ?_
        rw [e, branch_pre]
        simp [show decimal 1 = ['1'] from by decide, show letter 0 = 'a' from by decide]
      · have := ((branches_from _ h).first near).1
        omega

/-- If the table does not show how a line begins, it has no row that could follow. -/
theorem shows_order {d : Diagram} : ∀ {l : Strand} {m : Bool} {pre : String} {o : Nat} {c : String}, ¬l.Shows m → ∀ r ∈ l.table d m pre o c, ¬Near (pre.toList ++ decimal o) r.order.toList
  | .stop n, m, pre, o, c, hs, r, hr => by
    rw [Strand.table] at hr
    rw [Strand.Shows] at hs
    exact absurd (nodeRow_order hr).2 hs
  | .meet, m, pre, o, c, hs, r, hr => by simp [Strand.table] at hr
  | .step n rest, m, pre, o, c, hs, r, hr => by
    rw [Strand.table] at hr
    rw [Strand.Shows] at hs
    split_ifs at hr hs with h
    · exact shows_order hs r hr
    · rcases List.mem_append.1 hr with hr | hr
      · exact absurd (nodeRow_order hr).2 hs
      · exact under_far (table_under _ _ _ _ _ hr) (by omega)
  | .block s bs rest, m, pre, o, c, hs, r, hr => by
    rw [Strand.table] at hr
    rw [Strand.Shows] at hs
    push Not at hs
    rcases List.mem_append.1 hr with hr | hr
    · rcases List.mem_append.1 hr with hr | hr
      · exact absurd (nodeRow_order hr).2 hs.1
      · exact branches_hidden hs.2 hr
    · exact under_far (table_under _ _ _ _ _ hr) (by omega)
  | .fork s bs, m, pre, o, c, hs, r, hr => by
    rw [Strand.table] at hr
    rw [Strand.Shows] at hs
    push Not at hs
    rcases List.mem_append.1 hr with hr | hr
    · exact absurd (nodeRow_order hr).2 hs.1
    · exact branches_hidden hs.2 hr

theorem open_caption {n : Node} (h : n.2.type ≠ some "endEvent") : (caption n).2.2 ≠ "yes" := by
  unfold caption
  simp only [h, if_false]
  split_ifs <;> simp

theorem own_far {pre : String} {o b : Nat} {n : Node} {c : String} {r : Row} (hr : r ∈ nodeRow n (pre ++ toString o) c) (hb : o ≠ b) :
    ¬Near (pre.toList ++ decimal b) r.order.toList := by
  intro near
  rw [(nodeRow_order hr).1, toList_order] at near
  exact hb (near_split (w := []) (by simp [Stops]) (by simp) near).1

theorem own_row {n : Node} {o c : String} (h : HasRow n) (he : n.2.type ≠ some "endEvent") : ∃ r ∈ nodeRow n o c, r.order = o ∧ r.terminated ≠ "yes" := by
  unfold nodeRow
  rw [if_pos h]
  exact ⟨_, List.mem_singleton.2 rfl, rfl, open_caption he⟩

/-- The row behind which there is nothing. -/
theorem dangling_row {d : Diagram} : ∀ {l : Strand} {m : Bool} {j : Option Node} {pre : String} {o : Nat} {c : String}, l.Dangles m → l.Fits d m j →
    ∃ r ∈ l.table d m pre o c, ∃ k, o ≤ k ∧ r.order = pre ++ toString k ∧ r.terminated ≠ "yes" ∧ ∀ q ∈ l.table d m pre o c, ¬Near (pre.toList ++ decimal (k + 1)) q.order.toList
  | .stop e, m, j, pre, o, c, hd, hf => by
    rw [Strand.Dangles] at hd
    obtain ⟨r, h1, h2, h3⟩ := own_row (n := e) (o := pre ++ toString o) (c := c) (by rcases hd with e | e <;> simp [HasRow, e]) (by rcases hd with e | e <;> simp [e])
    rw [Strand.table]
    exact ⟨r, h1, o, Nat.le_refl _, h2, h3, fun q hq => own_far hq (by omega)⟩
  | .meet, m, j, pre, o, c, hd, hf => by simp [Strand.Dangles] at hd
  | .step n rest, m, j, pre, o, c, hd, hf => by
    rw [Strand.Dangles] at hd
    rw [Strand.Fits] at hf
    rw [Strand.table]
    rcases hd with ⟨h1, h2, h3⟩ | hd
    · rw [if_neg h1]
      obtain ⟨r, k1, k2, k3⟩ := own_row (o := pre ++ toString o) (c := c) h2 hf.2.2.1
      refine ⟨r, List.mem_append_left _ k1, o, Nat.le_refl _, k2, k3, fun q hq => ?_⟩
      rcases List.mem_append.1 hq with hq | hq
      · exact own_far hq (by omega)
      · exact shows_order h3 q hq
    · by_cases h : m = true ∧ ¬IsActivity n
      · rw [if_pos h]
        exact dangling_row hd hf.2.2.2.2.1
      · rw [if_neg h]
        obtain ⟨r, k1, k, k2, k3, k4, k5⟩ := dangling_row (pre := pre) (o := o + 1) (c := "") hd hf.2.2.2.2.1
        refine ⟨r, List.mem_append_right _ k1, k, by omega, k3, k4, fun q hq => ?_⟩
        rcases List.mem_append.1 hq with hq | hq
        · exact own_far hq (by omega)
        · exact k5 q hq
  | .block s bs rest, m, j, pre, o, c, hd, hf => by
    rw [Strand.Dangles] at hd
    rw [Strand.Fits] at hf
    rw [Strand.table]
    rcases hd with ⟨h2, h3⟩ | hd
    · obtain ⟨r, k1, k2, k3⟩ := own_row (o := pre ++ toString o) (c := c) h2 hf.2.2.1.2.1
      refine ⟨r, List.mem_append_left _ (List.mem_append_left _ k1), o, Nat.le_refl _, k2, k3, fun q hq => ?_⟩
      rcases List.mem_append.1 hq with hq | hq
      · rcases List.mem_append.1 hq with hq | hq
        · exact own_far hq (by omega)
        · exact (branches_from _ hq).other (by omega)
      · exact shows_order h3 q hq
    · obtain ⟨r, k1, k, k2, k3, k4, k5⟩ := dangling_row (pre := pre) (o := o + 1) (c := "") hd hf.2.2.2.2.2.2
      refine ⟨r, List.mem_append_right _ k1, k, by omega, k3, k4, fun q hq => ?_⟩
      rcases List.mem_append.1 hq with hq | hq
      · rcases List.mem_append.1 hq with hq | hq
        · exact own_far hq (by omega)
        · exact (branches_from _ hq).other (by omega)
      · exact k5 q hq
  | .fork s bs, m, j, pre, o, c, hd, hf => by
    rw [Strand.Dangles] at hd
    rw [Strand.Fits] at hf
    rw [Strand.table]
    obtain ⟨r, k1, k2, k3⟩ := own_row (o := pre ++ toString o) (c := c) hd hf.2.2.1.2.1
    refine ⟨r, List.mem_append_left _ k1, o, Nat.le_refl _, k2, k3, fun q hq => ?_⟩
    rcases List.mem_append.1 hq with hq | hq
    · exact own_far hq (by omega)
    · exact (branches_from _ hq).other (by omega)

theorem order_alnum {s : String} (h : IsOrder s) : ∀ c ∈ s.toList, c.isAlphanum = true := by
  obtain ⟨p, n, hp, e⟩ := h
  rw [e]
  intro c hc
  rcases List.mem_append.1 hc with hc | hc
  · exact prefix_alnum hp c hc
  · have := decimal_isDigit hc
    simp [Char.isAlphanum, this]

end Bpmn.Csv

namespace Bpmn.Props
open Bpmn.Spec Bpmn.Spec.Csv Bpmn.Csv

/-- **C132.** If a row of the main line is not terminated, and the table does not show what comes next, the table is refused. -/
theorem C132_refused (d : Diagram) (l : Strand) (c : Consistent d) (st : Structured d l) (h : l.Dangles false) :
    ∃ rows, (∃ N, ∀ fuel ≥ N, exportRows d fuel = .ok rows) ∧ ∀ d', loadCsv rows {} ≠ .ok d' := by
  obtain ⟨N, hN⟩ := C96_rows d l c st
  refine ⟨_, ⟨N, hN⟩, ?_⟩
  obtain ⟨ho, hi⟩ := C42_orders d N _ (hN N (Nat.le_refl _))
  have t : Table (l.table d false "" 0 "") := ⟨ho, fun r hr => order_alnum (hi r hr)⟩
  obtain ⟨r, hr, k, -, h1, h2, h3⟩ := dangling_row (pre := "") (o := 0) (c := "") h st.fits
  have e : r.order.toList = decimal k := by rw [h1, toList_order]; simp
  have far : ∀ q, Near (decimal (k + 1)) q → ¬HasOrder (l.table d false "" 0 "") q := by
    rintro q hq ⟨x, hx, rfl⟩
    exact h3 x hx (by simpa using hq)
  refine C65_refused _ t r hr h2 [] (by rw [e]; exact main_stepOf k) ?_
  rw [e]
  intro hc
  cases hc with
  | @next p n hp e1 h4 =>
    have : p = [] := stepOf_unique ⟨hp, .inr ⟨n, e1⟩⟩ (main_stepOf k)
    subst this
    have : k = n := decimal_inj (by simpa using e1)
    subst this
    rcases h4 with h4 | h4 | h4
    · exact far _ (.inl (by simp)) h4
    · exact far _ (.inr (.inl (by simp))) h4
    · exact far _ (.inr (.inr (by simp))) h4
  | back hs hn _ _ _ => exact numberIn_ne hn (stepOf_unique hs (main_stepOf k))

/-! ## Examples -/

/-- A process that ends with a task (0), one with a gateway that has only one branch (1), and one with a task that splits (2). -/
def looseOps (k : Fin 3) : List Op :=
  [.createNew "d" "D", .addProcess "p" false true "None" "PL" "P", .addStartEvent "P" "begin" none false true (some "s") "u1" "u2", .addTask "P" "order" (some "t") "u"] ++
  match k with
  | 0 => [.addSequenceFlow "P" "s" "t" "" "f1"]
  | 1 => [.addExclusiveGateway "P" "g" "Diverging" none none "g", .addEndEvent "P" "done" none (some "e") "u" "v",
      .addSequenceFlow "P" "s" "g" "" "f1", .addSequenceFlow "P" "g" "t" "" "f2", .addSequenceFlow "P" "t" "e" "" "f3"]
  | 2 => [.addEndEvent "P" "done" none (some "e") "u" "v", .addEndEvent "P" "lost" none (some "f") "u" "v",
      .addSequenceFlow "P" "s" "t" "" "f1", .addSequenceFlow "P" "t" "e" "" "f2", .addSequenceFlow "P" "t" "f" "" "f3"]

def looseLine (k : Fin 3) (d : Diagram) : Strand :=
  let n := nodeOf d
  .step (n "s") (match k with
    | 0 => .stop (n "t")
    | 1 => .step (n "g") (.step (n "t") (.stop (n "e")))
    | 2 => .fork (n "t") (.cons (.stop (n "e")) (.cons (.stop (n "f")) .nil)))

set_option maxRecDepth 8000 in
/-- The hypotheses hold for these three. -/
example (k : Fin 3) : Consistent (Op.run {} (looseOps k)) ∧ Structured (Op.run {} (looseOps k)) (looseLine k (Op.run {} (looseOps k))) ∧
    (looseLine k (Op.run {} (looseOps k))).Dangles false := by
  refine ⟨consistent_of_allowed _ ?_, ?_, ?_⟩
  · match k with
    | 0 | 1 | 2 => simp [looseOps, AllowedHistory, Allowed, step, declaredNode, declaredFlow, directionArg, directions, chosen]
  · match k with
    | 0 | 1 | 2 => exact structured_of_check (by decide +kernel)
  · match k with
    | 0 => exact .inr (by decide +kernel : IsActivity (nodeOf (Op.run {} (looseOps 0)) "t"))
    | 1 => exact .inl ⟨by simp, by decide +kernel, (by decide +kernel : ¬HasRow (nodeOf (Op.run {} (looseOps 1)) "g"))⟩
    | 2 => exact .inr (by decide +kernel : HasRow (nodeOf (Op.run {} (looseOps 2)) "t"))

def turnLine (d : Diagram) : Strand :=
  let n := nodeOf d
  .step (n "s") (.step (n "t1") (.step (n "t2") (.step (n "t3") (.fork (n "g") (.cons (.step (n "t4") (.fork (n "h") (.cons (.step (n "t5") (.fork (n "i")
    (.cons (.fork (n "j") (.cons (.stop (n "e1")) (.cons (.stop (n "e2")) .nil))) (.cons (.stop (n "e3")) .nil)))) (.cons (.stop (n "e4")) .nil)))) (.cons (.stop (n "e5")) .nil))))))

/-- Some decisions about an order; in the inmost of them a gateway follows another gateway directly, in its first branch. -/
def turnOps : List Op :=
  [.createNew "d" "D", .addProcess "p" false true "None" "PL" "P",
   .addStartEvent "P" "begin" none false true (some "s") "u1" "u2", .addTask "P" "order" (some "t1") "u", .addTask "P" "check" (some "t2") "u", .addTask "P" "decide" (some "t3") "u",
   .addExclusiveGateway "P" "g" "Diverging" none none "g", .addTask "P" "pack" (some "t4") "u", .addExclusiveGateway "P" "h" "Diverging" none none "h",
   .addTask "P" "ship" (some "t5") "u", .addParallelGateway "P" "i" "Diverging" (some "i") "u", .addParallelGateway "P" "j" "Diverging" (some "j") "u",
   .addEndEvent "P" "shipped" none (some "e1") "u" "v", .addEndEvent "P" "paid" none (some "e2") "u" "v", .addEndEvent "P" "filed" none (some "e3") "u" "v",
   .addEndEvent "P" "kept" none (some "e4") "u" "v", .addEndEvent "P" "refused" none (some "e5") "u" "v",
   .addSequenceFlow "P" "s" "t1" "" "f1", .addSequenceFlow "P" "t1" "t2" "" "f2", .addSequenceFlow "P" "t2" "t3" "" "f3", .addSequenceFlow "P" "t3" "g" "" "f4",
   .addSequenceFlow "P" "g" "t4" "yes" "f5", .addSequenceFlow "P" "g" "e5" "no" "f6", .addSequenceFlow "P" "t4" "h" "" "f7",
   .addSequenceFlow "P" "h" "t5" "yes" "f8", .addSequenceFlow "P" "h" "e4" "no" "f9", .addSequenceFlow "P" "t5" "i" "" "f10",
   .addSequenceFlow "P" "i" "j" "" "f11", .addSequenceFlow "P" "i" "e3" "" "f12", .addSequenceFlow "P" "j" "e1" "" "f13", .addSequenceFlow "P" "j" "e2" "" "f14"]

theorem turn_allowed : AllowedHistory {} turnOps := by
  simp [turnOps, AllowedHistory, Allowed, step, declaredNode, declaredFlow, directionArg, directions, chosen]

set_option maxRecDepth 8000 in
theorem turn_structured : Structured (Op.run {} turnOps) (turnLine (Op.run {} turnOps)) := structured_of_check (by decide +kernel)

/-- A flow leads from the node with the first id to the node with the second one. -/
def nextIds (d : Diagram) (a b : String) : Bool :=
  match d.getNodeById a, d.getNodeById b with
  | some x, some y => (outs x).any fun i => match d.getFlowById i with
    | .ok (some f) => f.2.2.targetRef == some y.1
    | _ => false
  | _, _ => false

theorem next_of_ids {d : Diagram} {a b : String} (h : nextIds d a b = true) : ∃ x y, d.getNodeById a = some x ∧ d.getNodeById b = some y ∧ Next d x y := by
  unfold nextIds at h
  split at h
  · rename_i x y hx hy
    refine ⟨x, y, hx, hy, ?_⟩
    simp only [List.any_eq_true] at h
    obtain ⟨i, hi, h⟩ := h
    split at h
    · rename_i f hf
      have e := (Consistent.mem_of_getNodeById hy).2
      exact ⟨i, hi, f, hf, by simpa using h, by rw [e]; exact hy⟩
    · simp at h
  · simp at h

theorem cycle_of_ids {d : Diagram} {a b : String} {x : Node} (hx : d.getNodeById a = some x) : ∀ (p : List String), (List.IsChain (fun u v => nextIds d u v = true) (a :: p)) → (a :: p).getLast? = some b →
    p ≠ [] → ∃ y, d.getNodeById b = some y ∧ Relation.TransGen (Next d) x y
  | [], _, _, h => absurd rfl h
  | [c], hp, e, _ => by
    obtain ⟨x', y, h1, h2, h3⟩ := next_of_ids (List.isChain_cons_cons.1 hp).1
    rw [hx] at h1
    cases h1
    simp at e
    subst e
    exact ⟨y, h2, .single h3⟩
  | c :: c' :: p, hp, e, _ => by
    obtain ⟨x', y, h1, h2, h3⟩ := next_of_ids (List.isChain_cons_cons.1 hp).1
    rw [hx] at h1
    cases h1
    obtain ⟨z, h4, h5⟩ := cycle_of_ids h2 (c' :: p) (List.isChain_cons_cons.1 hp).2 (by simpa using e) (by simp)
    exact ⟨z, h4, .head h3 h5⟩

set_option maxRecDepth 8000 in
/-- **C132 (limit).** Inside of branches, the import may take such a place for the end of a branch and continue it with a row of the main line: a process without cycles comes back
with a cycle, and with ends to which nothing leads. -/
theorem C132_turned_back : ∃ d l, Consistent d ∧ Structured d l ∧ Acyclic d ∧ (∀ n ∈ d.getNodes, n.2.type = some "endEvent" → ins n ≠ []) ∧
    ∃ rows d', (∃ N, ∀ fuel ≥ N, exportRows d fuel = .ok rows) ∧ loadCsv rows {} = .ok d' ∧ (∃ n ∈ d'.getNodes, Relation.TransGen (Next d') n n) ∧
      ∃ n ∈ d'.getNodes, n.2.type = some "endEvent" ∧ ins n = [] := by
  have c := consistent_of_allowed _ turn_allowed
  obtain ⟨d', h1, h2⟩ := ok_of_check (x := loadCsv ((turnLine (Op.run {} turnOps)).table (Op.run {} turnOps) false "" 0 "") {})
    (fun d' => (d'.getNodeById "3").isSome && (nextIds d' "3" "3_split" && nextIds d' "3_split" "4a1" && nextIds d' "4a1" "4a1_split" && nextIds d' "4a1_split" "4a2a1" && nextIds d' "4a2a1" "3") &&
      d'.getNodes.any fun n => n.2.type == some "endEvent" && (ins n).isEmpty) (by decide +kernel)
  simp only [Bool.and_eq_true, List.any_eq_true, beq_iff_eq, List.isEmpty_iff, Option.isSome_iff_exists] at h2
  obtain ⟨⟨⟨x, hx⟩, ⟨⟨⟨k1, k2⟩, k3⟩, k4⟩, k5⟩, h3⟩ := h2
  refine ⟨_, _, c, turn_structured, tree_acyclic c (by simp [turnLine, Strand.Spreads, Branches.Spread]) turn_structured, by decide +kernel, _, d', structured_rows c turn_structured, h1, ?_, h3⟩
  obtain ⟨y, hy, h⟩ := cycle_of_ids (b := "3") hx ["3_split", "4a1", "4a1_split", "4a2a1", "3"] (by simp [k1, k2, k3, k4, k5]) rfl (by simp)
  rw [hx] at hy
  cases hy
  exact ⟨x, (Consistent.mem_of_getNodeById hx).1, h⟩

/-- The hypotheses of the theorem hold for a process with a gateway directly behind a gateway. -/
example : Consistent (Op.run {} (bareOps false)) ∧ Structured (Op.run {} (bareOps false)) (bareLine false (Op.run {} (bareOps false))) ∧
    (bareLine false (Op.run {} (bareOps false))).Dangles false :=
  ⟨consistent_of_allowed _ (bare_allowed false), bare_structured false, by
    simp [bareLine, Strand.Dangles, Strand.Shows, Branches.FirstBegins, Strand.IsMeet, Strand.Begins]
    decide +kernel⟩

end Bpmn.Props

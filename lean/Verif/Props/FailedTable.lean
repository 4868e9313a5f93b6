import Verif.Lemmas.CsvRetry
import Verif.Props.CsvReload
set_option linter.unusedSimpArgs false
set_option linter.unusedVariables false
/-!
# C109: a table that cannot be imported
-/
namespace Bpmn.Props
open Bpmn Bpmn.Csv Bpmn.Spec Bpmn.Spec.Csv

/-- **C109.** The model with the object raises exactly when the model of the result does, with the same exception, and otherwise gives the same diagram. -/
theorem C109_object (rows : List Row) (d : Diagram) : loadCsv rows d =
    match loadCsvObject rows d with
    | (e, .ok _) => .ok e
    | (_, .error x) => .error x := by
  rw [← fine_loadCsvObject]
  obtain ⟨e, a | a⟩ := loadCsvObject rows d <;> rfl

/-- **C109.** A table in which an order occurs twice raises `ValueError` and leaves the object alone. -/
theorem C109_untouched (rows : List Row) (d : Diagram) (h : ¬(rows.map Row.order).Nodup) : loadCsvObject rows d = (d, .error .valueError) := by
  unfold loadCsvObject processDict
  rw [if_neg h]
  rfl

/-- **C109.** Every other call has changed the head of the diagram and the entry of `process_1` when it returns or raises: the entry lists all rows.  Other
processes and the collaboration are left alone. -/
theorem C109_head (rows : List Row) (t : Table rows) (d e : Diagram) (x : Py Unit) (h : loadCsvObject rows d = (e, x)) :
    e.diagramId = some "diagram1" ∧ e.diagramName = some "diagram_name" ∧ e.planeId = some "plane_1" ∧ e.planeElement = some "process_1" ∧
      e.collaboration = d.collaboration ∧ (∃ p, e.processElements.get? "process_1" = some p ∧ p.nodeIds = some (rows.map Row.order)) ∧
      ∀ q, q ≠ "process_1" → e.processElements.get? q = d.processElements.get? q := by
  have hh := (holds_load t d).head
  rw [h] at hh
  simp only at hh
  have e1 := congrArg (fun d : Diagram => d.processElements) hh
  have e2 := congrArg (fun d : Diagram => d.diagramId) hh
  have e3 := congrArg (fun d : Diagram => d.diagramName) hh
  have e4 := congrArg (fun d : Diagram => d.planeId) hh
  have e5 := congrArg (fun d : Diagram => d.planeElement) hh
  have e6 := congrArg (fun d : Diagram => d.collaboration) hh
  simp only [headOf, populate] at e1 e2 e3 e4 e5 e6
  refine ⟨e2, e3, e4, e5, e6, ?_, fun q hq => ?_⟩
  · rw [e1]
    refine ⟨_, Dict.get?_set_self _ _ _, ?_⟩
    simp only [keys_dictOf]
  · rw [e1]
    exact Dict.get?_set_ne _ _ (fun h => hq (Eq.symm h))

/-- **C109.** After an exception the object has a node for every row of the table that is not a `goto`, and all nodes that it had before, apart from those with
the order of a `goto` row. -/
theorem C109_nodes (rows : List Row) (t : Table rows) (d e : Diagram) (x : PyErr) (h : loadCsvObject rows d = (e, .error x)) :
    (∀ r ∈ rows, ¬GotoRow r → ∃ n ∈ e.getNodes, n.1 = r.order) ∧
    ∀ n ∈ d.getNodes, (∀ r ∈ rows, GotoRow r → r.order ≠ n.1) → ∃ m ∈ e.getNodes, m.1 = n.1 := by
  have mem : ∀ {y}, y ∈ ids e → ∃ n ∈ e.getNodes, n.1 = y := fun hy => List.mem_map.1 hy
  constructor
  · intro r hr hg
    have := ((holds_load t d).row r.order ⟨r, hr, hg, rfl⟩).1
    rw [h] at this
    exact mem this
  · intro n hn hg
    have := left_nodes t d (e := x) (by rw [h]) (List.mem_map_of_mem hn) hg
    rw [h] at this
    exact mem this

/-- **C109.** So the object takes another table only if that table has all the orders of the first one (apart from those of `goto` rows): an import that failed
because of a wrong order cannot be repeated with the right order. -/
theorem C109_renumbered (rows rows' : List Row) (t : Table rows) (d e f : Diagram) (x : PyErr) (h : loadCsvObject rows d = (e, .error x))
    (h' : loadCsv rows' e = .ok f) :
    ∀ r ∈ rows, ¬GotoRow r → ∃ r' ∈ rows', ∃ a b, r'.order.toList = a ++ r.order.toList ++ b ∧ (∀ c ∈ a, White c) ∧ ∀ c ∈ b, White c := by
  intro r hr hg
  obtain ⟨n, hn, e1⟩ := (C109_nodes rows t d e x h).1 r hr hg
  have := C105_old_nodes rows' e f h' n hn
  rw [e1] at this
  exact this

/-- The table says for the rows `A` how to go on, but not for the next row. -/
structure StopsAt (A : List Row) (r : Row) (B : List Row) : Prop where
  steps : ∀ q ∈ A ++ r :: B, ∃ p, StepOf p q.order.toList
  before : ∀ a ∈ A, a.terminated ≠ "yes" → Continues (A ++ r :: B) a.order.toList
  open_ : r.terminated ≠ "yes"
  stuck : ¬Continues (A ++ r :: B) r.order.toList

theorem StopsAt.goes {A : List Row} {r : Row} {B : List Row} (h : StopsAt A r B) : (∀ a ∈ A, a.terminated ≠ "yes" → GoesOn ((A ++ r :: B).map Row.order) a.order) ∧
    ¬GoesOn ((A ++ r :: B).map Row.order) r.order := by
  constructor
  · intro a ha hx
    obtain ⟨p, hp⟩ := h.steps a (by simp [ha])
    rw [← String.ofList_toList (s := a.order), goesOn_iff hp]
    exact h.before a ha hx
  · obtain ⟨p, hp⟩ := h.steps r (by simp)
    rw [← String.ofList_toList (s := r.order), goesOn_iff hp]
    exact h.stuck

/-- **C109.** The import of a table into a new object stops with `BpmnPythonError` at the first row for which the table does not say how to go on.  No node of this
row and of the rows behind it has an outgoing flow; every row before it that is followed by the next number has its flow. -/
theorem C109_stops (A B : List Row) (r : Row) (t : Table (A ++ r :: B)) (s : StopsAt A r B) : ∃ e, loadCsvObject (A ++ r :: B) {} = (e, .error .bpmnError) ∧
    (∀ n ∈ e.getNodes, (∃ q ∈ r :: B, q.order = n.1) → n.2.outgoing.getD [] = []) ∧
    ∀ a ∈ A, a.terminated ≠ "yes" → ∀ p k b, Prefix p → a.order.toList = p ++ decimal k → b ∈ A ++ r :: B → b.order.toList = p ++ decimal (k + 1) →
      ∃ n ∈ e.getNodes, n.1 = a.order ∧ ∃ o, n.2.outgoing = some o ∧ a.order ++ "__" ++ b.order ∈ o := by
  obtain ⟨g1, g2⟩ := s.goes
  obtain ⟨e, F, hF, -, he⟩ := load_stuck t g1 s.open_ g2
  have hu := tableUnder t
  have hP := planted_start t
  have n0 : ∀ x ∈ ids (importNodes (dictOf (A ++ r :: B)) (populate (dictOf (A ++ r :: B)) {})), Named ((A ++ r :: B).map Row.order) [] x := by
    intro x hx
    rw [hP.ids, keys_dictOf] at hx
    exact Or.inl hx
  have sub : ∀ x ∈ A.map Row.order, x ∈ (A ++ r :: B).map Row.order := fun x hx => by rw [List.map_append]; exact List.mem_append_left _ hx
  obtain ⟨i, gr, -, wired⟩ := hF.step hu hP.inv n0 sub
  refine ⟨e, he, ?_, ?_⟩
  · rintro n hn ⟨q, hq, e1⟩
    have hno : q.order ∉ A.map Row.order := by
      have := t.orders
      rw [List.map_append] at this
      exact fun hm => (List.nodup_append.1 this).2.2 _ hm _ (List.mem_map_of_mem hq) rfl
    have ho := hF.out q.order
    rw [hP.out, hF.leaving_row hu (hu _ (List.mem_map_of_mem (List.mem_append_right _ hq))) hno, e1] at ho
    unfold outOf at ho
    rw [Dict.get?_of_mem i.nodup (show (n.1, n.2) ∈ e.graph.nodes from hn)] at ho
    exact ho
  · intro a ha hx p k b hp ea hb eb
    obtain ⟨dr, dr', g, l, hR, -, -, hl⟩ := hF.mem hu hP.inv n0 sub a.order (List.mem_map_of_mem ha)
    have hs : sequenceSuccessors a.order = [b.order] := by
      have : trailingNumber a.order = some (String.ofList p, k) := by
        rw [← String.ofList_toList (s := a.order), ea]
        exact trailingNumber_decimal k (prefix_ends hp)
      unfold sequenceSuccessors
      rw [this]
      simp only [List.cons.injEq, and_true]
      refine String.toList_injective ?_
      rw [eb, append_toString, String.toList_ofList]
    have hb' : b.order ∈ (A ++ r :: B).map Row.order := List.mem_map_of_mem hb
    have hany : anyPresent (sequenceSuccessors a.order) ((A ++ r :: B).map Row.order) = true := anyPresent_iff.2 ⟨b.order, by rw [hs]; simp, hb'⟩
    have hla := get?_dictOf t (show a ∈ A ++ r :: B by simp [ha])
    have hpair : (a.order, b.order) ∈ F := by
      cases hR.plan with
      | stop h1 h2 => rw [hla] at h1; cases h1; exact absurd h2 hx
      | sequence _ _ _ h4 =>
        have := (onlyPresent_mem h4).1
        rw [hs, List.mem_singleton] at this
        subst this
        exact hl _ (by simp)
      | split _ _ h3 => rw [hany] at h3; cases h3
      | join _ _ h3 => rw [hany] at h3; cases h3
      | newJoin _ _ h3 => rw [hany] at h3; cases h3
    have w := wired _ hpair
    have hout := w.out
    unfold outOf at hout
    obtain ⟨n, hn, e1⟩ := List.mem_map.1 w.src
    refine ⟨n, hn, e1, ?_⟩
    rw [← e1, Dict.get?_of_mem i.nodup (show (n.1, n.2) ∈ e.graph.nodes from hn)] at hout
    simp only [Option.bind_some] at hout
    cases ho : n.2.outgoing with
    | none => rw [ho] at hout; simp at hout
    | some o =>
      rw [ho] at hout
      refine ⟨o, rfl, ?_⟩
      rw [e1] at hout
      simpa [flowId] using hout

theorem no_next {rows : List Row} {p o : List Char} (ho : StepOf p o) (hn : ∀ q n, BranchPrefix q → o = q ++ decimal n → ¬HasOrder rows (q ++ decimal (n + 1))) :
    anyPresent (sequenceSuccessors (String.ofList o)) (rows.map Row.order) = false := by
  rcases ho.2 with rfl | ⟨n, rfl⟩
  · rcases ho.1.ends with rfl | ⟨q, c, rfl, hc⟩
    · simp [sequenceSuccessors, trailingNumber, anyPresent]
    · rw [sequenceSuccessors_letter q hc]; simp [anyPresent]
  · have := hn p n ho.1 rfl
    rw [← (anyPresent_next ho.1 n).1] at this
    simpa using this

/-- **C109.** If one of the rows before the place where the import stopped opens a split or ends a branch (it is not terminated and the next number is no row), the
object has a gateway whose id no row can have: no table of letters and digits can be imported into it any more. -/
theorem C109_spoilt (A B : List Row) (r : Row) (t : Table (A ++ r :: B)) (s : StopsAt A r B) (a : Row) (ha : a ∈ A) (hx : a.terminated ≠ "yes")
    (hn : ∀ q n, BranchPrefix q → a.order.toList = q ++ decimal n → ¬HasOrder (A ++ r :: B) (q ++ decimal (n + 1))) :
    ∃ e, loadCsvObject (A ++ r :: B) {} = (e, .error .bpmnError) ∧ ∀ rows', Table rows' → ∀ f, loadCsv rows' e ≠ .ok f := by
  obtain ⟨g1, g2⟩ := s.goes
  obtain ⟨e, F, hF, -, he⟩ := load_stuck t g1 s.open_ g2
  have hu := tableUnder t
  have hP := planted_start t
  have n0 : ∀ x ∈ ids (importNodes (dictOf (A ++ r :: B)) (populate (dictOf (A ++ r :: B)) {})), Named ((A ++ r :: B).map Row.order) [] x := by
    intro x hx
    rw [hP.ids, keys_dictOf] at hx
    exact Or.inl hx
  have sub : ∀ x ∈ A.map Row.order, x ∈ (A ++ r :: B).map Row.order := fun x hx => by rw [List.map_append]; exact List.mem_append_left _ hx
  obtain ⟨i, gr, -, wired⟩ := hF.step hu hP.inv n0 sub
  refine ⟨e, he, fun rows' t' f hf => ?_⟩
  have gate : ∃ n ∈ e.getNodes, '_' ∈ n.1.toList := by
    obtain ⟨dr, dr', g, l, hR, -, -, hl⟩ := hF.mem hu hP.inv n0 sub a.order (List.mem_map_of_mem ha)
    have hla := get?_dictOf t (show a ∈ A ++ r :: B by simp [ha])
    obtain ⟨p, hp⟩ := s.steps a (by simp [ha])
    have hno := no_next hp hn
    rw [String.ofList_toList] at hno
    have key : ∀ {y}, (a.order, y) ∈ F → '_' ∈ y.toList → ∃ n ∈ e.getNodes, '_' ∈ n.1.toList := fun h1 h2 => by
      obtain ⟨n, hn, e1⟩ := List.mem_map.1 (wired _ h1).tgt
      exact ⟨n, hn, by rw [e1]; exact h2⟩
    cases hR.plan with
    | stop h1 h2 => rw [hla] at h1; cases h1; exact absurd h2 hx
    | sequence _ _ h3 => rw [hno] at h3; cases h3
    | split => exact key (hl _ List.mem_cons_self) (underscore_split _)
    | join => exact key (hl _ List.mem_cons_self) (by simp)
    | newJoin => exact key (hl _ (List.mem_cons_of_mem _ List.mem_cons_self)) (by simp)
  obtain ⟨n, hn, hc⟩ := gate
  obtain ⟨r', hr', u, v, e1, -, -⟩ := C105_old_nodes rows' e f hf n hn
  have := t'.alnum r' hr' '_' (by rw [e1]; simp [hc])
  revert this; decide

/-- **C109.** For a table of numbered steps whose rows are no `goto`s, the only exception of an import into a new object is `BpmnPythonError`. -/
theorem C109_exception (rows : List Row) (t : Table rows) (ho : ∀ r ∈ rows, ∃ p, StepOf p r.order.toList) (hn : ∀ r ∈ rows, ¬GotoRow r) (x : PyErr)
    (h : loadCsv rows {} = .error x) : x = .bpmnError := by
  have bad : ¬∀ r ∈ rows, r.terminated ≠ "yes" → Continues rows r.order.toList := fun hb => by
    obtain ⟨d, hd⟩ := (C65_accepted rows t ho hn).2 hb
    rw [h] at hd; cases hd
  have first : ∀ C D : List Row, rows = D ++ C → (∀ a ∈ D, a.terminated ≠ "yes" → Continues rows a.order.toList) → ∃ A r B, rows = A ++ r :: B ∧ StopsAt A r B := by
    intro C
    induction C with
    | nil => intro D e hD; rw [List.append_nil] at e; subst e; exact absurd hD bad
    | cons r C ih =>
      intro D e hD
      by_cases hr : r.terminated ≠ "yes" → Continues rows r.order.toList
      · refine ih (D ++ [r]) (by rw [e]; simp) (fun a ha => ?_)
        rcases List.mem_append.1 ha with ha | ha
        · exact hD a ha
        · rw [List.mem_singleton] at ha; subst ha; exact hr
      · refine ⟨D, r, C, e, ?_⟩
        subst e
        exact ⟨ho, hD, fun h => hr (fun h' => absurd h h'), fun h => hr (fun _ => h)⟩
  obtain ⟨A, r, B, e, s⟩ := first rows [] rfl (by simp)
  subst e
  obtain ⟨e, he, -⟩ := C109_stops A B r t s
  rw [C109_object, he] at h
  cases h
  rfl

/-- **C109.** In a table of steps without splits before the failing row, the mistake can be put right: the table with an end mark (or another name) in this row, or
with further rows behind, gives the same in the object of the failed import as in a new one.  The row must keep its order and its condition, and if it was a
sub-process it must stay as it is. -/
theorem C109_corrected (A B Y : List Row) (r r' : Row) (t : Table (A ++ r :: B)) (t' : Table (A ++ r' :: (B ++ Y))) (ho : r'.order = r.order)
    (hc : r'.condition = r.condition) (hk : r' = r ∨ r.subprocess ≠ "yes")
    (hA : ∀ a ∈ A, a.terminated ≠ "yes" → ∃ p n, Prefix p ∧ a.order.toList = p ++ decimal n ∧ HasOrder (A ++ r :: B) (p ++ decimal (n + 1)))
    (hr : r.terminated ≠ "yes") (p : List Char) (hp : StepOf p r.order.toList) (hg : ¬Continues (A ++ r :: B) r.order.toList) :
    ∃ e, loadCsvObject (A ++ r :: B) {} = (e, .error .bpmnError) ∧ loadCsv (A ++ r' :: (B ++ Y)) e = loadCsv (A ++ r' :: (B ++ Y)) {} := by
  rw [← goesOn_iff hp, String.ofList_toList] at hg
  obtain ⟨L, h1, h2⟩ := load_corrected t t' ho hc hk (fun a ha hx => by
    obtain ⟨q, n, hq, e, b, hb, eb⟩ := hA a ha hx
    refine ⟨b.order, List.mem_map_of_mem hb, ?_⟩
    rw [← String.ofList_toList (s := a.order), e, sequenceSuccessors_decimal n (prefix_ends hq), ← eb, String.ofList_toList]) hr hg
  exact ⟨L, h1, by rw [← fine_loadCsvObject, ← fine_loadCsvObject, h2]⟩

/-! ## Concrete cases -/

theorem stopsAt_of {A B : List Row} {r : Row} (t : Table (A ++ r :: B)) (ho : ∀ q ∈ A ++ r :: B, ∃ p, StepOf p q.order.toList) (hn : ∀ q ∈ A ++ r :: B, ¬GotoRow q)
    (hA : ∀ a ∈ A, a.terminated ≠ "yes" → Continues (A ++ r :: B) a.order.toList) (hr : r.terminated ≠ "yes") (hB : ∀ b ∈ B, b.terminated = "yes")
    (hx : (loadCsv (A ++ r :: B) {}).toOption.isNone = true) : StopsAt A r B := by
  refine ⟨ho, hA, hr, fun h => ?_⟩
  obtain ⟨d, hd⟩ := (C65_accepted _ t ho hn).2 (fun q hq hy => by
    rcases List.mem_append.1 hq with hq | hq
    · exact hA q hq hy
    · rcases List.mem_cons.1 hq with rfl | hq
      · exact h
      · exact absurd (hB q hq) hy)
  rw [hd] at hx
  cases hx

/-- Three steps in a line; the end mark of the last one was forgotten. -/
def openLine : List Row := [Row.mk "0" "ordered" "" "" "" "", Row.mk "1" "check" "" "" "" ""]
def openEnd : Row := Row.mk "2" "done" "" "" "" ""

theorem openLine_table : Table (openLine ++ openEnd :: []) := ⟨by decide, by decide⟩

theorem openLine_no_goto : ∀ q ∈ openLine ++ openEnd :: [], ¬GotoRow q := by
  intro r hr hg
  have : ∀ r ∈ openLine ++ openEnd :: [], isGoto r.activity = false := by decide
  rw [← isGoto_iff, this r hr] at hg
  cases hg

theorem openLine_steps : ∀ q ∈ openLine ++ openEnd :: [], ∃ p, StepOf p q.order.toList := by
  intro q hq
  simp only [openLine, openEnd, List.cons_append, List.nil_append, List.mem_cons, List.not_mem_nil, or_false] at hq
  rcases hq with rfl | rfl | rfl
  · exact ⟨[], BranchPrefix.nil, Or.inr ⟨0, by decide⟩⟩
  · exact ⟨[], BranchPrefix.nil, Or.inr ⟨1, by decide⟩⟩
  · exact ⟨[], BranchPrefix.nil, Or.inr ⟨2, by decide⟩⟩

theorem openLine_stops : StopsAt openLine openEnd [] := by
  refine stopsAt_of openLine_table openLine_steps openLine_no_goto ?_ (by decide) (by simp) (by decide +kernel)
  intro a ha _
  simp only [openLine, List.mem_cons, List.not_mem_nil, or_false] at ha
  rcases ha with rfl | rfl
  · exact Continues.next BranchPrefix.nil (n := 0) (by decide) (Or.inl (by rw [hasOrder_iff]; decide))
  · exact Continues.next BranchPrefix.nil (n := 1) (by decide) (Or.inl (by rw [hasOrder_iff]; decide))

/-- C109_head, C109_nodes, C109_renumbered, C109_stops and C109_exception: the import of this table raises, and the object is left with three nodes and one flow
from each of the first two. -/
example : Table (openLine ++ openEnd :: []) ∧ StopsAt openLine openEnd [] ∧ (∃ e, loadCsvObject (openLine ++ openEnd :: []) {} = (e, .error .bpmnError)) ∧
    (loadCsvObject (openLine ++ openEnd :: []) {}).1.getNodes.map (fun n => (n.1, n.2.outgoing)) =
      [("0", some ["0__1"]), ("1", some ["1__2"]), ("2", some [])] :=
  ⟨openLine_table, openLine_stops, (C109_stops _ _ _ openLine_table openLine_stops).imp fun _ h => h.1, by decide +kernel⟩

/-- C109_renumbered: the object takes the table with a further row, and not one that begins with 1. -/
example : (∃ f, loadCsv (openLine ++ [openEnd, Row.mk "3" "end" "" "" "" "yes"]) (loadCsvObject (openLine ++ openEnd :: []) {}).1 = .ok f) ∧
    ∀ f, loadCsv [Row.mk "1" "ordered" "" "" "" "", Row.mk "2" "check" "" "" "" "yes"] (loadCsvObject (openLine ++ openEnd :: []) {}).1 ≠ .ok f := by
  refine ⟨(ok_of_check (fun _ => true) (by decide +kernel)).imp fun _ h => h.1, fun f hf => ?_⟩
  obtain ⟨e, he, -⟩ := C109_stops _ _ _ openLine_table openLine_stops
  rw [he] at hf
  obtain ⟨r', hr', a, b, h, -, -⟩ := C109_renumbered _ _ openLine_table {} e f _ he hf (Row.mk "0" "ordered" "" "" "" "") (by decide)
    (openLine_no_goto _ (by decide))
  simp only [List.mem_cons, List.not_mem_nil, or_false] at hr'
  have : '0' ∈ r'.order.toList := by rw [h]; simp
  rcases hr' with rfl | rfl <;> revert this <;> decide

/-- C109_corrected: with the end mark, and with a further row. -/
example : ∃ e, loadCsvObject (openLine ++ openEnd :: []) {} = (e, .error .bpmnError) ∧
    loadCsv (openLine ++ Row.mk "2" "done" "" "" "" "yes" :: []) e = loadCsv (openLine ++ Row.mk "2" "done" "" "" "" "yes" :: []) {} ∧
    ∃ d, loadCsv (openLine ++ Row.mk "2" "done" "" "" "" "yes" :: []) {} = .ok d := by
  obtain ⟨e, h1, h2⟩ := C109_corrected openLine [] [] openEnd (Row.mk "2" "done" "" "" "" "yes") openLine_table ⟨by decide, by decide⟩ rfl rfl
    (Or.inr (by decide))
    (by
      intro a ha _
      simp only [openLine, List.mem_cons, List.not_mem_nil, or_false] at ha
      rcases ha with rfl | rfl
      · exact ⟨[], 0, Or.inl rfl, by decide, by rw [hasOrder_iff]; decide⟩
      · exact ⟨[], 1, Or.inl rfl, by decide, by rw [hasOrder_iff]; decide⟩)
    (by decide) [] ⟨BranchPrefix.nil, Or.inr ⟨2, by decide⟩⟩ openLine_stops.stuck
  exact ⟨e, h1, h2, (ok_of_check (fun _ => true) (by decide +kernel)).imp fun _ h => h.1⟩

/-- C109_spoilt: a split whose first branch does not go on. -/
def openSplit : List Row := [Row.mk "0" "ordered" "" "" "" "", Row.mk "1" "check" "" "" "" ""]

example : Table (openSplit ++ Row.mk "2a" "refuse" "no" "" "" "" :: [Row.mk "2b" "accept" "yes" "" "" "yes"]) ∧
    StopsAt openSplit (Row.mk "2a" "refuse" "no" "" "" "") [Row.mk "2b" "accept" "yes" "" "" "yes"] ∧
    ∀ q n, BranchPrefix q → "1".toList = q ++ decimal n →
      ¬HasOrder (openSplit ++ Row.mk "2a" "refuse" "no" "" "" "" :: [Row.mk "2b" "accept" "yes" "" "" "yes"]) (q ++ decimal (n + 1)) := by
  have b2 : ∀ c, 'a' ≤ c → c ≤ 'z' → BranchPrefix (decimal 2 ++ [c]) := fun c h1 h2 => by
    have := BranchPrefix.step 2 BranchPrefix.nil h1 h2; simpa using this
  have t : Table (openSplit ++ Row.mk "2a" "refuse" "no" "" "" "" :: [Row.mk "2b" "accept" "yes" "" "" "yes"]) := ⟨by decide, by decide⟩
  refine ⟨t, stopsAt_of t ?_ ?_ ?_ (by decide) (by simp) (by decide +kernel), ?_⟩
  · intro q hq
    simp only [openSplit, List.cons_append, List.nil_append, List.mem_cons, List.not_mem_nil, or_false] at hq
    rcases hq with rfl | rfl | rfl | rfl
    · exact ⟨[], BranchPrefix.nil, Or.inr ⟨0, by decide⟩⟩
    · exact ⟨[], BranchPrefix.nil, Or.inr ⟨1, by decide⟩⟩
    · exact ⟨_, b2 'a' (by decide) (by decide), Or.inl (by decide)⟩
    · exact ⟨_, b2 'b' (by decide) (by decide), Or.inl (by decide)⟩
  · intro r hr hg
    have : ∀ r ∈ openSplit ++ Row.mk "2a" "refuse" "no" "" "" "" :: [Row.mk "2b" "accept" "yes" "" "" "yes"], isGoto r.activity = false := by decide
    rw [← isGoto_iff, this r hr] at hg
    cases hg
  · intro a ha _
    simp only [openSplit, List.mem_cons, List.not_mem_nil, or_false] at ha
    rcases ha with rfl | rfl
    · exact Continues.next BranchPrefix.nil (n := 0) (by decide) (Or.inl (by rw [hasOrder_iff]; decide))
    · exact Continues.next BranchPrefix.nil (n := 1) (by decide) (Or.inr (Or.inl (by rw [hasOrder_iff]; decide)))
  · intro q n hq e
    have h1 := sequenceSuccessors_decimal n hq.ends
    rw [← e] at h1
    have h2 : sequenceSuccessors (String.ofList "1".toList) = ["2"] := by decide
    rw [h2] at h1
    have h3 : q ++ decimal (n + 1) = ['2'] := by
      have := congrArg String.toList (List.cons.inj h1).1
      rw [← String.toList_ofList (l := q ++ decimal (n + 1)), ← this]
      decide
    rw [h3, hasOrder_iff]
    decide

end Bpmn.Props

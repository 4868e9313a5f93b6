import Verif.Lemmas.SharedEnds
import Verif.Props.Structured
import Verif.Props.CsvResult
import Verif.Props.Dangling
/-! # C141: end events into which several flows lead, in tables -/
set_option linter.unusedSimpArgs false
set_option linter.unusedVariables false

namespace Bpmn.Props
open Bpmn.Spec Bpmn.Spec.Csv Bpmn.Csv

/-- **C141.** The CSV export of a process whose ways end in the same end events terminates and writes exactly the table of its lines: the event has a row
at the end of each of them. -/
theorem C141_rows (d : Diagram) (l : Strand) (h : Consistent d) (s : SharedEnds d l) :
    ∃ N, ∀ fuel ≥ N, exportRows d fuel = .ok (l.table d false "" 0 "") := shared_rows h s

/-- **C141 (ways).** An end event has as many rows in the table as flows lead into it, if no other end event is called like it. -/
theorem C141_one_row_for_each_flow (d : Diagram) (l : Strand) (h : Consistent d) (s : SharedEnds d l) : ∃ rows, (∃ N, ∀ fuel ≥ N, exportRows d fuel = .ok rows) ∧
    ∀ e ∈ d.getNodes, e.2.type = some "endEvent" → ins e ≠ [] → (∀ m ∈ d.getNodes, m.2.type = some "endEvent" → caption m = caption e → m = e) →
      (rows.filter fun r => content r = caption e).length = (ins e).length := by
  refine ⟨_, shared_rows h s, fun e he hE hi own => ?_⟩
  have hyes : (caption e).2.2 = "yes" := by simp [caption, hE]
  have h1 : ((l.table d false "" 0 "").filter fun r => content r = caption e) =
      ((l.table d false "" 0 "").filter fun r => r.terminated = "yes").filter fun r => content r = caption e := by
    rw [List.filter_filter]
    refine List.filter_congr fun r _ => ?_
    by_cases hc : content r = caption e
    · have : r.terminated = "yes" := by rw [← hyes, ← hc]; rfl
      simp [hc, this]
    · simp [hc]
  rw [h1, ← List.countP_eq_length_filter]
  have h2 := congrArg (List.countP fun x => decide (x = caption e)) (line_ends l false none s.runs "" 0 "")
  rw [List.countP_map, List.countP_map] at h2
  rw [← shared_count h s he hE hi]
  refine Eq.trans h2 ?_
  rw [List.countP_filter, List.count]
  refine List.countP_congr fun n hn => ?_
  have hd := (s.nodes n).1 hn
  simp only [Function.comp, Bool.and_eq_true, decide_eq_true_eq, beq_iff_eq]
  constructor
  · rintro ⟨a, b⟩
    exact own n hd b a
  · rintro rfl
    exact ⟨rfl, hE⟩

/-- Every exported table has orders that are pairwise different, of letters and digits. -/
theorem exported_table {d : Diagram} {fuel : Nat} {rows : List Row} (h : exportRows d fuel = .ok rows) : Table rows := by
  obtain ⟨h1, h2⟩ := C42_orders d fuel rows h
  refine ⟨h1, fun r hr => order_alnum (h2 r hr)⟩

theorem sum_counts {D : List Node} (hD : D.Nodup) : ∀ {L : List Node}, (∀ n ∈ L, n ∈ D) → L.length = (D.map fun e => L.count e).sum
  | [], _ => by simp
  | a :: t, h => by
    have ih := sum_counts hD (L := t) fun n hn => h n (by simp [hn])
    have ha : a ∈ D := h a (by simp)
    have key : ∀ D : List Node, (D.map fun e => (a :: t).count e).sum = (D.map fun e => t.count e).sum + D.count a := by
      intro D
      induction D with
      | nil => simp
      | cons x r ih =>
        rw [List.map_cons, List.sum_cons, ih, List.map_cons, List.sum_cons, List.count_cons, List.count_cons]
        by_cases hx : a = x
        · subst hx; simp; omega
        · have : ¬x = a := fun e => hx e.symm
          simp [hx, this]; omega
    rw [key, List.count_eq_one_of_mem hD ha, List.length_cons, ih]

/-- **C141 (copy).** If the exported table can be imported, the copy has one end event for each flow that leads into an end event. -/
theorem C141_copy (d : Diagram) (l : Strand) (h : Consistent d) (s : SharedEnds d l) (b : ∀ n, l.first none = some n → n.2.type = some "startEvent")
    (plain : ∀ e ∈ d.getNodes, e.2.type = some "endEvent" → ¬GotoRow (Row.mk "" (caption e).1 "" "" "" "")) :
    ∃ rows, (∃ N, ∀ fuel ≥ N, exportRows d fuel = .ok rows) ∧ ∀ d', loadCsv rows {} = .ok d' →
      (d'.getNodes.filter fun n => n.2.type = some "endEvent").length = ((d.getNodes.filter fun e => e.2.type = some "endEvent").map fun e => (ins e).length).sum := by
  refine ⟨_, shared_rows h s, fun d' hd => ?_⟩
  obtain ⟨N, hN⟩ := shared_rows h s
  have t : Table (l.table d false "" 0 "") := exported_table (hN N (Nat.le_refl _))
  have hends := line_ends l false none s.runs "" 0 ""
  have ends : ∀ r ∈ l.table d false "" 0 "", r.terminated = "yes" → ¬GotoRow r := by
    intro r hr hy hg
    have : content r ∈ (l.nodes.filter fun n => IsEnd n).map caption := by
      rw [← hends]
      exact List.mem_map_of_mem (List.mem_filter.2 ⟨hr, by simpa using hy⟩)
    obtain ⟨e, he, hc⟩ := List.mem_map.1 this
    obtain ⟨he1, he2⟩ := List.mem_filter.1 he
    refine plain e ((s.nodes e).1 he1) (of_decide_eq_true he2) ?_
    rw [hc]
    exact hg
  have zero : ∀ r ∈ l.table d false "" 0 "", r.order = "0" → r.terminated ≠ "yes" := by
    have runs := s.runs
    cases l with
    | stop e =>
      obtain ⟨-, -, h4, -⟩ := runs
      exact absurd (b e rfl) h4
    | meet => cases runs.2
    | block g bs rest => exact absurd (b g rfl) runs.2.2.1.1
    | fork g bs => exact absurd (b g rfl) runs.2.2.1.1
    | step n rest =>
      have hs := b n rfl
      have hr : HasRow n := by simp [HasRow, hs]
      have ht := t.orders
      rw [Strand.table, if_neg (by simp), nodeRow, if_pos hr] at ht ⊢
      intro r hr' ho
      rw [List.singleton_append, List.mem_cons] at hr'
      rcases hr' with rfl | hr'
      · simp [caption, hs]
      · exfalso
        rw [List.singleton_append, List.map_cons, List.nodup_cons] at ht
        apply ht.1
        rw [show ("" ++ toString 0 : String) = "0" from rfl]
        exact List.mem_map.2 ⟨r, hr', ho⟩
  have kind : ∀ r ∈ l.table d false "" 0 "", r.terminated = "yes" ↔ rowType r = "endEvent" := by
    intro r hr
    unfold rowType
    by_cases h0 : r.order = "0"
    · simp [h0, zero r hr h0]
    · by_cases h1 : r.terminated = "yes"
      · simp [h0, h1]
      · by_cases h2 : r.subprocess = "yes" <;> simp [h0, h1, h2]
  have c1 := C60_rows _ t d' hd
  have c2 := C60_nodes _ t d' hd
  have ids : ((d'.getNodes.filter fun n => n.2.type = some "endEvent").map (·.1)).Perm (((l.table d false "" 0 "").filter fun r => r.terminated = "yes").map Row.order) := by
    refine (List.perm_ext_iff_of_nodup (c2.1.sublist (List.filter_sublist.map _)) (t.orders.sublist (List.filter_sublist.map _))).2 fun a => ?_
    rw [List.mem_map, List.mem_map]
    constructor
    · rintro ⟨n, hn, rfl⟩
      obtain ⟨hn, hty⟩ := List.mem_filter.1 hn
      rw [decide_eq_true_eq] at hty
      rcases c2.2 n hn with ⟨r, hr, hg, ho⟩ | ⟨-, hg⟩
      · obtain ⟨m, hm, hm1, hm2, -⟩ := c1 r hr hg
        obtain rfl : m = n := List.inj_on_of_nodup_map c2.1 hm hn (hm1.trans ho)
        rw [hty] at hm2
        exact ⟨r, List.mem_filter.2 ⟨hr, by simpa using (kind r hr).2 (Option.some.inj hm2).symm⟩, ho⟩
      · rw [hty] at hg
        simp [gatewayTypes] at hg
    · rintro ⟨r, hr, rfl⟩
      obtain ⟨hr, hy⟩ := List.mem_filter.1 hr
      rw [decide_eq_true_eq] at hy
      obtain ⟨n, hn, e1, e2, -⟩ := c1 r hr (ends r hr hy)
      exact ⟨n, List.mem_filter.2 ⟨hn, by simp [e2, (kind r hr).1 hy]⟩, e1⟩
  have len := ids.length_eq
  have len2 := congrArg List.length hends
  simp only [List.length_map] at len len2
  rw [len, len2, sum_counts (D := d.getNodes.filter fun n => IsEnd n) (h.ids.of_map.filter _) fun n hn => by
    obtain ⟨h1, h2⟩ := List.mem_filter.1 hn
    exact List.mem_filter.2 ⟨(s.nodes n).1 h1, h2⟩]
  refine congrArg List.sum (List.map_congr_left fun e he => ?_)
  obtain ⟨he, hE⟩ := List.mem_filter.1 he
  rw [List.count_filter (by simpa using hE)]
  rw [decide_eq_true_eq] at hE
  refine shared_count h s he hE fun hi => ?_
  have := b e ((s.start e he).1 hi)
  rw [IsEnd, this] at hE
  simp at hE

theorem sum_more {α : Type} {f : α → Nat} : ∀ {D : List α}, (∀ x ∈ D, 1 ≤ f x) → D.length ≤ (D.map f).sum ∧ ((∃ x ∈ D, 2 ≤ f x) → D.length < (D.map f).sum)
  | [], _ => by simp
  | a :: t, h => by
    have ih := sum_more (D := t) fun x hx => h x (by simp [hx])
    have ha := h a (by simp)
    simp only [List.length_cons, List.map_cons, List.sum_cons]
    refine ⟨by omega, ?_⟩
    rintro ⟨x, hx, h2⟩
    rcases List.mem_cons.1 hx with rfl | hx
    · omega
    · have := ih.2 ⟨x, hx, h2⟩
      omega

/-- **C141 (more ends).** If two flows lead into the same end event, every copy has more end events than the process. -/
theorem C141_more_ends (d : Diagram) (l : Strand) (h : Consistent d) (s : SharedEnds d l) (b : ∀ n, l.first none = some n → n.2.type = some "startEvent")
    (plain : ∀ e ∈ d.getNodes, e.2.type = some "endEvent" → ¬GotoRow (Row.mk "" (caption e).1 "" "" "" ""))
    (shared : ∃ e ∈ d.getNodes, e.2.type = some "endEvent" ∧ 2 ≤ (ins e).length) :
    ∃ rows, (∃ N, ∀ fuel ≥ N, exportRows d fuel = .ok rows) ∧ ∀ d', loadCsv rows {} = .ok d' →
      (d.getNodes.filter fun n => n.2.type = some "endEvent").length < (d'.getNodes.filter fun n => n.2.type = some "endEvent").length := by
  obtain ⟨rows, hr, hc⟩ := C141_copy d l h s b plain
  refine ⟨rows, hr, fun d' hd => ?_⟩
  rw [hc d' hd]
  refine (sum_more fun e he => ?_).2 ?_
  · obtain ⟨he, hE⟩ := List.mem_filter.1 he
    rw [decide_eq_true_eq] at hE
    refine List.length_pos_iff.2 fun hi => ?_
    have := b e ((s.start e he).1 hi)
    rw [this] at hE
    simp at hE
  · obtain ⟨e, he, hE, h2⟩ := shared
    exact ⟨e, List.mem_filter.2 ⟨he, by simpa using hE⟩, h2⟩

/-- A request is refused, answered, or worked on by two people whose results meet again; all but one way end in the same event. -/
def sharedEndOps : List Op :=
  [.createNew "d" "D", .addProcess "p" false true "None" "PL" "P",
   .addStartEvent "P" "begin" none false true (some "s") "u1" "u2", .addExclusiveGateway "P" "g" "Diverging" none none "g",
   .addTask "P" "refuse" (some "a") "u", .addTask "P" "answer" (some "b") "u", .addParallelGateway "P" "g2" "Diverging" none "g2",
   .addTask "P" "write" (some "c") "u", .addTask "P" "count" (some "x") "u", .addTask "P" "plan" (some "k") "u", .addParallelGateway "P" "h" "Diverging" none "h",
   .addTask "P" "draw" (some "p1") "u", .addTask "P" "print" (some "q") "u", .addParallelGateway "P" "j" "Converging" none "j", .addTask "P" "send" (some "t") "u",
   .addEndEvent "P" "done" none (some "e") "u" "v", .addEndEvent "P" "filed" none (some "f") "u" "v",
   .addSequenceFlow "P" "s" "g" "" "f1", .addSequenceFlow "P" "g" "a" "no" "f2", .addSequenceFlow "P" "g" "b" "yes" "f3", .addSequenceFlow "P" "g" "k" "more" "f4",
   .addSequenceFlow "P" "a" "e" "" "f5", .addSequenceFlow "P" "b" "g2" "" "f6", .addSequenceFlow "P" "g2" "c" "" "f7", .addSequenceFlow "P" "g2" "x" "" "f8",
   .addSequenceFlow "P" "c" "e" "" "f9", .addSequenceFlow "P" "x" "f" "" "f10", .addSequenceFlow "P" "h" "p1" "" "f11", .addSequenceFlow "P" "h" "q" "" "f12",
   .addSequenceFlow "P" "p1" "j" "" "f13", .addSequenceFlow "P" "q" "j" "" "f14", .addSequenceFlow "P" "j" "t" "" "f15", .addSequenceFlow "P" "t" "e" "" "f16",
   .addSequenceFlow "P" "k" "h" "" "f17"]

theorem sharedEnd_allowed : AllowedHistory {} sharedEndOps := by
  simp [sharedEndOps, AllowedHistory, Allowed, step, declaredNode, declaredFlow, directionArg, directions, chosen]

/-- Its structure. -/
def sharedEndLine (d : Diagram) : Strand :=
  let n := nodeOf d
  .step (n "s") (.fork (n "g") (.cons (.step (n "a") (.stop (n "e")))
    (.cons (.step (n "b") (.fork (n "g2") (.cons (.step (n "c") (.stop (n "e"))) (.cons (.step (n "x") (.stop (n "f"))) .nil))))
      (.cons (.step (n "k") (.block (n "h") (.cons (.step (n "p1") .meet) (.cons (.step (n "q") .meet) .nil)) (.step (n "j") (.step (n "t") (.stop (n "e")))))) .nil))))

set_option maxRecDepth 8000 in
theorem sharedEnd_example : SharedEnds (Op.run {} sharedEndOps) (sharedEndLine (Op.run {} sharedEndOps)) := shared_of_check (by decide +kernel)

set_option maxRecDepth 8000 in
/-- The hypotheses hold for it; the table; three flows lead into the event `done`. -/
example : Consistent (Op.run {} sharedEndOps) ∧ SharedEnds (Op.run {} sharedEndOps) (sharedEndLine (Op.run {} sharedEndOps)) ∧
    (sharedEndLine (Op.run {} sharedEndOps)).table (Op.run {} sharedEndOps) false "" 0 "" =
      [Row.mk "0" "begin" "" "" "" "", Row.mk "1a1" "refuse" "no" "" "" "", Row.mk "1a2" "done" "" "" "" "yes", Row.mk "1b1" "answer" "yes" "" "" "",
       Row.mk "1b2a1" "write" "" "" "" "", Row.mk "1b2a2" "done" "" "" "" "yes", Row.mk "1b2b1" "count" "" "" "" "", Row.mk "1b2b2" "filed" "" "" "" "yes",
       Row.mk "1c1" "plan" "more" "" "" "", Row.mk "1c2a1" "draw" "" "" "" "", Row.mk "1c2b1" "print" "" "" "" "", Row.mk "1c3" "send" "" "" "" "",
       Row.mk "1c4" "done" "" "" "" "yes"] ∧
    (ins (nodeOf (Op.run {} sharedEndOps) "e")).length = 3 ∧
    ∀ e ∈ (Op.run {} sharedEndOps).getNodes, e.2.type = some "endEvent" → ins e ≠ [] ∧
      ∀ m ∈ (Op.run {} sharedEndOps).getNodes, m.2.type = some "endEvent" → caption m = caption e → m = e :=
  ⟨consistent_of_allowed _ sharedEnd_allowed, sharedEnd_example, by decide +kernel, by decide +kernel, by decide +kernel⟩

/-- The same without the two people. -/
def sharedTreeOps : List Op :=
  [.createNew "d" "D", .addProcess "p" false true "None" "PL" "P",
   .addStartEvent "P" "begin" none false true (some "s") "u1" "u2", .addExclusiveGateway "P" "g" "Diverging" none none "g",
   .addTask "P" "refuse" (some "a") "u", .addTask "P" "answer" (some "b") "u", .addParallelGateway "P" "g2" "Diverging" none "g2",
   .addTask "P" "write" (some "c") "u", .addTask "P" "count" (some "x") "u",
   .addEndEvent "P" "done" none (some "e") "u" "v", .addEndEvent "P" "filed" none (some "f") "u" "v",
   .addSequenceFlow "P" "s" "g" "" "f1", .addSequenceFlow "P" "g" "a" "no" "f2", .addSequenceFlow "P" "g" "b" "yes" "f3",
   .addSequenceFlow "P" "a" "e" "" "f5", .addSequenceFlow "P" "b" "g2" "" "f6", .addSequenceFlow "P" "g2" "c" "" "f7", .addSequenceFlow "P" "g2" "x" "" "f8",
   .addSequenceFlow "P" "c" "e" "" "f9", .addSequenceFlow "P" "x" "f" "" "f10"]

theorem sharedTree_allowed : AllowedHistory {} sharedTreeOps := by
  simp [sharedTreeOps, AllowedHistory, Allowed, step, declaredNode, declaredFlow, directionArg, directions, chosen]

/-- Its structure. -/
def sharedTreeLine (d : Diagram) : Strand :=
  let n := nodeOf d
  .step (n "s") (.fork (n "g") (.cons (.step (n "a") (.stop (n "e")))
    (.cons (.step (n "b") (.fork (n "g2") (.cons (.step (n "c") (.stop (n "e"))) (.cons (.step (n "x") (.stop (n "f"))) .nil)))) .nil)))

set_option maxRecDepth 8000 in
/-- The hypotheses hold for it; its table can be imported, and the copy has three end events where the process has two. -/
example : Consistent (Op.run {} sharedTreeOps) ∧ SharedEnds (Op.run {} sharedTreeOps) (sharedTreeLine (Op.run {} sharedTreeOps)) ∧ (∀ n, (sharedTreeLine (Op.run {} sharedTreeOps)).first none = some n → n.2.type = some "startEvent") ∧
    (∀ e ∈ (Op.run {} sharedTreeOps).getNodes, e.2.type = some "endEvent" → ¬GotoRow (Row.mk "" (caption e).1 "" "" "" "")) ∧
    ((Op.run {} sharedTreeOps).getNodes.filter fun n => n.2.type = some "endEvent").length = 2 ∧
    ∃ d', loadCsv ((sharedTreeLine (Op.run {} sharedTreeOps)).table (Op.run {} sharedTreeOps) false "" 0 "") {} = .ok d' ∧
      (d'.getNodes.filter fun n => n.2.type = some "endEvent").length = 3 := by
  refine ⟨consistent_of_allowed _ sharedTree_allowed, shared_of_check (by decide +kernel), ?_, ?_, by decide +kernel, ?_⟩
  · intro n hn
    rw [sharedTreeLine, Strand.first] at hn
    cases hn
    decide +kernel
  · have : ∀ e ∈ (Op.run {} sharedTreeOps).getNodes, e.2.type = some "endEvent" → (caption e).1.toList.head? = some 'd' ∨ (caption e).1.toList.head? = some 'f' := by decide +kernel
    rintro e he hE ⟨a, b, c, x, rest, h1, h2, -⟩
    have h3 := this e he hE
    simp only at h1
    rw [h1] at h3
    rcases h3 with h3 | h3 <;> cases h3 <;> simp at h2
  · obtain ⟨d', h1, h2⟩ := ok_of_check (x := loadCsv ((sharedTreeLine (Op.run {} sharedTreeOps)).table (Op.run {} sharedTreeOps) false "" 0 "") {})
      (fun d' => decide ((d'.getNodes.filter fun n => n.2.type = some "endEvent").length = 3)) (by decide +kernel)
    exact ⟨d', h1, by simpa using h2⟩

end Bpmn.Props

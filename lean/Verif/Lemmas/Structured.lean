import Verif.Lemmas.CsvFlatExport
import Verif.Spec.Structured
/-! The CSV export of block-structured diagrams. -/
set_option linter.unusedSimpArgs false
set_option linter.unusedVariables false

namespace Bpmn.Csv
open Bpmn.Spec Bpmn.Spec.Csv

/-- What is known of the diagram. -/
structure Ground (d : Diagram) : Prop where
  consistent : Consistent d
  supported : ∀ n ∈ d.getNodes, Supported n
  named : ∀ n ∈ d.getNodes, n.2.nodeName.isSome

section
variable {d : Diagram} (G : Ground d)
include G

theorem Ground.labels {n : Node} (h : n ∈ d.getNodes) : (table d).get? n.1 = some (Spec.labels n) := table_get G.consistent h (G.supported n h)

theorem Ground.out {n : Node} (h : n ∈ d.getNodes) : n.2.outgoing = some (outs n) := by
  obtain ⟨o, ho⟩ := Option.isSome_iff_exists.1 (G.consistent.lists n h).2.1
  simp [outs, ho]

theorem Ground.target {i : String} {m : Option Node} (h : LeadsTo d i m) : ∃ n ∈ d.getNodes, m = some n ∧ ∃ f, d.getFlowById i = .ok (some f) ∧
    flowTarget d i = .ok (f, some n) := by
  obtain ⟨n, hn, e, f, h1, h2⟩ := h
  exact ⟨n, hn, e, f, h1, by simp [flowTarget, h1, found, h2, G.consistent.getNodeById hn]⟩

theorem Ground.start {n : Node} (h : n ∈ d.getNodes) (hty : n.2.type = some "startEvent") {i : String} (ho : outs n = [i]) {m : Node} {f : Flow}
    (ht : flowTarget d i = .ok (f, some m)) {o : Nat} {pre c : String} {j : Bool} {rows : List Row} {res : List Row × Option Node}
    (hx : Ex d m (o + 1) pre "" "" false (rows ++ nodeRow n (pre ++ toString o) c) res) : Ex d n o pre c "" j rows res := by
  obtain ⟨fu, hf⟩ := hx
  refine ⟨fu + 1, ?_⟩
  obtain ⟨name, hname⟩ := Option.isSome_iff_exists.1 (G.named n h)
  have hr : nodeRow n (pre ++ toString o) c = [Row.mk (pre ++ toString o) (match n.2.eventDefinitions with
    | some (ev :: _) =>
      if ev.defType = "messageEventDefinition" then "message " ++ name
      else if ev.defType = "timerEventDefinition" then "timer " ++ name
      else name
    | _ => name) c "" "" ""] := by
    have h1 : HasRow n := by simp [HasRow, hty]
    have h2 : (caption n) = ((match n.2.eventDefinitions with
      | some (ev :: _) =>
        if ev.defType = "messageEventDefinition" then "message " ++ name
        else if ev.defType = "timerEventDefinition" then "timer " ++ name
        else name
      | _ => name), "", "") := by
      unfold caption trigger
      rw [if_pos hty]
      rcases hev : n.2.eventDefinitions with _ | _ | ⟨ev, r⟩ <;> simp [hname]
    rw [nodeRow, if_pos h1, h2]
  rw [hr] at hf
  simp only [exportNode, found, except_bind_ok, hty, need_some, if_true, exportStart, hname, G.out h, ho, pyIndex_cons_zero, ht]
  exact hf

theorem Ground.end {n : Node} (h : n ∈ d.getNodes) (hty : n.2.type = some "endEvent") {o : Nat} {pre c : String} {j : Bool} {rows : List Row} :
    Ex d n o pre c "" j rows (rows ++ nodeRow n (pre ++ toString o) c, none) := by
  refine ⟨1, ?_⟩
  obtain ⟨name, hname⟩ := Option.isSome_iff_exists.1 (G.named n h)
  have h1 : HasRow n := by simp [HasRow, hty]
  have h2 : (caption n) = ((match n.2.eventDefinitions with
    | some (ev :: _) => if ev.defType = "messageEventDefinition" then "message " ++ name else name
    | _ => name), "", "yes") := by
    unfold caption trigger
    rw [if_neg (by rw [hty]; decide), if_pos hty]
    rcases hev : n.2.eventDefinitions with _ | _ | ⟨ev, r⟩ <;> simp [hname]
  rw [nodeRow, if_pos h1, h2]
  simp only [exportNode, found, except_bind_ok, hty, need_some, show ¬("endEvent" = "startEvent") by decide, if_false, if_true, exportEnd, hname, except_pure]
  rfl

/-- An inner element that is not turned back as a join. -/
theorem Ground.element {n : Node} (h : n ∈ d.getNodes) {ty : String} (hty : n.2.type = some ty) (h1 : ty ≠ "startEvent") (h2 : ty ≠ "endEvent") {j : Bool}
    (hj : (ins n).length ≤ 1 ∨ j = true) (fuel : Nat) (o : Nat) (pre c : String) (rows : List Row) :
    exportNode d (table d) (fuel + 1) (some n) o pre c "" j rows =
      exportNext d (table d) (exportNode d (table d) fuel) n ty (Spec.labels n) o pre "" (rows ++ nodeRow n (pre ++ toString o) c) := by
  obtain ⟨name, hname⟩ := Option.isSome_iff_exists.1 (G.named n h)
  have hc : ¬("Join" ∈ Spec.labels n ∧ j = false) := by
    rw [join_mem_labels]; rintro ⟨a, b⟩
    rcases hj with hj | hj
    · omega
    · rw [b] at hj; simp at hj
  have ho : ownRow n ty o pre c "" = .ok (nodeRow n (pre ++ toString o) c) := by
    unfold ownRow
    by_cases e1 : ty = "task"
    · subst e1
      simp [hname, nodeRow, HasRow, hty, caption]
    · by_cases e2 : ty = "subProcess"
      · subst e2
        simp [hname, nodeRow, HasRow, hty, caption]
      · rw [if_neg e1, if_neg e2, nodeRow, if_neg (by simp [HasRow, hty, e1, e2, h1, h2])]
  simp only [exportNode, found, except_bind_ok, hty, need_some, h1, h2, if_false, exportElement, G.labels h, hc, ho]

theorem Ground.inner {n : Node} (h : n ∈ d.getNodes) {ty : String} (hty : n.2.type = some ty) (h1 : ty ≠ "startEvent") (h2 : ty ≠ "endEvent") {i : String}
    (ho : outs n = [i]) {m : Node} {f : Flow} (ht : flowTarget d i = .ok (f, some m)) {j : Bool}
    (hj : (ins n).length ≤ 1 ∨ j = true) {o : Nat} {pre c : String} {rows : List Row} {res : List Row × Option Node}
    (hx : Ex d m (o + 1) pre "" "" false (rows ++ nodeRow n (pre ++ toString o) c) res) : Ex d n o pre c "" j rows res := by
  obtain ⟨fu, hf⟩ := hx
  refine ⟨fu + 1, ?_⟩
  have ns : ¬"Split" ∈ Spec.labels n := by rw [split_mem_labels, ho]; simp
  rw [G.element h hty h1 h2 hj]
  simp only [exportNext, G.out h, ho, found, except_bind_ok, ns, if_false, List.length_singleton, if_true, pyIndex_cons_zero, ht]
  exact hf

theorem Ground.last {n : Node} (h : n ∈ d.getNodes) {ty : String} (hty : n.2.type = some ty) (h1 : ty ≠ "startEvent") (h2 : ty ≠ "endEvent")
    (ho : outs n = []) {j : Bool} (hj : (ins n).length ≤ 1 ∨ j = true) {o : Nat} {pre c : String} {rows : List Row} :
    Ex d n o pre c "" j rows (rows ++ nodeRow n (pre ++ toString o) c, none) := by
  refine ⟨1, ?_⟩
  have ns : ¬"Split" ∈ Spec.labels n := by rw [split_mem_labels, ho]; simp
  rw [G.element h hty h1 h2 hj]
  simp only [exportNext, G.out h, ho, found, except_bind_ok, ns, if_false, List.length_nil, show ¬(0 = 1) by decide, except_pure]

/-- What is returned at a join. -/
theorem Ground.turned {n : Node} (h : n ∈ d.getNodes) (h1 : n.2.type ≠ some "startEvent") (h2 : n.2.type ≠ some "endEvent") (hj : 2 ≤ (ins n).length) {r : Node}
    (hr : (IsActivity n ∧ r = n) ∨ (¬IsActivity n ∧ ∃ i f, outs n = [i] ∧ flowTarget d i = .ok (f, some r))) {o : Nat} {pre c : String} {rows : List Row} :
    Ex d n o pre c "" false rows (rows, some r) := by
  refine ⟨1, ?_⟩
  obtain ⟨ty, -, hty⟩ := G.supported n h
  rw [hty] at h1 h2
  have n1 : ty ≠ "startEvent" := by simpa using h1
  have n2 : ty ≠ "endEvent" := by simpa using h2
  have hl : "Join" ∈ Spec.labels n := by rw [join_mem_labels]; omega
  have ht : retract d n ty = .ok (some r) := by
    unfold retract
    rcases hr with ⟨a, rfl⟩ | ⟨a, i, f, b, b'⟩
    · rw [if_pos (by simpa [IsActivity, hty] using a)]
    · rw [if_neg (by simpa [IsActivity, hty] using a)]
      simp only [G.out h, b, found, except_bind_ok, pyIndex_cons_zero, b', except_pure]
  simp only [exportNode, found, except_bind_ok, hty, need_some, n1, n2, if_false, exportElement, G.labels h, hl, and_self, if_true, ht, except_pure]

/-- The export of a split, given what its loop gives. -/
theorem Ground.split {n : Node} (h : n ∈ d.getNodes) {ty : String} (hty : n.2.type = some ty) (h1 : ty ≠ "startEvent") (h2 : ty ≠ "endEvent")
    (ho : 2 ≤ (outs n).length) {j : Bool} (hj : (ins n).length ≤ 1 ∨ j = true) {o : Nat} {pre c : String} {rows mid : List Row} {next : Option Node}
    {res : List Row × Option Node}
    (hl : ∃ F, ∀ g ≥ F, splitLoop d (table d) (exportNode d (table d) g) ty (defaultFlow n ty) o pre "" (outs n) 0 (rows ++ nodeRow n (pre ++ toString o) c) none = .ok (mid, next))
    (hx : match next with | some m => Ex d m (o + 1) pre "" "" true mid res | none => res = (mid, none)) : Ex d n o pre c "" j rows res := by
  obtain ⟨F, hF⟩ := hl
  have hs : "Split" ∈ Spec.labels n := by rw [split_mem_labels]; omega
  cases next with
  | none =>
    refine ⟨F + 1, ?_⟩
    rw [G.element h hty h1 h2 hj]
    simp only [exportNext, G.out h, found, except_bind_ok, hs, if_true, hF F (by omega), except_pure]
    rw [show res = (mid, none) from hx]
  | some m =>
    obtain ⟨fu, hf⟩ := hx
    refine ⟨max F fu + 1, ?_⟩
    rw [G.element h hty h1 h2 hj]
    simp only [exportNext, G.out h, found, except_bind_ok, hs, if_true, hF (max F fu) (by omega)]
    exact exportNode_mono (by omega) _ _ _ _ _ _ _ _ hf

end

section

/-- The node from which a line is exported. -/
def _root_.Bpmn.Spec.Strand.entry (meets : Bool) (j : Option Node) : Strand → Option Node
  | .step n rest => if meets ∧ ¬IsActivity n then rest.first j else some n
  | l => l.first j

/-- What is returned behind a line. -/
def _root_.Bpmn.Spec.Strand.leaves (r : Option Node) : Strand → Option Node
  | .stop _ => none
  | .meet => r
  | .step _ rest => rest.leaves r
  | .block _ _ rest => rest.leaves r
  | .fork _ _ => none

def _root_.Bpmn.Spec.Branches.leaves (r : Option Node) : Branches → Option Node → Option Node
  | .nil, next => next
  | .cons .meet b, next => b.leaves r next
  | .cons l b, next => b.leaves r (later next (l.leaves r))

theorem leaves_on {r : Option Node} : ∀ {l : Strand}, l.GoesOn → l.leaves r = r
  | .stop _, h => by simp [Strand.GoesOn] at h
  | .meet, _ => rfl
  | .step _ rest, h => leaves_on (l := rest) h
  | .block _ _ rest, h => leaves_on (l := rest) h
  | .fork _ _, h => by simp [Strand.GoesOn] at h

theorem leaves_cases {r : Option Node} : ∀ {l : Strand}, l.leaves r = r ∨ l.leaves r = none
  | .stop _ => .inr rfl
  | .meet => .inl rfl
  | .step _ rest => leaves_cases (l := rest)
  | .block _ _ rest => leaves_cases (l := rest)
  | .fork _ _ => .inr rfl

theorem cons_leaves {r next : Option Node} {l : Strand} {b : Branches} (h : ¬l.IsMeet) :
    (Branches.cons l b).leaves r next = b.leaves r (later next (l.leaves r)) := by
  cases l with
  | meet => simp [Strand.IsMeet] at h
  | _ => rfl

theorem bs_leaves_none : ∀ (b : Branches), b.leaves none none = none
  | .nil => rfl
  | .cons l b => by
    by_cases h : l.IsMeet
    · cases l with
      | meet => exact bs_leaves_none b
      | _ => simp [Strand.IsMeet] at h
    · rw [cons_leaves h]
      rcases leaves_cases (r := none) (l := l) with e | e <;> rw [e] <;> exact bs_leaves_none b

theorem bs_leaves_some {q : Node} : ∀ (b : Branches) (next : Option Node), next = none ∨ next = some q → next = some q ∨ b.SomeGoOn → b.leaves (some q) next = some q
  | .nil, next, _, h => by rcases h with h | h; exact h; simp [Branches.SomeGoOn] at h
  | .cons l b, next, h0, h => by
    by_cases hm : l.IsMeet
    · cases l with
      | meet =>
        refine bs_leaves_some b next h0 ?_
        rcases h with h | h | h
        · exact .inl h
        · exact absurd trivial h.2
        · exact .inr h
      | _ => simp [Strand.IsMeet] at hm
    · rw [cons_leaves hm]
      rcases leaves_cases (r := some q) (l := l) with e | e
      · rw [e]; exact bs_leaves_some b _ (.inr rfl) (.inl rfl)
      · rw [e]
        refine bs_leaves_some b _ h0 ?_
        rcases h with h | h | h
        · exact .inl h
        · rw [leaves_on h.1] at e; simp at e
        · exact .inr h

end

section
variable {d : Diagram}

/-- A node where branches meet: what the export returns there. -/
structure Joint (d : Diagram) (q : Node) (r : Option Node) : Prop where
  mem : q ∈ d.getNodes
  join : 2 ≤ (ins q).length
  run : ∀ o pre c rows, Ex d q o pre c "" false rows (rows, r)

theorem Ground.meeting (G : Ground d) {j : Option Node} : ∀ {l : Strand}, l.Fits d true j → ∃ q r, l.first none = some q ∧ l.entry true j = some r ∧ Joint d q (some r)
  | .stop e, h => by
    obtain ⟨h1, ⟨h2, h2', h2''⟩, h3, h4, h5⟩ := h
    exact ⟨e, e, rfl, rfl, h1, h2, fun _ _ _ _ => G.turned h1 h2' h2'' h2 (.inl ⟨h5 rfl, rfl⟩)⟩
  | .meet, h => by simp [Strand.Fits] at h
  | .step n rest, h => by
    obtain ⟨h1, ⟨h2, h2', h2''⟩, h3, ⟨i, h4, h4'⟩, h5, h6⟩ := h
    obtain ⟨m, hm, e, f, hf, ht⟩ := G.target h4'
    by_cases ha : IsActivity n
    · exact ⟨n, n, rfl, by simp [Strand.entry, ha], h1, h2, fun _ _ _ _ => G.turned h1 h2' h2'' h2 (.inl ⟨ha, rfl⟩)⟩
    · exact ⟨n, m, rfl, by simp [Strand.entry, ha, e], h1, h2, fun _ _ _ _ => G.turned h1 h2' h2'' h2 (.inr ⟨ha, i, f, h4, ht⟩)⟩
  | .block s bs rest, h => by
    obtain ⟨h1, ⟨h2, h2', h2''⟩, h3, h4, -⟩ := h
    exact ⟨s, s, rfl, rfl, h1, h2, fun _ _ _ _ => G.turned h1 h2' h2'' h2 (.inl ⟨h4 rfl, rfl⟩)⟩
  | .fork s bs, h => by
    obtain ⟨h1, ⟨h2, h2', h2''⟩, h3, h4, -⟩ := h
    exact ⟨s, s, rfl, rfl, h1, h2, fun _ _ _ _ => G.turned h1 h2' h2'' h2 (.inl ⟨h4 rfl, rfl⟩)⟩

theorem first_few {j : Option Node} {n : Node} : ∀ {l : Strand}, l.Fits d false j → ¬l.IsMeet → l.first j = some n → n ∈ d.getNodes ∧ (ins n).length ≤ 1
  | .stop e, h, _, e' => by cases e'; exact ⟨h.1, h.2.1⟩
  | .meet, h, hm, e' => absurd trivial hm
  | .step n rest, h, _, e' => by cases e'; exact ⟨h.1, h.2.1⟩
  | .block s bs rest, h, _, e' => by cases e'; exact ⟨h.1, h.2.1⟩
  | .fork s bs, h, _, e' => by cases e'; exact ⟨h.1, h.2.1⟩

theorem entry_false {j : Option Node} : ∀ (l : Strand), l.entry false j = l.first j
  | .stop e => rfl
  | .meet => rfl
  | .step n rest => by simp [Strand.entry, Strand.first]
  | .block s bs rest => rfl
  | .fork s bs => rfl

theorem entered {meets flag : Bool} {n : Node} (h : Entered meets n) (hf : meets = true → flag = true) : (ins n).length ≤ 1 ∨ flag = true := by
  cases meets with
  | true => exact .inr (hf rfl)
  | false => exact .inl h

theorem cons_table {s : Node} {pre : String} {o : Nat} {l : Strand} {r : Branches} {i : String} {fs : List String} {k : Nat} (h : ¬l.IsMeet) :
    (Branches.cons l r).table d s pre o (i :: fs) k =
      l.table d false (pre ++ toString o ++ String.ofList [letter k]) 1 (splitCondition d s i) ++ r.table d s pre o fs (k + 1) := by
  cases l with
  | meet => simp [Strand.IsMeet] at h
  | _ => simp only [Branches.table]

theorem cons_skips {l : Strand} {r : Branches} (h : ¬l.IsMeet) : (Branches.cons l r).skips = l.skips + r.skips := by
  cases l with
  | meet => simp [Strand.IsMeet] at h
  | _ => simp only [Branches.skips]

mutual
theorem line_ex (G : Ground d) : ∀ (l : Strand) (meets : Bool) (j r : Option Node), (∀ q, j = some q → Joint d q r) → l.Fits d meets j → ∀ flag : Bool,
    (l.IsMeet → flag = false) → (meets = true → flag = true) → ∀ n, l.entry meets j = some n → ∀ o pre c rows, (meets = true → c = "") →
    Ex d n o pre c "" flag rows (rows ++ l.table d meets pre o c, l.leaves r)
  | .stop e, meets, j, r, hj, h, flag, h0, h0', n, hn, o, pre, c, rows, hc => by
    obtain ⟨h1, h2, h3, h4, h5⟩ := h
    cases hn
    obtain ⟨ty, -, hty⟩ := G.supported _ h1
    rw [Strand.table, Strand.leaves]
    by_cases he : ty = "endEvent"
    · subst he
      exact G.end h1 hty
    · exact G.last h1 hty (by rintro rfl; exact h4 hty) he h3 (entered h2 h0')
  | .meet, meets, j, r, hj, h, flag, h0, h0', n, hn, o, pre, c, rows, hc => by
    obtain rfl := h0 trivial
    rw [Strand.table, Strand.leaves, List.append_nil]
    exact (hj n hn).run o pre c rows
  | .step n rest, meets, j, r, hj, h, flag, h0, h0', m, hm, o, pre, c, rows, hc => by
    obtain ⟨h1, h2, h3, ⟨i, h4, h4'⟩, h5, h6⟩ := h
    obtain ⟨m', hm', e, f, hf, ht⟩ := G.target h4'
    rw [Strand.table, Strand.leaves]
    by_cases hs : meets = true ∧ ¬IsActivity n
    · rw [if_pos hs]
      obtain rfl := hc hs.1
      refine line_ex G rest false j r hj h5 flag (fun hmt => absurd hmt (h6 hs.1 hs.2)) (by simp) m ?_ o pre "" rows (by simp)
      rw [entry_false]
      simpa [Strand.entry, hs] using hm
    · rw [if_neg hs]
      simp only [Strand.entry, hs, if_false, Option.some.injEq] at hm
      subst hm
      obtain ⟨ty, -, hty⟩ := G.supported _ h1
      have hx := line_ex G rest false j r hj h5 false (fun _ => rfl) (by simp) m' (by rw [entry_false]; exact e) (o + 1) pre ""
        (rows ++ nodeRow n (pre ++ toString o) c) (by simp)
      rw [List.append_assoc] at hx
      by_cases he : ty = "startEvent"
      · subst he
        exact G.start h1 hty h4 ht hx
      · exact G.inner h1 hty he (by rintro rfl; exact h3 hty) h4 ht (entered h2 h0') hx
  | .block s bs rest, meets, j, r, hj, h, flag, h0, h0', n, hn, o, pre, c, rows, hc => by
    obtain ⟨h1, h2, ⟨h3, h3', h3'', h3x⟩, h4, h5, h6, h7⟩ := h
    cases hn
    obtain ⟨ty, -, hty⟩ := G.supported _ h1
    obtain ⟨q, r', e1, e2, J⟩ := G.meeting h7
    rw [Strand.table, Strand.leaves]
    obtain ⟨F, hF⟩ := branches_ex G bs s ty hty (rest.first none) (some r') (by intro q' e; rw [e1] at e; cases e; exact J) (outs s) 0 (by omega) h5 o pre
      (rows ++ nodeRow s (pre ++ toString o) c) none
    rw [bs_leaves_some bs none (.inl rfl) (.inr h6)] at hF
    refine G.split h1 hty (by rintro rfl; exact h3 hty) (by rintro rfl; exact h3' hty) h3'' (entered h2 h0') ⟨F, hF⟩ ?_
    have := line_ex G rest true j r hj h7 true (by intro hm; cases rest <;> simp [Strand.IsMeet, Strand.Fits] at hm h7) (fun _ => rfl) r' e2 (o + 1) pre ""
      (rows ++ nodeRow s (pre ++ toString o) c ++ bs.table d s pre o (outs s) 0) (fun _ => rfl)
    simpa only [List.append_assoc] using this
  | .fork s bs, meets, j, r, hj, h, flag, h0, h0', n, hn, o, pre, c, rows, hc => by
    obtain ⟨h1, h2, ⟨h3, h3', h3'', h3x⟩, h4, h5⟩ := h
    cases hn
    obtain ⟨ty, -, hty⟩ := G.supported _ h1
    rw [Strand.table, Strand.leaves]
    obtain ⟨F, hF⟩ := branches_ex G bs s ty hty none none (by simp) (outs s) 0 (by omega) h5 o pre
      (rows ++ nodeRow s (pre ++ toString o) c) none
    rw [bs_leaves_none] at hF
    refine G.split h1 hty (by rintro rfl; exact h3 hty) (by rintro rfl; exact h3' hty) h3'' (entered h2 h0') ⟨F, hF⟩ ?_
    simp only [List.append_assoc]

theorem branches_ex (G : Ground d) : ∀ (bs : Branches) (s : Node) (ty : String), s.2.type = some ty → ∀ (j r : Option Node), (∀ q, j = some q → Joint d q r) →
    ∀ (fs : List String) (k : Nat), k + fs.length ≤ 26 → bs.Fit d j fs → ∀ o pre rows next, ∃ F, ∀ g ≥ F,
      splitLoop d (table d) (exportNode d (table d) g) ty (defaultFlow s ty) o pre "" fs k rows next = .ok (rows ++ bs.table d s pre o fs k, bs.leaves r next)
  | .nil, s, ty, hty, j, r, hj, fs, k, hk, h, o, pre, rows, next => by
    have : fs = [] := h
    subst this
    exact ⟨0, fun g _ => by simp [splitLoop, Branches.table, Branches.leaves]⟩
  | .cons l b, s, ty, hty, j, r, hj, fs, k, hk, h, o, pre, rows, next => by
    obtain ⟨i, gs, rfl, h1, h2, h3⟩ := h
    obtain ⟨n, hn, e, f, hf, ht⟩ := G.target h1
    simp only [List.length_cons] at hk
    have hcond : (if ty ≠ "parallelGateway" then f.2.2.name.getD "" else "") = flowCondition s f := by
      unfold flowCondition
      rw [hty]
      by_cases hp : ty = "parallelGateway" <;> simp [hp]
    by_cases hm : l.IsMeet
    · cases l with
      | meet =>
        obtain ⟨F, hF⟩ := branches_ex G b s ty hty j r hj gs (k + 1) (by omega) h3 o pre (rows ++ [Row.mk (pre ++ toString o ++ String.ofList [letter k] ++ "1")
          ("goto " ++ pre ++ toString (o + 1)) (skipCondition d s i) "" "" ""]) next
        have J := hj n e
        have jl : "Join" ∈ Spec.labels n := by rw [join_mem_labels]; exact J.join
        have hc : skipCondition d s i = flowCondition s f := by rw [skipCondition, hf]
        refine ⟨F, fun g hg => ?_⟩
        simp only [splitLoop, ht, except_bind_ok, asciiLower_letter (show k < 26 by omega), found, G.labels hn, need_some, jl, if_true, hcond]
        have := hF g hg
        rw [hc] at this
        rw [Branches.table, Branches.leaves, hc]
        rw [List.append_assoc] at this
        exact this
      | _ => simp [Strand.IsMeet] at hm
    · obtain ⟨-, few⟩ := first_few h2 hm e
      have nj : ¬"Join" ∈ Spec.labels n := by rw [join_mem_labels]; omega
      obtain ⟨f1, hf1⟩ := line_ex G l false j r hj h2 false (fun _ => rfl) (by simp) n (by rw [entry_false]; exact e) 1
        (pre ++ toString o ++ String.ofList [letter k]) (splitCondition d s i) rows (by simp)
      obtain ⟨F, hF⟩ := branches_ex G b s ty hty j r hj gs (k + 1) (by omega) h3 o pre
        (rows ++ l.table d false (pre ++ toString o ++ String.ofList [letter k]) 1 (splitCondition d s i)) (later next (l.leaves r))
      have hc : (if some i = defaultFlow s ty then "else" else flowCondition s f) = splitCondition d s i := by
        rw [splitCondition, hf]
        simp only [branchCondition, defaultFlow, hty]
        by_cases hp : ty = "parallelGateway"
        · simp [hp]
        · simp only [ne_eq, hp, not_false_eq_true, if_true, Option.some.injEq, true_and]
          rcases s.2.default with _ | _ | x
          · simp
          · simp
          · by_cases hx : i = x <;> simp [hx, eq_comm]
      refine ⟨max F f1, fun g hg => ?_⟩
      simp only [splitLoop, ht, except_bind_ok, asciiLower_letter (show k < 26 by omega), found, G.labels hn, need_some, nj, if_false, hcond, hc,
        exportNode_mono (show f1 ≤ g by omega) _ _ _ _ _ _ _ _ hf1]
      rw [cons_table hm, cons_leaves hm, ← List.append_assoc]
      have := hF g (by omega)
      cases hl : l.leaves r with
      | none => rw [hl] at this; exact this
      | some q => rw [hl] at this; exact this
end

/-- The table of a block-structured diagram is what the export writes. -/
theorem structured_rows {l : Strand} (h : Consistent d) (s : Structured d l) : ∃ N, ∀ fuel ≥ N, exportRows d fuel = .ok (l.table d false "" 0 "") := by
  have G : Ground d := ⟨h, s.supported, s.named⟩
  obtain ⟨n, hn⟩ : ∃ n, l.first none = some n := by
    have := s.fits
    cases l <;> simp [Strand.first, Strand.Fits] at this ⊢
  have hmem : n ∈ d.getNodes := by
    refine (first_few s.fits ?_ hn).1
    intro hm
    have := s.fits
    cases l <;> simp [Strand.IsMeet, Strand.Fits] at hm this
  obtain ⟨f, hf⟩ := line_ex G l false none none (by simp) s.fits false (fun _ => rfl) (by simp) n (by rw [entry_false]; exact hn) 0 "" "" [] (by simp)
  refine ⟨f, fun fuel hfuel => exportRows_mono hfuel ?_⟩
  have starts : d.getNodes.filter (fun n => (Spec.ins n).length = 0) = [n] := by
    refine only_one (h.ids.of_map.filter _) (List.mem_filter.2 ⟨hmem, ?_⟩) ?_
    · rw [decide_eq_true_eq, List.length_eq_zero_iff]
      exact (s.start n hmem).2 hn
    · intro b hb
      obtain ⟨hb1, hb2⟩ := List.mem_filter.1 hb
      rw [decide_eq_true_eq, List.length_eq_zero_iff] at hb2
      have := (s.start b hb1).1 hb2
      rw [hn] at this
      exact (Option.some.inj this).symm
  unfold exportRows
  rw [startNodes_eq fun n hn => (h.lists n hn).1, starts]
  simp only [except_bind_ok, nodes_eq h.complete h.ids]
  rw [show (byType d).map (fun n => (n.1, Spec.labels n)) = table d from rfl, hf]
  simp

/-! ## Every node has its row -/

mutual
theorem line_complete : ∀ (l : Strand) (meets : Bool) (j : Option Node), l.Fits d meets j → ∀ pre o c,
    ((l.nodes.filter fun n => HasRow n).map caption).Sublist ((l.table d meets pre o c).map content) ∧
    (l.table d meets pre o c).length = (l.nodes.filter fun n => HasRow n).length + l.skips
  | .stop e, meets, j, h, pre, o, c => by
    rw [Strand.table, Strand.nodes, Strand.skips]
    by_cases hr : HasRow e <;> simp [nodeRow, hr, content]
  | .meet, meets, j, h, pre, o, c => by simp [Strand.table, Strand.nodes, Strand.skips]
  | .step n rest, meets, j, h, pre, o, c => by
    obtain ⟨h1, h2, h3, ⟨i, h4, h4'⟩, h5, h6⟩ := h
    rw [Strand.table, Strand.nodes, Strand.skips]
    by_cases hs : meets = true ∧ ¬IsActivity n
    · rw [if_pos hs]
      have hn : ¬HasRow n := by
        obtain ⟨rfl, ha⟩ := hs
        obtain ⟨-, a, b⟩ := h2
        intro h
        simp only [HasRow, List.mem_cons, List.not_mem_nil, or_false] at h
        rcases h with h | h | h | h
        · exact ha (.inl h)
        · exact ha (.inr h)
        · exact a h
        · exact b h
      have ih := line_complete rest false j h5 pre o ""
      rw [List.filter_cons_of_neg (by simpa using hn)]
      exact ih
    · rw [if_neg hs]
      have ih := line_complete rest false j h5 pre (o + 1) ""
      by_cases hr : HasRow n
      · rw [List.filter_cons_of_pos (by simpa using hr), nodeRow, if_pos hr]
        refine ⟨List.Sublist.cons_cons _ ih.1, ?_⟩
        have := ih.2
        simp only [List.length_append, List.length_cons, List.length_nil]
        omega
      · rw [List.filter_cons_of_neg (by simpa using hr), nodeRow, if_neg hr]
        exact ih
  | .block s bs rest, meets, j, h, pre, o, c => by
    obtain ⟨h1, h2, h3, h4, h5, h6, h7⟩ := h
    rw [Strand.table, Strand.nodes, Strand.skips]
    have ib := branches_complete bs s (rest.first none) (outs s) h5 pre o 0
    have ir := line_complete rest true j h7 pre (o + 1) ""
    by_cases hr : HasRow s
    · rw [List.filter_cons_of_pos (by simpa using hr), nodeRow, if_pos hr]
      constructor
      · rw [List.filter_append, List.map_cons, List.map_append, List.map_append, List.map_append, List.append_assoc]
        exact List.Sublist.cons_cons _ (ib.1.append ir.1)
      · have := ib.2
        have := ir.2
        simp only [List.length_append, List.length_cons, List.length_nil, List.filter_append]
        omega
    · rw [List.filter_cons_of_neg (by simpa using hr), nodeRow, if_neg hr]
      constructor
      · rw [List.filter_append, List.map_append, List.nil_append, List.map_append]
        exact ib.1.append ir.1
      · have := ib.2
        have := ir.2
        simp only [List.length_append, List.length_cons, List.length_nil, List.filter_append]
        omega
  | .fork s bs, meets, j, h, pre, o, c => by
    obtain ⟨h1, h2, h3, h4, h5⟩ := h
    rw [Strand.table, Strand.nodes, Strand.skips]
    have ib := branches_complete bs s none (outs s) h5 pre o 0
    by_cases hr : HasRow s
    · rw [List.filter_cons_of_pos (by simpa using hr), nodeRow, if_pos hr]
      refine ⟨List.Sublist.cons_cons _ ib.1, ?_⟩
      have := ib.2
      simp only [List.length_append, List.length_cons, List.length_nil]
      omega
    · rw [List.filter_cons_of_neg (by simpa using hr), nodeRow, if_neg hr]
      exact ib

theorem branches_complete : ∀ (bs : Branches) (s : Node) (j : Option Node) (fs : List String), bs.Fit d j fs → ∀ pre o k,
    ((bs.nodes.filter fun n => HasRow n).map caption).Sublist ((bs.table d s pre o fs k).map content) ∧
    (bs.table d s pre o fs k).length = (bs.nodes.filter fun n => HasRow n).length + bs.skips
  | .nil, s, j, fs, h, pre, o, k => by simp [Branches.table, Branches.nodes, Branches.skips]
  | .cons l b, s, j, fs, h, pre, o, k => by
    obtain ⟨i, gs, rfl, h1, h2, h3⟩ := h
    have ib := branches_complete b s j gs h3 pre o (k + 1)
    have il := line_complete l false j h2 (pre ++ toString o ++ String.ofList [letter k]) 1 (splitCondition d s i)
    by_cases hm : l.IsMeet
    · cases l with
      | meet =>
        rw [Branches.table, Branches.nodes, Branches.skips, Strand.nodes, List.nil_append]
        refine ⟨ib.1.cons _, ?_⟩
        have := ib.2
        simp only [List.length_cons]
        omega
      | _ => simp [Strand.IsMeet] at hm
    · rw [cons_table hm, Branches.nodes, List.filter_append, List.map_append, List.map_append, cons_skips hm]
      refine ⟨il.1.append ib.1, ?_⟩
      have := ib.2
      have := il.2
      simp only [List.length_append]
      omega
end

/-! ## Checking the structure -/

def leadsB (d : Diagram) (i : String) (m : Option Node) : Bool :=
  match m, d.getFlowById i with
  | some n, .ok (some f) => decide (n ∈ d.getNodes) && decide (f.2.2.targetRef = some n.1)
  | _, _ => false

theorem leads_of_check {i : String} {m : Option Node} (h : leadsB d i m = true) : LeadsTo d i m := by
  unfold leadsB at h
  split at h
  · rename_i n f e
    rw [Bool.and_eq_true, decide_eq_true_eq, decide_eq_true_eq] at h
    exact ⟨n, h.1, rfl, f, e, h.2⟩
  · simp at h

instance (meets : Bool) (n : Node) : Decidable (Entered meets n) := by unfold Entered; infer_instance
instance (n : Node) : Decidable (IsSplit n) := by unfold IsSplit; infer_instance

instance : (l : Strand) → Decidable l.IsMeet
  | .stop _ => .isFalse id
  | .meet => .isTrue trivial
  | .step _ _ => .isFalse id
  | .block _ _ _ => .isFalse id
  | .fork _ _ => .isFalse id

def goesB : Strand → Bool
  | .stop _ => false
  | .meet => true
  | .step _ rest => goesB rest
  | .block _ _ rest => goesB rest
  | .fork _ _ => false

theorem goes_of_check : ∀ {l : Strand}, goesB l = true → l.GoesOn
  | .stop _, h => by simp [goesB] at h
  | .meet, h => trivial
  | .step _ rest, h => goes_of_check (l := rest) h
  | .block _ _ rest, h => goes_of_check (l := rest) h
  | .fork _ _, h => by simp [goesB] at h

def someB : Branches → Bool
  | .nil => false
  | .cons l r => (goesB l && !decide l.IsMeet) || someB r

theorem some_of_check : ∀ {b : Branches}, someB b = true → b.SomeGoOn
  | .nil, h => by simp [someB] at h
  | .cons l r, h => by
    simp only [someB, Bool.or_eq_true, Bool.and_eq_true, Bool.not_eq_true', decide_eq_false_iff_not] at h
    rcases h with h | h
    · exact .inl ⟨goes_of_check h.1, h.2⟩
    · exact .inr (some_of_check h)

mutual
def fitsB (d : Diagram) (meets : Bool) (j : Option Node) : Strand → Bool
  | .stop e => decide (e ∈ d.getNodes) && decide (Entered meets e) && decide (outs e = []) && decide (e.2.type ≠ some "startEvent") && decide (meets = true → IsActivity e)
  | .meet => decide (meets = false) && j.isSome
  | .step n rest => decide (n ∈ d.getNodes) && decide (Entered meets n) && decide (n.2.type ≠ some "endEvent") &&
      (match outs n with | [i] => leadsB d i (rest.first j) | _ => false) && fitsB d false j rest && decide (meets = true → ¬IsActivity n → ¬rest.IsMeet)
  | .block s bs rest => decide (s ∈ d.getNodes) && decide (Entered meets s) && decide (IsSplit s) && decide (meets = true → IsActivity s) &&
      fitB d (rest.first none) bs (outs s) && someB bs && fitsB d true j rest
  | .fork s bs => decide (s ∈ d.getNodes) && decide (Entered meets s) && decide (IsSplit s) && decide (meets = true → IsActivity s) && fitB d none bs (outs s)

def fitB (d : Diagram) (j : Option Node) : Branches → List String → Bool
  | .nil, fs => fs.isEmpty
  | .cons l r, fs => match fs with | i :: gs => leadsB d i (l.first j) && fitsB d false j l && fitB d j r gs | [] => false
end

mutual
theorem fits_of_check : ∀ {l : Strand} {meets : Bool} {j : Option Node}, fitsB d meets j l = true → l.Fits d meets j
  | .stop e, meets, j, h => by
    simp only [fitsB, Bool.and_eq_true, decide_eq_true_eq] at h
    obtain ⟨⟨⟨⟨h1, h2⟩, h3⟩, h4⟩, h5⟩ := h
    exact ⟨h1, h2, h3, h4, h5⟩
  | .meet, meets, j, h => by
    simp only [fitsB, Bool.and_eq_true, decide_eq_true_eq] at h
    exact h
  | .step n rest, meets, j, h => by
    simp only [fitsB, Bool.and_eq_true, decide_eq_true_eq] at h
    obtain ⟨⟨⟨⟨⟨h1, h2⟩, h3⟩, h4⟩, h5⟩, h6⟩ := h
    refine ⟨h1, h2, h3, ?_, fits_of_check h5, h6⟩
    split at h4
    · rename_i i e; exact ⟨i, e, leads_of_check h4⟩
    · simp at h4
  | .block s bs rest, meets, j, h => by
    simp only [fitsB, Bool.and_eq_true, decide_eq_true_eq] at h
    obtain ⟨⟨⟨⟨⟨⟨h1, h2⟩, h3⟩, h4⟩, h5⟩, h6⟩, h7⟩ := h
    exact ⟨h1, h2, h3, h4, fit_of_check h5, some_of_check h6, fits_of_check h7⟩
  | .fork s bs, meets, j, h => by
    simp only [fitsB, Bool.and_eq_true, decide_eq_true_eq] at h
    obtain ⟨⟨⟨⟨h1, h2⟩, h3⟩, h4⟩, h5⟩ := h
    exact ⟨h1, h2, h3, h4, fit_of_check h5⟩

theorem fit_of_check : ∀ {b : Branches} {j : Option Node} {fs : List String}, fitB d j b fs = true → b.Fit d j fs
  | .nil, j, fs, h => by
    simp [fitB] at h
    exact h
  | .cons l r, j, fs, h => by
    simp only [fitB] at h
    split at h
    · rename_i i gs
      simp only [Bool.and_eq_true] at h
      exact ⟨i, gs, rfl, leads_of_check h.1.1, fits_of_check h.1.2, fit_of_check h.2⟩
    · simp at h
end

def structuredB (l : Strand) (d : Diagram) : Bool :=
  decide (l.nodes.Perm d.getNodes) && d.getNodes.all (fun n => decide (Supported n) && n.2.nodeName.isSome && decide (ins n = [] ↔ l.first none = some n)) && fitsB d false none l

theorem structured_of_check {l : Strand} (h : structuredB l d = true) : Structured d l := by
  simp only [structuredB, Bool.and_eq_true, decide_eq_true_eq, List.all_eq_true] at h
  obtain ⟨⟨h1, h2⟩, h3⟩ := h
  exact ⟨h1, fun n hn => (h2 n hn).1.1, fun n hn => (h2 n hn).1.2, fun n hn => (h2 n hn).2, fits_of_check h3⟩

end

end Bpmn.Csv

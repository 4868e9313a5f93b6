import Verif.Lemmas.CsvFlatExport
import Verif.Props.CsvAccept
/-!
# CSV: import and export of linear and flat tables (C44, C66, C67)
-/
set_option linter.unusedSimpArgs false
set_option linter.unusedVariables false

namespace Bpmn.Csv
open Bpmn.Spec Bpmn.Spec.Csv

theorem Made.leads {t : FlatTable} {d : Diagram} {F : List (String × String)} (m : Made t d F) (g : t.Good) {a b : String} : Leads d a b ↔ (a, b) ∈ F := by
  constructor
  · rintro ⟨i, sf, n, hn, q, hq, rfl, rfl, h1, -, h3, h4, h5⟩
    obtain ⟨e1, e2, -⟩ := id_of_node m.inv hn
    rw [e2, m.out] at h1
    obtain ⟨u, hu, rfl⟩ := mem_leaving.1 h1
    obtain ⟨k1, k2, -⟩ := m.inv.flowI _ _ h3
    rw [h4, h5] at k2
    rw [h4] at k1
    obtain ⟨-, rfl⟩ := flowId_inj (m.inv.plain _ e1) k1 k2
    exact hu
  · intro h
    have ho : flowId a b ∈ outOf d a := by rw [m.out]; exact mem_leaving.2 ⟨_, h, rfl⟩
    obtain ⟨n, hn, e1, e2, -⟩ := node_of_id m.inv (outOf_mem ho)
    rw [← e2] at ho
    obtain ⟨q, hq, ⟨x, y, e, f1, f2, f3, f4⟩, -⟩ := m.consistent.outFlow n hn _ ho
    obtain ⟨ed, k1, k2, k3, -⟩ := getFlowById_some m.inv.sane f1
    obtain ⟨s, u, l1, l2, l3, -, -, w⟩ := m.inv.edgeI ed k1
    rw [k3] at l1
    obtain ⟨rfl, rfl⟩ := flowId_inj (e1 ▸ m.inv.plain _ (id_of_node m.inv hn).1) (m.inv.plain _ w.src) (Option.some.inj l1)
    exact w.leads m.inv

theorem onLine_iff {t : FlatTable} {k : Nat} : t.OnLine k ↔ (cell t (.main k)).isSome = true := by
  unfold FlatTable.OnLine
  cases k with
  | zero => simp [cell]
  | succ i =>
    simp only [cell]
    by_cases e : i = t.items.length
    · simp [e]
    · rw [if_neg e]
      constructor
      · rintro (h | h | ⟨j, c, h1, h2⟩)
        · omega
        · omega
        · cases h1; simp [h2]
      · intro h
        split at h
        · rename_i c hc; exact Or.inr (Or.inr ⟨i, c, rfl, hc⟩)
        · cases h

theorem main_str (k : Nat) : (Id.row (.main k)).name = toString k := name_str k
theorem split_str (k : Nat) : (Id.split k).name = toString k ++ "_split" := by rw [← name_str]; rfl
theorem join_str (k : Nat) : (Id.join k).name = toString k ++ "_join" := by rw [← name_str]; rfl

theorem arrow_iff {t : FlatTable} (g : t.Good) {a b : String} : t.Arrow a b ↔ ∃ x y, Link t x y ∧ (a, b) = (x.name, y.name) := by
  constructor
  · intro h
    cases h with
    | @next k h1 h2 =>
      rw [onLine_iff] at h1 h2
      refine ⟨.row (.main k), .row (.main (k + 1)), ?_, by rw [main_str, main_str]⟩
      obtain ⟨⟨c, b⟩, hc⟩ := Option.isSome_iff_exists.1 h1
      cases b with
      | false => exact Link.step hc h2
      | true =>
        exfalso
        cases k with
        | zero => cases hc
        | succ i =>
          simp only [cell] at hc
          split at hc
          · rename_i e
            subst e
            simp [cell] at h2
          · split at hc <;> cases hc
    | fork h => exact ⟨_, _, Link.enter h, by rw [main_str, split_str]⟩
    | branch h hj => exact ⟨_, _, Link.branch h hj, by rw [split_str]; rfl⟩
    | @along k j m legs leg h1 h2 h3 h4 =>
      obtain ⟨n, rfl⟩ : ∃ n, m = n + 1 := ⟨m - 1, by omega⟩
      refine ⟨_, _, Link.inside (k := k + 1) (j := j) (m := n + 1) ?_ ?_, rfl⟩
      · simp [cell, h1, h2, List.getElem?_eq_getElem (show n < leg.steps.length by omega)]
      · simp [cell, h1, h2, List.getElem?_eq_getElem h4]
    | join h1 h2 h3 => exact ⟨_, _, Link.close h1 h2 h3 rfl, by rw [join_str]; rfl⟩
    | out h => exact ⟨_, _, Link.leave h, by rw [main_str, join_str]⟩
  · rintro ⟨x, y, h, e⟩
    cases e
    cases h with
    | step h1 h2 => rw [main_str, main_str]; exact .next (onLine_iff.2 (by rw [h1]; rfl)) (onLine_iff.2 h2)
    | enter h => rw [main_str, split_str]; exact .fork h
    | branch h hj => rw [split_str]; exact .branch h hj
    | @inside k j m h1 h2 =>
      obtain ⟨⟨c, b⟩, h1⟩ := Option.isSome_iff_exists.1 h1
      obtain ⟨⟨c', b'⟩, h2⟩ := Option.isSome_iff_exists.1 h2
      obtain ⟨i, n, legs, leg, rfl, rfl, k1, k2, k3, -⟩ := cell_leg h1
      obtain ⟨i', n', legs', leg', e1, e2, l1, l2, l3, -⟩ := cell_leg h2
      cases e1
      cases e2
      rw [k1] at l1; cases l1
      rw [k2] at l2; cases l2
      exact .along k1 k2 (by omega) (List.getElem?_eq_some_iff.1 l3).1
    | close h1 h2 h3 h4 => subst h4; rw [join_str]; exact .join h1 h2 h3
    | leave h => rw [main_str, join_str]; exact .out h

/-- A line as a flat table. -/
def line (start : String) (tasks : List String) : FlatTable :=
  ⟨⟨start, "", "", ""⟩, tasks.map fun a => .step ⟨a, "", "", ""⟩, ⟨"", "", "", ""⟩⟩

theorem linesFrom_steps : ∀ (k : Nat) (tasks : List String), linesFrom k (tasks.map fun a => Item.step ⟨a, "", "", ""⟩) =
    tasks.mapIdx fun i a => Row.mk (toString (k + i)) a "" "" "" ""
  | k, [] => rfl
  | k, a :: r => by
    rw [List.map_cons, linesFrom, linesFrom_steps (k + 1) r, List.mapIdx_cons]
    simp only [show ∀ i, k + 1 + i = k + (i + 1) from fun i => by omega, itemRows, Cell.row, name_str]
    rfl

theorem line_rows (start : String) (tasks : List String) : (line start tasks).rows = lineRows start tasks := by
  unfold FlatTable.rows lineRows line
  rw [linesFrom_steps]
  simp only [show ∀ i, 1 + i = i + 1 from fun i => by omega, Cell.row, name_str, List.length_map]
  rfl

theorem line_good {start : String} {tasks : List String} (h : ∀ r ∈ lineRows start tasks, ¬GotoRow r) : (line start tasks).Good := by
  have no : ∀ legs, Item.block legs ∉ (line start tasks).items := by intro legs hl; simp [line] at hl
  exact ⟨fun l hl => absurd hl (no l), fun l hl => absurd hl (no l), fun l hl => absurd hl (no l), fun i l l' hl => absurd (List.mem_of_getElem? hl) (no l),
    by rw [line_rows]; exact h⟩

theorem line_kept {start : String} {tasks : List String} : ∀ r ∈ lineRows start tasks, kept r = r := by
  intro r hr
  simp only [lineRows, List.cons_append, List.mem_cons, List.mem_append, List.mem_mapIdx, List.not_mem_nil, or_false] at hr
  rcases hr with rfl | ⟨i, hi, rfl⟩ | rfl <;> simp [kept]

end Bpmn.Csv

namespace Bpmn.Props
open Bpmn.Spec Bpmn.Csv Bpmn.Spec.Csv

/-! ## C67: flat tables come back -/

/-- A start, a step, a block of three branches of which one is terminated, a subprocess, a block of two branches, and an end. -/
def sample : FlatTable :=
  ⟨⟨"ordered", "", "", ""⟩,
   [.step ⟨"check", "", "clerk", ""⟩,
    .block [⟨[⟨"bill", "paid", "", ""⟩, ⟨"pack", "", "", ""⟩], false⟩, ⟨[⟨"refuse", "not paid", "", ""⟩], true⟩, ⟨[⟨"ask", "", "", ""⟩], false⟩],
    .step ⟨"ship", "", "", "yes"⟩,
    .block [⟨[⟨"file", "", "", ""⟩], false⟩, ⟨[⟨"thank", "", "", ""⟩], false⟩]],
   ⟨"done", "", "", ""⟩⟩

theorem sample_good : sample.Good := by
  refine ⟨?_, ?_, ?_, ?_, ?_⟩
  · intro legs h
    simp [sample] at h
    rcases h with rfl | rfl <;> decide
  · intro legs h
    simp [sample] at h
    rcases h with rfl | rfl <;> decide
  · intro legs h
    simp [sample] at h
    rcases h with rfl | rfl <;> simp
  · intro i legs legs' h h'
    match i with
    | 0 => simp [sample] at h
    | 1 => simp [sample] at h'
    | 2 => simp [sample] at h
    | 3 => simp [sample] at h'
    | i + 4 => simp [sample] at h
  · intro r hr hg
    have : ∀ r ∈ sample.rows, isGoto r.activity = false := by decide
    rw [← isGoto_iff, this r hr] at hg
    cases hg

example : sample.Good ∧ sample.rows.map (·.order) = ["0", "1", "2a1", "2a2", "2b1", "2c1", "3", "4a1", "4b1", "5"] := ⟨sample_good, by decide⟩

set_option maxRecDepth 8000 in
example : ∃ rows, (loadCsv sample.rows {} >>= fun d => exportRows d 30) = .ok rows ∧
    (rows == [Row.mk "0" "ordered" "" "" "" "", Row.mk "1" "check" "" "" "" "", Row.mk "2a1" "bill" "" "" "" "", Row.mk "2a2" "pack" "" "" "" "",
      Row.mk "2b1" "" "" "" "" "yes", Row.mk "2c1" "ask" "" "" "" "", Row.mk "3" "ship" "" "" "yes" "", Row.mk "4a1" "file" "" "" "" "",
      Row.mk "4b1" "thank" "" "" "" "", Row.mk "5" "" "" "" "" "yes"]) = true :=
  ok_of_check _ (by decide +kernel)

/-- **C67.** A flat table is imported, and the export of the result writes the same rows in the same order, without conditions, responsible
persons, and the names of ends. -/
theorem C67_flat_round_trip (t : FlatTable) (g : t.Good) :
    ∃ d, loadCsv t.rows {} = .ok d ∧ ∃ N, ∀ fuel ≥ N, exportRows d fuel = .ok (t.rows.map kept) := by
  obtain ⟨d, h⟩ := flat_ok g
  obtain ⟨F, m⟩ := flat_made g h
  exact ⟨d, h, m.rows_eq g⟩

/-- **C67.** If the rows have nothing that is lost, they come back unchanged. -/
theorem C67_flat_fixed (t : FlatTable) (g : t.Good) (hk : ∀ r ∈ t.rows, kept r = r) :
    ∃ d, loadCsv t.rows {} = .ok d ∧ ∃ N, ∀ fuel ≥ N, exportRows d fuel = .ok t.rows := by
  obtain ⟨d, h, N, hN⟩ := C67_flat_round_trip t g
  refine ⟨d, h, N, fun fuel hf => ?_⟩
  rw [hN fuel hf, List.map_congr_left hk, List.map_id']

/-- Without a second branch that is not terminated the rows behind the block are numbered anew. -/
def oneLeg : List Row :=
  [Row.mk "0" "s" "" "" "" "", Row.mk "1a1" "" "" "" "" "yes", Row.mk "1b1" "C" "" "" "" "", Row.mk "2" "B" "" "" "" "", Row.mk "3" "" "" "" "" "yes"]

/-- A block inside a branch, and a step of the branch behind it. -/
def nested : List Row :=
  [Row.mk "0" "s" "" "" "" "", Row.mk "1" "A" "" "" "" "", Row.mk "2a1" "B" "" "" "" "", Row.mk "2a2a1" "C" "" "" "" "", Row.mk "2a2b1" "D" "" "" "" "",
   Row.mk "2a3" "E" "" "" "" "", Row.mk "2b1" "F" "" "" "" "", Row.mk "3" "G" "" "" "" "", Row.mk "4" "" "" "" "" "yes"]

set_option maxRecDepth 8000 in
/-- **C67, limits.** With one branch only that goes on, and with a block inside a branch, other rows are written: in the second table (the
one of the example for C45) the rows behind the block appear twice. -/
theorem C67_limits : (∃ rows, (loadCsv oneLeg {} >>= fun d => exportRows d 30) = .ok rows ∧
      (rows.map (·.order) == ["0", "1a1", "1b1", "1b2", "1b3"]) = true) ∧
    ∃ rows, (loadCsv blockTable {} >>= fun d => exportRows d 30) = .ok rows ∧
      (rows.map (fun r => (r.order, r.activity)) == [("0", "ordered"), ("1", "check"), ("2a1", "refuse"), ("2b1", "accept"), ("2b2a1", "bill"), ("2b2b1", "ship"),
        ("2b3", "file"), ("2b4", ""), ("3", "file"), ("4", "")]) = true :=
  ⟨ok_of_check _ (by decide +kernel), ok_of_check _ (by decide +kernel)⟩

set_option maxRecDepth 8000 in
/-- **C67, limits.** A step behind a block inside a branch is imported without a predecessor, and the export of the result is refused. -/
theorem C67_nested_refused : ∃ d, loadCsv nested {} = .ok d ∧ (∃ n ∈ d.getNodes, n.1 = "2a3" ∧ Spec.ins n = []) ∧
    ∀ fuel, exportRows d fuel = .error .bpmnError := by
  obtain ⟨d, h, hp⟩ := ok_of_check (x := loadCsv nested {}) (fun d => (d.getNodes.any fun n => n.1 == "2a3" && (Spec.ins n).isEmpty) &&
    match startNodes d.getNodes with | .ok [_, _] => true | _ => false) (by decide +kernel)
  rw [Bool.and_eq_true, List.any_eq_true] at hp
  obtain ⟨⟨n, hn, e⟩, hs⟩ := hp
  refine ⟨d, h, ⟨n, hn, by simpa using e⟩, fun fuel => ?_⟩
  unfold exportRows
  split at hs
  · rename_i a b e2; rw [e2]; rfl
  · cases hs

/-! ## C66: the diagram of a flat table -/

/-- **C66.** The diagram of a flat table is consistent, and its sequence flows are exactly the arrows of the table. -/
theorem C66_flat_flows (t : FlatTable) (g : t.Good) (d : Diagram) (h : loadCsv t.rows {} = .ok d) :
    Consistent d ∧ ∀ a b, Leads d a b ↔ t.Arrow a b := by
  obtain ⟨F, m⟩ := flat_made g h
  exact ⟨m.consistent, fun a b => by rw [m.leads g, m.flows, arrow_iff g]⟩

/-- **C66.** Its nodes are the rows, with the type and the name of the row, and gateways that have an arrow. -/
theorem C66_flat_nodes (t : FlatTable) (g : t.Good) (d : Diagram) (h : loadCsv t.rows {} = .ok d) :
    (∀ r ∈ t.rows, ∃ n ∈ d.getNodes, n.1 = r.order ∧ n.2.type = some (rowType r) ∧ n.2.nodeName = some (if rowType r = "endEvent" then "" else r.activity)) ∧
    ∀ n ∈ d.getNodes, (∃ r ∈ t.rows, n.1 = r.order) ∨ n.2.type ∈ gatewayTypes ∧ ∃ a, t.Arrow a n.1 := by
  obtain ⟨F, m⟩ := flat_made g h
  constructor
  · intro r hr
    obtain ⟨p, c, b, hc, rfl⟩ := mem_rows.1 hr
    obtain ⟨n, hn, e⟩ := m.at (p := p) (by rw [hc]; rfl)
    have k := m.row hc hn e
    exact ⟨n, hn, e, k.type, k.name⟩
  · intro n hn
    obtain ⟨e1, -, -, e4, -⟩ := id_of_node m.inv hn
    rcases m.nodes _ e1 with ⟨p, c, b, hc, e⟩ | ⟨hk, he⟩
    · exact Or.inl ⟨_, mem_rows.2 ⟨p, c, b, hc, rfl⟩, e⟩
    · right
      refine ⟨?_, ?_⟩
      · obtain ⟨ty, k1, k2⟩ := gatewayKind_iff.1 hk
        rw [e4, k1]
        rcases k2 with rfl | rfl | rfl <;> decide
      · obtain ⟨f, hf⟩ := List.exists_mem_of_ne_nil _ he
        obtain ⟨s, hs, -⟩ := mem_entering.1 hf
        exact ⟨s, (arrow_iff g).2 ((m.flows _).1 hs)⟩

/-- **C66.** The split of a block lists its flows in the order of the branches. -/
theorem C66_fork_order (t : FlatTable) (g : t.Good) (d : Diagram) (h : loadCsv t.rows {} = .ok d) (k : Nat) (legs : List Leg)
    (hk : t.items[k]? = some (.block legs)) : ∃ n ∈ d.getNodes, n.1 = toString k ++ "_split" ∧
      Spec.outs n = (List.range legs.length).map fun j => n.1 ++ "__" ++ legOrder (k + 1) j 1 := by
  obtain ⟨F, m⟩ := flat_made g h
  obtain ⟨fl, n, hn, e, -⟩ := m.target g (Link.enter hk)
  obtain ⟨ty, gt⟩ := m.gate g (x := .split k) trivial (by simp) hn e
  refine ⟨n, hn, by rw [e, split_str], ?_⟩
  rw [gt.outs_eq, m.fork k legs hk, e]
  rfl

example : ∃ legs, sample.items[1]? = some (.block legs) ∧ legs.length = 3 ∧ sample.Arrow "1" "1_split" ∧ sample.Arrow "1_split" (legOrder 2 2 1) ∧
    legOrder 2 2 1 = "2c1" ∧ sample.Arrow "3_join" "3" :=
  ⟨_, rfl, rfl, .fork (k := 1) rfl, .branch (k := 1) rfl (by decide), by decide, .out (k := 1) rfl⟩

/-! ## C44: linear tables -/

/-- **C44.** A linear table is imported to the chain: one node for each row with its type and name, no other nodes, and flows from each row
to the next one and nowhere else; the export writes exactly the table. -/
theorem C44_linear (start : String) (tasks : List String) (hn : ∀ r ∈ lineRows start tasks, ¬GotoRow r) :
    ∃ d, loadCsv (lineRows start tasks) {} = .ok d ∧ Consistent d ∧
      (∀ r ∈ lineRows start tasks, ∃ n ∈ d.getNodes, n.1 = r.order ∧ n.2.type = some (rowType r) ∧ n.2.nodeName = some r.activity) ∧
      (∀ n ∈ d.getNodes, ∃ k ≤ tasks.length + 1, n.1 = toString k) ∧
      (∀ a b, Leads d a b ↔ ∃ k ≤ tasks.length, a = toString k ∧ b = toString (k + 1)) ∧
      ∃ N, ∀ fuel ≥ N, exportRows d fuel = .ok (lineRows start tasks) := by
  have g := line_good hn
  obtain ⟨d, h, hx⟩ := C67_flat_fixed _ g (by rw [line_rows]; exact line_kept)
  have hf := C66_flat_flows _ g d h
  have hd := C66_flat_nodes _ g d h
  rw [line_rows] at h hx hd
  have noblock : ∀ (k : Nat) legs, (line start tasks).items[k]? ≠ some (.block legs) := by
    intro k legs e; have := List.mem_of_getElem? e; simp [line] at this
  have online : ∀ k, (line start tasks).OnLine k ↔ k ≤ tasks.length + 1 := by
    intro k
    unfold FlatTable.OnLine
    have hl : (line start tasks).items.length = tasks.length := by simp [line]
    rw [hl]
    constructor
    · rintro (h | h | ⟨i, c, rfl, hi⟩)
      · omega
      · omega
      · have := (List.getElem?_eq_some_iff.1 hi).1; omega
    · intro h
      by_cases h0 : k = 0
      · exact Or.inl h0
      by_cases h1 : k = tasks.length + 1
      · exact Or.inr (Or.inl h1)
      right; right
      obtain ⟨i, rfl⟩ : ∃ i, k = i + 1 := ⟨k - 1, by omega⟩
      exact ⟨i, ⟨tasks[i]'(by omega), "", "", ""⟩, rfl, by simp [line, List.getElem?_eq_getElem (show i < tasks.length by omega)]⟩
  have arrow : ∀ a b, (line start tasks).Arrow a b ↔ ∃ k ≤ tasks.length, a = toString k ∧ b = toString (k + 1) := by
    intro a b
    constructor
    · intro h
      cases h with
      | @next k h1 h2 => rw [online] at h2; exact ⟨k, by omega, rfl, rfl⟩
      | fork h => exact absurd h (noblock _ _)
      | branch h => exact absurd h (noblock _ _)
      | along h => exact absurd h (noblock _ _)
      | join h => exact absurd h (noblock _ _)
      | out h => exact absurd h (noblock _ _)
    · rintro ⟨k, hk, rfl, rfl⟩
      exact .next ((online _).2 (by omega)) ((online _).2 (by omega))
  have orders : ∀ r ∈ lineRows start tasks, (∃ k ≤ tasks.length + 1, r.order = toString k) ∧ (rowType r = "endEvent" → r.activity = "") := by
    intro r hr
    simp only [lineRows, List.cons_append, List.mem_cons, List.mem_append, List.mem_mapIdx, List.not_mem_nil, or_false] at hr
    rcases hr with rfl | ⟨i, hi, rfl⟩ | rfl
    · exact ⟨⟨0, by omega, rfl⟩, by simp [rowType]⟩
    · refine ⟨⟨i + 1, by omega, rfl⟩, ?_⟩
      unfold rowType
      split
      · intro e; exact absurd e (by decide)
      · simp
    · exact ⟨⟨tasks.length + 1, by omega, rfl⟩, fun _ => rfl⟩
  refine ⟨d, h, hf.1, ?_, ?_, fun a b => by rw [hf.2, arrow], hx⟩
  · intro r hr
    obtain ⟨n, h1, h2, h3, h4⟩ := hd.1 r hr
    refine ⟨n, h1, h2, h3, ?_⟩
    rw [h4]
    split
    · rename_i e; rw [(orders r hr).2 e]
    · rfl
  · intro n hn
    rcases hd.2 n hn with ⟨r, hr, e⟩ | ⟨-, a, ha⟩
    · rw [e]; exact (orders r hr).1
    · obtain ⟨k, hk, -, e⟩ := (arrow _ _).1 ha
      exact ⟨k + 1, by omega, e⟩

example : (∀ r ∈ lineRows "ordered" ["check", "message sent", "ship"], ¬GotoRow r) ∧
    lineRows "ordered" ["check", "message sent", "ship"] = [Row.mk "0" "ordered" "" "" "" "", Row.mk "1" "check" "" "" "" "",
      Row.mk "2" "message sent" "" "" "" "", Row.mk "3" "ship" "" "" "" "", Row.mk "4" "" "" "" "" "yes"] := by
  refine ⟨?_, by decide⟩
  intro r hr hg
  have : ∀ r ∈ lineRows "ordered" ["check", "message sent", "ship"], isGoto r.activity = false := by decide
  rw [← isGoto_iff, this r hr] at hg
  cases hg

end Bpmn.Props

import Verif.Props.GotoFlows
import Verif.Props.CsvLoops
import Verif.Props.GridLimits
import Verif.Props.CsvKinds
/-!
# What becomes of loops made with `goto` rows (C114)
-/
set_option linter.unusedSimpArgs false
set_option linter.unusedVariables false

namespace Bpmn.Props
open Bpmn Spec Csv Spec.Csv Layouter

/-- The export up to an activity that is a join outside of all splits. -/
theorem rows_to_activity {d : Diagram} {l : Strand} {j s : Node} (G : Ground d) (hs : starts d = [s]) (hfirst : l.first (some j) = some s)
    (hf : l.Fits d false (some j)) (hj : j ∈ d.getNodes) (ha : IsActivity j) (h3 : 2 ≤ (ins j).length) :
    ∃ N, ∀ fuel ≥ N, exportRows d fuel = .ok (l.table d false "" 0 "") := by
  have h := G.consistent
  have hr : ∃ r, ∀ o pre c rows, Ex d j o pre c "" false rows (rows, some r) := by
    have hl : "Join" ∈ Spec.labels j := by rw [join_mem_labels]; omega
    refine ⟨j, fun o pre c rows => ⟨1, ?_⟩⟩
    rcases ha with hty | hty <;>
    simp [exportNode, found, except_bind_ok, hty, need_some, exportElement, G.labels hj, hl, retract, except_pure]
  obtain ⟨r, hr⟩ := hr
  have es' : d.getNodes.filter (fun n => (ins n).length = 0) = [s] := hs
  obtain ⟨f, e⟩ := line_ex G l false (some j) (some r) (by rintro q ⟨⟩; exact ⟨hj, h3, hr⟩) hf false (fun _ => rfl) (by simp) s
    (by rw [entry_false]; exact hfirst) 0 "" "" [] (by simp)
  refine ⟨f, fun fuel hfuel => exportRows_mono hfuel ?_⟩
  unfold exportRows
  rw [startNodes_eq fun n hn => (h.lists n hn).1, es']
  simp only [except_bind_ok, nodes_eq h.complete h.ids]
  rw [show (byType d).map (fun n => (n.1, Spec.labels n)) = table d from rfl, e]
  simp

/-- The nodes `φ i`, ..., one after the other. -/
def runOf (φ : Nat → Node) : Nat → Nat → Strand
  | _, 0 => .meet
  | i, n + 1 => .step (φ i) (runOf φ (i + 1) n)

theorem runOf_first (φ : Nat → Node) (i n : Nat) : (runOf φ i n).first (some (φ (i + n))) = some (φ i) := by
  cases n <;> simp [runOf, Strand.first]

theorem runOf_fits {d : Diagram} {φ : Nat → Node} {k : Nat} (h : ∀ i < k, φ i ∈ d.getNodes ∧ (ins (φ i)).length ≤ 1 ∧ (φ i).2.type ≠ some "endEvent" ∧
    ∃ j, outs (φ i) = [j] ∧ LeadsTo d j (some (φ (i + 1)))) : ∀ n i, i + n = k → (runOf φ i n).Fits d false (some (φ k))
  | 0, i, e => by simp [runOf, Strand.Fits]
  | n + 1, i, e => by
    obtain ⟨h1, h2, h3, j, h4, h5⟩ := h i (by omega)
    have hk : k = i + 1 + n := by omega
    refine ⟨h1, by simpa [Entered] using h2, h3, ⟨j, h4, ?_⟩, runOf_fits h n (i + 1) hk.symm, by simp⟩
    rw [hk, runOf_first]
    exact h5

theorem runOf_table {d : Diagram} {φ : Nat → Node} : ∀ n i, (runOf φ i n).table d false "" i "" = (List.range' i n).flatMap fun x => nodeRow (φ x) (toString x) ""
  | 0, i => by simp [runOf, Strand.table]
  | n + 1, i => by
    simp only [runOf, Strand.table, List.range'_succ, List.flatMap_cons]
    rw [runOf_table n (i + 1)]
    simp

theorem only_one {α : Type} {l : List α} {a : α} (nd : l.Nodup) (ha : a ∈ l) (h : ∀ x ∈ l, x = a) : l = [a] := by
  match l, nd, ha, h with
  | [x], _, _, h => rw [h x (by simp)]
  | x :: y :: r, nd, _, h =>
    have h1 := h x (by simp)
    have h2 := h y (by simp)
    rw [h1, h2] at nd
    simp at nd

section
variable {rows : List Row} (T : GotoTable rows)
include T

/-- Where an untouched row of the main line is entered from. -/
theorem _root_.Bpmn.Spec.Csv.GotoTable.untouched {r : Row} (hr : r ∈ rows) {i : Nat} (hi : r.order.toList = decimal i) (hu : Untouched rows r) {a : String}
    (h : TableFlow rows a r.order) : ∃ j, i = j + 1 ∧ a = toString j := by
  have under := tableUnder T.table _ (List.mem_map_of_mem hr)
  have same : ∀ {v : Row}, v ∈ rows → v.order = r.order → v = r := fun hv e => List.inj_on_of_nodup_map T.table.orders hv hr e
  generalize e : r.order = x at h
  cases h with
  | next h1 h2 h3 h4 h5 =>
    cases same h2 e.symm
    obtain ⟨p, n, hp, e1, e2⟩ := h5
    rw [hi] at e2
    obtain ⟨rfl, rfl⟩ := step_eq (p := []) BranchPrefix.nil hp rfl e2
    exact ⟨n, rfl, String.toList_injective (e1.trans rfl)⟩
  | nextGoto h1 h2 h3 h4 h5 => exact absurd (e ▸ h5) (hu.1 _ h2 h3)
  | split => exact absurd (e ▸ underscore_split _) under
  | branch h1 h2 h3 h4 h5 h6 =>
    cases same h4 e.symm
    have := branchStart_letter h6
    rw [hi] at this
    obtain ⟨c, hc, ha⟩ := List.any_eq_true.1 this
    exact absurd (decimal_isDigit hc) (by rw [alpha_not_digit ha]; simp)
  | branchGoto h1 h2 h3 h4 h5 h6 h7 h8 => exact absurd (e ▸ h8) (hu.1 _ h4 h5)
  | toJoin => exact absurd (e ▸ underscore_join _) under
  | join h1 => cases same h1.2.1 e.symm; exact absurd h1 (hu.2 _)
  | alone h1 => cases same h1.2.1 e.symm; exact absurd h1 (hu.2 _)

/-- What leads to the gateway of a split. -/
theorem _root_.Bpmn.Spec.Csv.GotoTable.to_split {a k : String} (h : TableFlow rows a (k ++ "_split")) : a = k := by
  have hu := tableUnder T.table
  have nr : ∀ {r : Row}, r ∈ rows → k ++ "_split" ≠ r.order := fun hr e => hu _ (List.mem_map_of_mem hr) (e ▸ underscore_split _)
  generalize e : k ++ "_split" = x at h nr
  cases h with
  | next h1 h2 => exact absurd rfl (nr h2)
  | nextGoto h1 h2 h3 h4 => exact absurd rfl (nr h4)
  | split => exact (split_inj e).symm
  | branch h1 h2 h3 h4 => exact absurd rfl (nr h4)
  | branchGoto h1 h2 h3 h4 h5 h6 h7 => exact absurd rfl (nr h7)
  | toJoin => exact absurd e (split_ne_join _ _)
  | join h1 => exact absurd rfl (nr h1.2.1)
  | alone h1 => exact absurd rfl (nr h1.2.1)

/-- A `goto` behind a row is a flow to the row that it names. -/
theorem _root_.Bpmn.Spec.Csv.GotoTable.by_goto {w g q : Row} (hw : w ∈ rows) (ht : w.terminated ≠ "yes") (hg : g ∈ rows) (hgo : GotoRow g) (hq : q ∈ rows) (hto : GoesTo g q.order)
    (h : ComesAfter rows w.order.toList g.order.toList) : ∃ x, TableFlow rows x q.order ∧ ∀ i : Nat, x ≠ toString i := by
  cases h with
  | @next p n h1 h2 h3 =>
    refine ⟨_, .nextGoto hw hg hgo hq hto ht ⟨_, _, h1, h2, h3⟩, fun i e => ?_⟩
    have e : w.order.toList = decimal i := by rw [e]; rfl
    rw [e] at h2
    obtain ⟨rfl, rfl⟩ := step_eq (p := []) BranchPrefix.nil h1 rfl h2
    exact T.main hg h3 hgo
  | branch h1 h2 h3 h4 h5 =>
    refine ⟨_, .branchGoto hw ht ⟨_, _, h1, h2, rfl, h3, h4⟩ hg hgo h5 hq hto, fun i e => ?_⟩
    have hm : '_' ∈ (toString i).toList := e ▸ underscore_split _
    have : ('_' : Char).isDigit = true := decimal_isDigit hm
    cases this

variable (S : SplitTable rows) (N : NoTurn rows)
include S N

/-- What the import makes of the rows, with the flows of the table. -/
theorem _root_.Bpmn.Spec.Csv.GotoTable.ground {d : Diagram} (h : loadCsv rows {} = .ok d) : Ground d ∧
    (∀ n ∈ d.getNodes, (∀ a b, TableFlow rows a n.1 → TableFlow rows b n.1 → a = b) → (ins n).length ≤ 1) ∧
    (∀ n ∈ d.getNodes, ∀ a b, TableFlow rows a n.1 → TableFlow rows b n.1 → a ≠ b → 2 ≤ (ins n).length) ∧
    (∀ n ∈ d.getNodes, ∀ m ∈ d.getNodes, TableFlow rows n.1 m.1 → Feeds n m ∧ ∃ i ∈ outs n, LeadsTo d i (some m)) ∧
    (∀ n ∈ d.getNodes, ins n = [] ↔ ∀ a, ¬TableFlow rows a n.1) := by
  obtain ⟨d0, F, d1, d2, s⟩ := stages T.table h
  have f := T.tidy S N s
  have i := f.exact.inv
  have c := (C111_exactly T S d h).2 N
  have pl : ∀ {a b : String}, TableFlow rows a b → Wired d a b := fun k => T.complete S s N k
  refine ⟨⟨c, ?_, ?_⟩, ?_, ?_, ?_, ?_⟩
  · intro n hn
    obtain ⟨-, k⟩ := C60_nodes rows T.table d h
    rcases k n hn with ⟨r, hr, hg, e⟩ | ⟨-, e⟩
    · obtain ⟨n', h1, h2, h3, -⟩ := C60_rows rows T.table d h r hr hg
      have : n = n' := by
        have e1 := c.getNodeById hn
        rw [← e, ← h2, c.getNodeById h1] at e1
        simpa using e1.symm
      subst this
      refine ⟨_, ?_, h3⟩
      rcases rowType_cases r with e | e | e | e <;> rw [e] <;> decide
    · simp only [gatewayTypes, List.mem_cons, List.not_mem_nil, or_false] at e
      rcases e with e | e | e
      · exact ⟨_, by decide, e⟩
      · exact ⟨_, by decide, e⟩
      · exact ⟨_, by decide, e⟩
  · intro n hn
    obtain ⟨ty, nm, e⟩ := C82_nodes_say rows T.table d h n hn
    rw [e]; rfl
  · intro n hn hk
    by_contra hlt
    rw [(id_of_node i hn).2.2.1] at hlt
    obtain ⟨p, q, hp, hq, hne⟩ := two_of_nodup (f.exact.inNd n.1) (by omega)
    obtain ⟨y, py, rfl⟩ := i.inI _ _ hp
    obtain ⟨z, pz, rfl⟩ := i.inI _ _ hq
    exact hne (by rw [hk y z (T.sound S s N (f.exact.backIn _ _ py hp) py) (T.sound S s N (f.exact.backIn _ _ pz hq) pz)])
  · intro n hn a b ha hb hne
    rw [(id_of_node i hn).2.2.1]
    have wa := pl ha
    have wb := pl hb
    exact two_le_of_mem wa.inn wb.inn fun e => hne (flowId_inj (i.plain _ wa.src) (i.plain _ wb.src) e).1
  · intro n hn m hm hab
    have w := pl hab
    have ho : flowId n.1 m.1 ∈ outs n := by rw [(id_of_node i hn).2.1]; exact w.out
    refine ⟨⟨_, ho, by rw [(id_of_node i hm).2.2.1]; exact w.inn⟩, _, ho, m, hm, rfl, ?_⟩
    obtain ⟨m', hm', ⟨a, b, e, k1, k2, k3, k4⟩, k5⟩ := c.outFlow n hn _ ho
    refine ⟨_, k1, ?_⟩
    rw [k4]
    rw [(id_of_node i hm').2.2.1] at k5
    obtain ⟨z, pz, e'⟩ := i.inI _ _ k5
    rw [(flowId_inj (i.plain _ w.src) pz e').2]
  · intro n hn
    rw [(id_of_node i hn).2.2.1]
    constructor
    · intro e a ha
      have := (pl ha).inn
      rw [e] at this; simp at this
    · intro hk
      refine List.eq_nil_iff_forall_not_mem.2 fun p hp => ?_
      obtain ⟨y, py, rfl⟩ := i.inI _ _ hp
      exact hk _ (T.sound S s N (f.exact.backIn _ _ py hp) py)

omit T S N in
theorem reached_gateway {x : String} (h : TableNode rows x) (hx : ∀ r ∈ rows, r.order ≠ x) : ∃ a, TableFlow rows a x := by
  cases h with
  | row hr hg => exact absurd rfl (hx _ hr)
  | split h1 h2 h3 => exact ⟨_, .split h1 h2 h3⟩
  | join h1 h2 h3 => exact ⟨_, .toJoin h1 h2 h3⟩

/-- Which nodes have no flow into them. -/
theorem _root_.Bpmn.Spec.Csv.GotoTable.only_start {d : Diagram} (h : loadCsv rows {} = .ok d) (A : AllReached rows) {n : Node} (hn : n ∈ d.getNodes) (hi : ins n = []) : n.1 = "0" := by
  have k := ((T.ground S N h).2.2.2.2 n hn).1 hi
  have tn := (C113_nodes T S N d h n.1).1 ⟨n, hn, rfl⟩
  by_contra hne
  by_cases hr : ∃ r ∈ rows, r.order = n.1
  · obtain ⟨r, hr, e⟩ := hr
    obtain ⟨a, ha⟩ := A r hr (by
      intro hg
      generalize hx : n.1 = x at tn
      have under := tableUnder T.table _ (List.mem_map_of_mem hr)
      rw [e, hx] at under
      cases tn with
      | row hr' hg' => exact hg' (List.inj_on_of_nodup_map T.table.orders hr hr' (e.trans hx) ▸ hg)
      | split => exact under (underscore_split _)
      | join => exact under (underscore_join _)) (fun e' => hne (e.symm.trans e'))
    exact k a (e ▸ ha)
  · obtain ⟨a, ha⟩ := reached_gateway tn fun r hr' e => hr ⟨r, hr', e⟩
    exact k a ha

/-- **C114.** A table with `goto` rows whose main line begins with the rows 0 to k, where no `goto` names and no branch comes back to the rows 0 to k - 1, while some `goto` names
row k, and where every row is reached: the CSV export of the imported diagram has exactly the rows 0 to k - 1. Row k, from where on steps are repeated, and all rows behind it are missing. -/
theorem C114_rows (d : Diagram) (h : loadCsv rows {} = .ok d) (m : Nat → Row) (k : Nat) (M : MainLine rows m k) (hk : 1 ≤ k) (hu : ∀ i < k, Untouched rows (m i))
    (ht : (m k).terminated ≠ "yes") (g : Row) (hg : g ∈ rows) (hgo : GotoRow g) (hto : GoesTo g (m k).order)
    (w : Row) (hw : w ∈ rows) (hwt : w.terminated ≠ "yes") (hwg : ComesAfter rows w.order.toList g.order.toList) (A : AllReached rows) :
    ∃ fuel₀, ∀ fuel ≥ fuel₀, exportRows d fuel = .ok ((List.range k).map fun i =>
      Row.mk (toString i) (m i).activity "" "" (if i ≠ 0 ∧ (m i).subprocess = "yes" then "yes" else "") "") := by
  obtain ⟨G, g1, g2, g3, g4⟩ := T.ground S N h
  have order : ∀ i ≤ k, (m i).order = toString i := fun i hi => String.toList_injective (M.row i hi).2
  have notg : ∀ i ≤ k, ¬GotoRow (m i) := fun i hi => T.main (M.row i hi).1 (M.row i hi).2
  have ex : ∀ i, ∃ n : Node, i ≤ k → n ∈ d.getNodes ∧ n.1 = toString i ∧ n.2.type = some (rowType (m i)) ∧
      n.2.nodeName = some (if rowType (m i) = "endEvent" then "" else (m i).activity) ∧ (outs n).length = if (m i).terminated = "yes" then 0 else 1 := by
    intro i
    by_cases hi : i ≤ k
    · obtain ⟨n, h1, h2, h3, h4⟩ := C60_rows rows T.table d h (m i) (M.row i hi).1 (notg i hi)
      obtain ⟨n', k1, k2, k3⟩ := C62_one_way_on rows T.table d h (m i) (M.row i hi).1 (notg i hi)
      have : n = n' := by
        have e1 := G.consistent.getNodeById h1
        have e2 := G.consistent.getNodeById k1
        rw [h2] at e1
        rw [k2, e1] at e2
        simpa using e2
      subst this
      exact ⟨n, fun _ => ⟨h1, h2.trans (order i hi), h3, h4, k3⟩⟩
    · exact ⟨("", {}), fun hh => absurd hh hi⟩
  choose φ hφ using ex
  have nt : ∀ i ≤ k, (m i).terminated ≠ "yes" := by
    intro i hi
    rcases Nat.lt_or_ge i k with h' | h'
    · exact M.goesOn i h'
    · have : i = k := by omega
      subst this; exact ht
  have ty : ∀ i ≤ k, rowType (m i) = if i = 0 then "startEvent" else if (m i).subprocess = "yes" then "subProcess" else "task" := by
    intro i hi
    unfold rowType
    rw [if_neg (nt i hi), order i hi]
    by_cases e : i = 0
    · subst e; rfl
    · rw [if_neg e, if_neg]
      intro e'
      have e' : decimal i = decimal 0 := congrArg String.toList e'
      exact e (decimal_inj e')
  have fl : ∀ i < k, TableFlow rows (toString i) (toString (i + 1)) := by
    intro i hi
    rw [← order i (by omega), ← order (i + 1) hi]
    exact .next (M.row i (by omega)).1 (M.row _ hi).1 (notg _ hi) (nt i (by omega)) ⟨[], i, BranchPrefix.nil, (M.row i (by omega)).2, (M.row _ hi).2⟩
  have into : ∀ i < k, ∀ a, TableFlow rows a (toString i) → ∃ j, i = j + 1 ∧ a = toString j := by
    intro i hi a ha
    rw [← order i (by omega)] at ha
    exact T.untouched (M.row i (by omega)).1 (M.row i (by omega)).2 (hu i hi) ha
  have fits := runOf_fits (d := d) (φ := φ) (k := k) (by
    intro i hi
    obtain ⟨h1, h2, h3, h4, h5⟩ := hφ i (by omega)
    obtain ⟨k1, k2, -⟩ := hφ (i + 1) hi
    refine ⟨h1, g1 _ h1 ?_, ?_, ?_⟩
    · intro a b ha hb
      rw [h2] at ha hb
      obtain ⟨j, rfl, rfl⟩ := into i hi a ha
      obtain ⟨j', e, rfl⟩ := into _ hi b hb
      rw [show j' = j by omega]
    · rw [h3, ty i (by omega)]
      split
      · simp
      · split <;> simp
    · rw [if_neg (nt i (by omega))] at h5
      obtain ⟨x, hx⟩ := List.length_eq_one_iff.1 h5
      obtain ⟨-, y, hy, hl⟩ := g3 _ h1 _ k1 (by rw [h2, k2]; exact fl i hi)
      rw [hx, List.mem_singleton] at hy
      subst hy
      exact ⟨_, hx, hl⟩) k 0 (by omega)
  obtain ⟨j1, j2, j3, -, -⟩ := hφ k (Nat.le_refl k)
  obtain ⟨z1, z2, z3, -, -⟩ := hφ 0 (by omega)
  obtain ⟨x, hx, hxn⟩ := T.by_goto hw hwt hg hgo (M.row k (Nat.le_refl k)).1 hto hwg
  have hs : starts d = [φ 0] := by
    have nd : d.getNodes.Nodup := List.Nodup.of_map _ G.consistent.ids
    refine only_one (nd.filter _) (List.mem_filter.2 ⟨z1, ?_⟩) fun y hy => ?_
    · have : ins (φ 0) = [] := (g4 _ z1).2 fun a ha => by
        rw [z2] at ha
        obtain ⟨j, e, -⟩ := into 0 hk a ha
        omega
      simp [this]
    · obtain ⟨hy, h0⟩ := List.mem_filter.1 hy
      have e := T.only_start S N h A hy (List.length_eq_zero_iff.1 (by simpa using h0))
      have e1 := G.consistent.getNodeById hy
      rw [e, show "0" = toString 0 from rfl, ← z2, G.consistent.getNodeById z1] at e1
      simpa using e1.symm
  obtain ⟨f0, hf0⟩ := rows_to_activity G hs (j := φ k) (by have := runOf_first φ 0 k; simpa using this) fits j1 (by
      rw [IsActivity, j3, ty k (Nat.le_refl k), if_neg (by omega)]
      split <;> simp) (by
      refine g2 _ j1 x (toString (k - 1)) ?_ ?_ (hxn _)
      · rw [j2, ← order k (Nat.le_refl k)]; exact hx
      · rw [j2]
        have := fl (k - 1) (by omega)
        rwa [show k - 1 + 1 = k by omega] at this)
  refine ⟨f0, fun fuel hf => (hf0 fuel hf).trans ?_⟩
  rw [runOf_table, List.range_eq_range']
  congr 1
  rw [List.map_eq_flatMap]
  refine List.flatMap_congr fun i hi => ?_
  have hi : i < k := by have := List.mem_range'_1.1 hi; omega
  obtain ⟨h1, h2, h3, h4, -⟩ := hφ i (by omega)
  obtain ⟨t, nm, e⟩ := C82_nodes_say rows T.table d h _ h1
  have tr : trigger (φ i) = none := by rw [trigger, e]; rfl
  rw [ty i (by omega)] at h3 h4
  unfold nodeRow HasRow caption
  by_cases e0 : i = 0
  · subst e0
    simp at h3 h4
    simp [h3, h4, tr]
  · rw [if_neg e0] at h3 h4
    by_cases es : (m i).subprocess = "yes"
    · rw [if_pos es] at h3 h4
      simp at h4
      simp [h3, h4, e0, es]
    · rw [if_neg es] at h3 h4
      simp at h4
      simp [h3, h4, e0, es]

/-- **C114.** If a `goto` names row 0 and every other row is reached, then the CSV export of the imported diagram raises: no node is without incoming flow. -/
theorem C114_no_start (d : Diagram) (h : loadCsv rows {} = .ok d) (z : Row) (hz : z ∈ rows) (hz0 : z.order = "0") (g : Row) (hg : g ∈ rows) (hgo : GotoRow g) (hto : GoesTo g z.order)
    (w : Row) (hw : w ∈ rows) (hwt : w.terminated ≠ "yes") (hwg : ComesAfter rows w.order.toList g.order.toList) (A : AllReached rows) :
    starts d = [] ∧ ∀ fuel, exportRows d fuel = .error .bpmnError := by
  obtain ⟨G, -, -, -, g4⟩ := T.ground S N h
  obtain ⟨x, hx, -⟩ := T.by_goto hw hwt hg hgo hz hto hwg
  have hs : starts d = [] := by
    refine List.eq_nil_iff_forall_not_mem.2 fun n hn => ?_
    obtain ⟨hn, h0⟩ := List.mem_filter.1 hn
    have hi : ins n = [] := List.length_eq_zero_iff.1 (by simpa using h0)
    have e := T.only_start S N h A hn hi
    exact (g4 n hn).1 hi x (by rw [e, ← hz0]; exact hx)
  refine ⟨hs, fun fuel => ?_⟩
  have es : d.getNodes.filter (fun n => (ins n).length = 0) = [] := hs
  unfold exportRows
  rw [startNodes_eq fun n hn => (G.consistent.lists n hn).1, es]
  rfl

/-- **C114.** If behind row k of the main line there is a split with a branch that is a `goto` to row l of the main line (l ≤ k), and the rows between l and k are not
named by a `goto` and no branch comes back to them, then generate_layout never returns on the imported diagram. -/
theorem C114_layout (d : Diagram) (h : loadCsv rows {} = .ok d) (m : Nat → Row) (k l : Nat) (M : MainLine rows m k) (hl : l ≤ k) (ht : (m k).terminated ≠ "yes")
    (hu : ∀ i, l < i → i ≤ k → Untouched rows (m i)) (o : List Char) (ho : OpensSplit rows (m k).order.toList o) (g : Row) (hg : g ∈ rows) (hgo : GotoRow g)
    (hb : BranchStart o g.order.toList) (hto : GoesTo g (m l).order) : ∀ fuel d', generateLayout fuel d ≠ .ok d' := by
  obtain ⟨G, g1, g2, g3, g4⟩ := T.ground S N h
  obtain ⟨d0, F, d1, d2, st⟩ := stages T.table h
  have order : ∀ i ≤ k, (m i).order = toString i := fun i hi => String.toList_injective (M.row i hi).2
  have notg : ∀ i ≤ k, ¬GotoRow (m i) := fun i hi => T.main (M.row i hi).1 (M.row i hi).2
  have nt : ∀ i ≤ k, (m i).terminated ≠ "yes" := by
    intro i hi
    rcases Nat.lt_or_ge i k with h' | h'
    · exact M.goesOn i h'
    · have : i = k := by omega
      subst this; exact ht
  have ex : ∀ i, ∃ n : Node, i ≤ k → n ∈ d.getNodes ∧ n.1 = toString i := by
    intro i
    by_cases hi : i ≤ k
    · obtain ⟨n, h1, h2⟩ := (C113_nodes T S N d h _).2 (.row (M.row i hi).1 (notg i hi))
      exact ⟨n, fun _ => ⟨h1, h2.trans (order i hi)⟩⟩
    · exact ⟨("", {}), fun hh => absurd hh hi⟩
  choose φ hφ using ex
  obtain ⟨s, s1, s2⟩ := (C113_nodes T S N d h _).2 (.split (M.row k (Nat.le_refl k)).1 ht ho)
  have fl : ∀ i < k, TableFlow rows (toString i) (toString (i + 1)) := by
    intro i hi
    rw [← order i (by omega), ← order (i + 1) hi]
    exact .next (M.row i (by omega)).1 (M.row _ hi).1 (notg _ hi) (nt i (by omega)) ⟨[], i, BranchPrefix.nil, (M.row i (by omega)).2, (M.row _ hi).2⟩
  have body : ∀ n, l + n ≤ k → Relation.ReflTransGen (fun n m => n ∈ d.getNodes ∧ m ∈ d.getNodes ∧ Feeds n m ∧ ¬Joins m) (φ l) (φ (l + n)) := by
    intro n
    induction n with
    | zero => intro _; exact .refl
    | succ n ih =>
      intro hn
      change l + n + 1 ≤ k at hn
      change Relation.ReflTransGen _ (φ l) (φ (l + n + 1))
      obtain ⟨a1, a2⟩ := hφ (l + n) (by omega)
      obtain ⟨b1, b2⟩ := hφ (l + n + 1) hn
      refine (ih (by omega)).tail ⟨a1, b1, (g3 _ a1 _ b1 (by rw [a2, b2]; exact fl _ (by omega))).1, ?_⟩
      have := g1 _ b1 (by
        intro a b ha hb
        rw [b2, ← order _ hn] at ha hb
        have hu' := hu (l + n + 1) (by omega) hn
        obtain ⟨j, e, rfl⟩ := T.untouched (M.row _ hn).1 (M.row _ hn).2 hu' ha
        obtain ⟨j', e', rfl⟩ := T.untouched (M.row _ hn).1 (M.row _ hn).2 hu' hb
        rw [show j' = j by omega])
      unfold Joins
      omega
  obtain ⟨c1, c2⟩ := hφ k (Nat.le_refl k)
  obtain ⟨e1, e2⟩ := hφ l hl
  refine C88_direct_way_back d G.consistent e1 s1 ?_ ?_ ?_
  · refine (g3 _ s1 _ e1 ?_).1
    rw [s2, e2, ← order l hl]
    exact .branchGoto (M.row k (Nat.le_refl k)).1 ht ho hg hgo hb (M.row l hl).1 hto
  · have f := T.tidy S N st
    have := f.splits (m k).order (by rw [← s2]; exact (id_of_node f.exact.inv s1).1)
    rw [← s2, ← (id_of_node f.exact.inv s1).2.1] at this
    exact this
  · refine (body (k - l) (by omega)).tail ?_
    rw [show l + (k - l) = k by omega]
    refine ⟨c1, s1, (g3 _ c1 _ s1 ?_).1, ?_⟩
    · rw [c2, s2, ← order k (Nat.le_refl k)]
      exact .split (M.row k (Nat.le_refl k)).1 ht ho
    · have := g1 _ s1 (by
        intro a b ha hb
        rw [s2] at ha hb
        rw [T.to_split ha, T.to_split hb])
      unfold Joins
      omega

end

/-! ## The hypotheses hold -/

/-- A draft that is written and checked, and sent back to row 0 or row 1. -/
def redoTable (t : Fin 2) : List Row :=
  [Row.mk "0" "asked" "" "" "" "", Row.mk "1" "write" "" "author" "" "", Row.mk "2" "check" "" "editor" "" "",
   Row.mk "3a" (if t = 0 then "goto 0" else "goto 1") "no" "" "" "", Row.mk "3b" "print" "yes" "" "" "", Row.mk "4" "done" "" "" "" "yes"]

def redoGoto (t : Fin 2) : Row := Row.mk "3a" (if t = 0 then "goto 0" else "goto 1") "no" "" "" ""

def redoTarget (t : Fin 2) : Row := if t = 0 then Row.mk "0" "asked" "" "" "" "" else Row.mk "1" "write" "" "author" "" ""

theorem redo_table (t : Fin 2) : Table (redoTable t) := by
  revert t
  exact fun t => ⟨by revert t; decide, by revert t; decide⟩

theorem redo_mem (t : Fin 2) : redoGoto t ∈ redoTable t ∧ redoTarget t ∈ redoTable t := by revert t; decide

theorem redo_print (t : Fin 2) : Row.mk "3b" "print" "yes" "" "" "" ∈ redoTable t ∧ Row.mk "3b" "print" "yes" "" "" "" ≠ redoGoto t := by revert t; decide

theorem redo_order (t : Fin 2) : (redoGoto t).order.toList = ['3'] ++ ['a'] := by revert t; decide

theorem redo_target_step (t : Fin 2) : isGoto (redoTarget t).activity = false ∧ (redoTarget t).order.toList ≠ ['2'] ∧
    ((redoTarget t).order = "0" ∨ (redoTarget t).order = "1") := by revert t; decide

theorem redo_isGoto (t : Fin 2) : GotoRow (redoGoto t) := (isGoto_iff _).1 (by revert t; decide)

theorem redo_one (t : Fin 2) (g : Row) (hg : g ∈ redoTable t) (hgo : GotoRow g) : g = redoGoto t := by
  simp only [redoTable, List.mem_cons, List.not_mem_nil, or_false] at hg
  rcases hg with rfl | rfl | rfl | rfl | rfl | rfl
  all_goals first | rfl | exact absurd hgo (goto_no (by decide))

theorem redo_starts (t : Fin 2) (r : Row) (hr : r ∈ redoTable t) (o : List Char) (h : BranchStart o r.order.toList) : o = decimal 3 ∧ r.order ≠ "0" ∧ r.order ≠ "1" := by
  simp only [redoTable, List.mem_cons, List.not_mem_nil, or_false] at hr
  rcases hr with rfl | rfl | rfl | rfl | rfl | rfl
  · exact absurd (branchStart_letter h) (by decide)
  · exact absurd (branchStart_letter h) (by decide)
  · exact absurd (branchStart_letter h) (by decide)
  · exact ⟨branchStart_at (a := ['3']) (c := 'a') (u := []) (by simpa using h) (by decide) (by simp), by simp, by simp⟩
  · exact ⟨branchStart_at (a := ['3']) (c := 'b') (u := []) h (by decide) (by simp), by simp, by simp⟩
  · exact absurd (branchStart_letter h) (by decide)

theorem redo_goesTo (t : Fin 2) : GoesTo (redoGoto t) (redoTarget t).order := by
  match t with
  | 0 =>
    refine ⟨"goto".toList, " ".toList, [], by decide, by decide, ?_, by decide, ?_, by decide, ?_, ?_⟩
    all_goals simp [White, redoTarget]
  | 1 =>
    refine ⟨"goto".toList, " ".toList, [], by decide, by decide, ?_, by decide, ?_, by decide, ?_, ?_⟩
    all_goals simp [White, redoTarget]

theorem redo_target {t : Fin 2} {q : Row} (h : GoesTo (redoGoto t) q.order) : q.order = (redoTarget t).order := by
  have := second_word h
  rw [second_word (redo_goesTo t)] at this
  simpa using this.symm

theorem redo_prefix (c : Char) (h1 : 'a' ≤ c) (h2 : c ≤ 'z') : BranchPrefix (decimal 3 ++ [c]) := by
  have := BranchPrefix.step 3 BranchPrefix.nil h1 h2; simpa using this

theorem redo_gotoTable (t : Fin 2) : GotoTable (redoTable t) := by
  refine ⟨redo_table t, ?_, ?_, ?_, ?_, ?_⟩
  · intro r hr
    simp only [redoTable, List.mem_cons, List.not_mem_nil, or_false] at hr
    rcases hr with rfl | rfl | rfl | rfl | rfl | rfl
    · exact ⟨[], BranchPrefix.nil, Or.inr ⟨0, by decide⟩⟩
    · exact ⟨[], BranchPrefix.nil, Or.inr ⟨1, by decide⟩⟩
    · exact ⟨[], BranchPrefix.nil, Or.inr ⟨2, by decide⟩⟩
    · exact ⟨_, redo_prefix 'a' (by decide) (by decide), Or.inl (redo_order t)⟩
    · exact ⟨_, redo_prefix 'b' (by decide) (by decide), Or.inl (by decide)⟩
    · exact ⟨[], BranchPrefix.nil, Or.inr ⟨4, by decide⟩⟩
  · intro g hg hgo
    rw [redo_one t g hg hgo]; simp [redoGoto]
  · intro g hg hgo
    rw [redo_one t g hg hgo]
    exact ⟨_, by simp, redo_prefix 'a' (by decide) (by decide), Or.inl (by simp only [redoGoto]; decide)⟩
  · intro g hg hgo
    rw [redo_one t g hg hgo]
    exact ⟨_, (redo_mem t).2, goto_no (redo_target_step t).1, redo_goesTo t⟩
  · intro g hg hgo o hb
    have := (redo_starts t g hg o hb).1
    rw [redo_one t g hg hgo, this]
    exact ⟨Row.mk "3b" "print" "yes" "" "" "", (redo_print t).1, (redo_print t).2, 'b', [], by decide, by decide, by simp⟩

theorem redo_opens (t : Fin 2) : OpensSplit (redoTable t) ['2'] (decimal 3) :=
  ⟨[], 2, BranchPrefix.nil, by decide, by decide, by rw [hasOrder_iff]; revert t; decide, Or.inl (by rw [hasOrder_iff]; revert t; decide)⟩

theorem redo_before {t : Fin 2} {w g : Row} (hg : g ∈ redoTable t) (hgo : GotoRow g) (h : ComesAfter (redoTable t) w.order.toList g.order.toList) : w.order.toList = ['2'] := by
  cases h with
  | next h1 h2 h3 =>
    rw [redo_one t g hg hgo, redo_order] at h3
    exact (not_letter_end (a := ['3']) (c := 'a') (by decide) h3).elim
  | @branch p n h1 h2 h3 h4 h5 =>
    obtain ⟨rfl, k⟩ := step_eq (p := []) (m := 3) BranchPrefix.nil h1 rfl (redo_starts t g hg _ h5).1.symm
    rw [h2]
    obtain rfl : n = 2 := by omega
    decide

theorem redo_splitTable (t : Fin 2) : SplitTable (redoTable t) := by
  constructor
  · intro b hb o h
    obtain ⟨rfl, -⟩ := redo_starts t b hb o h
    by_cases e : b = Row.mk "3b" "print" "yes" "" "" ""
    · subst e
      exact ⟨redoGoto t, (redo_mem t).1, (redo_print t).2.symm, 'a', [], redo_order t, by decide, by simp⟩
    · exact ⟨Row.mk "3b" "print" "yes" "" "" "", (redo_print t).1, Ne.symm e, 'b', [], by decide, by decide, by simp⟩
  · intro g hg hgo w hw w' hw' _ _ h h'
    exact List.inj_on_of_nodup_map (redo_table t).orders hw hw' (String.toList_injective ((redo_before hg hgo h).trans (redo_before hg hgo h').symm))

theorem redo_noTurn (t : Fin 2) : NoTurn (redoTable t) := by
  constructor
  · intro g hg hgo q hq hto w hw _ hn _
    obtain ⟨p, n, hp, e1, e2⟩ := hn
    rw [redo_one t g hg hgo, redo_order] at e2
    exact (not_letter_end (a := ['3']) (c := 'a') (by decide) e2).elim
  · intro g hg hgo q hq hto w hw _ o ho hb
    have eg := redo_one t g hg hgo
    subst eg
    have tq := redo_target hto
    have wo := redo_before hg hgo (comesAfter_branch ho hb)
    refine ⟨?_, ?_, ?_⟩
    · rintro rfl
      rw [tq] at wo
      exact (redo_target_step t).2.1 wo
    · intro h
      have := (redo_starts t q hq o h).2
      rw [tq] at this
      exact (redo_target_step t).2.2.elim this.1 this.2
    · intro g' hg' hgg hgo' _ _
      exact hgg (redo_one t g' hg' hgo')

theorem redo_back {t : Fin 2} {y s : Row} (h : ComesBack (redoTable t) y s) : y = Row.mk "3b" "print" "yes" "" "" "" ∧ s.order = "4" := by
  obtain ⟨hy, hs, hg, hn, hr⟩ := h
  obtain ⟨p, k, hp, hl, hk, h1, e, -⟩ := id hr
  have main : ∀ n, y.order.toList = decimal n → False := fun n e =>
    numberIn_ne hk (stepOf_unique (lastStep_stepOf hp hl) (e ▸ main_stepOf n))
  simp only [redoTable, List.mem_cons, List.not_mem_nil, or_false] at hy
  rcases hy with rfl | rfl | rfl | rfl | rfl | rfl
  · exact (main 0 (by decide)).elim
  · exact (main 1 (by decide)).elim
  · exact (main 2 (by decide)).elim
  · exact absurd (redo_isGoto t) hg
  · refine ⟨rfl, ?_⟩
    have hp3 := stepOf_unique (lastStep_stepOf hp hl) (q := decimal 3 ++ ['b']) ⟨redo_prefix 'b' (by decide) (by decide), Or.inl (by decide)⟩
    subst hp3
    have := (numberIn_iff (p := decimal 3 ++ ['b']) (l := [3]) (Numbers.cons 3 (by decide) (by decide) Numbers.nil) k).1 hk
    obtain rfl : k = 3 := by simpa using this
    exact String.toList_injective (e.trans (by decide))
  · exact (main 4 (by decide)).elim

def redoMain (i : Nat) : Row :=
  match i with
  | 0 => Row.mk "0" "asked" "" "" "" ""
  | 1 => Row.mk "1" "write" "" "author" "" ""
  | _ => Row.mk "2" "check" "" "editor" "" ""

theorem redo_main (t : Fin 2) : MainLine (redoTable t) redoMain 2 := by
  constructor
  · intro i hi
    match i, hi with
    | 0, _ => revert t; decide
    | 1, _ => revert t; decide
    | 2, _ => revert t; decide
  · intro i hi
    match i, hi with
    | 0, _ => decide
    | 1, _ => decide

theorem redo_untouched (t : Fin 2) (r : Row) (h1 : r.order ≠ (redoTarget t).order) (h2 : r.order ≠ "4") : Untouched (redoTable t) r := by
  refine ⟨fun g hg hgo hto => ?_, fun y hy => h2 (redo_back hy).2⟩
  rw [redo_one t g hg hgo] at hto
  exact h1 (redo_target hto)

theorem redo_reached (t : Fin 2) : AllReached (redoTable t) := by
  intro r hr hg h0
  simp only [redoTable, List.mem_cons, List.not_mem_nil, or_false] at hr
  rcases hr with rfl | rfl | rfl | rfl | rfl | rfl
  · exact absurd rfl h0
  · exact ⟨_, .next (w := redoMain 0) (by revert t; decide) (by revert t; decide) hg (by decide) ⟨[], 0, BranchPrefix.nil, by decide, by decide⟩⟩
  · exact ⟨_, .next (w := redoMain 1) (by revert t; decide) (by revert t; decide) hg (by decide) ⟨[], 1, BranchPrefix.nil, by decide, by decide⟩⟩
  · exact absurd (redo_isGoto t) hg
  · exact ⟨_, .branch (w := redoMain 2) (by revert t; decide) (by decide) (redo_opens t) (by revert t; decide) hg ⟨'b', [], by decide, by decide, by simp⟩⟩
  · refine ⟨_, .alone (y := Row.mk "3b" "print" "yes" "" "" "") ⟨by revert t; decide, by revert t; decide, goto_no (by decide), by decide, decimal 3 ++ ['b'], 3,
      redo_prefix 'b' (by decide) (by decide), Or.inl (by decide), ⟨[], 'b', [], BranchPrefix.nil, BranchPrefix.nil, by decide, by decide, by decide⟩, by decide, by decide, ?_⟩
      fun z hz => (redo_back hz).1⟩
    exact ⟨Row.mk "4" "done" "" "" "" "yes", by revert t; decide, rfl⟩

set_option maxRecDepth 8000 in
/-- The draft that is sent back to row 1: only row 0 is exported, and there is no layout. -/
example : ∃ d, loadCsv (redoTable 1) {} = .ok d ∧ (∃ N, ∀ fuel ≥ N, exportRows d fuel = .ok [Row.mk "0" "asked" "" "" "" ""]) ∧
    ∀ fuel d', generateLayout fuel d ≠ .ok d' := by
  obtain ⟨d, hd, -⟩ := ok_of_check (x := loadCsv (redoTable 1) {}) (fun _ => true) (by decide +kernel)
  refine ⟨d, hd, ?_, ?_⟩
  · exact C114_rows (redo_gotoTable 1) (redo_splitTable 1) (redo_noTurn 1) d hd redoMain 1 ⟨fun i hi => (redo_main 1).row i (by omega), fun i hi => (redo_main 1).goesOn i (by omega)⟩
      (Nat.le_refl 1) (fun i hi => by obtain rfl : i = 0 := by omega
                                      exact redo_untouched 1 _ (by decide) (by decide)) (by decide) _ (redo_mem 1).1 (redo_isGoto 1) (redo_goesTo 1)
      (redoMain 2) (by decide) (by decide) (comesAfter_branch (redo_opens 1) ⟨'a', [], by decide, by decide, by simp⟩) (redo_reached 1)
  · exact C114_layout (redo_gotoTable 1) (redo_splitTable 1) (redo_noTurn 1) d hd redoMain 2 1 (redo_main 1) (by omega) (by decide)
      (fun i h1 h2 => by obtain rfl : i = 2 := by omega
                         exact redo_untouched 1 _ (by decide) (by decide)) _ (redo_opens 1) _ (redo_mem 1).1 (redo_isGoto 1) ⟨'a', [], by decide, by decide, by simp⟩ (redo_goesTo 1)

set_option maxRecDepth 8000 in
/-- The draft that is sent back to row 0 has no start. -/
example : ∃ d, loadCsv (redoTable 0) {} = .ok d ∧ ∀ fuel, exportRows d fuel = .error .bpmnError := by
  obtain ⟨d, hd, -⟩ := ok_of_check (x := loadCsv (redoTable 0) {}) (fun _ => true) (by decide +kernel)
  exact ⟨d, hd, (C114_no_start (redo_gotoTable 0) (redo_splitTable 0) (redo_noTurn 0) d hd (redoTarget 0) (redo_mem 0).2 rfl _ (redo_mem 0).1 (redo_isGoto 0) (redo_goesTo 0)
    (redoMain 2) (by decide) (by decide) (comesAfter_branch (redo_opens 0) ⟨'a', [], by decide, by decide, by simp⟩) (redo_reached 0)).2⟩

end Bpmn.Props

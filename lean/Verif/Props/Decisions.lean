import Verif.Spec.Decisions
import Verif.Lemmas.TreeTable
import Verif.Lemmas.BlockLines
import Verif.Props.BlockPaths
import Verif.Props.TreeProcess
import Verif.Props.LoopGrid
/-!
# Decision trees: size, paths and drawing (C130)
-/
set_option linter.unusedSimpArgs false
set_option linter.unusedVariables false

namespace Bpmn.Props
open Bpmn Spec Layouter Classify LayoutMetrics
open Bpmn.Csv (branchList fit_branches)

theorem spread_list : ∀ {bs : Spec.Branches}, bs.Spread ↔ ∀ b ∈ branchList bs, b.Spreads
  | .nil => by simp [Branches.Spread, branchList]
  | .cons l r => by rw [Branches.Spread, branchList, spread_list (bs := r), List.forall_mem_cons]

theorem nodes_list : ∀ {bs : Spec.Branches}, bs.nodes = (branchList bs).flatMap Strand.nodes
  | .nil => by simp [Branches.nodes, branchList]
  | .cons l r => by rw [Branches.nodes, branchList, nodes_list (bs := r), List.flatMap_cons]

theorem ends_list : ∀ {bs : Spec.Branches}, bs.ends = ((branchList bs).map Strand.ends).sum
  | .nil => by simp [Branches.ends, branchList]
  | .cons l r => by rw [Branches.ends, branchList, ends_list (bs := r), List.map_cons, List.sum_cons]

theorem series_list : ∀ {bs : Spec.Branches}, bs.AreSeries ↔ (∀ b ∈ branchList bs, 1 ≤ b.long ∧ b.IsSeries) ∧ (branchList bs).Pairwise Beside
  | .nil => by simp [Branches.AreSeries, branchList]
  | .cons l r => by
    have hb : ∀ {a : Strand} {bs : Spec.Branches}, bs.AllBeside a ↔ ∀ b ∈ branchList bs, Beside a b := by
      intro a bs
      induction bs using Branches.rec (motive_1 := fun _ => True) with
      | nil => simp [Branches.AllBeside, branchList]
      | cons m q _ ih => rw [Branches.AllBeside, branchList, ih, List.forall_mem_cons]
      | _ => trivial
    rw [Branches.AreSeries, branchList, series_list (bs := r), List.forall_mem_cons, List.pairwise_cons, hb]
    tauto

/-- Induction over the lines of a tree. -/
theorem tree_induct {P : Strand → Prop} (stop : ∀ e, P (.stop e)) (step : ∀ n rest, rest.Spreads → P rest → P (.step n rest))
    (fork : ∀ s bs, (∀ b ∈ branchList bs, b.Spreads ∧ P b) → P (.fork s bs)) (l : Strand) : l.Spreads → P l := by
  induction l using Strand.rec (motive_2 := fun bs => bs.Spread → ∀ b ∈ branchList bs, b.Spreads ∧ P b) with
  | stop e => exact fun _ => stop e
  | meet => intro h; simp [Strand.Spreads] at h
  | step n rest ih => intro h; rw [Strand.Spreads] at h; exact step n rest h (ih h)
  | block s bs rest _ _ => intro h; simp [Strand.Spreads] at h
  | fork s bs ih => intro h; rw [Strand.Spreads] at h; exact fork s bs (ih h)
  | nil => rename_i hb; simp [branchList] at hb
  | cons l r h1 h2 =>
    rename_i h b hb
    rw [Branches.Spread] at h
    rw [branchList, List.mem_cons] at hb
    rcases hb with rfl | hb
    · exact ⟨h.1, h1 h.1⟩
    · exact h2 h.2 b hb

theorem first_some {l : Strand} (h : l.Spreads) (j : Option Node) : ∃ n, l.first j = some n ∧ n ∈ l.nodes := by
  cases l with
  | stop e => exact ⟨e, rfl, by simp [Strand.nodes]⟩
  | meet => simp [Strand.Spreads] at h
  | step n rest => exact ⟨n, rfl, by simp [Strand.nodes]⟩
  | block => simp [Strand.Spreads] at h
  | fork s bs => exact ⟨s, rfl, by simp [Strand.nodes]⟩

theorem leads_next {d : Diagram} (h : Consistent d) {n m : Node} {i : String} (hi : i ∈ outs n) (hl : LeadsTo d i (some m)) : Next d n m := by
  obtain ⟨q, hq, e, f, hf, ht⟩ := hl
  cases e
  exact ⟨i, hi, f, hf, ht, h.getNodeById hq⟩

theorem feeds_leads {d : Diagram} (h : Consistent d) {n m : Node} (hn : n ∈ d.getNodes) (hm : m ∈ d.getNodes) (hf : Feeds n m) : ∃ i ∈ outs n, LeadsTo d i (some m) := by
  obtain ⟨i, h1, h2⟩ := hf
  obtain ⟨a, b, e, k1, k2, k3, k4⟩ := feeds_flow h hn hm h1 h2
  exact ⟨i, h1, m, hm, rfl, _, k1, k4⟩

section
variable {d : Diagram} (h : Consistent d)
include h

theorem step_feeds {n : Node} {rest : Strand} (f : (Strand.step n rest).Fits d false none) {m : Node} (hm : m ∈ d.getNodes) :
    Feeds n m ↔ rest.first none = some m := by
  rw [Strand.Fits] at f
  obtain ⟨hn, -, -, ⟨i, ho, hl⟩, -⟩ := f
  constructor
  · intro k
    obtain ⟨i', hi, hl'⟩ := feeds_leads h hn hm k
    rw [ho, List.mem_singleton] at hi
    subst hi
    obtain ⟨q, hq, e, -⟩ := id hl
    rw [e] at hl ⊢
    rw [Bpmn.Csv.leadsTo_same h hl hl']
  · intro e
    rw [e] at hl
    exact (next_feeds h hn (leads_next h (by simp [ho]) hl)).2

theorem fork_feeds {s : Node} {bs : Spec.Branches} (f : (Strand.fork s bs).Fits d false none) {m : Node} (hm : m ∈ d.getNodes) :
    Feeds s m ↔ ∃ b ∈ branchList bs, b.first none = some m := by
  rw [Strand.Fits] at f
  obtain ⟨hn, -, -, -, hb⟩ := f
  obtain ⟨k1, k2⟩ := fit_branches hb
  constructor
  · intro k
    obtain ⟨i, hi, hl⟩ := feeds_leads h hn hm k
    obtain ⟨a, ha⟩ := List.mem_iff_getElem?.1 hi
    have hlt := (List.getElem?_eq_some_iff.1 ha).1
    have hb' := List.getElem?_eq_getElem (l := branchList bs) (i := a) (by omega)
    obtain ⟨q1, -⟩ := k2 a _ i hb' ha
    refine ⟨_, List.mem_of_getElem? hb', ?_⟩
    obtain ⟨q, hq, e, -⟩ := id q1
    rw [e] at q1 ⊢
    rw [Bpmn.Csv.leadsTo_same h q1 hl]
  · rintro ⟨b, hb, e⟩
    obtain ⟨a, ha⟩ := List.mem_iff_getElem?.1 hb
    have hlt := (List.getElem?_eq_some_iff.1 ha).1
    have hi := List.getElem?_eq_getElem (l := outs s) (i := a) (by omega)
    obtain ⟨q1, -⟩ := k2 a _ _ ha hi
    rw [e] at q1
    exact (next_feeds h hn (leads_next h (List.mem_of_getElem? hi) q1)).2

end

theorem fork_fits {d : Diagram} {s : Node} {bs : Spec.Branches} (f : (Strand.fork s bs).Fits d false none) :
    s ∈ d.getNodes ∧ (ins s).length ≤ 1 ∧ IsSplit s ∧ (branchList bs).length = (outs s).length ∧ ∀ b ∈ branchList bs, b.Fits d false none := by
  rw [Strand.Fits] at f
  obtain ⟨hn, he, hs, -, hb⟩ := f
  obtain ⟨k1, k2⟩ := fit_branches hb
  refine ⟨hn, by simpa [Entered] using he, hs, k1, fun b hb => ?_⟩
  obtain ⟨a, ha⟩ := List.mem_iff_getElem?.1 hb
  have hlt := (List.getElem?_eq_some_iff.1 ha).1
  exact (k2 a _ _ ha (List.getElem?_eq_getElem (l := outs s) (i := a) (by omega))).2

theorem step_fits {d : Diagram} {n : Node} {rest : Strand} (f : (Strand.step n rest).Fits d false none) :
    n ∈ d.getNodes ∧ (ins n).length ≤ 1 ∧ (outs n).length = 1 ∧ rest.Fits d false none := by
  rw [Strand.Fits] at f
  obtain ⟨h1, h2, -, ⟨i, h3, -⟩, h4, -⟩ := f
  exact ⟨h1, by simpa [Entered] using h2, by simp [h3], h4⟩

theorem stop_fits {d : Diagram} {e : Node} (f : (Strand.stop e).Fits d false none) : e ∈ d.getNodes ∧ (ins e).length ≤ 1 ∧ outs e = [] := by
  rw [Strand.Fits] at f
  exact ⟨f.1, by simpa [Entered] using f.2.1, f.2.2.1⟩

/-- Nodes are entered once and are in the diagram. -/
theorem tree_nodes {d : Diagram} {l : Strand} (hl : l.Spreads) (f : l.Fits d false none) : ∀ n ∈ l.nodes, n ∈ d.getNodes ∧ (ins n).length ≤ 1 := by
  revert f
  refine tree_induct (P := fun l => l.Fits d false none → ∀ n ∈ l.nodes, n ∈ d.getNodes ∧ (ins n).length ≤ 1) ?_ ?_ ?_ l hl
  · intro e f n hn
    simp [Strand.nodes] at hn
    subst hn
    exact ⟨(stop_fits f).1, (stop_fits f).2.1⟩
  · intro m rest _ ih f n hn
    rw [Strand.nodes, List.mem_cons] at hn
    obtain ⟨h1, h2, -, h3⟩ := step_fits f
    rcases hn with rfl | hn
    · exact ⟨h1, h2⟩
    · exact ih h3 n hn
  · intro s bs ih f n hn
    rw [Strand.nodes, List.mem_cons, nodes_list, List.mem_flatMap] at hn
    obtain ⟨h1, h2, -, -, h3⟩ := fork_fits f
    rcases hn with rfl | ⟨b, hb, hn⟩
    · exact ⟨h1, h2⟩
    · exact (ih b hb).2 (h3 b hb) n hn

/-- A node that follows another one comes later in the line. -/
theorem tree_sorted {d : Diagram} (h : Consistent d) {l : Strand} (hl : l.Spreads) (f : l.Fits d false none) :
    ∀ a ∈ l.nodes, ∀ b ∈ d.getNodes, Feeds a b → [a, b].Sublist l.nodes := by
  revert f
  refine tree_induct (P := fun l => l.Fits d false none → ∀ a ∈ l.nodes, ∀ b ∈ d.getNodes, Feeds a b → [a, b].Sublist l.nodes) ?_ ?_ ?_ l hl
  · intro e f a ha b _ k
    simp [Strand.nodes] at ha
    subst ha
    obtain ⟨i, hi, -⟩ := k
    rw [(stop_fits f).2.2] at hi
    simp at hi
  · intro n rest hr ih f a ha b hb k
    rw [Strand.nodes, List.mem_cons] at ha
    rw [Strand.nodes]
    rcases ha with rfl | ha
    · have e := (step_feeds h f hb).1 k
      obtain ⟨q, e', hq⟩ := first_some hr none
      rw [e] at e'
      cases e'
      exact List.Sublist.cons_cons _ (List.singleton_sublist.2 hq)
    · exact (ih (step_fits f).2.2.2 a ha b hb k).cons _
  · intro s bs ih f a ha b hb k
    rw [Strand.nodes, List.mem_cons, nodes_list] at ha
    rw [Strand.nodes, nodes_list]
    rcases ha with rfl | ha
    · obtain ⟨x, hx, e⟩ := (fork_feeds h f hb).1 k
      obtain ⟨q, e', hq⟩ := first_some (ih x hx).1 none
      rw [e] at e'
      cases e'
      exact List.Sublist.cons_cons _ (List.singleton_sublist.2 (List.mem_flatMap.2 ⟨x, hx, hq⟩))
    · obtain ⟨x, hx, ha⟩ := List.mem_flatMap.1 ha
      refine ((ih x hx).2 ((fork_fits f).2.2.2.2 x hx) a ha b hb k |>.trans ?_).cons _
      obtain ⟨u, v, e⟩ := List.append_of_mem hx
      rw [e, List.flatMap_append, List.flatMap_cons]
      exact (List.sublist_append_left _ _).trans (List.sublist_append_right _ _)

theorem idx_lt {L : List Node} {a b : Node} (nd : L.Nodup) (hs : [a, b].Sublist L) : L.idxOf a < L.idxOf b := by
  induction L with
  | nil => simp at hs
  | cons x L ih =>
    rw [List.nodup_cons] at nd
    cases hs with
    | cons _ hs =>
      have h1 : a ∈ L := hs.subset (by simp)
      have h2 : b ∈ L := hs.subset (by simp)
      rw [List.idxOf_cons_ne _ (show x ≠ a from fun e => nd.1 (e ▸ h1)), List.idxOf_cons_ne _ (show x ≠ b from fun e => nd.1 (e ▸ h2))]
      exact Nat.succ_lt_succ (ih nd.2 hs)
    | cons_cons _ hs =>
      have h2 : b ∈ L := List.singleton_sublist.1 hs
      rw [List.idxOf_cons_self, List.idxOf_cons_ne _ (show a ≠ b from fun e => nd.1 (e ▸ h2))]
      omega

theorem tree_acyclic {d : Diagram} (h : Consistent d) {l : Strand} (hl : l.Spreads) (st : Structured d l) : Acyclic d := by
  classical
  refine acyclic_of_feeds h (fun n => l.nodes.idxOf n) fun a ha b hb k => ?_
  exact idx_lt (st.nodes.nodup_iff.2 h.ids.of_map) (tree_sorted h hl st.fits a (st.nodes.mem_iff.2 ha) b hb k)

theorem tree_no_joins {d : Diagram} {l : Strand} (hl : l.Spreads) (st : Structured d l) : ∀ n ∈ d.getNodes, ¬Joins n := by
  intro n hn
  have := (tree_nodes hl st.fits n (st.nodes.mem_iff.2 hn)).2
  unfold Joins
  omega

theorem fork_sum (g : Node → Nat) (s : Node) (bs : Spec.Branches) :
    ((Strand.fork s bs).nodes.map g).sum = g s + ((branchList bs).map fun b => (b.nodes.map g).sum).sum := by
  rw [Strand.nodes, nodes_list, List.map_cons, List.sum_cons, List.map_flatMap]
  congr 1
  induction branchList bs with
  | nil => rfl
  | cons b L ih => rw [List.flatMap_cons, List.sum_append, List.map_cons, List.sum_cons, ih]

theorem sum_filter {α : Type} (p : α → Prop) [DecidablePred p] (g : α → Nat) : ∀ L : List α,
    ((L.filter fun x => decide (p x)).map g).sum = (L.map fun x => if p x then g x else 0).sum
  | [] => rfl
  | x :: L => by
    by_cases hx : p x
    · rw [List.filter_cons_of_pos (by simpa using hx), List.map_cons, List.sum_cons, sum_filter p g L, List.map_cons, List.sum_cons, if_pos hx]
    · rw [List.filter_cons_of_neg (by simpa using hx), sum_filter p g L, List.map_cons, List.sum_cons, if_neg hx, Nat.zero_add]

theorem sum_shift {α : Type} {A B : α → Nat} : ∀ {L : List α}, (∀ b ∈ L, A b = 1 + B b) → (L.map A).sum = L.length + (L.map B).sum
  | [], _ => rfl
  | x :: L, hx => by
    rw [List.map_cons, List.sum_cons, List.map_cons, List.sum_cons, sum_shift (fun b hb => hx b (List.mem_cons_of_mem _ hb)), hx x (by simp), List.length_cons]
    omega

/-- Flows, ends and splits of a tree. -/
theorem tree_sums {d : Diagram} {l : Strand} (hl : l.Spreads) (f : l.Fits d false none) :
    (l.nodes.map fun _ => 1).sum = 1 + (l.nodes.map fun n => (outs n).length).sum ∧ (l.nodes.map fun n => if outs n = [] then 1 else 0).sum = l.ends ∧
      l.ends = 1 + (l.nodes.map fun n => if Splits n then (outs n).length - 1 else 0).sum := by
  revert f
  refine tree_induct (P := fun l => l.Fits d false none → (l.nodes.map fun _ => 1).sum = 1 + (l.nodes.map fun n => (outs n).length).sum ∧
    (l.nodes.map fun n => if outs n = [] then 1 else 0).sum = l.ends ∧
      l.ends = 1 + (l.nodes.map fun n => if Splits n then (outs n).length - 1 else 0).sum) ?_ ?_ ?_ l hl
  · intro e f
    have := (stop_fits f).2.2
    simp [Strand.nodes, Strand.ends, this, Splits]
  · intro n rest _ ih f
    obtain ⟨-, -, h1, h2⟩ := step_fits f
    obtain ⟨k1, k2, k3⟩ := ih h2
    have hne : outs n ≠ [] := by intro e; simp [e] at h1
    have hs : ¬Splits n := by unfold Splits; omega
    simp only [Strand.nodes, List.map_cons, List.sum_cons, Strand.ends, h1, if_neg hne, if_neg hs]
    refine ⟨by omega, by omega, by omega⟩
  · intro s bs ih f
    obtain ⟨-, -, h1, h2, h3⟩ := fork_fits f
    unfold IsSplit at h1
    have hne : outs s ≠ [] := by intro e; simp [e] at h1
    have hs : Splits s := by unfold Splits; omega
    have i1 := sum_shift fun b hb => ((ih b hb).2 (h3 b hb)).1
    have i2 : (branchList bs).map (fun b => (b.nodes.map fun n => if outs n = [] then 1 else 0).sum) = (branchList bs).map Strand.ends :=
      List.map_congr_left fun b hb => ((ih b hb).2 (h3 b hb)).2.1
    have i3 := sum_shift fun b hb => ((ih b hb).2 (h3 b hb)).2.2
    simp only [fork_sum, Strand.ends, ends_list, if_neg hne, if_pos hs, i1, i2, i3]
    refine ⟨by omega, by omega, by omega⟩

/-- **C130.** A tree with `N` nodes has `N - 1` flows, and one end more for every branch of a split but the first. -/
theorem C130_size (d : Diagram) (h : Consistent d) (l : Strand) (st : Structured d l) (hl : l.Spreads) :
    d.getFlows.length + 1 = d.getNodes.length ∧ (d.getNodes.filter fun n => decide (outs n = [])).length = l.ends ∧
      l.ends = 1 + ((d.getNodes.filter fun n => decide (Splits n)).map fun n => (outs n).length - 1).sum := by
  obtain ⟨k1, k2, k3⟩ := tree_sums hl st.fits
  rw [(st.nodes.map _).sum_eq] at k1 k2 k3
  rw [(st.nodes.map _).sum_eq] at k1
  have h1 := (flow_ids h).length_eq
  rw [List.length_map, List.length_map, List.length_flatMap] at h1
  refine ⟨?_, ?_, ?_⟩
  · simp at k1
    omega
  · have := sum_filter (fun n : Node => outs n = []) (fun _ => 1) d.getNodes
    simp only [List.map_const', List.sum_replicate, nsmul_eq_mul, Nat.mul_one, Nat.cast_id] at this
    rw [this, k2]
  · rw [k3, sum_filter (fun n : Node => Splits n) (fun n => (outs n).length - 1) d.getNodes]

/-- **C130.** The coefficient of network complexity is `(N - 1) / N`. -/
theorem C130_complexity (d : Diagram) (h : Consistent d) (l : Strand) (st : Structured d l) (hl : l.Spreads) :
    Metrics.cnc d = .ok ((d.getNodes.length - 1 : Rat) / d.getNodes.length) := by
  have e := (C130_size d h l st hl).1
  have hn : d.getNodes ≠ [] := by intro k; rw [k] at e; simp at e
  rw [(C16_network_complexity d).2 hn, ← e]
  push_cast
  congr 2
  ring

/-! ## Paths -/

theorem heaviest_mem (w : Node → Nat) : ∀ {bs : Spec.Branches} {b : Strand}, b ∈ branchList bs → b.heaviest w ≤ bs.heaviest w
  | .cons l r, b, hb => by
    rw [branchList, List.mem_cons] at hb
    rw [Branches.heaviest]
    rcases hb with rfl | hb
    · omega
    · have := heaviest_mem w hb; omega

theorem heaviest_ex (w : Node → Nat) : ∀ {bs : Spec.Branches}, branchList bs ≠ [] → ∃ b ∈ branchList bs, b.heaviest w = bs.heaviest w
  | .cons l .nil, _ => ⟨l, by simp [branchList], by simp [Branches.heaviest]⟩
  | .cons l (.cons m r), _ => by
    obtain ⟨b, hb, e⟩ := heaviest_ex w (bs := .cons m r) (by simp [branchList])
    rw [Branches.heaviest]
    by_cases hc : l.heaviest w ≤ (Branches.cons m r).heaviest w
    · refine ⟨b, by rw [branchList]; exact List.mem_cons_of_mem _ hb, by omega⟩
    · exact ⟨l, by simp [branchList], by omega⟩

/-- A path through the tree is not heavier than the heaviest one. -/
theorem tree_path_le {d : Diagram} (h : Consistent d) (w : Node → Nat) {l : Strand} (hl : l.Spreads) (f : l.Fits d false none) :
    ∀ (n : Node) (p : List Node), l.first none = some n → (∀ m ∈ n :: p, m ∈ d.getNodes) → Follows d (n :: p) → ((n :: p).map w).sum ≤ l.heaviest w := by
  revert f
  refine tree_induct (P := fun l => l.Fits d false none → ∀ (n : Node) (p : List Node), l.first none = some n → (∀ m ∈ n :: p, m ∈ d.getNodes) → Follows d (n :: p) →
    ((n :: p).map w).sum ≤ l.heaviest w) ?_ ?_ ?_ l hl
  · intro e f n p hn hin hf
    cases hn
    cases p with
    | nil => simp [Strand.heaviest]
    | cons b p =>
      obtain ⟨i, hi, -⟩ := (next_feeds h (stop_fits f).1 hf.1).2
      rw [(stop_fits f).2.2] at hi
      simp at hi
  · intro m rest _ ih f n p hn hin hf
    cases hn
    cases p with
    | nil => simp [Strand.heaviest]
    | cons b p =>
      have hb := hin b (by simp)
      have e := (step_feeds h f hb).1 (next_feeds h (step_fits f).1 hf.1).2
      have := ih (step_fits f).2.2.2 b p e (fun m hm => hin m (List.mem_cons_of_mem _ hm)) hf.2
      rw [List.map_cons, List.sum_cons, Strand.heaviest]
      omega
  · intro s bs ih f n p hn hin hf
    cases hn
    cases p with
    | nil => simp [Strand.heaviest]
    | cons b p =>
      have hb := hin b (by simp)
      obtain ⟨x, hx, e⟩ := (fork_feeds h f hb).1 (next_feeds h (fork_fits f).1 hf.1).2
      have := (ih x hx).2 ((fork_fits f).2.2.2.2 x hx) b p e (fun m hm => hin m (List.mem_cons_of_mem _ hm)) hf.2
      have := heaviest_mem w hx
      rw [List.map_cons, List.sum_cons, Strand.heaviest]
      omega

/-- There is a path that is as heavy as that. -/
theorem tree_path_ex {d : Diagram} (h : Consistent d) (w : Node → Nat) {l : Strand} (hl : l.Spreads) (f : l.Fits d false none) :
    ∃ (n : Node) (p : List Node), l.first none = some n ∧ (n :: p).Sublist l.nodes ∧ Follows d (n :: p) ∧ (∀ m ∈ (n :: p).getLast?, outs m = []) ∧
      ((n :: p).map w).sum = l.heaviest w := by
  revert f
  refine tree_induct (P := fun l => l.Fits d false none → ∃ (n : Node) (p : List Node), l.first none = some n ∧ (n :: p).Sublist l.nodes ∧ Follows d (n :: p) ∧
    (∀ m ∈ (n :: p).getLast?, outs m = []) ∧ ((n :: p).map w).sum = l.heaviest w) ?_ ?_ ?_ l hl
  · intro e f
    exact ⟨e, [], rfl, by simp [Strand.nodes], trivial, by simp [(stop_fits f).2.2], by simp [Strand.heaviest]⟩
  · intro m rest _ ih f
    obtain ⟨n, p, h1, h2, h3, h4, h5⟩ := ih (step_fits f).2.2.2
    have hn : n ∈ d.getNodes := (tree_nodes (l := .step m rest) (by rw [Strand.Spreads]; assumption) f n (by rw [Strand.nodes]; exact List.mem_cons_of_mem _ (h2.subset (by simp)))).1
    refine ⟨m, n :: p, rfl, ?_, ⟨feeds_next h (step_fits f).1 hn ((step_feeds h f hn).2 h1), h3⟩, by simpa using h4, ?_⟩
    · rw [Strand.nodes]
      exact h2.cons_cons _
    · rw [List.map_cons, List.sum_cons, h5, Strand.heaviest]
  · intro s bs ih f
    obtain ⟨-, -, hs, hlen, hb⟩ := fork_fits f
    obtain ⟨b, hm, e⟩ := heaviest_ex w (bs := bs) (by intro e; rw [e] at hlen; unfold IsSplit at hs; simp at hlen; omega)
    obtain ⟨n, p, h1, h2, h3, h4, h5⟩ := (ih b hm).2 (hb b hm)
    have hsub : (n :: p).Sublist bs.nodes := by
      rw [nodes_list]
      obtain ⟨u, v, e⟩ := List.append_of_mem hm
      rw [e, List.flatMap_append, List.flatMap_cons]
      exact h2.trans ((List.sublist_append_left _ _).trans (List.sublist_append_right _ _))
    have hn : n ∈ d.getNodes := (tree_nodes (ih b hm).1 (hb b hm) n (h2.subset (by simp))).1
    refine ⟨s, n :: p, rfl, ?_, ⟨feeds_next h (fork_fits f).1 hn ((fork_feeds h f hn).2 ⟨b, hm, h1⟩), h3⟩, by simpa using h4, ?_⟩
    · rw [Strand.nodes]
      exact hsub.cons_cons _
    · rw [List.map_cons, List.sum_cons, h5, e, Strand.heaviest]

/-- **C130.** `compute_longest_path` gives the number of nodes on the longest way to an end, and `compute_longest_path_tasks` the largest number of
activities on such a way. -/
theorem C130_paths (d : Diagram) (h : Consistent d) (l : Strand) (st : Structured d l) (hl : l.Spreads) :
    ∃ p q, ∀ fuel, 2 * d.getNodes.length < fuel → computeLongestPath fuel d = .ok (p, l.heaviest fun _ => 1) ∧
      computeLongestPathTasks fuel d = .ok (q, l.heaviest fun n => if IsActivity n then 1 else 0) := by
  have ha := tree_acyclic h hl st
  have nd : l.nodes.Nodup := st.nodes.nodup_iff.2 h.ids.of_map
  have root : ∀ n ∈ d.getNodes, ins n = [] → l.first none = some n := fun n hn e => (st.start n hn).1 e
  obtain ⟨p, p1, p2, p3⟩ := C20_longest_path d h (noSelfLoop_of_acyclic h ha)
  obtain ⟨q, q1, q2, q3⟩ := C21_longest_path_tasks d h (noSelfLoop_of_acyclic h ha)
  refine ⟨p, q, fun fuel hf => ⟨?_, ?_⟩⟩
  · rw [p1 fuel hf]
    congr 2
    apply Nat.le_antisymm
    · rcases p2 with rfl | c
      · simp
      · cases p with
        | nil => simp
        | cons n p =>
          have := tree_path_le h (fun _ => 1) hl st.fits n p (root n (c.nodes n (by simp)) (c.starts n (by simp))) c.nodes c.follows
          simp at this ⊢
          omega
    · obtain ⟨n, p', h1, h2, h3, h4, h5⟩ := tree_path_ex h (fun _ => 1) hl st.fits
      have hin : ∀ m ∈ n :: p', m ∈ d.getNodes := fun m hm => st.nodes.mem_iff.1 (h2.subset hm)
      have := p3 (n :: p') ⟨⟨by simp, hin, h3, nd.sublist h2⟩, by simpa using (st.start n (hin n (by simp))).2 h1, h4⟩
      rw [← h5]
      simp at this ⊢
      omega
  · rw [q1 fuel hf]
    have cnt : ∀ L : List Node, (activities L).length = (L.map fun n => if IsActivity n then 1 else 0).sum := by
      intro L
      have := sum_filter (fun n : Node => IsActivity n) (fun _ => 1) L
      simp only [List.map_const', List.sum_replicate, nsmul_eq_mul, Nat.mul_one, Nat.cast_id] at this
      rw [← this]
      rfl
    congr 2
    apply Nat.le_antisymm
    · rcases q2 with rfl | ⟨n, rest, c, h0, rfl⟩
      · simp
      · rw [cnt]
        exact tree_path_le h _ hl st.fits n rest (root n (c.nodes n (by simp)) h0) c.nodes c.follows
    · obtain ⟨n, p', h1, h2, h3, h4, h5⟩ := tree_path_ex h (fun n => if IsActivity n then 1 else 0) hl st.fits
      have hin : ∀ m ∈ n :: p', m ∈ d.getNodes := fun m hm => st.nodes.mem_iff.1 (h2.subset hm)
      have := q3 n p' ⟨by simp, hin, h3, nd.sublist h2⟩ ((st.start n (hin n (by simp))).2 h1)
      rw [← h5, ← cnt]
      exact this

/-! ## Drawing -/

theorem splitsAfter_grid {d : Diagram} (h : Consistent d) {order : List String} {row col : String → Int} (hg : OnGrid d order row col) {k : Nat} {n m : Node}
    (hk : SplitsAfter d k n m) : n ∈ d.getNodes ∧ m ∈ d.getNodes ∧ Splits m ∧ row m.1 = row n.1 ∧ col m.1 = col n.1 + k ∧
      (k ≠ 0 → ∀ p ∈ d.getNodes, Feeds p m → ¬Splits p) := by
  induction hk with
  | here h1 h2 => exact ⟨h1, h1, h2, rfl, by simp, fun hh => absurd rfl hh⟩
  | @next k n q m h1 h2 h3 h4 hr ih =>
    obtain ⟨i1, i2, i3, i4, i5, i6⟩ := ih
    obtain ⟨c, r⟩ := hg.line n h1 q i1 h3 h2 h4
    refine ⟨h1, i2, i3, by rw [i4, r], by rw [i5, c]; push_cast; omega, fun _ p hp hf => ?_⟩
    by_cases hk : k = 0
    · subst hk
      cases hr
      rw [feeds_unique h hp h1 i1 hf h3 h4]
      exact h2
    · exact i6 hk p hp hf

/-- **C130.** If all branches of a split lead over the same number of nodes to another split, then the diagram is not drawn. -/
theorem C130_all_split_again (d : Diagram) (h : Consistent d) (hs : ∀ n ∈ d.getNodes, Supported n) (ha : Acyclic d) (hap : SplitsApart d)
    {s : Node} (ms : s ∈ d.getNodes) (ss : Splits s) (k : Nat) (hk : ∀ n ∈ d.getNodes, Feeds s n → ∃ m, SplitsAfter d k n m) :
    ∃ bound, ∀ fuel ≥ bound, generateLayout fuel d = .error .typeError := by
  obtain ⟨order, row, col, bound, ho, hg, -, hno⟩ := C85_drawn_on_grid d h hs ha hap
  obtain ⟨u, hu, eu⟩ := branchRow_above ss
  obtain ⟨a, ma, fa, pa⟩ := exists_branch h ho.all ms (fun m hm hf => hap s ms m hm hf ss) (k := 0) (by unfold Splits at ss; omega)
  obtain ⟨b, mb, fb, pb⟩ := exists_branch h ho.all ms (fun m hm hf => hap s ms m hm hf ss) hu
  have hu0 : u ≠ 0 := by rintro rfl; rw [branchRow_first ss] at eu; omega
  have hab : a.1 ≠ b.1 := by intro e; rw [e, pb] at pa; exact hu0 pa
  obtain ⟨a', sa⟩ := hk a ma fa
  obtain ⟨b', sb⟩ := hk b mb fb
  by_cases hk0 : k = 0
  · subst hk0
    cases sa with
    | here _ sa => cases sb with | here _ sb => exact C86_two_nested_splits d h hs ha hap ms ma mb hab ss fa fb sa sb
  · refine ⟨bound, hno ?_⟩
    intro hone
    obtain ⟨-, ma', sa', ra, ca, na⟩ := splitsAfter_grid h hg sa
    obtain ⟨-, mb', sb', rb, cb, nb⟩ := splitsAfter_grid h hg sb
    obtain ⟨v, hv, ev⟩ := branchRow_above sa'
    obtain ⟨x, mx, fx, px⟩ := exists_branch h ho.all ma' (fun m hm hf => hap a' ma' m hm hf sa') hv
    obtain ⟨y, my, fy, py⟩ := exists_branch h ho.all mb' (fun m hm hf => hap b' mb' m hm hf sb') (k := 0) (by unfold Splits at sb'; omega)
    obtain ⟨cx, rx, -⟩ := hg.branch a' ma' x mx fx sa'
    obtain ⟨cy, ry, -⟩ := hg.branch b' mb' y my fy sb'
    obtain ⟨c1, r1, r1'⟩ := hg.branch s ms a ma fa ss
    obtain ⟨c2, r2, r2'⟩ := hg.branch s ms b mb fb ss
    have rx := rx (na hk0)
    have ry := ry (nb hk0)
    rw [px, ev] at rx
    rw [py, branchRow_first sb'] at ry
    have rab : row a.1 = row b.1 + 4 := by
      by_cases hp : ∀ p ∈ d.getNodes, Feeds p s → ¬Splits p
      · have e1 := r1 hp
        have e2 := r2 hp
        rw [pa, branchRow_first ss] at e1
        rw [pb, eu] at e2
        omega
      · push Not at hp
        obtain ⟨p, mp, fp, sp⟩ := hp
        have e1 := r1' p mp fp sp
        have e2 := r2' p mp fp sp
        rw [pa, branchRow_first ss] at e1
        rw [pb, eu] at e2
        omega
    have e := hone x mx y my (by omega) (by omega)
    have e' := h.node_eq mx my e
    subst e'
    have := feeds_unique h ma' mb' mx fx fy (hap a' ma' x mx fx sa')
    subst this
    omega

theorem series_spreads {l : Strand} (hl : l.IsSeries) : l.Spreads := by
  induction l using Strand.rec (motive_2 := fun bs => bs.AreSeries → bs.Spread) with
  | stop e => rw [Strand.Spreads]; trivial
  | meet => simp [Strand.IsSeries] at hl
  | step n rest ih => rw [Strand.IsSeries] at hl; rw [Strand.Spreads]; exact ih hl
  | block s bs rest _ _ => simp [Strand.IsSeries] at hl
  | fork s bs ih => rw [Strand.IsSeries] at hl; rw [Strand.Spreads]; exact ih hl
  | nil => rw [Branches.Spread]; trivial
  | cons l r h1 h2 =>
    rename_i h
    rw [Branches.AreSeries] at h
    rw [Branches.Spread]
    exact ⟨h1 h.2.1, h2 h.2.2.2⟩

theorem begins_long {l : Strand} (h : 1 ≤ l.long) : ¬l.IsFork := by
  cases l <;> simp [Strand.long, Strand.IsFork] at h ⊢

/-- Where the nodes of a series are. -/
theorem series_grid {d : Diagram} (h : Consistent d) (hj : ∀ n ∈ d.getNodes, ¬Joins n) {order : List String} (ho : FlowOrder d order) {row col : String → Int}
    (hg : OnGrid d order row col) {l : Strand} (hl : l.Spreads) : l.IsSeries → l.Fits d false none → l.nodes.Nodup → ∀ n0, l.first none = some n0 →
      (l.IsFork → ∀ p ∈ d.getNodes, Feeds p n0 → ¬Splits p) →
      (∀ n ∈ l.nodes, col n0.1 ≤ col n.1 ∧ (col n.1 ≤ col n0.1 + l.long → row n.1 = row n0.1) ∧ (¬l.HasSplit → col n.1 < col n0.1 + l.long)) ∧
      ∀ n ∈ l.nodes, ∀ m ∈ l.nodes, row n.1 = row m.1 → col n.1 = col m.1 → n = m := by
  refine tree_induct (P := fun l => l.IsSeries → l.Fits d false none → l.nodes.Nodup → ∀ n0, l.first none = some n0 →
      (l.IsFork → ∀ p ∈ d.getNodes, Feeds p n0 → ¬Splits p) →
      (∀ n ∈ l.nodes, col n0.1 ≤ col n.1 ∧ (col n.1 ≤ col n0.1 + l.long → row n.1 = row n0.1) ∧ (¬l.HasSplit → col n.1 < col n0.1 + l.long)) ∧
      ∀ n ∈ l.nodes, ∀ m ∈ l.nodes, row n.1 = row m.1 → col n.1 = col m.1 → n = m) ?_ ?_ ?_ l hl
  · intro e _ f _ n0 hn _
    cases hn
    simp [Strand.nodes, Strand.long]
  · intro q rest hr ih hser f nd n0 hn _
    cases hn
    rw [Strand.IsSeries] at hser
    obtain ⟨hq, -, ho1, fr⟩ := step_fits f
    obtain ⟨m0, hm0, hm0'⟩ := first_some hr none
    have hmd := (tree_nodes hr fr m0 hm0').1
    have hf := (step_feeds h f hmd).2 hm0
    have hns : ¬Splits q := by unfold Splits; omega
    obtain ⟨c, r⟩ := hg.line q hq m0 hmd hf hns (hj m0 hmd)
    rw [Strand.nodes, List.nodup_cons] at nd
    obtain ⟨i1, i2⟩ := ih hser fr nd.2 m0 hm0 fun _ p hp hfp => by
      rw [feeds_unique h hp hq hmd hfp hf (hj m0 hmd)]
      exact hns
    have hsp : (Strand.step q rest).HasSplit ↔ rest.HasSplit := by rw [Strand.HasSplit]
    refine ⟨?_, ?_⟩
    · intro n hn
      rw [Strand.nodes, List.mem_cons] at hn
      rw [Strand.long, hsp]
      rcases hn with rfl | hn
      · refine ⟨Int.le_refl _, fun _ => rfl, fun _ => by push_cast; omega⟩
      · obtain ⟨j1, j2, j3⟩ := i1 n hn
        refine ⟨by omega, fun hle => ?_, fun hh => ?_⟩
        · rw [← r]
          exact j2 (by push_cast at hle; omega)
        · have := j3 hh
          push_cast
          omega
    · intro n hn m hm e1 e2
      rw [Strand.nodes, List.mem_cons] at hn hm
      rcases hn with rfl | hn <;> rcases hm with rfl | hm
      · rfl
      · have := (i1 m hm).1; omega
      · have := (i1 n hn).1; omega
      · exact i2 n hn m hm e1 e2
  · intro s bs ih hser f nd n0 hn hbase
    cases hn
    have hbase := hbase (by simp [Strand.IsFork])
    rw [Strand.IsSeries, series_list] at hser
    obtain ⟨hall, hpair⟩ := hser
    obtain ⟨hsd, -, hsplit, hlen, fb⟩ := fork_fits f
    have ss : Splits s := by unfold IsSplit at hsplit; unfold Splits; omega
    rw [Strand.nodes, nodes_list, List.nodup_cons, List.nodup_flatMap] at nd
    obtain ⟨-, nd1, nd2⟩ := nd
    -- each branch
    have hb : ∀ b ∈ branchList bs, ∃ b0, b.first none = some b0 ∧ b0 ∈ d.getNodes ∧ b0 ∈ b.nodes ∧ Feeds s b0 ∧ col b0.1 = col s.1 + 1 ∧
        row b0.1 = row s.1 + branchRow (outs s).length (placeAmong order (behind d s) b0.1) ∧
        (∀ n ∈ b.nodes, col b0.1 ≤ col n.1 ∧ (col n.1 ≤ col b0.1 + b.long → row n.1 = row b0.1) ∧ (¬b.HasSplit → col n.1 < col b0.1 + b.long)) ∧
        ∀ n ∈ b.nodes, ∀ m ∈ b.nodes, row n.1 = row m.1 → col n.1 = col m.1 → n = m := by
      intro b hb
      obtain ⟨b0, e0, m0⟩ := first_some (ih b hb).1 none
      have hd0 := (tree_nodes (ih b hb).1 (fb b hb) b0 m0).1
      have hf := (fork_feeds h f hd0).2 ⟨b, hb, e0⟩
      obtain ⟨c, r, -⟩ := hg.branch s hsd b0 hd0 hf ss
      obtain ⟨i1, i2⟩ := (ih b hb).2 (hall b hb).2 (fb b hb) (nd1 b hb) b0 e0 fun hfk => absurd hfk (begins_long (hall b hb).1)
      exact ⟨b0, e0, hd0, m0, hf, c, r hbase, i1, i2⟩
    -- two branches
    have apart : ∀ a ∈ branchList bs, ∀ b ∈ branchList bs, Beside a b → List.Disjoint a.nodes b.nodes → ∀ n ∈ a.nodes, ∀ m ∈ b.nodes,
        row n.1 = row m.1 → col n.1 = col m.1 → False := by
      intro a ha b hbb hbes hdis n hn m hm e1 e2
      obtain ⟨a0, -, da, ma, fa, ca, ra, ia, -⟩ := hb a ha
      obtain ⟨b0, -, db, mb, fb, cb, rb, ib, -⟩ := hb b hbb
      have hne : row a0.1 ≠ row b0.1 := by
        intro e
        have hp := branchRow_inj (placeAmong_lt h ho hsd da (fun m hm _ => hj m hm) fa) (placeAmong_lt h ho hsd db (fun m hm _ => hj m hm) fb) (by omega)
        have := placeAmong_inj (ho.all.mem_iff.2 (List.mem_map.2 ⟨a0, da, rfl⟩)) (List.mem_map.2 ⟨a0, List.mem_filter.2 ⟨da, by simpa using fa⟩, rfl⟩) hp
        have := h.node_eq da db this
        subst this
        exact hdis ma mb
      obtain ⟨x1, x2, x3⟩ := ia n hn
      obtain ⟨y1, y2, y3⟩ := ib m hm
      obtain ⟨z1, z2, z3⟩ := hbes
      have : row n.1 = row a0.1 ∧ row m.1 = row b0.1 := by
        by_cases hsa : a.HasSplit
        · have hsb : ¬b.HasSplit := fun k => z1 ⟨hsa, k⟩
          have := z2 hsa
          have := y3 hsb
          exact ⟨x2 (by omega), y2 (by omega)⟩
        · have := x3 hsa
          by_cases hsb : b.HasSplit
          · have := z3 hsb
            exact ⟨x2 (by omega), y2 (by omega)⟩
          · have := y3 hsb
            exact ⟨x2 (by omega), y2 (by omega)⟩
      omega
    refine ⟨?_, ?_⟩
    · intro n hn
      rw [Strand.nodes, List.mem_cons, nodes_list, List.mem_flatMap] at hn
      have hl0 : (Strand.fork s bs).long = 0 := rfl
      rw [hl0]
      rcases hn with rfl | ⟨b, hbb, hn⟩
      · exact ⟨Int.le_refl _, fun _ => rfl, fun hh => absurd trivial (by simpa [Strand.HasSplit] using hh)⟩
      · obtain ⟨b0, -, -, -, -, cb, -, ib, -⟩ := hb b hbb
        have := (ib n hn).1
        refine ⟨by omega, fun hh => by exfalso; simp at hh; omega, fun hh => absurd trivial (by simpa [Strand.HasSplit] using hh)⟩
    · have low : ∀ n ∈ (branchList bs).flatMap Strand.nodes, col s.1 < col n.1 := by
        intro n hn
        obtain ⟨b, hbb, hn⟩ := List.mem_flatMap.1 hn
        obtain ⟨b0, -, -, -, -, cb, -, ib, -⟩ := hb b hbb
        have := (ib n hn).1
        omega
      intro n hn m hm e1 e2
      rw [Strand.nodes, List.mem_cons, nodes_list] at hn hm
      rcases hn with rfl | hn <;> rcases hm with rfl | hm
      · rfl
      · have := low m hm; omega
      · have := low n hn; omega
      · obtain ⟨a, ha, hn⟩ := List.mem_flatMap.1 hn
        obtain ⟨b, hbb, hm⟩ := List.mem_flatMap.1 hm
        obtain ⟨i, hi⟩ := List.mem_iff_getElem.1 ha
        obtain ⟨j, hj'⟩ := List.mem_iff_getElem.1 hbb
        obtain ⟨hi, rfl⟩ := hi
        obtain ⟨hjl, rfl⟩ := hj'
        rw [List.pairwise_iff_getElem] at hpair nd2
        rcases Nat.lt_trichotomy i j with lt | rfl | lt
        · exact (apart _ ha _ hbb (hpair i j hi hjl lt) (nd2 i j hi hjl lt) n hn m hm e1 e2).elim
        · obtain ⟨b0, -, -, -, -, -, -, -, ib⟩ := hb _ hbb
          exact ib n hn m hm e1 e2
        · exact (apart _ hbb _ ha (hpair j i hjl hi lt) (nd2 j i hjl hi lt) m hm n hn e1.symm e2.symm).elim

/-- **C130.** A series of decisions is always drawn: every node at its place on the grid. -/
theorem C130_series_drawn (d : Diagram) (h : Consistent d) (l : Strand) (st : Structured d l) (hl : l.IsSeries) :
    ∃ order row col bound, FlowOrder d order ∧ OnGrid d order row col ∧ OneEach d row col ∧ ∀ fuel ≥ bound, ∃ d', generateLayout fuel d = .ok d' ∧
      ∀ n ∈ d.getNodes, ∃ n', d'.getNodeById n.1 = some n' ∧ At n' (150 * col n.1 + 50) (100 * row n.1 + 50) := by
  have hsp := series_spreads hl
  have hj := tree_no_joins hsp st
  obtain ⟨order, row, col, bound, ho, hg, hyes, -⟩ := C85_drawn_on_grid d h st.supported (tree_acyclic h hsp st) fun n _ m hm _ _ => hj m hm
  obtain ⟨n0, e0, m0⟩ := first_some hsp none
  have d0 := st.nodes.mem_iff.1 m0
  obtain ⟨-, i⟩ := series_grid h hj ho hg hsp hl st.fits (st.nodes.nodup_iff.2 h.ids.of_map) n0 e0 fun _ p hp hf => by
    obtain ⟨i, -, hi⟩ := hf
    rw [(st.start n0 d0).2 e0] at hi
    simp at hi
  have one : OneEach d row col := fun n hn m hm e1 e2 => congrArg (·.1) (i n (st.nodes.mem_iff.2 hn) m (st.nodes.mem_iff.2 hm) e1 e2)
  exact ⟨order, row, col, bound, ho, hg, one, hyes one⟩

/-! ## Examples -/

/-- `branchyOps` is a series: behind the first gateway there is a second one in one branch, and the other branches have at most two nodes. -/
theorem branchy_series (d : Diagram) : (Strand.step (nodeOf d "s") (branchyLine d)).IsSeries := by
  simp [branchyLine, Strand.IsSeries, Branches.AreSeries, Branches.AllBeside, Beside, Strand.HasSplit, Strand.long]

set_option maxRecDepth 8000 in
/-- Its size and its longest paths: start, order, g, pack, h, ship, shipped. -/
example : Structured (Op.run {} branchyOps) (.step (nodeOf (Op.run {} branchyOps) "s") (branchyLine (Op.run {} branchyOps))) ∧
    (Strand.step (nodeOf (Op.run {} branchyOps) "s") (branchyLine (Op.run {} branchyOps))).ends = 4 ∧
    (Strand.step (nodeOf (Op.run {} branchyOps) "s") (branchyLine (Op.run {} branchyOps))).heaviest (fun _ => 1) = 7 ∧
    (Strand.step (nodeOf (Op.run {} branchyOps) "s") (branchyLine (Op.run {} branchyOps))).heaviest (fun n => if IsActivity n then 1 else 0) = 3 :=
  ⟨branchy_example.structured, by decide +kernel, by decide +kernel, by decide +kernel⟩

/-- It is drawn. -/
example : ∃ bound, ∀ fuel ≥ bound, ∃ d', generateLayout fuel (Op.run {} branchyOps) = .ok d' := by
  obtain ⟨order, row, col, bound, -, -, -, k⟩ := C130_series_drawn _ (consistent_of_allowed _ branchy_allowed) _ branchy_example.structured (branchy_series _)
  exact ⟨bound, fun fuel hf => ⟨_, (k fuel hf).choose_spec.1⟩⟩

/-- Two questions, one after the other; the second one is asked in both branches, after one task. -/
def questionsOps : List Op :=
  [.createNew "d" "D", .addProcess "p" false true "None" "PL" "P",
   .addStartEvent "P" "s" none false true (some "s") "u1" "u2",
   .addExclusiveGateway "P" "g" "Diverging" none none "g", .addTask "P" "a" (some "a") "u3", .addTask "P" "b" (some "b") "u3",
   .addExclusiveGateway "P" "g1" "Diverging" none none "g1", .addExclusiveGateway "P" "g2" "Diverging" none none "g2",
   .addEndEvent "P" "e1" none (some "e1") "u" "v", .addEndEvent "P" "e2" none (some "e2") "u" "v",
   .addEndEvent "P" "e3" none (some "e3") "u" "v", .addEndEvent "P" "e4" none (some "e4") "u" "v",
   .addSequenceFlow "P" "s" "g" "" "f1", .addSequenceFlow "P" "g" "a" "yes" "f2", .addSequenceFlow "P" "g" "b" "no" "f3",
   .addSequenceFlow "P" "a" "g1" "" "f4", .addSequenceFlow "P" "b" "g2" "" "f5",
   .addSequenceFlow "P" "g1" "e1" "yes" "f6", .addSequenceFlow "P" "g1" "e2" "no" "f7",
   .addSequenceFlow "P" "g2" "e3" "yes" "f8", .addSequenceFlow "P" "g2" "e4" "no" "f9"]

theorem questions_allowed : AllowedHistory {} questionsOps := by
  simp [questionsOps, AllowedHistory, Allowed, step, declaredNode, declaredFlow, directionArg, directions, chosen]

set_option maxRecDepth 8000 in
/-- Such a tree is not drawn. -/
example : ∃ bound, ∀ fuel ≥ bound, generateLayout fuel (Op.run {} questionsOps) = .error .typeError := by
  have h := consistent_of_allowed _ questions_allowed
  let ns := (Op.run {} questionsOps).getNodes
  refine C130_all_split_again _ h (by decide) (acyclic_of_feeds h (fun n => ["s", "g", "a", "b", "g1", "g2", "e1", "e2", "e3", "e4"].idxOf n.1) (by decide)) ?_
    (s := ns[1]'(by decide)) (by decide) (by decide) 1 ?_
  · unfold SplitsApart
    decide
  · intro n hn hf
    have : n = ns[2]'(by decide) ∨ n = ns[3]'(by decide) := by
      have key : ∀ n ∈ ns, Feeds (ns[1]'(by decide)) n → n = ns[2]'(by decide) ∨ n = ns[3]'(by decide) := by decide
      exact key n hn hf
    rcases this with rfl | rfl
    · exact ⟨ns[4]'(by decide), .next (by decide) (by decide) (by decide) (by decide) (.here (by decide) (by decide))⟩
    · exact ⟨ns[5]'(by decide), .next (by decide) (by decide) (by decide) (by decide) (.here (by decide) (by decide))⟩

end Bpmn.Props

import Verif.Spec.Width
import Verif.Props.DrawnMetrics
import Verif.Props.LoopGrid
/-!
# C118: the columns of a drawing and the longest paths of the diagram
-/
set_option linter.unusedSimpArgs false
set_option linter.unusedVariables false

namespace Bpmn.Props
open Bpmn Spec Layouter LayoutMetrics

theorem max_attained (f : Node → Int) : ∀ l : List Node, l ≠ [] → (∀ n ∈ l, 0 ≤ f n) → ∃ n ∈ l, (l.map f).foldr max 0 = f n
  | [], h, _ => absurd rfl h
  | [a], _, h => ⟨a, by simp, by have := h a (by simp); simp only [List.map_cons, List.map_nil, List.foldr_cons, List.foldr_nil]; omega⟩
  | a :: b :: l, _, h => by
    obtain ⟨n, hn, e⟩ := max_attained f (b :: l) (by simp) fun n hn => h n (List.mem_cons_of_mem _ hn)
    rw [List.map_cons, List.foldr_cons, e]
    rcases Int.le_total (f a) (f n) with c | c
    · exact ⟨n, List.mem_cons_of_mem _ hn, by omega⟩
    · exact ⟨a, by simp, by omega⟩

theorem le_max (f : Node → Int) : ∀ l : List Node, ∀ n ∈ l, f n ≤ (l.map f).foldr max 0
  | [], _, h => by cases h
  | a :: l, n, h => by
    rw [List.map_cons, List.foldr_cons]
    rcases List.mem_cons.1 h with rfl | h
    · omega
    · have := le_max f l n h
      omega

/-- What the rules of the grid say about columns. -/
structure Columns (d : Diagram) (col : String → Int) : Prop where
  start : ∀ n ∈ d.getNodes, ins n = [] → col n.1 = 1
  up : ∀ n ∈ d.getNodes, ∀ m ∈ d.getNodes, Feeds n m → col n.1 + 1 ≤ col m.1
  down : ∀ m ∈ d.getNodes, ins m ≠ [] → ∃ n ∈ d.getNodes, Feeds n m ∧ col m.1 = col n.1 + 1
  pos : ∀ n ∈ d.getNodes, 1 ≤ col n.1

theorem columns_of_grid {d : Diagram} (h : Consistent d) {order : List String} {row col : String → Int} (ho : FlowOrder d order)
    (hg : OnGrid d order row col) : Columns d col := by
  have nd : order.Nodup := ho.all.nodup_iff.2 h.ids
  have up : ∀ n ∈ d.getNodes, ∀ m ∈ d.getNodes, Feeds n m → col n.1 + 1 ≤ col m.1 := by
    intro n hn m hm hf
    by_cases c : Splits n
    · have := (hg.branch n hn m hm hf c).1; omega
    · by_cases c' : Joins m
      · rw [(hg.join m hm c').1]
        have := le_max (fun n => col n.1) (before d m) n (mem_before.2 ⟨hn, hf⟩)
        omega
      · have := (hg.line n hn m hm hf c c').1; omega
  have main : ∀ k, ∀ m ∈ d.getNodes, order.idxOf m.1 = k →
      1 ≤ col m.1 ∧ (ins m ≠ [] → ∃ n ∈ d.getNodes, Feeds n m ∧ col m.1 = col n.1 + 1) := by
    intro k
    induction k using Nat.strongRecOn with
    | ind k ih =>
      intro m hm e
      have prev : ∀ n ∈ d.getNodes, Feeds n m → 1 ≤ col n.1 := fun n hn hf =>
        (ih _ (e ▸ before_lower nd (ho.sorted n hn m hm hf)) n hn rfl).1
      by_cases hi : ins m = []
      · have := (hg.start m hm hi).1
        exact ⟨by omega, fun k => absurd hi k⟩
      · obtain ⟨n, hn, hf⟩ := exists_feeds h hm hi
        have hp := prev n hn hf
        have hu := up n hn m hm hf
        refine ⟨by omega, fun _ => ?_⟩
        by_cases c : Splits n
        · exact ⟨n, hn, hf, (hg.branch n hn m hm hf c).1⟩
        · by_cases c' : Joins m
          · obtain ⟨x, hx, ex⟩ := max_attained (fun n => col n.1) (before d m) (List.ne_nil_of_mem (mem_before.2 ⟨hn, hf⟩)) fun x hx => by
              obtain ⟨h1, h2⟩ := mem_before.1 hx
              have := prev x h1 h2
              show 0 ≤ col x.1
              omega
            obtain ⟨h1, h2⟩ := mem_before.1 hx
            refine ⟨x, h1, h2, ?_⟩
            rw [(hg.join m hm c').1, ex]
          · exact ⟨n, hn, hf, (hg.line n hn m hm hf c c').1⟩
  exact ⟨fun n hn hi => (hg.start n hn hi).1, up, fun m hm => (main _ m hm rfl).2, fun n hn => (main _ n hn rfl).1⟩

/-- Along a path the columns grow. -/
theorem Columns.along {d : Diagram} (h : Consistent d) {col : String → Int} (H : Columns d col) {p : List Node} (hn : ∀ n ∈ p, n ∈ d.getNodes)
    (hf : Follows d p) : ∀ j (hj : j < p.length), ∀ i (hi : i ≤ j), col (p[i]'(by omega)).1 + ((j : Int) - i) ≤ col p[j].1 := by
  intro j
  induction j with
  | zero =>
    intro hj i hi
    obtain rfl : i = 0 := by omega
    simp
  | succ j ih =>
    intro hj i hi
    by_cases c : i = j + 1
    · subst c; simp
    · have h1 := ih (by omega) i (by omega)
      have h2 := next_feeds h (hn _ (List.getElem_mem (by omega : j < p.length))) (follows_get hf j hj)
      have h3 := H.up _ (hn _ (List.getElem_mem (by omega : j < p.length))) _ h2.1 h2.2
      omega

theorem follows_snoc {d : Diagram} : ∀ {l : List Node} {a b : Node}, Follows d l → l.getLast? = some a → Next d a b → Follows d (l ++ [b])
  | [], a, b, _, h, _ => by cases h
  | [x], a, b, _, h, k => by cases h; exact ⟨k, trivial⟩
  | x :: y :: l, a, b, hf, h, k => ⟨hf.1, follows_snoc (l := y :: l) hf.2 (by simpa using h) k⟩

theorem Columns.path {d : Diagram} (h : Consistent d) {col : String → Int} (H : Columns d col) :
    ∀ k : Nat, ∀ n ∈ d.getNodes, col n.1 = k → ∃ p, PathTo d n p ∧ p.length = k ∧ ∀ m ∈ p, col m.1 ≤ k := by
  intro k
  induction k with
  | zero => intro n hn e; have := H.pos n hn; omega
  | succ k ih =>
    intro n hn e
    by_cases hi : ins n = []
    · have := H.start n hn hi
      obtain rfl : k = 0 := by omega
      exact ⟨[n], ⟨⟨by simp, by simpa using hn, trivial, by simp⟩, by simpa using hi, by simp⟩, rfl, by simp; omega⟩
    · obtain ⟨m, hm, hf, em⟩ := H.down n hn hi
      obtain ⟨p, hp, hlen, hle⟩ := ih m hm (by omega)
      refine ⟨p ++ [n], ⟨⟨by simp, ?_, follows_snoc hp.follows hp.ends (feeds_next h hm hn hf), ?_⟩, ?_, by simp⟩, by simp [hlen], ?_⟩
      · intro x hx
        rcases List.mem_append.1 hx with hx | hx
        · exact hp.nodes x hx
        · rw [List.mem_singleton.1 hx]; exact hn
      · refine List.nodup_append.2 ⟨hp.nodup, by simp, ?_⟩
        intro a ha b hb e'
        obtain rfl := List.mem_singleton.1 hb
        have := hle a ha
        rw [e'] at this
        omega
      · cases p with
        | nil => exact absurd rfl hp.nonempty
        | cons a p => simpa using hp.starts
      · intro x hx
        rcases List.mem_append.1 hx with hx | hx
        · have := hle x hx; omega
        · rw [List.mem_singleton.1 hx]; omega

theorem Columns.depth {d : Diagram} (h : Consistent d) {col : String → Int} (H : Columns d col) {n : Node} (hn : n ∈ d.getNodes) :
    ∃ k : Nat, col n.1 = k ∧ Depth d n k := by
  have hp := H.pos n hn
  refine ⟨(col n.1).toNat, by omega, ?_, ?_⟩
  · obtain ⟨p, h1, h2, -⟩ := H.path h (col n.1).toNat n hn (by omega)
    exact ⟨p, h1, h2⟩
  · intro p hp'
    have hne : 0 < p.length := List.length_pos_of_ne_nil hp'.nonempty
    have h1 := H.along h hp'.nodes hp'.follows (p.length - 1) (by omega) 0 (by omega)
    have h2 : p[p.length - 1] = n := by
      have := hp'.ends
      rw [List.getLast?_eq_getElem?, List.getElem?_eq_getElem (by omega)] at this
      exact Option.some.inj this
    rw [h2] at h1
    have h3 := H.pos _ (hp'.nodes _ (List.getElem_mem hne))
    omega

theorem noSelfLoop_of_acyclic {d : Diagram} (h : Consistent d) (ha : Acyclic d) : NoSelfLoop d := by
  intro f hf e
  obtain ⟨i, n, hn, e1, e2, hi⟩ := h.listed f hf
  obtain ⟨m, hm, ⟨a, b, e0, g1, g2, g3, g4⟩, hi'⟩ := h.outFlow n hn i hi
  have hmem : (a, b, e0) ∈ d.getFlows := by
    unfold Diagram.getFlowById at g1
    exact pyFind_mem g1
  have same : (a, b, e0) = f := List.inj_on_of_nodup_map h.flowIds hmem hf (g2.trans e1.symm)
  rw [← same] at e
  have : n.1 = m.1 := Option.some.inj (g3.symm.trans (e.trans g4))
  obtain rfl := h.node_eq hn hm this
  exact ha n hn (.single (feeds_next h hn hn ⟨i, hi, hi'⟩))

/-- **C118.** In a diagram without cycles, whose nodes are all of supported types and in which no split leads directly to a join: if `generate_layout`
draws it, every node is drawn in the column whose number is the number of nodes on the longest path to it from a node without incoming flows. -/
theorem C118_columns (d : Diagram) (h : Consistent d) (hs : ∀ n ∈ d.getNodes, Supported n) (ha : Acyclic d) (hap : SplitsApart d) :
    ∃ bound, ∀ fuel ≥ bound, ∀ d', generateLayout fuel d = .ok d' →
      ∀ n ∈ d.getNodes, ∃ k : Nat, Depth d n k ∧ ∃ y, DrawnAt d' n (150 * k + 50) y := by
  obtain ⟨order, row, col, bound, ho, hg, hyes, hno⟩ := C85_drawn_on_grid d h hs ha hap
  have H := columns_of_grid h ho hg
  refine ⟨bound, fun fuel hfuel d' hl n hn => ?_⟩
  by_cases c : OneEach d row col
  · obtain ⟨d2, h1, h2⟩ := hyes c fuel hfuel
    rw [h1] at hl
    cases hl
    obtain ⟨k, e, hk⟩ := H.depth h hn
    obtain ⟨n', k1, k2⟩ := h2 n hn
    rw [e] at k2
    exact ⟨k, hk, _, n', k1, k2⟩
  · rw [hno c fuel hfuel] at hl
    cases hl

/-- **C118 (width).** The list `p` that `compute_longest_path` finds is then the width of the drawing: the nodes of `p` are drawn one per column, from the first column
to the last, and no node is drawn right of the last one of them. -/
theorem C118_width (d : Diagram) (h : Consistent d) (hs : ∀ n ∈ d.getNodes, Supported n) (ha : Acyclic d) (hap : SplitsApart d) :
    ∃ p bound, ∀ fuel ≥ bound, computeLongestPath fuel d = .ok (p, p.length) ∧ ∀ d', generateLayout fuel d = .ok d' →
      (∀ i (hi : i < p.length), ∃ y, DrawnAt d' p[i] (150 * (i + 1) + 50) y) ∧
      ∀ n ∈ d.getNodes, ∃ x y, DrawnAt d' n x y ∧ 200 ≤ x ∧ x ≤ 150 * p.length + 50 := by
  obtain ⟨order, row, col, bound, ho, hg, hyes, hno⟩ := C85_drawn_on_grid d h hs ha hap
  have H := columns_of_grid h ho hg
  obtain ⟨p, hp, hc, hmax⟩ := C20_longest_path d h (noSelfLoop_of_acyclic h ha)
  -- the last column is that of the last node of a complete path
  have wide : ∀ n ∈ d.getNodes, col n.1 ≤ p.length := by
    by_contra hcon
    push Not at hcon
    obtain ⟨n0, hn0, hlt0⟩ := hcon
    have : ∃ n ∈ d.getNodes, (p.length : Int) < col n.1 ∧ ∀ m ∈ d.getNodes, col m.1 ≤ col n.1 := by
      obtain ⟨x, hx, ex⟩ := max_attained (fun n => col n.1) d.getNodes (List.ne_nil_of_mem hn0) fun n hn => by
        have := H.pos n hn
        show 0 ≤ col n.1
        omega
      have hle := fun m hm => le_max (fun n => col n.1) d.getNodes m hm
      rw [ex] at hle
      exact ⟨x, hx, by have : col n0.1 ≤ col x.1 := hle n0 hn0; omega, hle⟩
    obtain ⟨n, hn, hlt, hall⟩ := this
    have hp := H.pos n hn
    obtain ⟨q, hq, hlen, -⟩ := H.path h (col n.1).toNat n hn (by omega)
    have := hmax q ⟨hq.toSimplePath, hq.starts, fun m hm => by
      rw [hq.ends] at hm
      cases hm
      by_contra hout
      obtain ⟨i, hi⟩ := List.exists_mem_of_ne_nil _ hout
      obtain ⟨m, hm, ⟨a, b, e, g1, g2, g3, g4⟩, hi'⟩ := h.outFlow n hn i hi
      have := H.up n hn m hm ⟨i, hi, hi'⟩
      have := hall m hm
      omega⟩
    omega
  have inside : ∀ i (hi : i < p.length), p[i] ∈ d.getNodes ∧ col p[i].1 = i + 1 := by
    intro i hi
    rcases hc with hc | hc
    · rw [hc] at hi; cases hi
    · have hm := hc.nodes _ (List.getElem_mem hi)
      refine ⟨hm, ?_⟩
      have h1 := H.along h hc.nodes hc.follows i hi 0 (by omega)
      have h2 := H.along h hc.nodes hc.follows (p.length - 1) (by omega) i (by omega)
      have h3 := H.pos _ (hc.nodes _ (List.getElem_mem (by omega : 0 < p.length)))
      have h4 := wide _ (hc.nodes _ (List.getElem_mem (by omega : p.length - 1 < p.length)))
      omega
  refine ⟨p, max bound (2 * d.getNodes.length + 1), fun fuel hfuel => ⟨hp fuel (by omega), fun d' hl => ?_⟩⟩
  by_cases c : OneEach d row col
  · obtain ⟨d2, h1, h2⟩ := hyes c fuel (by omega)
    rw [h1] at hl
    cases hl
    constructor
    · intro i hi
      obtain ⟨k1, k2⟩ := inside i hi
      obtain ⟨n', k3, k4⟩ := h2 _ k1
      rw [k2] at k4
      exact ⟨_, n', k3, k4⟩
    · intro n hn
      obtain ⟨n', k3, k4⟩ := h2 n hn
      have := H.pos n hn
      have := wide n hn
      exact ⟨_, _, ⟨n', k3, k4⟩, by omega, by omega⟩
  · rw [hno c fuel (by omega)] at hl
    cases hl

/-! ## Concrete cases -/

/-- A split with branches of two steps and of one. -/
def unevenOps : List Op :=
  [.createNew "d" "D", .addProcess "p" false true "None" "PL" "P",
   .addStartEvent "P" "s" none false true (some "s") "u1" "u2",
   .addExclusiveGateway "P" "g" "Diverging" none none "g",
   .addTask "P" "a" (some "a") "u4", .addTask "P" "b" (some "b") "u5", .addTask "P" "c" (some "c") "u6",
   .addExclusiveGateway "P" "j" "Converging" none none "j", .addEndEvent "P" "e" none (some "e") "u7" "u8",
   .addSequenceFlow "P" "s" "g" "" "f1", .addSequenceFlow "P" "g" "a" "" "f2", .addSequenceFlow "P" "g" "c" "" "f3",
   .addSequenceFlow "P" "a" "b" "" "f4", .addSequenceFlow "P" "b" "j" "" "f5", .addSequenceFlow "P" "c" "j" "" "f6",
   .addSequenceFlow "P" "j" "e" "" "f7"]

theorem uneven_allowed : AllowedHistory {} unevenOps := by
  simp [unevenOps, AllowedHistory, Allowed, step, declaredNode, declaredFlow, directionArg, directions, chosen]

set_option maxRecDepth 8000 in
/-- `unevenOps` is drawn; its longest path has six nodes, and the drawing six columns. -/
example : Consistent (Op.run {} unevenOps) ∧ (∀ n ∈ (Op.run {} unevenOps).getNodes, Supported n) ∧ Acyclic (Op.run {} unevenOps) ∧
    SplitsApart (Op.run {} unevenOps) ∧ (∃ d', generateLayout 30 (Op.run {} unevenOps) = .ok d') ∧
    (computeLongestPath 30 (Op.run {} unevenOps)).map (fun r => (r.1.map (·.1), r.2)) = .ok (["s", "g", "a", "b", "j", "e"], 6) := by
  have h := consistent_of_allowed _ uneven_allowed
  refine ⟨h, by decide, acyclic_of_feeds h (fun n => ["s", "g", "a", "b", "c", "j", "e"].idxOf n.1) (by decide), ?_, ?_, by decide⟩
  · unfold SplitsApart
    decide
  · obtain ⟨grid, hg, hp⟩ := ok_of_check (x := (topologicalSort 30 (Op.run {} unevenOps) ((byType (Op.run {} unevenOps)).map ncOf)).bind fun r =>
      gridLayout 30 (Op.run {} unevenOps) r.1) (fun grid => decide (∀ n ∈ (Op.run {} unevenOps).getNodes, ∃ c ∈ grid, c.nodeId = n.1)) (by decide +kernel)
    obtain ⟨d', h1, -⟩ := layout_at h hg (of_decide_eq_true hp)
    exact ⟨d', h1⟩

end Bpmn.Props

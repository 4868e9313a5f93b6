import Verif.Lemmas.BlockLines
/-!
# C117: the layout metrics of drawings made by `generate_layout`
-/
set_option linter.unusedSimpArgs false
set_option linter.unusedVariables false

namespace Bpmn.Props
open Bpmn Spec Layouter LayoutMetrics

theorem lines_route (n m : Node) (sx sy tx ty : Int) :
    (lines (route n m sx sy tx ty)).length = if Bends n ∨ sy ≠ ty ∧ Bends m then 2 else 1 := by
  unfold route
  by_cases c : Bends n
  · simp [c, lines]
  · by_cases c2 : sy ≠ ty ∧ Bends m
    · simp [c, c2, lines]
    · rw [if_neg c, if_neg c2, if_neg fun k => k.elim c c2]
      rfl

open Classical in
/-- **C117 (segments).** In a drawing made by `generate_layout` every flow counts once, and the flows with a bend count twice. -/
theorem C117_segments (d d' : Diagram) (h : Consistent d) (hp : d.graph.edges.Pairwise fun e f => ¬SamePair e.u e.v f.u f.v) {fuel : Nat}
    (hl : generateLayout fuel d = .ok d') (num : String → Py Rat) (hnum : ReadsIntegers num) :
    countSegments num d' = .ok (d.getFlows.length + d'.getFlows.countP fun f => decide (Turns d' f)) := by
  obtain ⟨ls, hls⟩ := flows_drawn h hp hl
  have hs := layout_sameBut hl
  unfold countSegments
  rw [segments_along hnum (hls.imp fun _ _ k => k.along)]
  have hlen : d.getFlows.length = d'.getFlows.length := by
    have := congrArg List.length hs.flows
    simpa using this.symm
  simp only [except_bind_ok, except_pure, hlen]
  congr 1
  clear hlen
  revert hls
  generalize d'.getFlows = fs
  intro hls
  induction hls with
  | nil => rfl
  | @cons f l fs ls k _ ih =>
    rw [List.flatMap_cons, List.length_append, ih, List.length_cons, List.countP_cons]
    have key : (lines l).length = 1 + if decide (Turns d' f) = true then 1 else 0 := by
      obtain ⟨-, n, hn, m, hm, -, f1, f2, sx, sy, tx, ty, ⟨n', a1, a2⟩, ⟨m', a3, a4⟩, rfl⟩ := k
      rw [lines_route]
      have i1 := (Spec.Consistent.mem_of_getNodeById a1).2
      have i2 := (Spec.Consistent.mem_of_getNodeById a3).2
      have t1 : Bends n' ↔ Bends n := by unfold Bends; rw [same_node h hs hn a1]
      have t2 : Bends m' ↔ Bends m := by unfold Bends; rw [same_node h hs hm a3]
      have iff : Turns d' f ↔ (Bends n ∨ sy ≠ ty ∧ Bends m) := by
        constructor
        · rintro ⟨u, v, sx', sy', tx', ty', g1, g2, g3, g4, g5, g6, g7⟩
          rw [f1] at g1
          rw [f2] at g2
          have e1 := Option.some.inj g1
          have e2 := Option.some.inj g2
          rw [← e1, a1] at g3
          rw [← e2, a3] at g4
          cases g3
          cases g4
          obtain ⟨-, rfl⟩ := at_inj a2 g5
          obtain ⟨-, rfl⟩ := at_inj a4 g6
          rw [t1, t2] at g7
          exact g7
        · intro c
          exact ⟨n', m', sx, sy, tx, ty, by rw [i1]; exact f1, by rw [i2]; exact f2, by rw [i1]; exact a1, by rw [i2]; exact a3, a2, a4, by rw [t1, t2]; exact c⟩
      simp only [decide_eq_true_eq, iff]
      split <;> rfl
    omega

/-- The nodes of a drawing are in the cells of a grid. -/
theorem drawnAt_cell {d d' : Diagram} {fuel : Nat} (hl : generateLayout fuel d = .ok d') {n : Node} {x y : Int} (h : DrawnAt d' n x y) :
    ∃ col row : Int, x = 150 * col + 50 ∧ y = 100 * row + 50 := by
  obtain ⟨n', h1, h2⟩ := h
  have hm := (Spec.Consistent.mem_of_getNodeById h1).1
  obtain ⟨all, sorted, back, grid, ns, ws, -, -, -, h4, -, rfl⟩ := layout_steps hl
  obtain ⟨n0, hn0, c, hc, rfl⟩ := setCoordinates_ok h4 n' hm
  have : At (atCell n0 c) (c.col * 150 + 50) (c.row * 100 + 50) := ⟨rfl, rfl⟩
  obtain ⟨rfl, rfl⟩ := at_inj h2 this
  exact ⟨c.col, c.row, by omega, by omega⟩

theorem crossed {d d' : Diagram} {num : String → Py Rat} {segs : List Segment} (h : getFlowsSegments num d'.getFlows = .ok segs) {s t : Segment}
    (hs : s ∈ segs) (ht : t ∈ segs) (hc : crossTest s t = true) : ∃ k, 0 < k ∧ countCrossingPoints num d' = .ok k :=
  ⟨countCrossings segs.reverse, countCrossings_pos (List.mem_reverse.2 hs) (List.mem_reverse.2 ht) hc, by simp [countCrossingPoints, h]⟩

/-- **C117 (joins).** Wherever a flow enters a gateway from below, coming from a node that is no gateway, and a flow leaves the gateway to a node in
another row than that one, the metric counts a crossing: the flow that enters is drawn to the top of the gateway, through its centre. -/
theorem C117_join_crossed (d d' : Diagram) (h : Consistent d) (hp : d.graph.edges.Pairwise fun e f => ¬SamePair e.u e.v f.u f.v) {fuel : Nat}
    (hl : generateLayout fuel d = .ok d') (num : String → Py Rat) (hnum : ReadsIntegers num) (p j t : Node) (hpn : p ∈ d.getNodes) (hj : j ∈ d.getNodes)
    (ht : t ∈ d.getNodes) (hpj : Feeds p j) (hjt : Feeds j t) (bp : ¬Bends p) (bj : Bends j) {px py jx jy tx ty : Int}
    (ap : DrawnAt d' p px py) (aj : DrawnAt d' j jx jy) (at' : DrawnAt d' t tx ty) (hlow : jy < py) (hrow : ty ≠ py) :
    ∃ k, 0 < k ∧ countCrossingPoints num d' = .ok k := by
  obtain ⟨segs, h1, -, h3⟩ := drawing_lines h hp hl hnum
  obtain ⟨-, ry, -, ey⟩ := drawnAt_cell hl aj
  obtain ⟨-, rt, -, et⟩ := drawnAt_cell hl at'
  refine crossed (d := d) h1 (s := seg (jx + 50) (py + 50) (jx + 50) jy) (t := seg (jx + 50) (jy + 50) (jx + 50) (ty + 50))
    (h3 p hpn j hj hpj _ _ _ _ ap aj _ ?_) (h3 j hj t ht hjt _ _ _ _ aj at' _ ?_) ?_
  · unfold route
    rw [if_neg bp, if_pos ⟨by omega, bj⟩]
    exact List.mem_cons_of_mem _ List.mem_cons_self
  · unfold route
    rw [if_pos bj]
    exact List.mem_cons_self
  · rw [crossTest_seg (by omega) (by omega)]
    omega

/-- **C117 (splits).** Wherever two flows leave a gateway to nodes in two different rows, both below it or both above it, the metric counts a crossing. -/
theorem C117_split_crossed (d d' : Diagram) (h : Consistent d) (hp : d.graph.edges.Pairwise fun e f => ¬SamePair e.u e.v f.u f.v) {fuel : Nat}
    (hl : generateLayout fuel d = .ok d') (num : String → Py Rat) (hnum : ReadsIntegers num) (g t u : Node) (hg : g ∈ d.getNodes) (ht : t ∈ d.getNodes)
    (hu : u ∈ d.getNodes) (hgt : Feeds g t) (hgu : Feeds g u) (bg : Bends g) {gx gy tx ty ux uy : Int}
    (ag : DrawnAt d' g gx gy) (at' : DrawnAt d' t tx ty) (au : DrawnAt d' u ux uy) (hside : (gy < ty ∧ ty < uy) ∨ (uy < ty ∧ ty < gy)) :
    ∃ k, 0 < k ∧ countCrossingPoints num d' = .ok k := by
  obtain ⟨segs, h1, -, h3⟩ := drawing_lines h hp hl hnum
  refine crossed (d := d) h1 (s := seg (gx + 50) (ty + 50) tx (ty + 50)) (t := seg (gx + 50) (gy + 50) (gx + 50) (uy + 50))
    (h3 g hg t ht hgt _ _ _ _ ag at' _ ?_) (h3 g hg u hu hgu _ _ _ _ ag au _ ?_) ?_
  · unfold route
    rw [if_pos bg]
    exact List.mem_cons_of_mem _ List.mem_cons_self
  · unfold route
    rw [if_pos bg]
    exact List.mem_cons_self
  · rw [crossTest_seg (by omega) (by omega)]
    omega

/-- **C117.** The number of crossings that the metric counts in the drawing of a line of steps and blocks, whose blocks begin and end with gateways: it is
the sum of the numbers for its blocks, and they depend on the numbers of branches alone. -/
theorem C117_crossings (d : Diagram) (h : Consistent d) (hp : d.graph.edges.Pairwise fun e f => ¬SamePair e.u e.v f.u f.v) (ps : List Piece)
    (hb : Blocks d ps) (hg : ∀ p ∈ ps, Gated p) (num : String → Py Rat) (hnum : ReadsIntegers num) :
    ∃ bound, ∀ fuel ≥ bound, ∃ d', generateLayout fuel d = .ok d' ∧ countCrossingPoints num d' = .ok (crossingsOf ps) := by
  obtain ⟨bound, H⟩ := C87_blocks_are_laid_out d h ps hb
  refine ⟨bound, fun fuel hf => ?_⟩
  obtain ⟨d', h1, h2⟩ := H fuel hf
  refine ⟨d', h1, ?_⟩
  obtain ⟨r, R, segs, h3, h4⟩ := drawing_routes h hp h1 hnum
  have h5 := (pieces_lines h R ps 1 hb.parts hg hb.line (fun n hn => hb.nodes.mem_iff.1 hn) (hb.nodes.nodup_iff.2 h.ids.of_map) hb.stop h2).1
  simp only [countCrossingPoints, h3, except_bind_ok, except_pure]
  rw [← h5, countCrossings_perm ((List.reverse_perm segs).trans h4)]
  congr 1
  exact countCrossings_perm ((hb.nodes.symm.flatMap_right outs).flatMap_right _)

theorem chain_links {d : Diagram} : ∀ {c : List Node}, Links d c → List.IsChain Link c
  | [], _ => .nil
  | [_], _ => .singleton _
  | a :: b :: c, h => .cons_cons (let ⟨i, h1, h2, _⟩ := h.1; ⟨i, h1, h2⟩) (chain_links h.2)

theorem chain_end {d : Diagram} : ∀ {c : List Node}, Links d c → ∀ n ∈ c.getLast?, outs n = []
  | [], _, n, hn => by simp at hn
  | [a], h, n, hn => by
    simp only [List.getLast?_singleton, Option.mem_def, Option.some.injEq] at hn
    subst hn
    exact h
  | a :: b :: c, h, n, hn => chain_end h.2 n (by simpa using hn)

/-- A chain is a line of steps. -/
theorem chain_blocks {d : Diagram} {c : List Node} (h : Chain d c) : Blocks d (c.map Piece.step) := by
  have e : (c.map Piece.step).flatMap Piece.nodes = c := by
    rw [List.flatMap_map]
    exact List.flatMap_singleton' c
  refine ⟨by rw [e]; exact h.nodes, fun n hn => h.supported n (h.nodes.mem_iff.2 hn), ?_, ?_, ?_, ?_⟩
  · intro p hp
    obtain ⟨n, -, rfl⟩ := List.mem_map.1 hp
    trivial
  · rw [List.isChain_map]
    exact chain_links h.links
  · intro p hp
    rw [List.head?_map] at hp
    obtain ⟨n, hn, rfl⟩ := Option.mem_map.1 hp
    exact h.start n hn
  · intro p hp
    rw [List.getLast?_map] at hp
    obtain ⟨n, hn, rfl⟩ := Option.mem_map.1 hp
    exact chain_end h.links n hn

/-- **C117 (lines).** A chain is drawn without crossings. -/
theorem C117_line (d : Diagram) (h : Consistent d) (hp : d.graph.edges.Pairwise fun e f => ¬SamePair e.u e.v f.u f.v) (c : List Node)
    (hc : Chain d c) (num : String → Py Rat) (hnum : ReadsIntegers num) :
    ∃ bound, ∀ fuel ≥ bound, ∃ d', generateLayout fuel d = .ok d' ∧ countCrossingPoints num d' = .ok 0 := by
  have := C117_crossings d h hp _ (chain_blocks hc) (fun p hp => by obtain ⟨n, -, rfl⟩ := List.mem_map.1 hp; trivial) num hnum
  have e : ∀ c : List Node, crossingsOf (c.map Piece.step) = 0 := by
    intro c
    induction c with
    | nil => rfl
    | cons n c ih => exact ih
  rwa [e] at this

theorem crossings_block (pre post : List Piece) (s j : Node) (bs : List (List Node)) (hlen : 2 ≤ bs.length) (hpost : post ≠ []) :
    2 ≤ crossingsOf (pre ++ .block s bs j :: post) := by
  induction pre with
  | nil =>
    rw [List.nil_append, crossingsOf]
    have : post.isEmpty = false := by cases post with | nil => exact absurd rfl hpost | cons => rfl
    rw [this]
    simp only [Bool.false_eq_true, if_false]
    omega
  | cons p pre ih =>
    cases p with
    | step n => exact ih
    | block s' bs' j' =>
      rw [List.cons_append, crossingsOf]
      omega

/-- **C117 (blocks).** A process with a block behind which the line goes on is never drawn without crossings. -/
theorem C117_block_crossed (d : Diagram) (h : Consistent d) (hp : d.graph.edges.Pairwise fun e f => ¬SamePair e.u e.v f.u f.v) (pre post : List Piece)
    (s j : Node) (bs : List (List Node)) (hb : Blocks d (pre ++ .block s bs j :: post)) (hpost : post ≠ [])
    (hg : ∀ p ∈ pre ++ .block s bs j :: post, Gated p) (num : String → Py Rat) (hnum : ReadsIntegers num) :
    ∃ bound, ∀ fuel ≥ bound, ∃ d' k, generateLayout fuel d = .ok d' ∧ countCrossingPoints num d' = .ok k ∧ 2 ≤ k := by
  obtain ⟨bound, H⟩ := C117_crossings d h hp _ hb hg num hnum
  refine ⟨bound, fun fuel hf => ?_⟩
  obtain ⟨d', h1, h2⟩ := H fuel hf
  exact ⟨d', _, h1, h2, crossings_block pre post s j bs (hb.parts (.block s bs j) (by simp)).1 hpost⟩

/-! ### Examples -/

/-- Reading integers. -/
def asRat (s : String) : Py Rat := (pyInt s).map fun k => (k : Rat)

theorem asRat_reads : ReadsIntegers asRat := by
  intro k
  unfold asRat
  rw [pyInt_toString]
  rfl

/-- Where the nodes are drawn, from the cells. -/
theorem layout_at {d : Diagram} (h : Consistent d) {fuel : Nat} {grid : List Cell}
    (hg : ((topologicalSort fuel d ((byType d).map ncOf)).bind fun r => gridLayout fuel d r.1) = .ok grid) (hc : ∀ n ∈ d.getNodes, ∃ c ∈ grid, c.nodeId = n.1) :
    ∃ d', generateLayout fuel d = .ok d' ∧ ∀ n ∈ d.getNodes, ∀ c, grid.find? (fun c => c.nodeId == n.1) = some c →
      DrawnAt d' n (c.col * 150 + 50) (c.row * 100 + 50) := by
  cases hs : topologicalSort fuel d ((byType d).map ncOf) with
  | error e => rw [hs] at hg; cases hg
  | ok r =>
    obtain ⟨sorted, back⟩ := r
    rw [hs] at hg
    obtain ⟨d', ns, h1, h2, h3⟩ := layout_ok h hs hg hc
    refine ⟨d', h1, fun n hn c hf => ?_⟩
    obtain ⟨c', k1, k2⟩ := find_atCell h2 n.1 n (h.getNodeById hn)
    rw [hf] at k1
    cases k1
    exact ⟨_, h3 ▸ k2, rfl, rfl⟩

set_option maxRecDepth 8000 in
/-- The three branches of `threeOps`: one above and one below the line give two crossings, where the flow from below runs through the centre of the
join. -/
example : ∃ bound, ∀ fuel ≥ bound, ∃ d', generateLayout fuel (Op.run {} threeOps) = .ok d' ∧ countCrossingPoints asRat d' = .ok 2 := by
  refine C117_crossings _ (consistent_of_allowed _ three_allowed) (Sane.empty.run threeOps).onePerPair _ three_blocks ?_ asRat asRat_reads
  intro p hp
  simp only [threePieces, List.mem_cons, List.not_mem_nil, or_false] at hp
  rcases hp with rfl | rfl | rfl
  · trivial
  · refine ⟨by decide, by decide, ?_⟩
    intro b hb
    simp only [List.mem_cons, List.not_mem_nil, or_false] at hb
    rcases hb with rfl | rfl | rfl <;> decide
  · trivial

set_option maxRecDepth 8000 in
/-- The drawing of `splitOps`: the branch below the line enters the join, from which the line goes on. -/
example : ∃ d', generateLayout 20 (Op.run {} splitOps) = .ok d' ∧ ∃ k, 0 < k ∧ countCrossingPoints asRat d' = .ok k := by
  obtain ⟨d', h1, h2⟩ := layout_at (consistent_of_allowed _ split_allowed) split_grid (by decide)
  refine ⟨d', h1, ?_⟩
  refine C117_join_crossed _ d' (consistent_of_allowed _ split_allowed) (Sane.empty.run splitOps).onePerPair h1 asRat asRat_reads
    ((Op.run {} splitOps).getNodes[3]'(by decide)) ((Op.run {} splitOps).getNodes[4]'(by decide)) ((Op.run {} splitOps).getNodes[5]'(by decide))
    (List.getElem_mem _) (List.getElem_mem _) (List.getElem_mem _) (by decide) (by decide) (by decide) (by decide)
    (h2 _ (List.getElem_mem _) ⟨4, 3, "t2"⟩ (by decide)) (h2 _ (List.getElem_mem _) ⟨2, 4, "j"⟩ (by decide)) (h2 _ (List.getElem_mem _) ⟨2, 5, "e"⟩ (by decide))
    (by decide) (by decide)

/-- A gateway with four branches. -/
def fourOps : List Op :=
  [.createNew "d" "D", .addProcess "p" false true "None" "PL" "P", .addParallelGateway "P" "g" "Diverging" none "g",
   .addTask "P" "a" (some "a") "u1", .addTask "P" "b" (some "b") "u2", .addTask "P" "c" (some "c") "u3", .addTask "P" "e" (some "e") "u4",
   .addSequenceFlow "P" "g" "a" "" "f1", .addSequenceFlow "P" "g" "b" "" "f2", .addSequenceFlow "P" "g" "c" "" "f3", .addSequenceFlow "P" "g" "e" "" "f4"]

theorem four_allowed : AllowedHistory {} fourOps := by
  simp [fourOps, AllowedHistory, Allowed, step, declaredNode, declaredFlow, directionArg, directions, chosen]

def fourGrid : List Cell := [⟨2, 1, "g"⟩, ⟨4, 2, "e"⟩, ⟨6, 2, "c"⟩, ⟨0, 2, "b"⟩, ⟨-2, 2, "a"⟩]

set_option maxRecDepth 8000 in
theorem four_grid :
    ((topologicalSort 20 (Op.run {} fourOps) ((byType (Op.run {} fourOps)).map ncOf)).bind fun r =>
      gridLayout 20 (Op.run {} fourOps) r.1) = .ok fourGrid := by decide

set_option maxRecDepth 8000 in
/-- The two branches above the gateway. -/
example : ∃ d', generateLayout 20 (Op.run {} fourOps) = .ok d' ∧ ∃ k, 0 < k ∧ countCrossingPoints asRat d' = .ok k := by
  obtain ⟨d', h1, h2⟩ := layout_at (consistent_of_allowed _ four_allowed) four_grid (by decide)
  refine ⟨d', h1, ?_⟩
  refine C117_split_crossed _ d' (consistent_of_allowed _ four_allowed) (Sane.empty.run fourOps).onePerPair h1 asRat asRat_reads
    ((Op.run {} fourOps).getNodes[0]'(by decide)) ((Op.run {} fourOps).getNodes[2]'(by decide)) ((Op.run {} fourOps).getNodes[1]'(by decide))
    (List.getElem_mem _) (List.getElem_mem _) (List.getElem_mem _) (by decide) (by decide) (by decide)
    (h2 _ (List.getElem_mem _) ⟨2, 1, "g"⟩ (by decide)) (h2 _ (List.getElem_mem _) ⟨0, 2, "b"⟩ (by decide)) (h2 _ (List.getElem_mem _) ⟨-2, 2, "a"⟩ (by decide))
    (by decide)

set_option maxRecDepth 8000 in
/-- `C117_segments` applies to it: all its four flows have a bend. -/
example : ∃ d', generateLayout 20 (Op.run {} fourOps) = .ok d' ∧ countSegments asRat d' = .ok 8 := by
  obtain ⟨d', h1, h2⟩ := layout_at (consistent_of_allowed _ four_allowed) four_grid (by decide)
  refine ⟨d', h1, ?_⟩
  rw [C117_segments _ d' (consistent_of_allowed _ four_allowed) (Sane.empty.run fourOps).onePerPair h1 asRat asRat_reads]
  classical
  have hs := layout_sameBut h1
  have hlen : (Op.run {} fourOps).getFlows.length = 4 := by decide
  have hlen' : d'.getFlows.length = 4 := by
    have := congrArg List.length hs.flows
    rw [List.length_map, List.length_map] at this
    exact this.trans hlen
  rw [List.countP_eq_length.2, hlen, hlen']
  intro f hf
  rw [decide_eq_true_eq]
  obtain ⟨l, k⟩ := flow_drawn (consistent_of_allowed _ four_allowed) (Sane.empty.run fourOps).onePerPair h1 hf
  obtain ⟨n, hn, m, hm, hfeed, f1, f2, sx, sy, tx, ty, ⟨n', a1, a2⟩, ⟨m', a3, a4⟩, -⟩ := k.ends
  have i1 := (Spec.Consistent.mem_of_getNodeById a1).2
  have i2 := (Spec.Consistent.mem_of_getNodeById a3).2
  refine ⟨n', m', sx, sy, tx, ty, by rw [i1]; exact f1, by rw [i2]; exact f2, by rw [i1]; exact a1, by rw [i2]; exact a3, a2, a4, .inl ?_⟩
  unfold Bends
  rw [same_node (consistent_of_allowed _ four_allowed) hs hn a1]
  have only : ∀ n ∈ (Op.run {} fourOps).getNodes, ∀ m ∈ (Op.run {} fourOps).getNodes, Feeds n m → Bends n := by decide
  exact only n hn m hm hfeed

/-- `C117_line` applies to `lineOps`. -/
example : ∃ bound, ∀ fuel ≥ bound, ∃ d', generateLayout fuel (Op.run {} lineOps) = .ok d' ∧ countCrossingPoints asRat d' = .ok 0 := by
  let ns := (Op.run {} lineOps).getNodes
  refine C117_line _ (consistent_of_allowed _ line_allowed) (Sane.empty.run lineOps).onePerPair
    [ns[0]'(by decide), ns[3]'(by decide), ns[2]'(by decide), ns[1]'(by decide)] ⟨by decide, ?_, by decide, ?_⟩ asRat asRat_reads
  · unfold Supported; decide
  · exact ⟨⟨"f1", by decide, by decide, flowFromTo_of_eval (by decide)⟩, ⟨"f2", by decide, by decide, flowFromTo_of_eval (by decide)⟩,
      ⟨"f3", by decide, by decide, flowFromTo_of_eval (by decide)⟩, (by decide : outs (ns[1]'(by decide)) = [])⟩

end Bpmn.Props

import Verif.Lemmas.Clear
import Verif.Props.Width
/-!
# C119: shapes and flows in drawings made by `generate_layout`
-/
set_option linter.unusedSimpArgs false
set_option linter.unusedVariables false

namespace Bpmn.Props
open Bpmn Spec Layouter LayoutMetrics

theorem inShape_at {n : Node} {p : Point} {x y w h : Int} (hp : InShape n p) (ha : At n x y) (hs : Sized n w h) :
    (x : Rat) < p.x ∧ p.x < x + w ∧ (y : Rat) < p.y ∧ p.y < y + h := by
  obtain ⟨x', y', w', h', k1, k2, k3⟩ := hp
  obtain ⟨rfl, rfl⟩ := at_inj ha k1
  have e1 := toString_int_inj (Option.some.inj (hs.1.symm.trans k2.1))
  have e2 := toString_int_inj (Option.some.inj (hs.2.symm.trans k2.2))
  subst e1 e2
  exact k3

/-- **C119 (apart).** If `generate_layout` returns, the shapes of any two nodes that are not wider than 150 and not higher than 100 do not overlap. -/
theorem C119_apart (d d' : Diagram) {fuel : Nat} (hl : generateLayout fuel d = .ok d') (n m : Node) (hn : n ∈ d'.getNodes) (hm : m ∈ d'.getNodes)
    (hne : n.1 ≠ m.1) {w h w' h' : Int} (hs : Sized n w h) (hs' : Sized m w' h') (hw : w ≤ 150) (hh : h ≤ 100) (hw' : w' ≤ 150) (hh' : h' ≤ 100) :
    ¬∃ p, InShape n p ∧ InShape m p := by
  rintro ⟨p, h1, h2⟩
  have hd := C27_distinct_positions d d' hl n hn m hm hne
  obtain ⟨all, sorted, back, grid, ns, ws, -, -, -, h4, -, rfl⟩ := layout_steps hl
  obtain ⟨n0, hn0, c, hc, rfl⟩ := setCoordinates_ok h4 n hn
  obtain ⟨m0, hm0, c', hc', rfl⟩ := setCoordinates_ok h4 m hm
  have a : At (atCell n0 c) (c.col * 150 + 50) (c.row * 100 + 50) := ⟨rfl, rfl⟩
  have a' : At (atCell m0 c') (c'.col * 150 + 50) (c'.row * 100 + 50) := ⟨rfl, rfl⟩
  obtain ⟨p1, p2, p3, p4⟩ := inShape_at h1 a hs
  obtain ⟨q1, q2, q3, q4⟩ := inShape_at h2 a' hs'
  have r1 := lt_trans p1 q2
  have r2 := lt_trans q1 p2
  have r3 := lt_trans p3 q4
  have r4 := lt_trans q3 p4
  norm_cast at r1 r2 r3 r4
  apply hd
  have e1 : c.col = c'.col := by omega
  have e2 : c.row = c'.row := by omega
  rw [a.1, a.2, a'.1, a'.2, e1, e2]

theorem node_after {d d' : Diagram} (h : Consistent d) (hs : SameBut d d') {n n' : Node} (hn : n ∈ d.getNodes) (e : d'.getNodeById n.1 = some n') :
    bareNode n' = bareNode n := by
  obtain ⟨h1, h2⟩ := Spec.Consistent.mem_of_getNodeById e
  have h3 : bareNode n' ∈ d.graph.nodes.map bareNode := by
    rw [← hs.nodes]
    exact List.mem_map_of_mem h1
  obtain ⟨k, hk, ek⟩ := List.mem_map.1 h3
  have h4 : k.1 = n'.1 := by
    have := congrArg Prod.fst ek
    exact this
  have : k = n := List.inj_on_of_nodup_map h.ids hk hn (by rw [h4, h2])
  subst this
  exact ek.symm

theorem sized_after {d d' : Diagram} (h : Consistent d) (hs : SameBut d d') {n n' : Node} (hn : n ∈ d.getNodes) (e : d'.getNodeById n.1 = some n')
    {w k : Int} (hz : Sized n w k) : Sized n' w k := by
  have e := node_after h hs hn e
  have e1 : n'.2.width = n.2.width := by have := congrArg (fun x : Node => x.2.width) e; exact this
  have e2 : n'.2.height = n.2.height := by have := congrArg (fun x : Node => x.2.height) e; exact this
  exact ⟨e1.trans hz.1, e2.trans hz.2⟩

/-- **C119 (wide).** In a chain of nodes, each node that is wider than 150 is drawn over the next one, however wide it is. -/
theorem C119_wide (d : Diagram) (h : Consistent d) (c : List Node) (hc : Chain d c) : ∃ bound, ∀ fuel ≥ bound, ∃ d', generateLayout fuel d = .ok d' ∧
    ∀ k (hk : k + 1 < c.length) (w h w' h' : Int), Sized (c[k]'(by omega)) w h → Sized c[k + 1] w' h' → 150 < w → 0 < h → 0 < w' → 0 < h' →
      ∃ n m p, d'.getNodeById (c[k]'(by omega)).1 = some n ∧ d'.getNodeById c[k + 1].1 = some m ∧ InShape n p ∧ InShape m p := by
  obtain ⟨bound, H⟩ := C32_chain_in_one_row d h c hc
  refine ⟨bound, fun fuel hf => ?_⟩
  obtain ⟨d', h1, h2⟩ := H fuel hf
  refine ⟨d', h1, fun k hk w hh w' hh' s s' g1 g2 g3 g4 => ?_⟩
  obtain ⟨n, n1, n2⟩ := h2 k (by omega)
  obtain ⟨m, m1, m2⟩ := h2 (k + 1) hk
  have sn := sized_after h (layout_sameBut h1) (hc.nodes.mem_iff.1 (List.getElem_mem (by omega))) n1 s
  have sm := sized_after h (layout_sameBut h1) (hc.nodes.mem_iff.1 (List.getElem_mem hk)) m1 s'
  have hx : ∃ x : Rat, 0 < x ∧ x < w' ∧ x + 150 < w := by
    refine ⟨min (w' / 2 : Rat) (((w : Rat) - 150) / 2), ?_, ?_, ?_⟩
    · have a : (0 : Rat) < w' := by exact_mod_cast g3
      have b : (150 : Rat) < w := by exact_mod_cast g1
      apply lt_min <;> linarith
    · have a : (0 : Rat) < w' := by exact_mod_cast g3
      exact lt_of_le_of_lt (min_le_left _ _) (by linarith)
    · have b : (150 : Rat) < w := by exact_mod_cast g1
      have := min_le_right (w' / 2 : Rat) (((w : Rat) - 150) / 2)
      linarith
  have hy : ∃ y : Rat, 0 < y ∧ y < hh ∧ y < hh' := by
    have a : (0 : Rat) < hh := by exact_mod_cast g2
    have b : (0 : Rat) < hh' := by exact_mod_cast g4
    refine ⟨min (hh / 2 : Rat) (hh' / 2), ?_, ?_, ?_⟩
    · apply lt_min <;> linarith
    · exact lt_of_le_of_lt (min_le_left _ _) (by linarith)
    · exact lt_of_le_of_lt (min_le_right _ _) (by linarith)
  obtain ⟨x, x1, x2, x3⟩ := hx
  obtain ⟨y, y1, y2, y3⟩ := hy
  refine ⟨n, m, ⟨150 * (k + 1 + 1) + 50 + x, 250 + y⟩, n1, m1, ⟨_, _, _, _, n2, sn, ?_⟩, ⟨_, _, _, _, m2, sm, ?_⟩⟩
  · push_cast
    refine ⟨by linarith, by linarith, by linarith, by linarith⟩
  · push_cast
    refine ⟨by linarith, by linarith, by linarith, by linarith⟩

/-! ## Flows and shapes -/

theorem vertical {a b e : Int} {p : Point} (h : OnSegment (seg a b a e) p) : p.x = a ∧ min (b : Rat) e ≤ p.y ∧ p.y ≤ max (b : Rat) e := by
  obtain ⟨t, t0, t1, hx, hy⟩ := h
  simp only [seg] at hx hy
  refine ⟨by rw [hx]; ring, ?_, ?_⟩
  · rcases le_total (b : Rat) e with c | c
    · rw [min_eq_left c, hy]; nlinarith
    · rw [min_eq_right c, hy]; nlinarith
  · rcases le_total (b : Rat) e with c | c
    · rw [max_eq_right c, hy]; nlinarith
    · rw [max_eq_left c, hy]; nlinarith

theorem horizontal {a b e : Int} {p : Point} (h : OnSegment (seg a b e b) p) : p.y = b ∧ min (a : Rat) e ≤ p.x ∧ p.x ≤ max (a : Rat) e := by
  obtain ⟨t, t0, t1, hx, hy⟩ := h
  exact vertical (a := b) (b := a) (e := e) (p := ⟨p.y, p.x⟩) ⟨t, t0, t1, hy, hx⟩

/-- The cells that a vertical line in the middle of a column runs through. -/
theorem vertical_cell {k b e : Int} {c r : Int} {q : Node} {p : Point} (h : OnSegment (seg (150 * k + 100) b (150 * k + 100) e) p)
    (ha : At q (150 * c + 50) (100 * r + 50)) (hs : Sized q 100 100) (hi : InShape q p) : c = k ∧ min b e < 100 * r + 150 ∧ 100 * r + 50 < max b e := by
  obtain ⟨h1, h2, h3⟩ := vertical h
  obtain ⟨i1, i2, i3, i4⟩ := inShape_at hi ha hs
  rw [h1] at i1 i2
  have j1 := lt_of_le_of_lt h2 i4
  have j2 := lt_of_lt_of_le i3 h3
  norm_cast at i1 i2 j1 j2
  refine ⟨by omega, by omega, by omega⟩

/-- The cells that a horizontal line in the middle of a row runs through. -/
theorem horizontal_cell {k b e : Int} {c r : Int} {q : Node} {p : Point} (h : OnSegment (seg b (100 * k + 100) e (100 * k + 100)) p)
    (ha : At q (150 * c + 50) (100 * r + 50)) (hs : Sized q 100 100) (hi : InShape q p) : r = k ∧ min b e < 150 * c + 150 ∧ 150 * c + 50 < max b e := by
  obtain ⟨h1, h2, h3⟩ := horizontal h
  obtain ⟨i1, i2, i3, i4⟩ := inShape_at hi ha hs
  rw [h1] at i3 i4
  have j1 := lt_of_le_of_lt h2 i2
  have j2 := lt_of_lt_of_le i1 h3
  norm_cast at i3 i4 j1 j2
  refine ⟨by omega, by omega, by omega⟩

/-- The cells that a route runs through. -/
theorem route_cells {n m q : Node} {c r cn rn cm rm : Int} {p : Point} (hlt : cn < cm) (hz : rn = rm ∨ Bends n ∨ Bends m)
    (ha : At q (150 * c + 50) (100 * r + 50)) (hs : Sized q 100 100) (hi : InShape q p) {s : Segment}
    (hl : s ∈ lines (route n m (150 * cn + 50) (100 * rn + 50) (150 * cm + 50) (100 * rm + 50))) (hp : OnSegment s p) :
    (Bends n ∧ (c = cn ∧ (rn = rm → r = rn) ∨ r = rm ∧ cn ≤ c ∧ c < cm)) ∨ (¬Bends n ∧ rn ≠ rm ∧ (r = rn ∧ cn ≤ c ∧ c ≤ cm ∨ c = cm)) ∨ (rn = rm ∧ r = rn ∧ cn ≤ c ∧ c < cm) := by
  have e1 : ∀ x : Int, 150 * x + 50 + 50 = 150 * x + 100 := fun x => by omega
  have e2 : ∀ x : Int, 100 * x + 50 + 50 = 100 * x + 100 := fun x => by omega
  unfold route at hl
  by_cases c1 : Bends n
  · rw [if_pos c1] at hl
    simp only [lines, e1, e2, List.mem_cons, List.not_mem_nil, or_false] at hl
    refine .inl ⟨c1, ?_⟩
    rcases hl with rfl | rfl
    · obtain ⟨k1, k2, k3⟩ := vertical_cell hp ha hs hi
      exact .inl ⟨k1, by omega⟩
    · obtain ⟨k1, k2, k3⟩ := horizontal_cell hp ha hs hi
      exact .inr ⟨k1, by omega, by omega⟩
  · rw [if_neg c1] at hl
    by_cases c2 : 100 * rn + 50 ≠ 100 * rm + 50 ∧ Bends m
    · rw [if_pos c2] at hl
      simp only [lines, e1, e2, List.mem_cons, List.not_mem_nil, or_false] at hl
      refine .inr (.inl ⟨c1, by omega, ?_⟩)
      rcases hl with rfl | rfl
      · obtain ⟨k1, k2, k3⟩ := horizontal_cell hp ha hs hi
        exact .inl ⟨k1, by omega, by omega⟩
      · exact .inr (vertical_cell hp ha hs hi).1
    · rw [if_neg c2] at hl
      have er : rn = rm := by
        rcases hz with hz | hz | hz
        · exact hz
        · exact absurd hz c1
        · by_contra hne
          exact c2 ⟨by omega, hz⟩
      subst er
      simp only [lines, e1, e2, List.mem_cons, List.not_mem_nil, or_false] at hl
      subst hl
      obtain ⟨k1, k2, k3⟩ := horizontal_cell hp ha hs hi
      exact .inr (.inr ⟨rfl, k1, by omega, by omega⟩)

theorem through_inj {f : Flow} {l l' : List (Int × Int)} (h : Through f l) (h' : Through f l') : l = l' := by
  have := Option.some.inj (h.symm.trans h')
  refine List.map_injective_iff.2 ?_ this
  rintro ⟨a, b⟩ ⟨a', b'⟩ e
  have e1 : a = a' := toString_int_inj (congrArg Prod.fst e)
  have e2 : b = b' := toString_int_inj (congrArg Prod.snd e)
  rw [e1, e2]

/-- Every node of the diagram is drawn, and every drawn node is one of the diagram. -/
theorem nodes_after {d d' : Diagram} (h : Consistent d) {fuel : Nat} (hl : generateLayout fuel d = .ok d') :
    (∀ n ∈ d.getNodes, ∃ n', d'.getNodeById n.1 = some n' ∧ ∃ c r : Int, At n' (150 * c + 50) (100 * r + 50)) ∧
    ∀ q ∈ d'.getNodes, d'.getNodeById q.1 = some q ∧ ∃ n ∈ d.getNodes, n.1 = q.1 := by
  have sb := layout_sameBut hl
  have ids : d'.getNodes.map (·.1) = d.getNodes.map (·.1) := by
    have := congrArg (List.map Prod.fst) sb.nodes
    simp only [List.map_map, Function.comp_def, bareNode] at this
    exact this
  have nd : (d'.getNodes.map (·.1)).Nodup := ids ▸ h.ids
  have find : ∀ q ∈ d'.getNodes, d'.getNodeById q.1 = some q := by
    intro q hq
    cases e : d'.getNodeById q.1 with
    | none =>
      have := List.find?_eq_none.1 e q hq
      simp at this
    | some k =>
      obtain ⟨k1, k2⟩ := Spec.Consistent.mem_of_getNodeById e
      rw [List.inj_on_of_nodup_map nd k1 hq k2]
  constructor
  · intro n hn
    have : n.1 ∈ d'.getNodes.map (·.1) := ids ▸ List.mem_map_of_mem hn
    obtain ⟨q, hq, e⟩ := List.mem_map.1 this
    refine ⟨q, e ▸ find q hq, ?_⟩
    obtain ⟨all, sorted, back, grid, ns, ws, -, -, -, h4, -, rfl⟩ := layout_steps hl
    obtain ⟨n0, hn0, c, hc, rfl⟩ := setCoordinates_ok h4 q hq
    refine ⟨c.col, c.row, ?_⟩
    have : At (atCell n0 c) (c.col * 150 + 50) (c.row * 100 + 50) := ⟨rfl, rfl⟩
    rwa [Int.mul_comm, Int.mul_comm c.row] at this
  · intro q hq
    refine ⟨find q hq, ?_⟩
    have : q.1 ∈ d.getNodes.map (·.1) := ids ▸ List.mem_map_of_mem hq
    exact List.mem_map.1 this

/-- **C119 (clear).** A line of steps and blocks (that begin and end with gateways, and whose branches do not end with gateways), all of whose shapes are of size 100 x 100, is drawn so
that no flow runs through the shape of a node other than its own source and target. -/
theorem C119_clear (d : Diagram) (h : Consistent d) (hp : d.graph.edges.Pairwise fun e f => ¬SamePair e.u e.v f.u f.v) (ps : List Piece)
    (hb : Blocks d ps) (hg : ∀ p ∈ ps, Gated p) (hz : ∀ n ∈ d.getNodes, Sized n 100 100) :
    ∃ bound, ∀ fuel ≥ bound, ∃ d', generateLayout fuel d = .ok d' ∧
      ∀ f ∈ d'.getFlows, ∀ q ∈ d'.getNodes, ∀ p, OnFlow f p → InShape q p → f.2.2.sourceRef = some q.1 ∨ f.2.2.targetRef = some q.1 := by
  obtain ⟨bound, H⟩ := C87_blocks_are_laid_out d h ps hb
  refine ⟨bound, fun fuel hf => ?_⟩
  obtain ⟨d', h1, h2⟩ := H fuel hf
  refine ⟨d', h1, fun f hf q hq p hon hin => ?_⟩
  have sb := layout_sameBut h1
  -- the columns and rows
  have hput : ∀ i, ∃ cr : Int × Int, ∀ n ∈ d.getNodes, n.1 = i → PutAt d' n cr.1 cr.2 := by
    intro i
    by_cases c : ∃ n ∈ d.getNodes, n.1 = i
    · obtain ⟨n, hn, rfl⟩ := c
      obtain ⟨n', k1, c, r, k2⟩ := (nodes_after h h1).1 n hn
      refine ⟨(c, r), fun m hm e => ?_⟩
      exact ⟨n', by rw [e]; exact k1, k2⟩
    · exact ⟨(0, 0), fun m hm e => absurd ⟨m, hm, e⟩ c⟩
  choose cr hcr using hput
  have D : Drawn (fun n x y => (cr n.1).1 = x ∧ (cr n.1).2 = y) 1 ps := by
    refine Drawn.mono ps 1 ?_ h2
    intro n hn x y hxy
    obtain ⟨n1, k1, k2⟩ := hcr n.1 n (hb.nodes.mem_iff.1 hn) rfl
    obtain ⟨n2, k3, k4⟩ := hxy
    rw [k1] at k3
    cases k3
    obtain ⟨e1, e2⟩ := at_inj k2 k4
    exact ⟨by omega, by omega⟩
  obtain ⟨l, ⟨-, al⟩, n, hn, m, hm, hfeed, e1, e2, sx, sy, tx, ty, dn, dm, rfl⟩ := flow_drawn h hp h1 hf
  obtain ⟨l', tl, s, hs, hps⟩ := hon
  obtain rfl := through_inj tl al
  have hmem : ∀ x, x ∈ ps.flatMap Piece.nodes ↔ x ∈ d.getNodes := fun x => hb.nodes.mem_iff
  have K := flow_kinds (col := fun i => (cr i).1) (row := fun i => (cr i).2) h ps 1 hb.parts hg hb.line (fun n hn => (hmem n).1 hn)
    (hb.nodes.nodup_iff.2 h.ids.of_map) hb.stop D n ((hmem n).2 hn) m hm hfeed
  have one := drawn_apart (col := fun i => (cr i).1) (row := fun i => (cr i).2) D
  -- where the ends and the third node are
  have at_eq : ∀ n ∈ d.getNodes, ∀ x y, DrawnAt d' n x y → x = 150 * (cr n.1).1 + 50 ∧ y = 100 * (cr n.1).2 + 50 := by
    intro n hn x y hxy
    obtain ⟨n1, k1, k2⟩ := hcr n.1 n hn rfl
    obtain ⟨n2, k3, k4⟩ := hxy
    rw [k1] at k3
    cases k3
    obtain ⟨e1, e2⟩ := at_inj k4 k2
    exact ⟨e1, e2⟩
  obtain ⟨rfl, rfl⟩ := at_eq n hn _ _ dn
  obtain ⟨rfl, rfl⟩ := at_eq m hm _ _ dm
  obtain ⟨hfind, q0, hq0, eq0⟩ := (nodes_after h h1).2 q hq
  obtain ⟨q1, k1, k2⟩ := hcr q0.1 q0 hq0 rfl
  have eq1 : q1 = q := Option.some.inj (k1.symm.trans (eq0 ▸ hfind))
  subst eq1
  have hsz := sized_after h sb hq0 k1 (hz q0 hq0)
  have hq0' := (hmem q0).2 hq0
  have hlt := K.lt
  suffices q0 = n ∨ q0 = m by
    rcases this with e | e
    · exact .inl (by rw [e1, ← e, eq0])
    · exact .inr (by rw [e2, ← e, eq0])
  have cells := route_cells hlt (by
    rcases K with K | K | K
    · exact .inl K.1
    · exact .inr (.inl K.1)
    · exact .inr (.inr K.2.1)) k2 hsz hin hs hps
  have onen := one q0 hq0' n ((hmem n).2 hn)
  have onem := one q0 hq0' m ((hmem m).2 hm)
  rcases K with ⟨K1, K2⟩ | ⟨K1, K2, K3⟩ | ⟨K1, K2, K3, K4, K5⟩
  · left
    simp only at K1 K2 onen
    have hc : (cr q0.1).1 = (cr n.1).1 ∧ (cr q0.1).2 = (cr n.1).2 := by
      rcases cells with ⟨-, c | c⟩ | c | c
      · exact ⟨c.1, c.2 K1⟩
      · omega
      · exact absurd K1 c.2.1
      · omega
    exact onen hc.2 hc.1
  · left
    have K3 := K3 q0 hq0'
    apply K3
    show (cr q0.1).1 = (cr n.1).1
    simp only at K2
    rcases cells with ⟨-, c | c⟩ | c | c
    · omega
    · omega
    · exact absurd K1 c.1
    · omega
  · have K4 := K4 q0 hq0'
    have K5 := K5 q0 hq0'
    simp only at K3 K4 K5 onen onem
    rcases cells with c | c | c
    · exact absurd c.1 K1
    · by_cases e : (cr q0.1).1 = (cr m.1).1
      · exact .inr (K4 e)
      · exact .inl (onen (by omega) (by omega))
    · exact .inl (onen (by omega) (by omega))

/-- **C119 (nested).** In a diagram without cycles, whose nodes are all of supported types and in which no split leads directly to a join: if a branch of a split (that
is not itself the beginning of a branch) begins with a gateway `a` that splits again, then, if `generate_layout` draws the diagram, a flow that leaves `a` has its bend in
the middle of the first node of another branch, which is neither its source nor its target. -/
theorem C119_nested (d : Diagram) (h : Consistent d) (hp : d.graph.edges.Pairwise fun e f => ¬SamePair e.u e.v f.u f.v)
    (hs : ∀ n ∈ d.getNodes, Supported n) (ha : Acyclic d) (hap : SplitsApart d)
    (s a : Node) (ms : s ∈ d.getNodes) (ma : a ∈ d.getNodes) (hbase : ∀ q ∈ d.getNodes, Feeds q s → ¬Splits q) (ss : Splits s) (fa : Feeds s a) (sa : Splits a) (ba : Bends a) :
    ∃ bound, ∀ fuel ≥ bound, ∀ d', generateLayout fuel d = .ok d' →
      ∃ b ∈ d.getNodes, Feeds s b ∧ ∃ x y, DrawnAt d' b x y ∧ ∃ f ∈ d'.getFlows, f.2.2.sourceRef = some a.1 ∧ a.1 ≠ b.1 ∧ f.2.2.targetRef ≠ some b.1 ∧
        ∃ l, Through f l ∧ (x + 50, y + 50) ∈ l := by
  obtain ⟨order, row, col, bound, ho, hg, hyes, hno⟩ := C85_drawn_on_grid d h hs ha hap
  refine ⟨bound, fun fuel hfuel d' hl => ?_⟩
  by_cases one : OneEach d row col
  case neg => rw [hno one fuel hfuel] at hl; cases hl
  obtain ⟨d2, h1, h2⟩ := hyes one fuel hfuel
  rw [h1] at hl
  cases hl
  obtain ⟨ca, ra, -⟩ := hg.branch s ms a ma fa ss
  have ra := ra hbase
  -- a sibling and a branch of `a` in the same row
  obtain ⟨b, mb, fb, hne, x, mx, fx, er⟩ : ∃ b ∈ d.getNodes, Feeds s b ∧ b.1 ≠ a.1 ∧ ∃ x ∈ d.getNodes, Feeds a x ∧ row x.1 = row b.1 := by
    have pick : ∀ k < (outs s).length, ∀ k' < (outs a).length, branchRow (outs s).length k = branchRow (outs a).length k' →
        row a.1 ≠ row s.1 + branchRow (outs s).length k →
        ∃ b ∈ d.getNodes, Feeds s b ∧ b.1 ≠ a.1 ∧ ∃ x ∈ d.getNodes, Feeds a x ∧ row x.1 = row b.1 := by
      intro k hk k' hk' e hne
      obtain ⟨b, mb, fb, pb⟩ := exists_branch h ho.all ms (fun m hm hf => hap s ms m hm hf ss) hk
      obtain ⟨x, mx, fx, px⟩ := exists_branch h ho.all ma (fun m hm hf => hap a ma m hm hf sa) hk'
      obtain ⟨-, rb, -⟩ := hg.branch s ms b mb fb ss
      obtain ⟨-, -, rx⟩ := hg.branch a ma x mx fx sa
      have rb := rb hbase
      have rx := rx s ms fa ss
      rw [pb] at rb
      rw [px] at rx
      refine ⟨b, mb, fb, fun e' => hne ?_, x, mx, fx, by rw [rx, rb, e]⟩
      rw [← e', rb]
    by_cases c : row a.1 = row s.1 + 2
    · obtain ⟨k, hk, e⟩ := branchRow_above ss
      obtain ⟨k', hk', e'⟩ := branchRow_above sa
      exact pick k hk k' hk' (e.trans e'.symm) (by rw [e]; omega)
    · exact pick 0 (by unfold Splits at ss; omega) 0 (by unfold Splits at sa; omega) (by rw [branchRow_first ss, branchRow_first sa])
        (by rw [branchRow_first ss]; exact c)
  obtain ⟨cb, -⟩ := hg.branch s ms b mb fb ss
  obtain ⟨cx, -⟩ := hg.branch a ma x mx fx sa
  obtain ⟨i, i1, i2⟩ := fx
  obtain ⟨f, hf, e1, e2⟩ : ∃ f ∈ d'.getFlows, f.2.2.sourceRef = some a.1 ∧ f.2.2.targetRef = some x.1 := by
    obtain ⟨u, v, e, k1, k2, k3, k4⟩ := feeds_flow h ma mx i1 i2
    have hmem : (u, v, e) ∈ d.getFlows := pyFind_mem k1
    obtain ⟨f', hf', e'⟩ := flow_after (layout_sameBut h1) hmem
    obtain ⟨-, e2, e3⟩ := bareFlow_refs e'
    exact ⟨f', hf', e2.trans k3, e3.trans k4⟩
  obtain ⟨l, ⟨-, al⟩, n, hn, m, hm, hfeed, g1, g2, sx, sy, tx, ty, dn, dm, rfl⟩ := flow_drawn h hp h1 hf
  obtain rfl := h.node_eq hn ma (Option.some.inj (g1.symm.trans e1))
  obtain rfl := h.node_eq hm mx (Option.some.inj (g2.symm.trans e2))
  have at_eq : ∀ n ∈ d.getNodes, ∀ x y, DrawnAt d' n x y → x = 150 * col n.1 + 50 ∧ y = 100 * row n.1 + 50 := by
    intro n hn x y hxy
    obtain ⟨n1, k1, k2⟩ := h2 n hn
    obtain ⟨n2, k3, k4⟩ := hxy
    rw [k1] at k3
    cases k3
    obtain ⟨e1, e2⟩ := at_inj k4 k2
    exact ⟨e1, e2⟩
  obtain ⟨rfl, rfl⟩ := at_eq n hn _ _ dn
  obtain ⟨rfl, rfl⟩ := at_eq m hm _ _ dm
  refine ⟨b, mb, fb, _, _, h2 b mb, f, hf, e1, hne.symm, ?_, _, al, ?_⟩
  · rw [e2]
    intro e
    rw [Option.some.inj e] at cx
    omega
  · unfold route
    rw [if_pos ba, cb, ← ca, er]
    simp

theorem sized_built (ops : List Op) (h : AllowedHistory {} ops) : ∀ n ∈ (Op.run {} ops).getNodes, Sized n 100 100 := by
  obtain ⟨e, w⟩ := run_empty ops h
  intro n hn
  rw [e] at hn
  simp only [Diagram.getNodes, concretize, List.mem_map] at hn
  obtain ⟨a, ha, rfl⟩ := hn
  obtain ⟨-, -, -, -, -, -, h1, h2⟩ := w.geom a ha
  exact ⟨h1, h2⟩

/-- **C119 (built).** In a diagram built by any allowed sequence of calls and drawn by `generate_layout`, no two shapes overlap. -/
theorem C119_built (ops : List Op) (h : AllowedHistory {} ops) (d' : Diagram) {fuel : Nat} (hl : generateLayout fuel (Op.run {} ops) = .ok d') :
    ∀ n ∈ d'.getNodes, ∀ m ∈ d'.getNodes, n.1 ≠ m.1 → ¬∃ p, InShape n p ∧ InShape m p := by
  have hc := consistent_of_allowed ops h
  have sb := layout_sameBut hl
  have sz : ∀ n ∈ d'.getNodes, Sized n 100 100 := by
    intro n hn
    obtain ⟨h1, n0, h2, h3⟩ := (nodes_after hc hl).2 n hn
    exact sized_after hc sb h2 (h3 ▸ h1) (sized_built ops h n0 h2)
  intro n hn m hm hne
  exact C119_apart _ d' hl n m hn hm hne (sz n hn) (sz m hm) (by decide) (by decide) (by decide) (by decide)

/-! ## Concrete cases -/

set_option maxRecDepth 8000 in
/-- `C119_built` and with it `C119_apart` apply to `unevenOps`; two of its seven nodes. -/
example : ∃ d', generateLayout 30 (Op.run {} unevenOps) = .ok d' ∧ ∃ n ∈ d'.getNodes, ∃ m ∈ d'.getNodes, n.1 = "b" ∧ m.1 = "c" ∧ ¬∃ p, InShape n p ∧ InShape m p := by
  have h := consistent_of_allowed _ uneven_allowed
  obtain ⟨grid, hg, hp⟩ := ok_of_check (x := (topologicalSort 30 (Op.run {} unevenOps) ((byType (Op.run {} unevenOps)).map ncOf)).bind fun r =>
    gridLayout 30 (Op.run {} unevenOps) r.1) (fun grid => decide (∀ n ∈ (Op.run {} unevenOps).getNodes, ∃ c ∈ grid, c.nodeId = n.1)) (by decide +kernel)
  obtain ⟨d', h1, -⟩ := layout_at h hg (of_decide_eq_true hp)
  refine ⟨d', h1, ?_⟩
  obtain ⟨n, n1, -⟩ := (nodes_after h h1).1 ((Op.run {} unevenOps).getNodes[3]'(by decide)) (List.getElem_mem _)
  obtain ⟨m, m1, -⟩ := (nodes_after h h1).1 ((Op.run {} unevenOps).getNodes[4]'(by decide)) (List.getElem_mem _)
  obtain ⟨n2, n3⟩ := Spec.Consistent.mem_of_getNodeById n1
  obtain ⟨m2, m3⟩ := Spec.Consistent.mem_of_getNodeById m1
  have e1 : n.1 = "b" := n3.trans (by decide)
  have e2 : m.1 = "c" := m3.trans (by decide)
  exact ⟨n, n2, m, m2, e1, e2, C119_built _ uneven_allowed d' h1 n n2 m m2 (by rw [e1, e2]; decide)⟩

set_option maxRecDepth 8000 in
/-- The three branches of `threeOps`, drawn without running through any other node. -/
example : ∃ bound, ∀ fuel ≥ bound, ∃ d', generateLayout fuel (Op.run {} threeOps) = .ok d' ∧
    ∀ f ∈ d'.getFlows, ∀ q ∈ d'.getNodes, ∀ p, OnFlow f p → InShape q p → f.2.2.sourceRef = some q.1 ∨ f.2.2.targetRef = some q.1 := by
  refine C119_clear _ (consistent_of_allowed _ three_allowed) (Sane.empty.run threeOps).onePerPair _ three_blocks ?_ (sized_built _ three_allowed)
  intro p hp
  simp only [threePieces, List.mem_cons, List.not_mem_nil, or_false] at hp
  rcases hp with rfl | rfl | rfl
  · trivial
  · refine ⟨by decide, by decide, ?_⟩
    intro b hb
    simp only [List.mem_cons, List.not_mem_nil, or_false] at hb
    rcases hb with rfl | rfl | rfl <;> decide
  · trivial

/-- The chain of `lineOps`, as it might be loaded from a file with larger shapes. -/
def wideLine : Diagram :=
  let d := Op.run {} lineOps
  { d with graph := { d.graph with nodes := d.graph.nodes.map fun n => (n.1, { n.2 with width := some "400" }) } }

theorem consistent_check {d : Diagram} (h1 : (d.getNodes.map (·.1)).Nodup)
    (h2 : ∀ n ∈ d.getNodes, n.2.incoming.isSome ∧ n.2.outgoing.isSome ∧ (ins n).Nodup ∧ (outs n).Nodup) (h3 : ∀ n ∈ d.getNodes, n.2.type.isSome)
    (out : ∀ n ∈ d.getNodes, ∀ i ∈ outs n, ∃ m ∈ d.getNodes,
      (d.getFlowById i).map (fun r => r.map fun f => (f.2.2.id, f.2.2.sourceRef, f.2.2.targetRef)) = .ok (some (some i, some n.1, some m.1)) ∧ i ∈ ins m)
    (inn : ∀ m ∈ d.getNodes, ∀ i ∈ ins m, ∃ n ∈ d.getNodes,
      (d.getFlowById i).map (fun r => r.map fun f => (f.2.2.id, f.2.2.sourceRef, f.2.2.targetRef)) = .ok (some (some i, some n.1, some m.1)) ∧ i ∈ outs n)
    (h4 : (d.getFlows.map (·.2.2.id)).Nodup)
    (li : ∀ f ∈ d.getFlows, ∃ i ∈ f.2.2.id.toList, ∃ n ∈ d.getNodes, f.2.2.sourceRef = some n.1 ∧ i ∈ outs n) : Consistent d := by
  refine ⟨h1, h2, h3, ?_, ?_, h4, ?_⟩
  · intro n hn i hi
    obtain ⟨m, hm, h1, h2⟩ := out n hn i hi
    exact ⟨m, hm, flowFromTo_of_eval h1, h2⟩
  · intro m hm i hi
    obtain ⟨n, hn, h1, h2⟩ := inn m hm i hi
    exact ⟨n, hn, flowFromTo_of_eval h1, h2⟩
  · intro f hf
    obtain ⟨i, hi, n, hn, h1, h2⟩ := li f hf
    exact ⟨i, n, hn, by simpa using hi, h1, h2⟩

/-- Its first node is drawn over the second one. -/
example : ∃ bound, ∀ fuel ≥ bound, ∃ d', generateLayout fuel wideLine = .ok d' ∧
    ∃ n m p, d'.getNodeById "s" = some n ∧ d'.getNodeById "a" = some m ∧ InShape n p ∧ InShape m p := by
  have h : Consistent wideLine := consistent_check (by decide +kernel) (by decide +kernel) (by decide +kernel) (by decide +kernel) (by decide +kernel)
    (by decide +kernel) (by decide +kernel)
  let ns := wideLine.getNodes
  have hc : Chain wideLine [ns[0]'(by decide), ns[3]'(by decide), ns[2]'(by decide), ns[1]'(by decide)] := by
    refine ⟨by decide, by unfold Supported; decide, by decide, ?_⟩
    exact ⟨⟨"f1", by decide, by decide, flowFromTo_of_eval (by decide)⟩, ⟨"f2", by decide, by decide, flowFromTo_of_eval (by decide)⟩,
      ⟨"f3", by decide, by decide, flowFromTo_of_eval (by decide)⟩, (by decide : outs (ns[1]'(by decide)) = [])⟩
  obtain ⟨bound, H⟩ := C119_wide wideLine h _ hc
  refine ⟨bound, fun fuel hf => ?_⟩
  obtain ⟨d', h1, h2⟩ := H fuel hf
  exact ⟨d', h1, h2 0 (by decide) 400 100 400 100 (by unfold Sized; decide) (by unfold Sized; decide) (by decide) (by decide) (by decide) (by decide)⟩

/-- A gateway one of whose two branches begins with a gateway, and the other one with the end. -/
def acrossOps : List Op :=
  [.createNew "d" "D", .addProcess "p" false true "None" "PL" "P",
   .addStartEvent "P" "s" none false true (some "s") "u1" "u2",
   .addExclusiveGateway "P" "g" "Diverging" none none "g", .addExclusiveGateway "P" "h" "Diverging" none none "h",
   .addEndEvent "P" "e" none (some "e") "u7" "u8", .addTask "P" "a" (some "a") "u4", .addTask "P" "b" (some "b") "u5",
   .addSequenceFlow "P" "s" "g" "" "f1", .addSequenceFlow "P" "g" "h" "" "f2", .addSequenceFlow "P" "g" "e" "" "f3",
   .addSequenceFlow "P" "h" "a" "" "f4", .addSequenceFlow "P" "h" "b" "" "f5"]

theorem across_allowed : AllowedHistory {} acrossOps := by
  simp [acrossOps, AllowedHistory, Allowed, step, declaredNode, declaredFlow, directionArg, directions, chosen]

set_option maxRecDepth 8000 in
/-- `acrossOps` is drawn, with a flow from the second gateway through the end event. -/
example : (∃ d', generateLayout 30 (Op.run {} acrossOps) = .ok d') ∧ ∃ bound, ∀ fuel ≥ bound, ∀ d', generateLayout fuel (Op.run {} acrossOps) = .ok d' →
    ∃ b ∈ (Op.run {} acrossOps).getNodes, ∃ x y, DrawnAt d' b x y ∧ ∃ f ∈ d'.getFlows, f.2.2.sourceRef = some "h" ∧ "h" ≠ b.1 ∧ f.2.2.targetRef ≠ some b.1 ∧
      ∃ l, Through f l ∧ (x + 50, y + 50) ∈ l := by
  have h := consistent_of_allowed _ across_allowed
  constructor
  · obtain ⟨grid, hg, hp⟩ := ok_of_check (x := (topologicalSort 30 (Op.run {} acrossOps) ((byType (Op.run {} acrossOps)).map ncOf)).bind fun r =>
      gridLayout 30 (Op.run {} acrossOps) r.1) (fun grid => decide (∀ n ∈ (Op.run {} acrossOps).getNodes, ∃ c ∈ grid, c.nodeId = n.1)) (by decide +kernel)
    obtain ⟨d', h1, -⟩ := layout_at h hg (of_decide_eq_true hp)
    exact ⟨d', h1⟩
  · obtain ⟨bound, H⟩ := C119_nested _ h (Sane.empty.run acrossOps).onePerPair (by decide)
      (acyclic_of_feeds h (fun n => ["s", "g", "h", "e", "a", "b"].idxOf n.1) (by decide)) (by unfold SplitsApart; decide)
      ((Op.run {} acrossOps).getNodes[1]'(by decide)) ((Op.run {} acrossOps).getNodes[2]'(by decide)) (List.getElem_mem _) (List.getElem_mem _)
      (by decide) (by decide) (by decide) (by decide) (by decide)
    refine ⟨bound, fun fuel hf d' hl => ?_⟩
    obtain ⟨b, mb, -, x, y, h1, f, h2, h3, h4⟩ := H fuel hf d' hl
    have e : ((Op.run {} acrossOps).getNodes[2]'(by decide)).1 = "h" := by decide
    rw [e] at h3 h4
    exact ⟨b, mb, x, y, h1, f, h2, h3, h4⟩

end Bpmn.Props

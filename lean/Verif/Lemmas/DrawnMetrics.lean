import Verif.Spec.DrawnMetrics
import Verif.Lemmas.GridPlan
import Verif.Props.Layouter
import Verif.Props.LayoutMetrics
import Verif.Props.Workflow
import Verif.Props.XmlLosses
import Mathlib.Tactic.Linarith
import Mathlib.Tactic.Ring
import Mathlib.Tactic.FieldSimp
/-!
# The lines of the drawings made by `generate_layout`
-/
set_option linter.unusedSimpArgs false
set_option linter.unusedVariables false

namespace Bpmn.Props
open Bpmn Spec Layouter LayoutMetrics

/-- The waypoints with these corners. -/
def corners (l : List (Int × Int)) : List (String × String) := l.map fun p => (toString p.1, toString p.2)

theorem toString_int_inj {a b : Int} (h : toString a = toString b) : a = b := by
  have e := pyInt_toString a
  rw [h, pyInt_toString b] at e
  exact (Except.ok.inj e).symm

theorem at_inj {n : Node} {x y x' y' : Int} (h : At n x y) (h' : At n x' y') : x = x' ∧ y = y' := by
  constructor
  · exact toString_int_inj (Option.some.inj (h.1.symm.trans h'.1))
  · exact toString_int_inj (Option.some.inj (h.2.symm.trans h'.2))

theorem drawnAt_inj {d' : Diagram} {n : Node} {x y x' y' : Int} (h : DrawnAt d' n x y) (h' : DrawnAt d' n x' y') : x = x' ∧ y = y' := by
  obtain ⟨a, e, h⟩ := h
  obtain ⟨b, e', h'⟩ := h'
  rw [e] at e'
  cases e'
  exact at_inj h h'

theorem segmentsFrom_corners {num : String → Py Rat} (hn : ReadsIntegers num) (p : Int × Int) (r : List (Int × Int)) :
    segmentsFrom num (toString p.1, toString p.2) (corners r) = .ok (lines (p :: r)) := by
  induction r generalizing p with
  | nil => rfl
  | cons q r ih =>
    simp only [corners, List.map_cons] at ih ⊢
    rw [segmentsFrom, ih q]
    simp only [toPoint, hn p.1, hn p.2, hn q.1, hn q.2, except_bind_ok, except_pure]
    rfl

theorem flowSegments_corners {num : String → Py Rat} (hn : ReadsIntegers num) {l : List (Int × Int)} (hl : l ≠ []) :
    flowSegments num (some (corners l)) = .ok (lines l) := by
  cases l with
  | nil => exact absurd rfl hl
  | cons p r => exact segmentsFrom_corners hn p r

/-- A flow drawn along these corners. -/
def Along (f : Flow) (l : List (Int × Int)) : Prop := l ≠ [] ∧ f.2.2.waypoints = some (corners l)

/-- The segments of flows drawn along given corners. -/
theorem segments_along {num : String → Py Rat} (hn : ReadsIntegers num) {fs : List Flow} {ls : List (List (Int × Int))}
    (h : List.Forall₂ Along fs ls) : getFlowsSegments num fs = .ok (ls.flatMap lines) := by
  induction h with
  | nil => rfl
  | cons h _ ih =>
    rw [getFlowsSegments_cons, h.2, flowSegments_corners hn h.1, ih]
    rfl

theorem route_ne (n m : Node) (sx sy tx ty : Int) : route n m sx sy tx ty ≠ [] := by
  unfold route
  split
  · simp
  · split <;> simp

/-- Where one node of a diagram is found after the layout. -/
theorem same_node {d d' : Diagram} (h : Consistent d) (hs : SameBut d d') {n n' : Node} (hn : n ∈ d.getNodes) (e : d'.getNodeById n.1 = some n') :
    n'.2.type = n.2.type := by
  obtain ⟨h1, h2⟩ := Spec.Consistent.mem_of_getNodeById e
  have h3 : bareNode n' ∈ d.graph.nodes.map bareNode := by
    rw [← hs.nodes]
    exact List.mem_map_of_mem h1
  obtain ⟨k, hk, ek⟩ := List.mem_map.1 h3
  have h4 : k.1 = n'.1 := by
    have := congrArg Prod.fst ek
    exact this
  have : k = n := List.inj_on_of_nodup_map h.ids hk hn (by rw [h4, h2])
  subst this
  exact (congrArg (fun x : Node => x.2.type) ek).symm

/-- What is drawn for a flow between two nodes. -/
structure FlowDrawn (d d' : Diagram) (f : Flow) (l : List (Int × Int)) : Prop where
  along : Along f l
  ends : ∃ n ∈ d.getNodes, ∃ m ∈ d.getNodes, Feeds n m ∧ f.2.2.sourceRef = some n.1 ∧ f.2.2.targetRef = some m.1 ∧
    ∃ sx sy tx ty, DrawnAt d' n sx sy ∧ DrawnAt d' m tx ty ∧ l = route n m sx sy tx ty

/-- The flow before the layout, of a flow after it. -/
theorem flow_before {d d' : Diagram} (hs : SameBut d d') {f' : Flow} (hf : f' ∈ d'.getFlows) : ∃ f ∈ d.getFlows, bareFlow f = bareFlow f' := by
  have h3 : bareFlow f' ∈ d.getFlows.map bareFlow := by
    rw [← hs.flows]
    exact List.mem_map_of_mem hf
  exact List.mem_map.1 h3

/-- The flow after the layout, of a flow before it. -/
theorem flow_after {d d' : Diagram} (hs : SameBut d d') {f : Flow} (hf : f ∈ d.getFlows) : ∃ f' ∈ d'.getFlows, bareFlow f' = bareFlow f := by
  have h3 : bareFlow f ∈ d'.getFlows.map bareFlow := by
    rw [hs.flows]
    exact List.mem_map_of_mem hf
  exact List.mem_map.1 h3

theorem bareFlow_refs {f f' : Flow} (h : bareFlow f = bareFlow f') :
    f.2.2.id = f'.2.2.id ∧ f.2.2.sourceRef = f'.2.2.sourceRef ∧ f.2.2.targetRef = f'.2.2.targetRef := by
  have h1 := congrArg (fun x : Flow => x.2.2.id) h
  have h2 := congrArg (fun x : Flow => x.2.2.sourceRef) h
  have h3 := congrArg (fun x : Flow => x.2.2.targetRef) h
  exact ⟨h1, h2, h3⟩

/-- Every flow is drawn along its route. -/
theorem flow_drawn {d d' : Diagram} (h : Consistent d) (hp : d.graph.edges.Pairwise fun e f => ¬SamePair e.u e.v f.u f.v) {fuel : Nat}
    (hl : generateLayout fuel d = .ok d') {f' : Flow} (hf : f' ∈ d'.getFlows) : ∃ l, FlowDrawn d d' f' l := by
  have hs := layout_sameBut hl
  obtain ⟨f, hf0, e⟩ := flow_before hs hf
  obtain ⟨e1, e2, e3⟩ := bareFlow_refs e
  obtain ⟨i, n, hn, h1, h2, h3⟩ := h.listed f hf0
  obtain ⟨m, hm, ⟨a, b, x, g1, g2, g3, g4⟩, h5⟩ := h.outFlow n hn i h3
  have hmem : (a, b, x) ∈ d.getFlows := pyFind_mem g1
  have ef : (a, b, x) = f := List.inj_on_of_nodup_map h.flowIds hmem hf0 (by simp only [g2, h1])
  subst ef
  obtain ⟨s, t, n', m', w, r1, r2, r3, r4, r5, sx, sy, tx, ty, a1, a2, r6, r7, r8⟩ := C30_routes d d' hp hl f' hf
  have es : n.1 = s := Option.some.inj (by rw [← h2, e2, r1])
  have et : m.1 = t := Option.some.inj (by rw [← g4]; exact e3.trans r2)
  subst es et
  have t1 := same_node h hs hn r3
  have t2 := same_node h hs hm r4
  refine ⟨route n m sx sy tx ty, ⟨route_ne _ _ _ _ _ _, ?_⟩, n, hn, m, hm, ⟨i, h3, h5⟩, r1, r2, sx, sy, tx, ty, ⟨n', r3, a1⟩, ⟨m', r4, a2⟩, rfl⟩
  rw [r5]
  congr 1
  unfold route
  rw [t1] at r6 r7 r8
  rw [t2] at r7 r8
  by_cases c : Bends n
  · rw [if_pos c]; exact r6 c
  · rw [if_neg c]
    by_cases c2 : sy ≠ ty ∧ Bends m
    · rw [if_pos c2]; exact r7 c c2.1 c2.2
    · rw [if_neg c2]
      refine r8 c ?_
      by_cases c3 : sy = ty
      · exact .inl c3
      · exact .inr fun c4 => c2 ⟨c3, c4⟩

/-- All flows are drawn along their routes. -/
theorem flows_drawn {d d' : Diagram} (h : Consistent d) (hp : d.graph.edges.Pairwise fun e f => ¬SamePair e.u e.v f.u f.v) {fuel : Nat}
    (hl : generateLayout fuel d = .ok d') : ∃ ls, List.Forall₂ (FlowDrawn d d') d'.getFlows ls :=
  exists_forall₂ _ fun f hf => flow_drawn h hp hl hf

/-- The lines of a drawing: those of the routes of its flows. -/
theorem drawing_lines {d d' : Diagram} (h : Consistent d) (hp : d.graph.edges.Pairwise fun e f => ¬SamePair e.u e.v f.u f.v) {fuel : Nat}
    (hl : generateLayout fuel d = .ok d') {num : String → Py Rat} (hnum : ReadsIntegers num) :
    ∃ segs, getFlowsSegments num d'.getFlows = .ok segs ∧
      (∀ s ∈ segs, ∃ n ∈ d.getNodes, ∃ m ∈ d.getNodes, Feeds n m ∧
        ∃ sx sy tx ty, DrawnAt d' n sx sy ∧ DrawnAt d' m tx ty ∧ s ∈ lines (route n m sx sy tx ty)) ∧
      ∀ n ∈ d.getNodes, ∀ m ∈ d.getNodes, Feeds n m → ∀ sx sy tx ty, DrawnAt d' n sx sy → DrawnAt d' m tx ty →
        ∀ s ∈ lines (route n m sx sy tx ty), s ∈ segs := by
  obtain ⟨ls, hls⟩ := flows_drawn h hp hl
  refine ⟨ls.flatMap lines, segments_along hnum (hls.imp fun _ _ k => k.along), ?_, ?_⟩
  · intro s hs
    obtain ⟨l, hl', hs⟩ := List.mem_flatMap.1 hs
    obtain ⟨f, -, k⟩ := forall₂_mem_right hls _ hl'
    obtain ⟨n, hn, m, hm, hf, -, -, sx, sy, tx, ty, a1, a2, rfl⟩ := k.ends
    exact ⟨n, hn, m, hm, hf, sx, sy, tx, ty, a1, a2, hs⟩
  · intro n hn m hm hf sx sy tx ty a1 a2 s hs
    obtain ⟨i, hi, hi'⟩ := hf
    obtain ⟨a, b, x, g1, g2, g3, g4⟩ := feeds_flow h hn hm hi hi'
    obtain ⟨f', hf', e⟩ := flow_after (layout_sameBut hl) (pyFind_mem g1)
    obtain ⟨-, e2, e3⟩ := bareFlow_refs e
    obtain ⟨l, hl', k⟩ := forall₂_mem_left hls _ hf'
    obtain ⟨n', hn', m', hm', hf'', f1, f2, sx', sy', tx', ty', b1, b2, rfl⟩ := k.ends
    have en : n' = n := h.node_eq hn' hn (Option.some.inj (by rw [← f1, e2]; exact g3))
    have em : m' = m := h.node_eq hm' hm (Option.some.inj (by rw [← f2, e3]; exact g4))
    subst en em
    obtain ⟨rfl, rfl⟩ := drawnAt_inj a1 b1
    obtain ⟨rfl, rfl⟩ := drawnAt_inj a2 b2
    exact List.mem_flatMap.2 ⟨_, hl', hs⟩

/-! ### Lines that run along one of the axes -/

/-- A line with integer ends. -/
def seg (a b c e : Int) : Segment := ⟨⟨a, b⟩, ⟨c, e⟩⟩

theorem shareEnd_seg (a b c e a' b' c' e' : Int) : ShareEnd (seg a b c e) (seg a' b' c' e') ↔
    (a = a' ∧ b = b') ∨ (a = c' ∧ b = e') ∨ (c = a' ∧ e = b') ∨ (c = c' ∧ e = e') := by
  simp [ShareEnd, seg]

/-- A point of a line is between its ends. -/
theorem onSegment_between {s : Segment} {p : Point} (h : OnSegment s p) :
    (min s.source.x s.target.x ≤ p.x ∧ p.x ≤ max s.source.x s.target.x) ∧ min s.source.y s.target.y ≤ p.y ∧ p.y ≤ max s.source.y s.target.y := by
  obtain ⟨t, t0, t1, hx, hy⟩ := h
  have key : ∀ a b : Rat, min a b ≤ (1 - t) * a + t * b ∧ (1 - t) * a + t * b ≤ max a b := by
    intro a b
    rcases le_total a b with hab | hab
    · rw [min_eq_left hab, max_eq_right hab]
      constructor <;> nlinarith
    · rw [min_eq_right hab, max_eq_left hab]
      constructor <;> nlinarith
  rw [hx, hy]
  exact ⟨key _ _, key _ _⟩

theorem between_onAxis {u v z : Rat} (h1 : min u v ≤ z) (h2 : z ≤ max u v) : ∃ t : Rat, 0 ≤ t ∧ t ≤ 1 ∧ z = (1 - t) * u + t * v := by
  by_cases e : u = v
  · subst e
    simp at h1 h2
    exact ⟨0, by norm_num, by norm_num, by linarith⟩
  · have hne : v - u ≠ 0 := fun k => e (by linarith)
    refine ⟨(z - u) / (v - u), ?_, ?_, by field_simp; ring⟩
    · rcases lt_or_gt_of_ne e with c | c
      · rw [min_eq_left c.le] at h1
        exact div_nonneg (by linarith) (by linarith)
      · rw [max_eq_left c.le] at h2
        exact div_nonneg_of_nonpos (by linarith) (by linarith)
    · rcases lt_or_gt_of_ne e with c | c
      · rw [max_eq_right c.le] at h2
        rw [div_le_one (by linarith)]
        linarith
      · rw [min_eq_right c.le] at h1
        rw [div_le_one_of_neg (by linarith)]
        linarith

/-- The points of a line that runs along an axis. -/
theorem onSegment_seg {a b c e : Int} (h : a = c ∨ b = e) (p : Point) : OnSegment (seg a b c e) p ↔
    (min (a : Rat) c ≤ p.x ∧ p.x ≤ max (a : Rat) c) ∧ min (b : Rat) e ≤ p.y ∧ p.y ≤ max (b : Rat) e := by
  constructor
  · intro k
    have := onSegment_between k
    simp only [seg] at this
    exact this
  rintro ⟨⟨h1, h2⟩, h3, h4⟩
  rcases h with rfl | rfl
  · obtain ⟨t, t0, t1, et⟩ := between_onAxis h3 h4
    refine ⟨t, t0, t1, ?_, et⟩
    simp only [min_self, max_self] at h1 h2
    simp only [seg]
    linarith
  · obtain ⟨t, t0, t1, et⟩ := between_onAxis h1 h2
    refine ⟨t, t0, t1, et, ?_⟩
    simp only [min_self, max_self] at h3 h4
    simp only [seg]
    linarith

/-- Lines that meet overlap in both directions. -/
theorem meet_overlap {a b c e a' b' c' e' : Int} (h : Meet (seg a b c e) (seg a' b' c' e')) :
    (min a c ≤ max a' c' ∧ min a' c' ≤ max a c) ∧ min b e ≤ max b' e' ∧ min b' e' ≤ max b e := by
  obtain ⟨p, h1, h2⟩ := h
  obtain ⟨⟨x1, x2⟩, y1, y2⟩ := onSegment_between h1
  obtain ⟨⟨x3, x4⟩, y3, y4⟩ := onSegment_between h2
  simp only [seg] at x1 x2 y1 y2 x3 x4 y3 y4
  refine ⟨⟨?_, ?_⟩, ?_, ?_⟩
  · exact_mod_cast x1.trans x4
  · exact_mod_cast x3.trans x2
  · exact_mod_cast y1.trans y4
  · exact_mod_cast y3.trans y2

/-- Lines along axes meet exactly if they overlap in both directions. -/
theorem meet_seg {a b c e a' b' c' e' : Int} (h : a = c ∨ b = e) (h' : a' = c' ∨ b' = e') : Meet (seg a b c e) (seg a' b' c' e') ↔
    (min a c ≤ max a' c' ∧ min a' c' ≤ max a c) ∧ min b e ≤ max b' e' ∧ min b' e' ≤ max b e := by
  refine ⟨meet_overlap, ?_⟩
  rintro ⟨⟨h1, h2⟩, h3, h4⟩
  refine ⟨⟨((max (min a c) (min a' c') : Int) : Rat), ((max (min b e) (min b' e') : Int) : Rat)⟩, ?_, ?_⟩
  · rw [onSegment_seg h]
    simp only
    refine ⟨⟨?_, ?_⟩, ?_, ?_⟩
    · exact_mod_cast (by omega : min a c ≤ max (min a c) (min a' c'))
    · exact_mod_cast (by omega : max (min a c) (min a' c') ≤ max a c)
    · exact_mod_cast (by omega : min b e ≤ max (min b e) (min b' e'))
    · exact_mod_cast (by omega : max (min b e) (min b' e') ≤ max b e)
  · rw [onSegment_seg h']
    simp only
    refine ⟨⟨?_, ?_⟩, ?_, ?_⟩
    · exact_mod_cast (by omega : min a' c' ≤ max (min a c) (min a' c'))
    · exact_mod_cast (by omega : max (min a c) (min a' c') ≤ max a' c')
    · exact_mod_cast (by omega : min b' e' ≤ max (min b e) (min b' e'))
    · exact_mod_cast (by omega : max (min b e) (min b' e') ≤ max b' e')

/-- The test of `count_crossing_points` on lines along axes. -/
theorem crossTest_seg {a b c e a' b' c' e' : Int} (h : a = c ∨ b = e) (h' : a' = c' ∨ b' = e') :
    crossTest (seg a b c e) (seg a' b' c' e') = true ↔
      ¬((a = a' ∧ b = b') ∨ (a = c' ∧ b = e') ∨ (c = a' ∧ e = b') ∨ (c = c' ∧ e = e')) ∧
      (min a c ≤ max a' c' ∧ min a' c' ≤ max a c) ∧ min b e ≤ max b' e' ∧ min b' e' ≤ max b e := by
  rw [crossTest_iff, Crosses, shareEnd_seg, meet_seg h h']

/-- Lines that do not overlap do not cross. -/
theorem crossTest_apart {a b c e a' b' c' e' : Int}
    (h : ¬((min a c ≤ max a' c' ∧ min a' c' ≤ max a c) ∧ min b e ≤ max b' e' ∧ min b' e' ≤ max b e)) :
    crossTest (seg a b c e) (seg a' b' c' e') = false := by
  rw [Bool.eq_false_iff, Ne, crossTest_iff, Crosses]
  exact fun k => h (meet_overlap k.2)

/-! ### Counting -/

theorem countCrossings_append (l r : List Segment) :
    countCrossings (l ++ r) = countCrossings l + countCrossings r + (l.map fun s => r.countP (crossTest s)).sum := by
  induction l with
  | nil => simp [countCrossings]
  | cons s l ih =>
    rw [List.cons_append, countCrossings_cons, countCrossings_cons, ih, List.countP_append, List.map_cons, List.sum_cons]
    omega

theorem countCrossings_apart {l r : List Segment} (h : ∀ s ∈ l, ∀ t ∈ r, crossTest s t = false) :
    countCrossings (l ++ r) = countCrossings l + countCrossings r := by
  rw [countCrossings_append]
  have : (l.map fun s => r.countP (crossTest s)).sum = 0 := by
    apply List.sum_eq_zero
    intro k hk
    obtain ⟨s, hs, rfl⟩ := List.mem_map.1 hk
    rw [List.countP_eq_zero]
    intro t ht
    simp [h s hs t ht]
  omega

theorem countCrossings_none {l : List Segment} (h : ∀ s ∈ l, ∀ t ∈ l, crossTest s t = false) : countCrossings l = 0 := by
  induction l with
  | nil => rfl
  | cons s l ih =>
    rw [countCrossings_cons, ih fun a ha b hb => h a (by simp [ha]) b (by simp [hb])]
    simp only [Nat.add_zero, List.countP_eq_zero]
    intro t ht
    simp [h s (by simp) t (by simp [ht])]

theorem countCrossings_pos {l : List Segment} {s t : Segment} (hs : s ∈ l) (ht : t ∈ l) (h : crossTest s t = true) : 0 < countCrossings l := by
  have hne : s ≠ t := by
    rintro rfl
    exact ((crossTest_iff _ _).1 h).1 (.inl rfl)
  induction l with
  | nil => simp at hs
  | cons a l ih =>
    rw [countCrossings_cons]
    rcases List.mem_cons.1 hs with rfl | hs'
    · have : t ∈ l := (List.mem_cons.1 ht).resolve_left (Ne.symm hne)
      have := List.countP_pos_iff.2 ⟨t, this, h⟩
      omega
    · rcases List.mem_cons.1 ht with rfl | ht'
      · have := List.countP_pos_iff.2 ⟨s, hs', (crossTest_symm t s).trans h⟩
        omega
      · have := ih hs' ht'
        omega

end Bpmn.Props

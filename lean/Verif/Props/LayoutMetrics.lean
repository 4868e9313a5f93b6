import Verif.Lemmas.Geometry
import Verif.Lemmas.Paths
import Verif.Props.Construction
import Mathlib.Data.List.Perm.Basic
import Mathlib.Tactic.NormNum
/-!
# Properties C17 - C22: layout quality metrics

`num : String → Py Rat` is any interpretation of coordinate strings as numbers (Python's `float`); all statements hold for every such
interpretation.
-/
set_option linter.unusedSimpArgs false
set_option linter.unusedVariables false

namespace Bpmn.Props
open Bpmn Bpmn.Spec Bpmn.LayoutMetrics

/-! ## C17 -/

/-- **C17.** `do_intersect` is true exactly when the two closed segments have a point in common (degenerate segments included). -/
theorem C17_do_intersect (s1 s2 : Segment) : doIntersect s1 s2 = true ↔ Meet s1 s2 := doIntersect_iff s1 s2

theorem onSegment_flip {P Q X : Point} (h : OnSegment ⟨P, Q⟩ X) : OnSegment ⟨Q, P⟩ X := by
  obtain ⟨t, t0, t1, hx, hy⟩ := h
  refine ⟨1 - t, by linarith, by linarith, ?_, ?_⟩
  · rw [hx]; ring
  · rw [hy]; ring

/-- **C17 (symmetry).** Neither the order of the segments nor the direction of a segment matters. -/
theorem C17_symmetric (P Q A B : Point) :
    doIntersect ⟨P, Q⟩ ⟨A, B⟩ = doIntersect ⟨A, B⟩ ⟨P, Q⟩ ∧
    doIntersect ⟨P, Q⟩ ⟨A, B⟩ = doIntersect ⟨Q, P⟩ ⟨A, B⟩ ∧
    doIntersect ⟨P, Q⟩ ⟨A, B⟩ = doIntersect ⟨P, Q⟩ ⟨B, A⟩ := by
  refine ⟨?_, ?_, ?_⟩ <;> rw [Bool.eq_iff_iff, doIntersect_iff, doIntersect_iff]
  · exact ⟨meet_symm, meet_symm⟩
  · exact ⟨fun ⟨p, a, b⟩ => ⟨p, onSegment_flip a, b⟩, fun ⟨p, a, b⟩ => ⟨p, onSegment_flip a, b⟩⟩
  · exact ⟨fun ⟨p, a, b⟩ => ⟨p, a, onSegment_flip b⟩, fun ⟨p, a, b⟩ => ⟨p, a, onSegment_flip b⟩⟩

/-- Two diagonals of a square meet; a degenerate segment (a point) inside a segment meets it; disjoint collinear segments do not. -/
example : doIntersect ⟨⟨0, 0⟩, ⟨2, 2⟩⟩ ⟨⟨0, 2⟩, ⟨2, 0⟩⟩ = true ∧ doIntersect ⟨⟨1, 1⟩, ⟨1, 1⟩⟩ ⟨⟨0, 0⟩, ⟨2, 2⟩⟩ = true ∧
    doIntersect ⟨⟨0, 0⟩, ⟨1, 0⟩⟩ ⟨⟨2, 0⟩, ⟨3, 0⟩⟩ = false := by
  refine ⟨?_, ?_, ?_⟩ <;> norm_num [doIntersect, orientation, liesOnSegment]

/-! ## C18 -/

/-- Two segments without common end point that have a point in common. -/
def Crosses (s t : Segment) : Prop := ¬ShareEnd s t ∧ Meet s t

theorem crosses_symm {s t : Segment} (h : Crosses s t) : Crosses t s :=
  ⟨fun e => h.1 (by rcases e with e | e | e | e <;> simp [ShareEnd, e]), meet_symm h.2⟩

/-- The test in the inner loop of `count_crossing_points`. -/
def crossTest (s t : Segment) : Bool := segmentsCommonPoints s t == false && doIntersect s t

theorem crossTest_iff (s t : Segment) : crossTest s t = true ↔ Crosses s t := by
  simp only [crossTest, Bool.and_eq_true, beq_iff_eq, doIntersect_iff, Crosses, ← segmentsCommonPoints_iff, Bool.not_eq_true]

theorem crossTest_symm (s t : Segment) : crossTest s t = crossTest t s := by
  rw [Bool.eq_iff_iff, crossTest_iff, crossTest_iff]; exact ⟨crosses_symm, crosses_symm⟩

theorem countCrossings_cons (s : Segment) (l : List Segment) :
    countCrossings (s :: l) = l.countP (crossTest s) + countCrossings l := by
  rw [countCrossings, List.countP_eq_length_filter]
  congr 1
  have := List.length_reverse (as := l.filter (crossTest s))
  rw [← List.filter_reverse] at this
  exact this

theorem countCrossings_perm {l l' : List Segment} (h : l.Perm l') : countCrossings l = countCrossings l' := by
  induction h with
  | nil => rfl
  | cons s h ih => rw [countCrossings_cons, countCrossings_cons, ih, h.countP_eq]
  | swap s t l =>
    simp only [countCrossings_cons, List.countP_cons, crossTest_symm s t]; omega
  | trans _ _ h1 h2 => exact h1.trans h2

/-- Indices satisfying a predicate are as many as elements satisfying it. -/
theorem length_filter_range {α : Type} (l : List α) (p : α → Bool) :
    ((List.range l.length).filter fun i => (l[i]?).any p).length = l.countP p := by
  induction l using List.reverseRecOn with
  | nil => rfl
  | append_singleton l a ih =>
    rw [List.length_append, List.length_singleton, List.range_succ, List.filter_append, List.length_append, List.countP_append, ← ih]
    congr 1
    · congr 1
      apply List.filter_congr
      intro i hi
      rw [List.mem_range] at hi
      rw [List.getElem?_append_left hi]
    · simp [List.filter_cons, List.countP_cons]
      split <;> simp_all

/-- **C18.** The result is the number of unordered pairs of segments that share no end point and have a point in common: `pairs`
lists every such pair of positions `i < j` exactly once. -/
theorem C18_counts_crossing_pairs (num : String → Py Rat) (d : Diagram) (segs : List Segment)
    (h : getFlowsSegments num d.getFlows = .ok segs) :
    ∃ pairs : List (Nat × Nat), pairs.Nodup ∧
      (∀ i j, (i, j) ∈ pairs ↔ i < j ∧ ∃ s t, segs[i]? = some s ∧ segs[j]? = some t ∧ ¬ShareEnd s t ∧ Meet s t) ∧
      countCrossingPoints num d = .ok pairs.length := by
  have key : ∃ pairs : List (Nat × Nat), pairs.Nodup ∧
      (∀ i j, (i, j) ∈ pairs ↔ i < j ∧ ∃ s t, segs[i]? = some s ∧ segs[j]? = some t ∧ ¬ShareEnd s t ∧ Meet s t) ∧
      countCrossings segs.reverse = pairs.length := by
    clear h
    induction segs using List.reverseRecOn with
    | nil => exact ⟨[], by simp, by simp, rfl⟩
    | append_singleton l a ih =>
      obtain ⟨P, p1, p2, p3⟩ := ih
      refine ⟨P ++ ((List.range l.length).filter fun i => (l[i]?).any (crossTest a)).map fun i => (i, l.length), ?_, ?_, ?_⟩
      · rw [List.nodup_append]
        refine ⟨p1, ?_, ?_⟩
        · exact (List.nodup_range.filter _).map (fun a b h => by simpa using h)
        · rintro ⟨i, j⟩ hp q hq e
          subst e
          obtain ⟨-, s, t, h1, h2, -⟩ := (p2 i j).1 hp
          obtain ⟨k, -, hk⟩ := List.mem_map.1 hq
          simp at hk
          rw [← hk.2] at h2
          simp at h2
      · intro i j
        rw [List.mem_append, p2, List.mem_map]
        constructor
        · rintro (⟨hij, s, t, h1, h2, h3⟩ | ⟨k, hk, e⟩)
          · have hi := (List.getElem?_eq_some_iff.1 h1).1
            have hj := (List.getElem?_eq_some_iff.1 h2).1
            exact ⟨hij, s, t, by rw [List.getElem?_append_left hi, h1], by rw [List.getElem?_append_left hj, h2], h3⟩
          · obtain ⟨hk1, hk2⟩ := List.mem_filter.1 hk
            simp at hk1 e
            obtain ⟨rfl, rfl⟩ := e
            rw [List.getElem?_eq_getElem hk1] at hk2
            simp only [Option.any_some, crossTest_iff] at hk2
            exact ⟨hk1, l[k], a, by rw [List.getElem?_append_left hk1, List.getElem?_eq_getElem hk1], by simp, crosses_symm hk2⟩
        · rintro ⟨hij, s, t, h1, h2, h3⟩
          have hjl := (List.getElem?_eq_some_iff.1 h2).1
          simp at hjl
          have hi : i < l.length := by omega
          rw [List.getElem?_append_left hi] at h1
          by_cases hj : j < l.length
          · left
            rw [List.getElem?_append_left hj] at h2
            exact ⟨hij, s, t, h1, h2, h3⟩
          · right
            have e : j = l.length := by omega
            subst e
            simp at h2
            subst h2
            exact ⟨i, List.mem_filter.2 ⟨by simpa using hi, by rw [h1]; simpa [crossTest_iff] using crosses_symm h3⟩, rfl⟩
      · rw [List.reverse_append, List.reverse_singleton, List.singleton_append, countCrossings_cons, p3, List.length_append,
          List.length_map, length_filter_range, List.countP_reverse, Nat.add_comm]
  obtain ⟨P, p1, p2, p3⟩ := key
  exact ⟨P, p1, p2, by simp [countCrossingPoints, h, p3]⟩

/-- Segments of one flow: the waypoints are present, not empty, and the segments are computed without exception. -/
def flowSegments (num : String → Py Rat) (w : Option (List (String × String))) : Py (List Segment) :=
  match w with
  | none => .error .keyError
  | some [] => .error .indexError
  | some (p :: r) => segmentsFrom num p r

theorem getFlowsSegments_cons (num : String → Py Rat) (f : Flow) (fs : List Flow) :
    getFlowsSegments num (f :: fs) = (do
      let s ← flowSegments num f.2.2.waypoints
      let r ← getFlowsSegments num fs
      pure (s ++ r)) := by
  rw [getFlowsSegments]
  cases hw : f.2.2.waypoints with
  | none => simp [flowSegments]
  | some w => cases w <;> simp [flowSegments]

theorem getFlowsSegments_ok_iff (num : String → Py Rat) (fs : List Flow) (segs : List Segment) :
    getFlowsSegments num fs = .ok segs ↔
      ∃ L : List (List Segment), fs.map (fun f => flowSegments num f.2.2.waypoints) = L.map .ok ∧ segs = L.flatten := by
  induction fs generalizing segs with
  | nil =>
    constructor
    · intro h; refine ⟨[], rfl, ?_⟩; simp [getFlowsSegments] at h; simp [h]
    · rintro ⟨L, h1, rfl⟩
      have : L = [] := by cases L <;> simp_all
      subst this; rfl
  | cons f fs ih =>
    rw [getFlowsSegments_cons]
    constructor
    · intro h
      cases hs : flowSegments num f.2.2.waypoints with
      | error e => rw [hs] at h; simp at h
      | ok s =>
        rw [hs] at h
        cases hr : getFlowsSegments num fs with
        | error e => rw [hr] at h; simp at h
        | ok r =>
          rw [hr] at h
          simp at h
          obtain ⟨L, h1, h2⟩ := (ih r).1 hr
          exact ⟨s :: L, by simp [hs, h1], by rw [← h, h2]; rfl⟩
    · rintro ⟨L, h1, rfl⟩
      cases L with
      | nil => simp at h1
      | cons s L =>
        simp only [List.map_cons, List.cons.injEq] at h1
        have := (ih L.flatten).2 ⟨L, h1.2, rfl⟩
        simp [h1.1, this]

/-- **C18 (order of the flows).** If two diagrams have the same waypoint lists in any order, they have the same number of crossings. -/
theorem C18_order_independent (num : String → Py Rat) (d d' : Diagram) (k : Nat)
    (hp : (d.getFlows.map (·.2.2.waypoints)).Perm (d'.getFlows.map (·.2.2.waypoints)))
    (h : countCrossingPoints num d = .ok k) : countCrossingPoints num d' = .ok k := by
  unfold countCrossingPoints at h ⊢
  cases hs : getFlowsSegments num d.getFlows with
  | error e => rw [hs] at h; simp at h
  | ok segs =>
    rw [hs] at h
    simp at h
    obtain ⟨L, h1, h2⟩ := (getFlowsSegments_ok_iff num _ _).1 hs
    have hp' : (L.map (Except.ok : List Segment → Py (List Segment))).Perm
        (d'.getFlows.map (fun f => flowSegments num f.2.2.waypoints)) := by
      rw [← h1]
      have := hp.map (flowSegments num)
      simpa [List.map_map, Function.comp_def] using this
    -- the permuted list consists of successful results too
    let val : Py (List Segment) → List Segment := fun r => match r with | .ok s => s | .error _ => []
    have hL' : d'.getFlows.map (fun f => flowSegments num f.2.2.waypoints) =
        ((d'.getFlows.map (fun f => flowSegments num f.2.2.waypoints)).map val).map .ok := by
      rw [List.map_map]
      conv => lhs; rw [← List.map_id (List.map _ d'.getFlows)]
      apply List.map_congr_left
      intro r hr
      have : r ∈ L.map (Except.ok : List Segment → Py (List Segment)) := hp'.mem_iff.2 hr
      obtain ⟨s, -, rfl⟩ := List.mem_map.1 this
      rfl
    have hseg := (getFlowsSegments_ok_iff num d'.getFlows _).2 ⟨_, hL', rfl⟩
    rw [hseg]
    simp only [except_bind_ok, except_pure, Except.ok.injEq]
    rw [← h]
    apply countCrossings_perm
    apply List.Perm.trans (List.reverse_perm _)
    refine List.Perm.trans ?_ (List.reverse_perm _).symm
    rw [h2]
    apply List.Perm.flatten
    have := hp'.symm.map val
    have e : (L.map (Except.ok : List Segment → Py (List Segment))).map val = L := by
      rw [List.map_map]
      conv => rhs; rw [← List.map_id L]
      apply List.map_congr_left; intro _ _; rfl
    rwa [e] at this

/-- Two flows whose lines cross in the middle: one crossing. -/
def crossing : Diagram :=
  { graph := { nodes := [("a", {}), ("b", {}), ("c", {}), ("e", {})]
               edges := [⟨"a", "b", { waypoints := some [("0", "0"), ("2", "2")] }⟩,
                         ⟨"c", "e", { waypoints := some [("0", "2"), ("2", "0")] }⟩] } }

example : countCrossingPoints (fun s => if s = "0" then .ok 0 else .ok 2) crossing = .ok 1 := by
  have : crossing.getFlows = [("a", "b", { waypoints := some [("0", "0"), ("2", "2")] }),
    ("c", "e", { waypoints := some [("0", "2"), ("2", "0")] })] := by decide
  unfold countCrossingPoints
  rw [this]
  have n2 : (if ("2" : String) = "0" then (.ok 0 : Py Rat) else .ok 2) = .ok 2 := by decide
  norm_num [n2, getFlowsSegments, segmentsFrom, toPoint, countCrossings, segmentsCommonPoints, pointsAreEqual, doIntersect, orientation,
    List.filter_cons]

/-! ## C19 -/

/-- The flow has waypoints, at least one, and (if there is more than one) all coordinates are numbers. -/
def Drawable (num : String → Py Rat) (f : Flow) : Prop :=
  ∃ w, f.2.2.waypoints = some w ∧ w ≠ [] ∧ ∀ p ∈ w, (∃ x, num p.1 = .ok x) ∧ ∃ y, num p.2 = .ok y

theorem segmentsFrom_ok (num : String → Py Rat) (p : String × String) (r : List (String × String))
    (h : ∀ q ∈ p :: r, (∃ x, num q.1 = .ok x) ∧ ∃ y, num q.2 = .ok y) :
    ∃ s, segmentsFrom num p r = .ok s ∧ s.length = r.length := by
  induction r generalizing p with
  | nil => exact ⟨[], rfl, rfl⟩
  | cons q r ih =>
    obtain ⟨s, h1, h2⟩ := ih q (fun q' hq => h q' (List.mem_cons_of_mem _ hq))
    obtain ⟨⟨x, hx⟩, ⟨y, hy⟩⟩ := h p List.mem_cons_self
    obtain ⟨⟨x', hx'⟩, ⟨y', hy'⟩⟩ := h q (by simp)
    exact ⟨⟨⟨x, y⟩, ⟨x', y'⟩⟩ :: s, by simp only [segmentsFrom, toPoint, hx, hy, hx', hy', h1, except_bind_ok, except_pure], by simp [h2]⟩

theorem drawable_segments {num : String → Py Rat} {fs : List Flow} (h : ∀ f ∈ fs, Drawable num f) :
    ∃ s, getFlowsSegments num fs = .ok s ∧ s.length = (fs.map fun f => (f.2.2.waypoints.getD []).length - 1).sum := by
  induction fs with
  | nil => exact ⟨[], rfl, rfl⟩
  | cons f fs ih =>
    obtain ⟨r, h1, h2⟩ := ih (fun g hg => h g (List.mem_cons_of_mem _ hg))
    obtain ⟨w, hw, hne, hp⟩ := h f List.mem_cons_self
    cases w with
    | nil => exact absurd rfl hne
    | cons p w =>
      obtain ⟨s, e1, e2⟩ := segmentsFrom_ok num p w hp
      exact ⟨s ++ r, by rw [getFlowsSegments_cons]; simp [hw, flowSegments, e1, h1], by simp [e2, h2, hw]⟩

/-- **C19.** The number of segments is the sum over the flows of (number of waypoints - 1). -/
theorem C19_count_segments (num : String → Py Rat) (d : Diagram) (h : ∀ f ∈ d.getFlows, Drawable num f) :
    countSegments num d = .ok (d.getFlows.map fun f => (f.2.2.waypoints.getD []).length - 1).sum := by
  obtain ⟨s, h1, h2⟩ := drawable_segments h
  simp [countSegments, h1, h2]

/-- **C19 (exceptions).** The first flow that is not drawable decides: without waypoints `KeyError`, with an empty list `IndexError`. -/
theorem C19_exceptions (num : String → Py Rat) (d : Diagram) (pre post : List Flow) (f : Flow)
    (hd : d.getFlows = pre ++ f :: post) (h : ∀ g ∈ pre, Drawable num g) :
    (f.2.2.waypoints = none → countSegments num d = .error .keyError) ∧
    (f.2.2.waypoints = some [] → countSegments num d = .error .indexError) := by
  have gen : ∀ e, flowSegments num f.2.2.waypoints = .error e → getFlowsSegments num (pre ++ f :: post) = .error e := by
    intro e he
    clear hd
    induction pre with
    | nil => rw [List.nil_append, getFlowsSegments_cons, he]; rfl
    | cons g pre ih =>
      obtain ⟨w, hw, hne, hp⟩ := h g List.mem_cons_self
      cases w with
      | nil => exact absurd rfl hne
      | cons p w =>
        obtain ⟨s, e1, e2⟩ := segmentsFrom_ok num p w hp
        rw [List.cons_append, getFlowsSegments_cons, ih (fun g hg => h g (List.mem_cons_of_mem _ hg))]
        simp [hw, flowSegments, e1]
  constructor
  · intro hw
    simp only [countSegments, hd, gen .keyError (by rw [hw]; rfl), except_bind_error]
  · intro hw
    simp only [countSegments, hd, gen .indexError (by rw [hw]; rfl), except_bind_error]

/-- **C19 (chaining).** Within one flow each segment starts where the previous one ends. -/
theorem C19_segments_chain (num : String → Py Rat) (p : String × String) (r : List (String × String)) (s : List Segment)
    (h : segmentsFrom num p r = .ok s) (i : Nat) (a b : Segment) (ha : s[i]? = some a) (hb : s[i + 1]? = some b) :
    a.target = b.source := by
  induction r generalizing p s i with
  | nil => simp [segmentsFrom] at h; subst h; simp at ha
  | cons q r ih =>
    simp only [segmentsFrom] at h
    cases h1 : toPoint num p with
    | error e => rw [h1] at h; simp at h
    | ok x =>
      cases h2 : toPoint num q with
      | error e => rw [h1, h2] at h; simp at h
      | ok y =>
        cases h3 : segmentsFrom num q r with
        | error e => rw [h1, h2, h3] at h; simp at h
        | ok t =>
          rw [h1, h2, h3] at h
          simp at h
          subst h
          cases i with
          | succ i => exact ih q t h3 i (by simpa using ha) (by simpa using hb)
          | zero =>
            simp at ha
            subst ha
            cases r with
            | nil => simp [segmentsFrom] at h3; subst h3; simp at hb
            | cons q' r =>
              simp only [segmentsFrom, h2] at h3
              cases h4 : toPoint num q' with
              | error e => rw [h4] at h3; simp at h3
              | ok z =>
                cases h5 : segmentsFrom num q' r with
                | error e => rw [h4, h5] at h3; simp at h3
                | ok u =>
                  rw [h4, h5] at h3
                  simp at h3
                  subst h3
                  simp at hb
                  subst hb
                  rfl

example : countSegments (fun s => if s = "0" then .ok 0 else .ok 2) crossing = .ok 2 ∧
    countSegments (fun s => .ok 0) { graph := { nodes := [("a", {}), ("b", {})], edges := [⟨"a", "b", {}⟩] } } = .error .keyError := by
  constructor
  · have : crossing.getFlows = [("a", "b", { waypoints := some [("0", "0"), ("2", "2")] }),
      ("c", "e", { waypoints := some [("0", "2"), ("2", "0")] })] := by decide
    unfold countSegments
    rw [this]; rfl
  · have : ({ graph := { nodes := [("a", {}), ("b", {})], edges := [⟨"a", "b", {}⟩] } } : Diagram).getFlows = [("a", "b", {})] := by
      decide
    unfold countSegments
    rw [this]; rfl

/-! ## C20 -/

/-- No flow leads from a node to itself. -/
def NoSelfLoop (d : Diagram) : Prop := ∀ f ∈ d.getFlows, f.2.2.sourceRef ≠ f.2.2.targetRef

theorem no_self_of_flows {d : Diagram} (h : Consistent d)
    (hf : NoSelfLoop d) : ∀ n ∈ d.getNodes, ¬Next d n n := by
  intro n hn hx
  obtain ⟨i, hi, f, h1, h2, h3⟩ := hx
  obtain ⟨m, hm, ⟨a, b, e, g1, g2, g3, g4⟩, -⟩ := h.outFlow n hn i hi
  rw [g1] at h1
  simp at h1
  subst h1
  have hmem : (a, b, e) ∈ d.getFlows := by
    unfold Diagram.getFlowById at g1
    exact pyFind_mem g1
  apply hf _ hmem
  simp only at h2 ⊢
  rw [g3, h2]


/-- **C20.** In every consistent diagram without self-loops: from some budget on the search ends; its result `p` is empty or a complete
path (no node twice, from a node without incoming to a node without outgoing flows), the reported length is the number of nodes of `p`,
and no complete path is longer. -/
theorem C20_longest_path (d : Diagram) (h : Consistent d) (hns : NoSelfLoop d) :
    ∃ p, (∀ fuel, 2 * d.getNodes.length < fuel → computeLongestPath fuel d = .ok (p, p.length)) ∧
      (p = [] ∨ CompletePath d p) ∧ ∀ q, CompletePath d q → q.length ≤ p.length := by
  have conv : ∀ n rest, n ∈ d.getNodes → ins n = [] → Tail d n rest → (n :: rest).Nodup → CompletePath d (n :: rest) := by
    intro n rest hn hin t nd
    refine ⟨⟨by simp, ?_, t.2.1, nd⟩, by simpa using hin, t.2.2⟩
    intro m hm
    rcases List.mem_cons.1 hm with rfl | hm
    · exact hn
    · exact t.1 m hm
  have back : ∀ q, CompletePath d q → ∃ n rest, q = n :: rest ∧ n ∈ d.getNodes ∧ ins n = [] ∧ Tail d n rest ∧ (n :: rest).Nodup := by
    intro q hq
    cases q with
    | nil => exact absurd rfl hq.nonempty
    | cons n rest =>
      exact ⟨n, rest, rfl, hq.nodes n (by simp), hq.starts n (by simp), ⟨fun m hm => hq.nodes m (List.mem_cons_of_mem _ hm),
        hq.follows, hq.ends⟩, hq.nodup⟩
  -- the result does not depend on the budget: it is defined for the least one and the same list is found with every larger one
  obtain ⟨p, e1, e2, e3, e4⟩ := computeLongestPath_spec h (2 * d.getNodes.length + 1) (by omega)
  have mono : ∀ fuel, 2 * d.getNodes.length < fuel → computeLongestPath fuel d = .ok (p, p.length) := by
    intro fuel hf
    have h1 := computeLongestPath_mono (d := d) (f := 2 * d.getNodes.length + 1) (g := fuel) (by omega) (r := (p, p.length)) e1
    exact h1
  refine ⟨p, mono, ?_, ?_⟩
  · rcases e2 with e2 | ⟨n, hn, hin, rest, rfl, t⟩
    · exact .inl e2
    · exact .inr (conv n rest hn hin t (e3 (no_self_of_flows h hns)))
  · intro q hq
    obtain ⟨n, rest, rfl, hn, hin, t, nd⟩ := back q hq
    exact e4 n hn hin rest t nd

/-- Start, two branches of different length, one end; the longest path has four nodes. -/
def pathOps : List Op :=
  [.createNew "d" "D", .addProcess "p" false true "None" "PL" "P",
   .addStartEvent "P" "s" none false true (some "s") "u1" "u2", .addTask "P" "a" (some "a") "u4", .addTask "P" "b" (some "b") "u5",
   .addEndEvent "P" "e" none (some "e") "u6" "u7",
   .addSequenceFlow "P" "s" "a" "" "f1", .addSequenceFlow "P" "a" "b" "" "f2", .addSequenceFlow "P" "b" "e" "" "f3",
   .addSequenceFlow "P" "s" "e" "" "f4"]

theorem path_allowed : AllowedHistory {} pathOps := by
  simp [pathOps, AllowedHistory, Allowed, step, declaredNode, declaredFlow, directionArg, directions, chosen]


example : Consistent (Op.run {} pathOps) ∧ NoSelfLoop (Op.run {} pathOps) ∧
    (computeLongestPath 9 (Op.run {} pathOps)).map (fun r => (r.1.map (·.1), r.2)) = .ok (["s", "a", "b", "e"], 4) :=
  ⟨consistent_of_allowed _ path_allowed, by unfold NoSelfLoop; decide, by decide⟩

/-! ## C21 -/

/-- **C21.** In every consistent diagram without self-loops: from some budget on the search ends; its result `q` is the list of tasks and
sub-processes, in order, of a simple path starting in a node without incoming flows (or empty), the reported length is the length of `q`,
and no simple path from a node without incoming flows has more of them. -/
theorem C21_longest_path_tasks (d : Diagram) (h : Consistent d) (hns : NoSelfLoop d) :
    ∃ q, (∀ fuel, 2 * d.getNodes.length < fuel → computeLongestPathTasks fuel d = .ok (q, q.length)) ∧
      (q = [] ∨ ∃ n rest, SimplePath d (n :: rest) ∧ ins n = [] ∧ q = activities (n :: rest)) ∧
      ∀ n rest, SimplePath d (n :: rest) → ins n = [] → (activities (n :: rest)).length ≤ q.length := by
  obtain ⟨q, e1, e2, e3⟩ := computeLongestPathTasks_spec h (no_self_of_flows h hns) (2 * d.getNodes.length + 1) (by omega)
  refine ⟨q, fun fuel hf => computeLongestPathTasks_mono (by omega) e1, ?_, fun n rest hp hi => e3 n rest hi hp⟩
  rcases e2 with e2 | ⟨n, hn, hin, rest, hp, e⟩
  · exact .inl e2
  · exact .inr ⟨n, rest, hp, hin, e⟩

example : Consistent (Op.run {} pathOps) ∧ NoSelfLoop (Op.run {} pathOps) ∧
    (computeLongestPathTasks 9 (Op.run {} pathOps)).map (fun r => (r.1.map (·.1), r.2)) = .ok (["a", "b"], 2) :=
  ⟨consistent_of_allowed _ path_allowed, by unfold NoSelfLoop; decide, by decide⟩

/-! ## C22 -/

/-- **C22 (loops are dropped).** If every node of a consistent diagram has an outgoing flow, the longest path is empty and of length 0,
however many nodes there are. -/
theorem C22_no_sink_no_path (d : Diagram) (h : Consistent d) (ho : ∀ n ∈ d.getNodes, outs n ≠ []) (fuel : Nat)
    (hf : 2 * d.getNodes.length < fuel) : computeLongestPath fuel d = .ok ([], 0) := by
  obtain ⟨p, e1, e2, -, -⟩ := computeLongestPath_spec h fuel hf
  rcases e2 with e2 | ⟨n, hn, -, rest, rfl, t⟩
  · rw [e1, e2]; rfl
  · exfalso
    have hne : n :: rest ≠ [] := by simp
    have hlast := List.getLast_mem hne
    have h1 := t.2.2 _ (List.getLast?_eq_getLast_of_ne_nil hne)
    refine ho _ ?_ h1
    rcases List.mem_cons.1 hlast with e | e
    · rw [e]; exact hn
    · exact t.1 _ e

/-- A start event leading into a cycle of three tasks. -/
def loopOps : List Op :=
  [.createNew "d" "D", .addProcess "p" false true "None" "PL" "P",
   .addStartEvent "P" "s" none false true (some "s") "u1" "u2", .addTask "P" "a" (some "a") "u4", .addTask "P" "b" (some "b") "u5",
   .addTask "P" "c" (some "c") "u6",
   .addSequenceFlow "P" "s" "a" "" "f1", .addSequenceFlow "P" "a" "b" "" "f2", .addSequenceFlow "P" "b" "c" "" "f3",
   .addSequenceFlow "P" "c" "a" "" "f4"]

theorem loop_allowed : AllowedHistory {} loopOps := by
  simp [loopOps, AllowedHistory, Allowed, step, declaredNode, declaredFlow, directionArg, directions, chosen]

example : (Op.run {} loopOps).getNodes.length = 4 ∧ computeLongestPath 9 (Op.run {} loopOps) = .ok ([], 0) := by
  refine ⟨by decide, C22_no_sink_no_path _ (consistent_of_allowed _ loop_allowed) ?_ 9 ?_⟩ <;> decide

/-- A start event, a task with a self-loop, an end event. -/
def selfLoopOps : List Op :=
  [.createNew "d" "D", .addProcess "p" false true "None" "PL" "P",
   .addStartEvent "P" "s" none false true (some "s") "u1" "u2", .addTask "P" "a" (some "a") "u4",
   .addEndEvent "P" "e" none (some "e") "u6" "u7",
   .addSequenceFlow "P" "s" "a" "" "f1", .addSequenceFlow "P" "a" "a" "" "f2", .addSequenceFlow "P" "a" "e" "" "f3"]

theorem selfLoop_allowed : AllowedHistory {} selfLoopOps := by
  simp [selfLoopOps, AllowedHistory, Allowed, step, declaredNode, declaredFlow, directionArg, directions, chosen]

/-- **C22 (self-loops).** There is a diagram, built by allowed calls, on which `compute_longest_path` returns a "path" of four nodes that
visits one of its three nodes twice; the tasks variant counts the single task twice. -/
theorem C22_self_loop_counted_twice : ∃ ops, AllowedHistory {} ops ∧ (Op.run {} ops).getNodes.length = 3 ∧ ∀ fuel, 6 < fuel →
    ∃ p, computeLongestPath fuel (Op.run {} ops) = .ok (p, 4) ∧ p.map (·.1) = ["s", "a", "a", "e"] ∧
      ∃ q, computeLongestPathTasks fuel (Op.run {} ops) = .ok (q, 2) ∧ q.map (·.1) = ["a", "a"] := by
  refine ⟨selfLoopOps, selfLoop_allowed, by decide, ?_⟩
  intro fuel hf
  have h1 : ∃ p, computeLongestPath 7 (Op.run {} selfLoopOps) = .ok (p, 4) ∧ p.map (·.1) = ["s", "a", "a", "e"] := by
    have : (computeLongestPath 7 (Op.run {} selfLoopOps)).map (fun r => (r.1.map (·.1), r.2)) = .ok (["s", "a", "a", "e"], 4) := by decide
    revert this
    generalize computeLongestPath 7 (Op.run {} selfLoopOps) = r
    intro hr
    cases r with
    | error e => simp [Except.map] at hr
    | ok r =>
      obtain ⟨p, k⟩ := r
      simp [Except.map] at hr
      exact ⟨p, by rw [hr.2], hr.1⟩
  have h2 : ∃ q, computeLongestPathTasks 7 (Op.run {} selfLoopOps) = .ok (q, 2) ∧ q.map (·.1) = ["a", "a"] := by
    have : (computeLongestPathTasks 7 (Op.run {} selfLoopOps)).map (fun r => (r.1.map (·.1), r.2)) = .ok (["a", "a"], 2) := by decide
    revert this
    generalize computeLongestPathTasks 7 (Op.run {} selfLoopOps) = r
    intro hr
    cases r with
    | error e => simp [Except.map] at hr
    | ok r =>
      obtain ⟨p, k⟩ := r
      simp [Except.map] at hr
      exact ⟨p, by rw [hr.2], hr.1⟩
  obtain ⟨p, e1, e2⟩ := h1
  obtain ⟨q, e3, e4⟩ := h2
  exact ⟨p, computeLongestPath_mono (by omega) e1, e2, q, computeLongestPathTasks_mono (by omega) e3, e4⟩

/-- **C22 (termination).** Self-loops or not, the search ends on every consistent diagram. -/
theorem C22_terminates (d : Diagram) (h : Consistent d) (fuel : Nat) (hf : 2 * d.getNodes.length < fuel) :
    ∃ p, computeLongestPath fuel d = .ok (p, p.length) := by
  obtain ⟨p, e1, -⟩ := computeLongestPath_spec h fuel hf
  exact ⟨p, e1⟩

end Bpmn.Props

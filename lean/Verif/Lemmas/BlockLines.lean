import Verif.Lemmas.Crossings
import Verif.Props.Blocks
/-!
# The lines of drawings of processes made of steps and blocks
-/
set_option linter.unusedSimpArgs false
set_option linter.unusedVariables false

namespace Bpmn.Props
open Bpmn Spec Layouter LayoutMetrics

/-- What is known of the routes, by the ids of the flows. -/
structure Routes (d d' : Diagram) (r : String → List (Int × Int)) : Prop where
  leg : ∀ n ∈ d.getNodes, ∀ m ∈ d.getNodes, ∀ i ∈ outs n, i ∈ ins m → ∀ sx sy tx ty, DrawnAt d' n sx sy → DrawnAt d' m tx ty →
    r i = route n m sx sy tx ty

theorem outs_nodup {d : Diagram} (h : Consistent d) {l : List Node} (hl : ∀ n ∈ l, n ∈ d.getNodes) (hn : l.Nodup) : (l.flatMap outs).Nodup := by
  rw [List.nodup_flatMap]
  refine ⟨fun n hn => (h.lists n (hl n hn)).2.2.2, ?_⟩
  refine hn.imp_of_mem ?_
  intro a b ha hb hne i hi hi'
  obtain ⟨m, hm, -, h1⟩ := h.outFlow a (hl a ha) i hi
  exact hne (source_unique h (hl a ha) (hl b hb) hm h1 hi hi')

/-- The ids of the flows are those in the outgoing lists. -/
theorem flow_ids {d : Diagram} (h : Consistent d) : (d.getFlows.map (·.2.2.id)).Perm ((d.getNodes.flatMap outs).map some) := by
  apply (List.perm_ext_iff_of_nodup h.flowIds ((outs_nodup h (fun _ k => k) h.ids.of_map).map (Option.some_injective _))).2
  intro i
  constructor
  · intro hi
    obtain ⟨f, hf, rfl⟩ := List.mem_map.1 hi
    obtain ⟨i, n, hn, h1, -, h3⟩ := h.listed f hf
    rw [h1]
    exact List.mem_map_of_mem (List.mem_flatMap.2 ⟨n, hn, h3⟩)
  · intro hi
    obtain ⟨k, hk, rfl⟩ := List.mem_map.1 hi
    obtain ⟨n, hn, hk⟩ := List.mem_flatMap.1 hk
    obtain ⟨m, hm, ⟨a, b, x, g1, g2, -⟩, -⟩ := h.outFlow n hn k hk
    exact List.mem_map.2 ⟨(a, b, x), pyFind_mem g1, g2⟩

/-- The lines of a drawing, flow by flow. -/
theorem drawing_routes {d d' : Diagram} (h : Consistent d) (hp : d.graph.edges.Pairwise fun e f => ¬SamePair e.u e.v f.u f.v) {fuel : Nat}
    (hl : generateLayout fuel d = .ok d') {num : String → Py Rat} (hnum : ReadsIntegers num) :
    ∃ r, Routes d d' r ∧ ∃ segs, getFlowsSegments num d'.getFlows = .ok segs ∧ segs.Perm ((d.getNodes.flatMap outs).flatMap fun i => lines (r i)) := by
  classical
  obtain ⟨ls, hls⟩ := flows_drawn h hp hl
  have hs := layout_sameBut hl
  have hids : d'.getFlows.map (·.2.2.id) = d.getFlows.map (·.2.2.id) := by
    have := congrArg (List.map fun f : Flow => f.2.2.id) hs.flows
    rw [List.map_map, List.map_map] at this
    exact this
  let P : String → List (Int × Int) → Prop := fun i l => ∃ f ∈ d'.getFlows, f.2.2.id = some i ∧ FlowDrawn d d' f l
  let r : String → List (Int × Int) := fun i => if c : ∃ l, P i l then c.choose else []
  -- flows with the same id have the same ends
  have uniq : ∀ f ∈ d'.getFlows, ∀ g ∈ d'.getFlows, f.2.2.id = g.2.2.id → f = g := by
    intro f hf g hg e
    exact List.inj_on_of_nodup_map (by rw [hids]; exact h.flowIds) hf hg e
  have same : ∀ {f : Flow} {l l'}, FlowDrawn d d' f l → FlowDrawn d d' f l' → l = l' := by
    rintro f l l' ⟨-, n, hn, m, hm, -, a1, a2, sx, sy, tx, ty, a3, a4, rfl⟩ ⟨-, n', hn', m', hm', -, b1, b2, sx', sy', tx', ty', b3, b4, rfl⟩
    have en : n = n' := h.node_eq hn hn' (Option.some.inj (a1.symm.trans b1))
    have em : m = m' := h.node_eq hm hm' (Option.some.inj (a2.symm.trans b2))
    subst en em
    obtain ⟨rfl, rfl⟩ := drawnAt_inj a3 b3
    obtain ⟨rfl, rfl⟩ := drawnAt_inj a4 b4
    rfl
  have hr : ∀ f ∈ d'.getFlows, ∀ l, FlowDrawn d d' f l → ∀ i, f.2.2.id = some i → r i = l := by
    intro f hf l k i e
    have c : ∃ l, P i l := ⟨l, f, hf, e, k⟩
    have : r i = c.choose := dif_pos c
    rw [this]
    obtain ⟨g, hg, e', k'⟩ := c.choose_spec
    have : g = f := uniq g hg f hf (e'.trans e.symm)
    subst this
    exact same k' k
  refine ⟨r, ⟨?_⟩, ls.flatMap lines, segments_along hnum (hls.imp fun _ _ k => k.along), ?_⟩
  · intro n hn m hm i hi hi' sx sy tx ty a1 a2
    obtain ⟨a, b, x, g1, g2, g3, g4⟩ := feeds_flow h hn hm hi hi'
    obtain ⟨f', hf', e⟩ := flow_after hs (pyFind_mem g1)
    obtain ⟨e1, e2, e3⟩ := bareFlow_refs e
    obtain ⟨l, hl', k⟩ := forall₂_mem_left hls _ hf'
    rw [hr f' hf' l k i (by rw [e1]; exact g2)]
    obtain ⟨n', hn', m', hm', hf'', f1, f2, sx', sy', tx', ty', b1, b2, rfl⟩ := k.ends
    have en : n' = n := h.node_eq hn' hn (Option.some.inj (by rw [← f1, e2]; exact g3))
    have em : m' = m := h.node_eq hm' hm (Option.some.inj (by rw [← f2, e3]; exact g4))
    subst en em
    obtain ⟨rfl, rfl⟩ := drawnAt_inj a1 b1
    obtain ⟨rfl, rfl⟩ := drawnAt_inj a2 b2
    rfl
  · have e : ls = (d'.getFlows.map (·.2.2.id)).map fun i => r (i.getD "") := by
      have key : ∀ {fs : List Flow} {ls}, List.Forall₂ (FlowDrawn d d') fs ls → (∀ f ∈ fs, f ∈ d'.getFlows) →
          ls = (fs.map (·.2.2.id)).map fun i => r (i.getD "") := by
        intro fs ls H
        induction H with
        | nil => intro _; rfl
        | @cons f l fs ls k _ ih =>
          intro hf
          rw [List.map_cons, List.map_cons, ← ih fun g hg => hf g (by simp [hg])]
          congr 1
          obtain ⟨f0, hf0, e0⟩ := flow_before hs (hf f (by simp))
          obtain ⟨i, n, hn, h1, -⟩ := h.listed f0 hf0
          have hi : f.2.2.id = some i := by rw [← (bareFlow_refs e0).1, h1]
          rw [hi]
          exact (hr f (hf f (by simp)) l k i hi).symm
      exact key hls fun _ k => k
    rw [e, hids]
    have p := ((flow_ids h).map fun i => r (i.getD "")).flatMap_right lines
    refine p.trans ?_
    rw [List.map_map, List.flatMap_map]
    exact List.Perm.refl _

/-! ### The lines of the flows that leave given nodes -/

/-- The lines of the flows that leave the nodes. -/
def leaving (r : String → List (Int × Int)) (l : List Node) : List Segment := (l.flatMap outs).flatMap fun i => lines (r i)

theorem leaving_append (r : String → List (Int × Int)) (a b : List Node) : leaving r (a ++ b) = leaving r a ++ leaving r b := by
  simp [leaving, List.flatMap_append]

theorem leaving_cons (r : String → List (Int × Int)) (n : Node) (b : List Node) : leaving r (n :: b) = leaving r [n] ++ leaving r b :=
  leaving_append r [n] b

theorem leaving_one (r : String → List (Int × Int)) {n : Node} {i : String} (h : outs n = [i]) : leaving r [n] = lines (r i) := by
  simp [leaving, h]

theorem leaving_none (r : String → List (Int × Int)) {n : Node} (h : outs n = []) : leaving r [n] = [] := by
  simp [leaving, h]

/-- A line at height `y`, between `lo` and `hi`. -/
def Level (lo hi y : Int) (s : Segment) : Prop := ∃ a c, s = seg a y c y ∧ lo ≤ a ∧ a ≤ hi ∧ lo ≤ c ∧ c ≤ hi

/-- A line between the vertical lines at `lo` and `hi`. -/
def XIn (lo hi : Int) (s : Segment) : Prop := ∃ a b c e, s = seg a b c e ∧ lo ≤ a ∧ a ≤ hi ∧ lo ≤ c ∧ c ≤ hi

theorem Level.xin {lo hi y : Int} {s : Segment} (h : Level lo hi y s) : XIn lo hi s := by
  obtain ⟨a, c, e, h⟩ := h
  exact ⟨a, y, c, y, e, h⟩

theorem XIn.mono {lo hi lo' hi' : Int} {s : Segment} (h : XIn lo hi s) (h1 : lo' ≤ lo) (h2 : hi ≤ hi') : XIn lo' hi' s := by
  obtain ⟨a, b, c, e, es, h⟩ := h
  exact ⟨a, b, c, e, es, by omega, by omega, by omega, by omega⟩

theorem Level.mono {lo hi y lo' hi' : Int} {s : Segment} (h : Level lo hi y s) (h1 : lo' ≤ lo) (h2 : hi ≤ hi') : Level lo' hi' y s := by
  obtain ⟨a, c, es, h⟩ := h
  exact ⟨a, c, es, by omega, by omega, by omega, by omega⟩

theorem xin_apart {lo hi lo' hi' : Int} {s t : Segment} (h : XIn lo hi s) (h' : XIn lo' hi' t) (hlt : hi < lo') : crossTest s t = false := by
  obtain ⟨a, b, c, e, rfl, h⟩ := h
  obtain ⟨a', b', c', e', rfl, h'⟩ := h'
  exact crossTest_apart (by omega)

theorem flat_apart {lo hi y lo' hi' y' : Int} {s t : Segment} (h : Level lo hi y s) (h' : Level lo' hi' y' t) (hne : y ≠ y') : crossTest s t = false := by
  obtain ⟨a, c, rfl, h⟩ := h
  obtain ⟨a', c', rfl, h'⟩ := h'
  exact crossTest_apart (by omega)

theorem flat_tail {lo hi y Z w y' : Int} {s t : Segment} (h : Level lo hi y s) (ht : t ∈ tailLines Z (w, y')) (hz : hi < Z) (hw : w ≤ Z - 100)
    (hne : y ≠ y' ∨ hi < w) : crossTest s t = false := by
  obtain ⟨a, c, rfl, h⟩ := h
  unfold tailLines at ht
  split at ht
  · simp only [List.mem_singleton] at ht
    subst ht
    rename_i e
    simp only at e
    exact crossTest_apart (by omega)
  · simp only [List.mem_cons, List.not_mem_nil, or_false] at ht
    rcases ht with rfl | rfl
    · exact crossTest_apart (by omega)
    · exact crossTest_apart (by omega)

theorem tail_xin {Z : Int} {p : Int × Int} {t : Segment} (ht : t ∈ tailLines Z p) (hw : p.1 ≤ Z - 100) : XIn p.1 Z t := by
  unfold tailLines at ht
  split at ht
  · simp only [List.mem_singleton] at ht
    subst ht
    exact ⟨_, _, _, _, rfl, by omega⟩
  · simp only [List.mem_cons, List.not_mem_nil, or_false] at ht
    rcases ht with rfl | rfl
    · exact ⟨_, _, _, _, rfl, by omega⟩
    · exact ⟨_, _, _, _, rfl, by omega⟩

/-- A flow between nodes of the same row. -/
theorem flat_leg {n m : Node} {x y x' : Int} (hx : x + 50 ≤ x') :
    (∀ s ∈ lines (route n m x y x' y), Level (x + 50) x' (y + 50) s) ∧
    (∀ s ∈ lines (route n m x y x' y), ∀ t ∈ lines (route n m x y x' y), crossTest s t = false) ∧
    (Bends n → lines (route n m x y x' y) = [seg (x + 50) (y + 50) (x + 50) (y + 50), seg (x + 50) (y + 50) x' (y + 50)]) := by
  unfold route
  by_cases c : Bends n
  · rw [if_pos c]
    have e : lines [(x + 50, y + 50), (x + 50, y + 50), (x', y + 50)] = [seg (x + 50) (y + 50) (x + 50) (y + 50), seg (x + 50) (y + 50) x' (y + 50)] := rfl
    rw [e]
    refine ⟨?_, ?_, fun _ => rfl⟩
    · intro s hs
      simp only [List.mem_cons, List.not_mem_nil, or_false] at hs
      rcases hs with rfl | rfl
      · exact ⟨_, _, rfl, by omega⟩
      · exact ⟨_, _, rfl, by omega⟩
    · intro s hs t ht
      simp only [List.mem_cons, List.not_mem_nil, or_false] at hs ht
      rw [Bool.eq_false_iff, Ne]
      rcases hs with rfl | rfl <;> rcases ht with rfl | rfl <;> rw [crossTest_seg (by omega) (by omega)] <;> omega
  · rw [if_neg c, if_neg fun k => k.1 rfl]
    have e : lines [(x + 50, y + 50), (x', y + 50)] = [seg (x + 50) (y + 50) x' (y + 50)] := rfl
    rw [e]
    refine ⟨?_, ?_, fun k => absurd k c⟩
    · intro s hs
      simp only [List.mem_singleton] at hs
      subst hs
      exact ⟨_, _, rfl, by omega⟩
    · intro s hs t ht
      simp only [List.mem_singleton] at hs ht
      subst hs ht
      rw [Bool.eq_false_iff, Ne, crossTest_seg (by omega) (by omega)]
      omega

/-- The last flow of a branch. -/
theorem tail_leg {n m : Node} {x y x' : Int} (hn : ¬Bends n) (hm : Bends m) : lines (route n m x (y - 50) x' 250) = tailLines (x' + 50) (x + 50, y) := by
  unfold route tailLines
  rw [if_neg hn]
  by_cases c : y = 300
  · subst c
    rw [if_neg (by omega), if_pos rfl]
    have : (x' + 50 : Int) - 50 = x' := by omega
    rw [this]
    rfl
  · rw [if_pos ⟨by omega, hm⟩, if_neg c]
    have : (y - 50 : Int) + 50 = y := by omega
    rw [this]
    rfl

/-- The first flow of a branch. -/
theorem fan_leg {n m : Node} {x y : Int} (hn : Bends n) : lines (route n m x 250 (x + 150) (y - 50)) = fanLines (x + 50) [y] := by
  unfold route
  rw [if_pos hn]
  have : (y - 50 : Int) + 50 = y := by omega
  have h2 : (x + 50 : Int) + 100 = x + 150 := by omega
  simp only [this, fanLines, List.flatMap_cons, List.flatMap_nil, List.append_nil, h2]
  rfl

variable {d d' : Diagram} {r : String → List (Int × Int)}

theorem put_drawn {n : Node} {x y : Int} (h : PutAt d' n x y) : DrawnAt d' n (150 * x + 50) (100 * y + 50) := h

/-- The flows that leave the nodes of a branch. -/
theorem branch_lines (R : Routes d d' r) {j : Node} (hj : j ∈ d.getNodes) (bj : Bends j) {cj rho : Int} (pj : PutAt d' j cj 2) : ∀ (b : List Node) (c : Int),
    b ≠ [] → (∀ n ∈ b, n ∈ d.getNodes) → List.IsChain Link b → (∀ n ∈ b.getLast?, ¬Bends n) → (∀ n ∈ b.getLast?, ∃ i ∈ ins j, outs n = [i]) →
    (∀ (t : Nat) (n : Node), b[t]? = some n → PutAt d' n (c + t) rho) →
    ∃ M, leaving r b = M ++ tailLines (150 * cj + 100) (150 * (c + b.length - 1) + 100, 100 * rho + 100) ∧
      (∀ s ∈ M, Level (150 * c + 100) (150 * (c + b.length - 1) + 50) (100 * rho + 100) s) ∧ ∀ s ∈ M, ∀ t ∈ M, crossTest s t = false
  | [], _, h, _, _, _, _, _ => absurd rfl h
  | [n], c, _, hin, _, hb, hl, hp => by
    obtain ⟨i, hi, ho⟩ := hl n (by simp)
    have h0 := put_drawn (hp 0 n rfl)
    have e := R.leg n (hin n (by simp)) j hj i (by simp [ho]) hi _ _ _ _ h0 (put_drawn pj)
    refine ⟨[], ?_, by simp, by simp⟩
    rw [leaving_one r ho, e, List.nil_append]
    have h1 : (100 * rho + 50 : Int) = (100 * rho + 100) - 50 := by omega
    have h2 : (100 * 2 + 50 : Int) = 250 := by omega
    rw [h1, h2, tail_leg (hb n (by simp)) bj]
    have h3 : (150 * cj + 50 + 50 : Int) = 150 * cj + 100 := by omega
    have h4 : (150 * (c + ((0 : Nat) : Int)) + 50 + 50 : Int) = 150 * (c + (([n] : List Node).length : Int) - 1) + 100 := by simp; omega
    rw [h3, h4]
  | n :: m :: b, c, _, hin, hc, hb, hl, hp => by
    obtain ⟨⟨i, h1, h2⟩, hc'⟩ := List.isChain_cons_cons.1 hc
    have p0 := put_drawn (hp 0 n rfl)
    have p1 := put_drawn (hp 1 m rfl)
    obtain ⟨M, e, f1, f2⟩ := branch_lines R hj bj pj (m :: b) (c + 1) (by simp) (fun x hx => hin x (List.mem_cons_of_mem _ hx)) hc'
      (fun x hx => hb x (by simpa using hx)) (fun x hx => hl x (by simpa using hx))
      (fun t x ht => by
        have := hp (t + 1) x (by simpa using ht)
        have e : (c + 1 + (t : Int)) = c + ((t + 1 : Nat) : Int) := by omega
        rw [e]
        exact this)
    have er := R.leg n (hin n (by simp)) m (hin m (by simp)) i (by simp [h1]) (by simp [h2]) _ _ _ _ p0 p1
    have hlen : (c + 1 + ((m :: b).length : Int) - 1) = c + ((n :: m :: b).length : Int) - 1 := by simp; omega
    rw [hlen] at e f1
    have hx : (150 * (c + ((0 : Nat) : Int)) + 50) + 50 ≤ 150 * (c + ((1 : Nat) : Int)) + 50 := by omega
    obtain ⟨g1, g2, -⟩ := flat_leg (n := n) (m := m) (y := 100 * rho + 50) hx
    rw [← er] at g1 g2
    have g1' : ∀ s ∈ lines (r i), Level (150 * c + 100) (150 * (c + 1) + 50) (100 * rho + 100) s := by
      intro s hs
      have := g1 s hs
      have e1 : (100 * rho + 50 + 50 : Int) = 100 * rho + 100 := by omega
      rw [e1] at this
      exact this.mono (by omega) (by omega)
    refine ⟨lines (r i) ++ M, ?_, ?_, ?_⟩
    · rw [leaving_cons, leaving_one r h1, e, List.append_assoc]
    · intro s hs
      rcases List.mem_append.1 hs with hs | hs
      · refine (g1' s hs).mono (Int.le_refl _) ?_
        simp
        omega
      · exact (f1 s hs).mono (by omega) (Int.le_refl _)
    · have cross : ∀ s ∈ lines (r i), ∀ t ∈ M, crossTest s t = false := fun s hs t ht =>
        xin_apart (g1' s hs).xin (f1 t ht).xin (by omega)
      intro s hs t ht
      rcases List.mem_append.1 hs with hs | hs <;> rcases List.mem_append.1 ht with ht | ht
      · exact g2 s hs t ht
      · exact cross s hs t ht
      · rw [crossTest_symm]; exact cross t ht s hs
      · exact f2 s hs t ht

/-- What is drawn between a split and a join. -/
structure Between (d d' : Diagram) (r : String → List (Int × Int)) (s : Node) (c Z : Int) (bs : List (List Node)) (ys : List Int) (is : List String)
    (M : List Segment) (pts : List (Int × Int)) : Prop where
  count : is.length = bs.length
  firsts : ∀ i ∈ is, i ∈ outs s ∧ ∃ n ∈ bs.flatten, ins n = [i]
  nodup : is.Nodup
  fan : (is.flatMap fun i => lines (r i)) = fanLines (150 * c + 100) ys
  rest : (leaving r bs.flatten).Perm (M ++ pts.flatMap (tailLines Z))
  heights : pts.map Prod.snd = ys
  starts : ∀ p ∈ pts, 150 * (c + 1) + 100 ≤ p.1 ∧ p.1 ≤ Z - 100
  level : ∀ t ∈ M, ∃ y ∈ ys, Level (150 * (c + 1) + 100) (Z - 50) y t
  inside : ∀ t ∈ M, ∀ u ∈ M, crossTest t u = false
  across : ∀ t ∈ M, ∀ u ∈ pts.flatMap (tailLines Z), crossTest t u = false

theorem branches_lines (h : Consistent d) (R : Routes d d' r) {s j : Node} (hs : s ∈ d.getNodes) (bs' : Bends s) (hj : j ∈ d.getNodes) (bj : Bends j)
    {c cj : Int} (ps : PutAt d' s c 2) (pj : PutAt d' j cj 2) (N : Nat) {bs : List (List Node)} {ks : List Nat}
    (hb : ∀ b ∈ bs, b ≠ [] ∧ List.IsChain Link b ∧ (∀ n ∈ b.head?, ∃ i ∈ outs s, ins n = [i]) ∧ ∀ n ∈ b.getLast?, ∃ i ∈ ins j, outs n = [i])
    (hg : ∀ b ∈ bs, ∀ n ∈ b.getLast?, ¬Bends n) (hlen : ∀ b ∈ bs, c + b.length < cj)
    (F : List.Forall₂ (fun (b : List Node) (k : Nat) => ∀ (t : Nat) (n : Node), b[t]? = some n → PutAt d' n (c + 1 + t) (2 + branchRow N k)) bs ks) :
    (∀ n ∈ bs.flatten, n ∈ d.getNodes) → bs.flatten.Nodup → (ks.map (branchHeight N)).Nodup →
    ∃ is M pts, Between d d' r s c (150 * cj + 100) bs (ks.map (branchHeight N)) is M pts := by
  induction F with
  | nil =>
    intro _ _ _
    exact ⟨[], [], [], rfl, by simp, by simp, rfl, by simp [leaving], rfl, by simp, by simp, by simp, by simp⟩
  | @cons b k bs ks hput _ ih =>
    intro hin hnd hys
    rw [List.map_cons] at hys
    rw [List.flatten_cons] at hin hnd
    obtain ⟨is, M, pts, B⟩ := ih (fun x hx => hb x (by simp [hx])) (fun x hx => hg x (by simp [hx])) (fun x hx => hlen x (by simp [hx]))
      (fun n hn => hin n (by simp only [List.mem_append]; exact .inr hn)) (List.nodup_append.1 hnd).2.1 (List.nodup_cons.1 hys).2
    have hyn := (List.nodup_cons.1 hys).1
    obtain ⟨k1, k2, k3, k4⟩ := hb b (by simp)
    have hl := hlen b (by simp)
    obtain ⟨M', e, f1, f2⟩ := branch_lines R hj bj pj b (c + 1) k1 (fun n hn => hin n (by simp [hn])) k2 (hg b (by simp)) k4 hput
    have hh : (100 * (2 + branchRow N k) + 100 : Int) = branchHeight N k := by unfold branchHeight; omega
    rw [hh] at e f1
    have hpos : 1 ≤ b.length := List.length_pos_iff.2 k1
    -- the first flow
    obtain ⟨n, b', rfl⟩ : ∃ n b', b = n :: b' := by cases b with | nil => exact absurd rfl k1 | cons n b' => exact ⟨n, b', rfl⟩
    obtain ⟨i, hi, hi'⟩ := k3 n (by simp)
    have hn := hin n (by simp)
    have p0 := put_drawn (hput 0 n rfl)
    have er := R.leg s hs n hn i hi (by simp [hi']) _ _ _ _ (put_drawn ps) p0
    have e1 : (150 * (c + 1 + ((0 : Nat) : Int)) + 50 : Int) = (150 * c + 50) + 150 := by omega
    have e2 : (100 * (2 + branchRow N k) + 50 : Int) = branchHeight N k - 50 := by omega
    have e3 : (100 * 2 + 50 : Int) = 250 := by omega
    rw [e1, e2, e3] at er
    have elin : lines (r i) = fanLines (150 * c + 100) [branchHeight N k] := by
      rw [er, fan_leg bs']
      have : (150 * c + 50 + 50 : Int) = 150 * c + 100 := by omega
      rw [this]
    have level' : ∀ t ∈ M', Level (150 * (c + 1) + 100) (150 * cj + 100 - 50) (branchHeight N k) t := fun t ht =>
      (f1 t ht).mono (Int.le_refl _) (by omega)
    have old : ∀ t ∈ M, ∀ u ∈ tailLines (150 * cj + 100) (150 * (c + 1 + ((n :: b').length : Int) - 1) + 100, branchHeight N k), crossTest t u = false := by
      intro t ht u hu
      obtain ⟨y, hy, hL⟩ := B.level t ht
      exact flat_tail hL hu (by omega) (by omega) (.inl fun e => hyn (e ▸ hy))
    refine ⟨i :: is, M' ++ M, (150 * (c + 1 + ((n :: b').length : Int) - 1) + 100, branchHeight N k) :: pts, ?_, ?_, ?_, ?_, ?_, ?_, ?_, ?_, ?_, ?_⟩
    · simp [B.count]
    · intro x hx
      rcases List.mem_cons.1 hx with rfl | hx
      · exact ⟨hi, n, by simp, hi'⟩
      · obtain ⟨h1, m, hm, h2⟩ := B.firsts x hx
        exact ⟨h1, m, by rw [List.flatten_cons]; exact List.mem_append_right _ hm, h2⟩
    · rw [List.nodup_cons]
      refine ⟨fun hx => ?_, B.nodup⟩
      obtain ⟨h1, m, hm, h2⟩ := B.firsts i hx
      have : n = m := target_unique h hs hn (hin m (List.mem_append_right _ hm)) hi (by simp [hi']) (by simp [h2])
      subst this
      exact (List.nodup_append.1 hnd).2.2 n (by simp) n hm rfl
    · rw [List.flatMap_cons, B.fan, elin, List.map_cons]
      simp [fanLines]
    · rw [List.flatten_cons, leaving_append, e, List.flatMap_cons]
      refine (List.Perm.append_left _ B.rest).trans ?_
      rw [List.append_assoc, List.append_assoc]
      refine List.Perm.append_left _ ?_
      rw [← List.append_assoc, ← List.append_assoc]
      exact List.Perm.append_right _ List.perm_append_comm
    · simp [B.heights]
    · intro p hp
      rcases List.mem_cons.1 hp with rfl | hp
      · simp only
        constructor <;> omega
      · exact B.starts p hp
    · intro t ht
      rcases List.mem_append.1 ht with ht | ht
      · exact ⟨_, by simp, level' t ht⟩
      · obtain ⟨y, hy, hL⟩ := B.level t ht
        exact ⟨y, by rw [List.map_cons]; exact List.mem_cons_of_mem _ hy, hL⟩
    · have cross : ∀ t ∈ M', ∀ u ∈ M, crossTest t u = false := by
        intro t ht u hu
        obtain ⟨y, hy, hL⟩ := B.level u hu
        exact flat_apart (level' t ht) hL fun e => hyn (e ▸ hy)
      intro t ht u hu
      rcases List.mem_append.1 ht with ht | ht <;> rcases List.mem_append.1 hu with hu | hu
      · exact f2 t ht u hu
      · exact cross t ht u hu
      · rw [crossTest_symm]; exact cross u hu t ht
      · exact B.inside t ht u hu
    · intro t ht u hu
      rw [List.flatMap_cons] at hu
      rcases List.mem_append.1 ht with ht | ht <;> rcases List.mem_append.1 hu with hu | hu
      · exact flat_tail (f1 t ht) hu (by omega) (by omega) (.inr (by omega))
      · obtain ⟨p, hp, hu⟩ := List.mem_flatMap.1 hu
        refine flat_tail (level' t ht) hu (by omega) (B.starts p hp).2 (.inl fun e => hyn ?_)
        rw [e, ← B.heights]
        exact List.mem_map_of_mem hp
      · exact old t ht u hu
      · exact B.across t ht u hu

/-- The crossings in a block, and where its lines are. -/
theorem block_lines (h : Consistent d) (R : Routes d d' r) {s j : Node} {bs : List (List Node)} (hok : (Piece.block s bs j).Ok) (hg : Gated (.block s bs j))
    (hin : ∀ n ∈ (Piece.block s bs j).nodes, n ∈ d.getNodes) (hnd : (Piece.block s bs j).nodes.Nodup) {c : Int}
    (ps : PutAt d' s c 2) {ks : List Nat} (hk : ks.Perm (List.range bs.length))
    (F : List.Forall₂ (fun (b : List Node) (k : Nat) => ∀ (t : Nat) (n : Node), b[t]? = some n → PutAt d' n (c + 1 + t) (2 + branchRow bs.length k)) bs ks)
    (pj : PutAt d' j (c + 1 + longest bs) 2) {O : List Segment}
    (hO : (outs j = [] ∧ O = []) ∨ ∃ i, outs j = [i] ∧ O = lines (r i) ∧ O = outLines (150 * (c + 1 + longest bs) + 100) (150 * (c + 2 + longest bs) + 50)) :
    countCrossings (leaving r (Piece.block s bs j).nodes) =
      2 * (bs.length / 2 * (bs.length / 2 - 1)) + (if outs j = [] then 0 else 2 * (bs.length / 2)) ∧
    ∀ t ∈ leaving r (Piece.block s bs j).nodes, XIn (150 * c + 100) (150 * (c + 2 + longest bs) + 50) t := by
  obtain ⟨o1, o2, o3, o4⟩ := hok
  obtain ⟨g1, g2, g3⟩ := hg
  simp only [Piece.nodes, List.mem_cons, List.mem_append, List.not_mem_nil, or_false] at hin
  simp only [Piece.nodes] at hnd
  have hlen : ∀ b ∈ bs, c + b.length < c + 1 + longest bs := by
    intro b hb
    have : b.length ≤ longest bs := by
      unfold longest
      have : ∀ {l : List Nat} {x}, x ∈ l → x ≤ l.foldr max 0 := by
        intro l
        induction l with
        | nil => simp
        | cons a l ih =>
          intro x hx
          rw [List.foldr_cons]
          rcases List.mem_cons.1 hx with rfl | hx
          · omega
          · have := ih hx
            omega
      exact this (List.mem_map_of_mem hb)
    omega
  have hys : (ks.map (branchHeight bs.length)).Nodup := (hk.map _).nodup_iff.2 (heights_nodup _)
  obtain ⟨is, M, pts, B⟩ := branches_lines h R (hin s (.inl rfl)) g1 (hin j (.inr (.inr rfl))) g2 ps pj bs.length o4 g3 hlen F
    (fun n hn => hin n (.inr (.inl hn))) (List.nodup_append.1 (List.nodup_cons.1 hnd).2).1 hys
  have hperm : is.Perm (outs s) := by
    refine (List.Nodup.subperm B.nodup fun i hi => (B.firsts i hi).1).perm_of_length_le ?_
    rw [B.count, o2]
  have eO : leaving r [j] = O := by
    rcases hO with ⟨h1, h2⟩ | ⟨i, h1, h2, -⟩
    · rw [h2, leaving_none r h1]
    · rw [h2, leaving_one r h1]
  have hall : (leaving r (Piece.block s bs j).nodes).Perm
      (fanLines (150 * c + 100) (ks.map (branchHeight bs.length)) ++ (M ++ (pts.flatMap (tailLines (150 * (c + 1 + longest bs) + 100)) ++ O))) := by
    simp only [Piece.nodes]
    rw [leaving_cons, leaving_append, eO]
    refine List.Perm.append ?_ ?_
    · rw [← B.fan]
      simp only [leaving, List.flatMap_cons, List.flatMap_nil, List.append_nil]
      exact (hperm.symm.flatMap_right _)
    · rw [← List.append_assoc]
      exact B.rest.append_right _
  have hfan : ∀ t ∈ fanLines (150 * c + 100) (ks.map (branchHeight bs.length)), XIn (150 * c + 100) (150 * c + 200) t := by
    intro t ht
    obtain ⟨y, hy, ht⟩ := List.mem_flatMap.1 ht
    simp only [List.mem_cons, List.not_mem_nil, or_false] at ht
    rcases ht with rfl | rfl
    · exact ⟨_, _, _, _, rfl, by omega⟩
    · exact ⟨_, _, _, _, rfl, by omega⟩
  have hM : ∀ t ∈ M, XIn (150 * (c + 1) + 100) (150 * (c + 1 + longest bs) + 50) t := by
    intro t ht
    obtain ⟨y, -, hL⟩ := B.level t ht
    exact hL.xin.mono (Int.le_refl _) (by omega)
  have hT : ∀ t ∈ pts.flatMap (tailLines (150 * (c + 1 + longest bs) + 100)), XIn (150 * (c + 1) + 100) (150 * (c + 1 + longest bs) + 100) t := by
    intro t ht
    obtain ⟨p, hp, ht⟩ := List.mem_flatMap.1 ht
    exact (tail_xin ht (B.starts p hp).2).mono (B.starts p hp).1 (Int.le_refl _)
  have hOx : ∀ t ∈ O, XIn (150 * (c + 1 + longest bs) + 100) (150 * (c + 2 + longest bs) + 50) t := by
    intro t ht
    rcases hO with ⟨-, h2⟩ | ⟨i, -, -, h2⟩
    · rw [h2] at ht
      simp at ht
    · rw [h2] at ht
      simp only [outLines, List.mem_cons, List.not_mem_nil, or_false] at ht
      rcases ht with rfl | rfl
      · exact ⟨_, _, _, _, rfl, by omega⟩
      · exact ⟨_, _, _, _, rfl, by omega⟩
  have hfar : ∀ p ∈ pts, Far p.2 ∧ p.1 ≤ 150 * (c + 1 + longest bs) + 100 - 100 := by
    intro p hp
    refine ⟨?_, (B.starts p hp).2⟩
    have : p.2 ∈ ks.map (branchHeight bs.length) := by
      rw [← B.heights]
      exact List.mem_map_of_mem hp
    obtain ⟨k, -, e⟩ := List.mem_map.1 this
    rw [← e]
    exact far_height _ _
  have hsh : shadowed (ks.map (branchHeight bs.length)) = bs.length / 2 * (bs.length / 2 - 1) := by
    rw [shadowed_perm hys (hk.map _), shadowed_heights]
  have hbelow : (ks.map (branchHeight bs.length)).countP (fun y => decide (300 < y)) = bs.length / 2 := by
    rw [(hk.map (branchHeight bs.length)).countP_eq, below_heights]
  constructor
  · rw [countCrossings_perm hall, countCrossings_apart, fan_count _ hys, countCrossings_apart, countCrossings_none B.inside, hsh]
    · have : countCrossings (pts.flatMap (tailLines (150 * (c + 1 + longest bs) + 100)) ++ O) =
          bs.length / 2 * (bs.length / 2 - 1) + (if outs j = [] then 0 else 2 * (bs.length / 2)) := by
        rcases hO with ⟨h1, h2⟩ | ⟨i, h1, -, h2⟩
        · rw [h2, List.append_nil, tail_count _ (by rw [B.heights]; exact hys) hfar, B.heights, hsh, if_pos h1]
          rfl
        · rw [h2, tails_out (by omega) (by rw [B.heights]; exact hys) hfar, B.heights, hsh, hbelow, if_neg (by simp [h1])]
      rw [this]
      omega
    · intro t ht u hu
      rcases List.mem_append.1 hu with hu | hu
      · exact B.across t ht u hu
      · exact xin_apart (hM t ht) (hOx u hu) (by omega)
    · intro t ht u hu
      rcases List.mem_append.1 hu with hu | hu
      · exact xin_apart (hfan t ht) (hM u hu) (by omega)
      · rcases List.mem_append.1 hu with hu | hu
        · exact xin_apart (hfan t ht) (hT u hu) (by omega)
        · exact xin_apart (hfan t ht) (hOx u hu) (by omega)
  · intro t ht
    have ht := hall.mem_iff.1 ht
    rcases List.mem_append.1 ht with ht | ht
    · exact (hfan t ht).mono (Int.le_refl _) (by omega)
    · rcases List.mem_append.1 ht with ht | ht
      · exact (hM t ht).mono (by omega) (by omega)
      · rcases List.mem_append.1 ht with ht | ht
        · exact (hT t ht).mono (by omega) (by omega)
        · exact (hOx t ht).mono (by omega) (Int.le_refl _)

theorem drawn_first {P : Node → Int → Int → Prop} {c : Int} {p : Piece} {ps : List Piece} (h : Drawn P c (p :: ps)) : P p.first c 2 := by
  cases p with
  | step n => exact h.1
  | block s bs j => exact h.1

theorem first_mem (p : Piece) : p.first ∈ p.nodes := by cases p <;> simp [Piece.first, Piece.nodes]

theorem last_mem (p : Piece) : p.last ∈ p.nodes := by cases p <;> simp [Piece.last, Piece.nodes]

theorem pieces_lines (h : Consistent d) (R : Routes d d' r) : ∀ (ps : List Piece) (c : Int), (∀ p ∈ ps, p.Ok) → (∀ p ∈ ps, Gated p) →
    List.IsChain (fun p q => Link p.last q.first) ps → (∀ n ∈ ps.flatMap Piece.nodes, n ∈ d.getNodes) → (ps.flatMap Piece.nodes).Nodup →
    (∀ p ∈ ps.getLast?, outs p.last = []) → Drawn (PutAt d') c ps →
    countCrossings (leaving r (ps.flatMap Piece.nodes)) = crossingsOf ps ∧ ∀ t ∈ leaving r (ps.flatMap Piece.nodes), ∃ hi, XIn (150 * c + 100) hi t
  | [], _, _, _, _, _, _, _, _ => ⟨rfl, by simp [leaving]⟩
  | p :: ps, c, hok, hg, hc, hin, hnd, hstop, hd => by
    rw [List.flatMap_cons] at hin hnd ⊢
    have hpin : ∀ n ∈ p.nodes, n ∈ d.getNodes := fun n hn => hin n (List.mem_append_left _ hn)
    -- where the line goes on
    have next : (ps = [] ∧ outs p.last = []) ∨ ∃ q qs i, ps = q :: qs ∧ outs p.last = [i] ∧ i ∈ ins q.first ∧ q.first ∈ d.getNodes := by
      cases ps with
      | nil => exact .inl ⟨rfl, hstop p (by simp)⟩
      | cons q qs =>
        obtain ⟨⟨i, h1, h2⟩, -⟩ := List.isChain_cons_cons.1 hc
        exact .inr ⟨q, qs, i, rfl, h1, by simp [h2], hin _ (List.mem_append_right _ (List.mem_flatMap.2 ⟨q, by simp, first_mem q⟩))⟩
    have rest : ∀ c', Drawn (PutAt d') c' ps → countCrossings (leaving r (ps.flatMap Piece.nodes)) = crossingsOf ps ∧
        ∀ t ∈ leaving r (ps.flatMap Piece.nodes), ∃ hi, XIn (150 * c' + 100) hi t := fun c' hd' =>
      pieces_lines h R ps c' (fun x hx => hok x (by simp [hx])) (fun x hx => hg x (by simp [hx])) hc.of_cons (fun n hn => hin n (List.mem_append_right _ hn))
        (List.nodup_append.1 hnd).2.1 (fun x hx => hstop x (by
          cases ps with
          | nil => simp at hx
          | cons q qs => simpa using hx)) hd'
    cases p with
    | step n =>
      obtain ⟨d1, d2⟩ := hd
      obtain ⟨r1, r2⟩ := rest _ d2
      have hn := hpin n (by simp [Piece.nodes])
      simp only [Piece.nodes, crossingsOf, Piece.last] at next ⊢
      rw [leaving_append]
      rcases next with ⟨-, e⟩ | ⟨q, qs, i, rfl, e, hi, hq⟩
      · rw [leaving_none r e, List.nil_append]
        refine ⟨r1, fun t ht => ?_⟩
        obtain ⟨hi, hx⟩ := r2 t ht
        exact ⟨hi, hx.mono (by omega) (Int.le_refl _)⟩
      · have er := R.leg n hn q.first hq i (by simp [e]) hi _ _ _ _ (put_drawn d1) (put_drawn (drawn_first d2))
        obtain ⟨l1, l2, -⟩ := flat_leg (n := n) (m := q.first) (x := 150 * c + 50) (y := 100 * 2 + 50) (x' := 150 * (c + 1) + 50) (by omega)
        rw [← er] at l1 l2
        have l1' : ∀ t ∈ lines (r i), XIn (150 * c + 100) (150 * (c + 1) + 50) t := fun t ht => (l1 t ht).xin.mono (by omega) (Int.le_refl _)
        rw [leaving_one r e, countCrossings_apart, countCrossings_none l2, r1, Nat.zero_add]
        · refine ⟨rfl, fun t ht => ?_⟩
          rcases List.mem_append.1 ht with ht | ht
          · exact ⟨_, l1' t ht⟩
          · obtain ⟨hi, hx⟩ := r2 t ht
            exact ⟨hi, hx.mono (by omega) (Int.le_refl _)⟩
        · intro t ht u hu
          obtain ⟨hi, hx⟩ := r2 u hu
          exact xin_apart (l1' t ht) hx (by omega)
    | block s bs j =>
      obtain ⟨d1, ⟨ks, hk, F⟩, d3, d4⟩ := hd
      obtain ⟨r1, r2⟩ := rest _ d4
      have hgate := hg (.block s bs j) (by simp)
      have hjn := hpin j (by simp [Piece.nodes])
      simp only [Piece.last] at next
      have hO : (outs j = [] ∧ (leaving r [j]) = []) ∨ ∃ i, outs j = [i] ∧ leaving r [j] = lines (r i) ∧
          leaving r [j] = outLines (150 * (c + 1 + longest bs) + 100) (150 * (c + 2 + longest bs) + 50) := by
        rcases next with ⟨-, e⟩ | ⟨q, qs, i, rfl, e, hi, hq⟩
        · exact .inl ⟨e, leaving_none r e⟩
        · refine .inr ⟨i, e, leaving_one r e, ?_⟩
          have er := R.leg j hjn q.first hq i (by simp [e]) hi _ _ _ _ (put_drawn d3) (put_drawn (drawn_first d4))
          obtain ⟨-, -, l3⟩ := flat_leg (n := j) (m := q.first) (x := 150 * (c + 1 + longest bs) + 50) (y := 100 * 2 + 50)
            (x' := 150 * (c + 2 + longest bs) + 50) (by omega)
          rw [leaving_one r e, er, l3 hgate.2.1]
          have h1 : (150 * (c + 1 + (longest bs : Int)) + 50 + 50 : Int) = 150 * (c + 1 + longest bs) + 100 := by omega
          have h2 : (100 * 2 + 50 + 50 : Int) = 300 := by omega
          rw [h1, h2]
          rfl
      obtain ⟨b1, b2⟩ := block_lines h R (hok _ (by simp)) hgate hpin (List.nodup_append.1 hnd).1 d1 hk F d3 hO
      rw [leaving_append, countCrossings_apart, b1, r1]
      · constructor
        · rw [crossingsOf]
          rcases next with ⟨rfl, e⟩ | ⟨q, qs, i, rfl, e, hi, hq⟩
          · simp [e]
          · simp [e]
        · intro t ht
          rcases List.mem_append.1 ht with ht | ht
          · exact ⟨_, b2 t ht⟩
          · obtain ⟨hi, hx⟩ := r2 t ht
            exact ⟨hi, hx.mono (by omega) (Int.le_refl _)⟩
      · intro t ht u hu
        obtain ⟨hi, hx⟩ := r2 u hu
        exact xin_apart (b2 t ht) hx (by omega)

end Bpmn.Props

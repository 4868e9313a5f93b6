import Verif.Spec.BlockPaths
import Verif.Lemmas.BlockLines
import Verif.Props.PageSize
import Verif.Props.Metrics
/-!
# Ways through steps and blocks, and what the metrics say about them (C123)
-/
set_option linter.unusedSimpArgs false
set_option linter.unusedVariables false

namespace Bpmn.Props
open Bpmn Spec Layouter Classify LayoutMetrics

section
variable {d : Diagram}

theorem way_exists (ps : List Piece) (hok : ∀ p ∈ ps, p.Ok) : ∃ w, WayThrough ps w := by
  induction ps with
  | nil => exact ⟨[], .nil⟩
  | cons p ps ih =>
    obtain ⟨w, hw⟩ := ih (fun q hq => hok q (by simp [hq]))
    cases p with
    | step n => exact ⟨_, .step hw⟩
    | block s bs j =>
      obtain ⟨h2, -⟩ := hok _ (List.mem_cons_self ..)
      cases bs with
      | nil => simp at h2
      | cons b bs => exact ⟨_, .block (List.mem_cons_self ..) hw⟩

/-- A path that enters a chain stays on it, or leaves it at its end. -/
theorem along_chain (h : Consistent d) : ∀ (b r : List Node), List.IsChain Link b → (∀ n ∈ b, n ∈ d.getNodes) → b ≠ [] → r.head? = b.head? → Follows d r →
    r <+: b ∨ ∃ x r' l, r = b ++ x :: r' ∧ b.getLast? = some l ∧ Next d l x
  | [], _, _, _, hne, _, _ => absurd rfl hne
  | a :: b, [], _, _, _, _, _ => Or.inl (List.nil_prefix)
  | [a], [y], _, _, _, hh, _ => by
    have : y = a := by simpa using hh
    subst this
    exact Or.inl (List.prefix_refl _)
  | [a], y :: x :: r, _, _, _, hh, hf => by
    have : y = a := by simpa using hh
    subst this
    exact Or.inr ⟨x, r, y, rfl, rfl, hf.1⟩
  | a :: a' :: b, [y], _, _, _, hh, _ => by
    have : y = a := by simpa using hh
    subst this
    exact Or.inl ⟨_, rfl⟩
  | a :: a' :: b, y :: x :: r, hl, hin, _, hh, hf => by
    have : y = a := by simpa using hh
    subst this
    obtain ⟨k1, k2⟩ := next_feeds h (hin y (by simp)) hf.1
    have e := link_next h (hin y (by simp)) (hin a' (by simp)) k1 (List.isChain_cons_cons.1 hl).1 k2
    subst e
    rcases along_chain h (x :: b) (x :: r) hl.tail (fun n hn => hin n (List.mem_cons_of_mem _ hn)) (by simp) rfl hf.2 with k | ⟨z, r', l, e, k3, k4⟩
    · obtain ⟨t, e⟩ := k
      exact Or.inl ⟨t, by rw [← e]; simp⟩
    · exact Or.inr ⟨z, r', l, by rw [e]; simp, by rw [List.getLast?_cons_cons]; exact k3, k4⟩

/-- A path from the beginning of the line is the beginning of a way through. -/
theorem way_of_path (h : Consistent d) : ∀ (ps : List Piece) (r : List Node), (∀ p ∈ ps, p.Ok) → List.IsChain (fun p q => Link p.last q.first) ps →
    (∀ n ∈ ps.flatMap Piece.nodes, n ∈ d.getNodes) → (ps.flatMap Piece.nodes).Nodup → (∀ p ∈ ps.getLast?, outs p.last = []) →
    r.head? = ps.head?.map Piece.first → Follows d r → ∃ w, WayThrough ps w ∧ r <+: w := by
  intro ps
  induction ps with
  | nil =>
    intro r _ _ _ _ _ hh _
    cases r with
    | nil => exact ⟨[], .nil, List.prefix_refl _⟩
    | cons a r => simp at hh
  | cons p ps ih =>
    intro r hok hch hin hnd hstop hh hf
    have hok' : ∀ q ∈ ps, q.Ok := fun q hq => hok q (by simp [hq])
    have hin' : ∀ n ∈ ps.flatMap Piece.nodes, n ∈ d.getNodes := fun n hn => hin n (by rw [List.flatMap_cons]; exact List.mem_append_right _ hn)
    have hinp : ∀ n ∈ p.nodes, n ∈ d.getNodes := fun n hn => hin n (by rw [List.flatMap_cons]; exact List.mem_append_left _ hn)
    rw [List.flatMap_cons, List.nodup_append] at hnd
    -- behind the last node of the part
    have go : ∀ r', Follows d (p.last :: r') → ∃ w, WayThrough ps w ∧ r' <+: w := by
      intro r' hf'
      cases r' with
      | nil =>
        obtain ⟨w, hw⟩ := way_exists ps hok'
        exact ⟨w, hw, List.nil_prefix⟩
      | cons x r' =>
        obtain ⟨mx, fx⟩ := next_feeds h (hinp _ (last_mem p)) hf'.1
        apply ih (x :: r') hok' hch.tail hin' hnd.2.1
        · intro q hq
          apply hstop
          cases ps with
          | nil => simp at hq
          | cons q' ps => rw [List.getLast?_cons_cons]; exact hq
        · cases ps with
          | nil =>
            obtain ⟨i, hi, -⟩ := fx
            rw [hstop p (by simp)] at hi
            simp at hi
          | cons q ps =>
            have link := (List.isChain_cons_cons.1 hch).1
            rw [link_next h (hinp _ (last_mem p)) (hin' q.first (by rw [List.flatMap_cons]; exact List.mem_append_left _ (first_mem q))) mx link fx]
            rfl
        · exact hf'.2
    cases r with
    | nil =>
      obtain ⟨w, hw⟩ := way_exists (p :: ps) hok
      exact ⟨w, hw, List.nil_prefix⟩
    | cons a r =>
      have ea : a = p.first := by simpa using hh
      subst ea
      cases p with
      | step n =>
        obtain ⟨w, hw, t, e⟩ := go r hf
        exact ⟨n :: w, .step hw, t, by rw [← e]; rfl⟩
      | block s bs j =>
        obtain ⟨h2, hlo, hli, hbs⟩ := hok _ (List.mem_cons_self ..)
        have ms : s ∈ d.getNodes := hinp s (by simp [Piece.nodes])
        have mb : ∀ b ∈ bs, ∀ n ∈ b, n ∈ d.getNodes := fun b hb n hn => hinp n (by
          simp only [Piece.nodes, List.mem_cons, List.mem_append, List.mem_flatten]
          exact Or.inr (Or.inl ⟨b, hb, hn⟩))
        have mj : j ∈ d.getNodes := hinp j (by simp [Piece.nodes])
        cases r with
        | nil =>
          obtain ⟨w, hw⟩ := way_exists (.block s bs j :: ps) hok
          refine ⟨w, hw, ?_⟩
          cases hw with
          | block _ _ => exact ⟨_, rfl⟩
        | cons x r =>
          obtain ⟨mx, fx⟩ := next_feeds h ms hf.1
          have ndf : bs.flatten.Nodup := by
            have := hnd.1
            simp only [Piece.nodes, List.nodup_cons] at this
            exact (List.nodup_append.1 this.2).1
          have hx : x ∈ heads bs := count_out h ms ((heads_sublist bs).nodup ndf) (by rw [heads_length (fun b hb => (hbs b hb).1)]; exact hlo) (by
            intro n hn
            obtain ⟨b, hb, e⟩ := mem_heads.1 hn
            exact ⟨mb b hb n (List.mem_of_head? e), (hbs b hb).2.2.1 n e⟩) mx fx
          obtain ⟨b, hb, e⟩ := mem_heads.1 hx
          rcases along_chain h b (x :: r) (hbs b hb).2.1 (mb b hb) (hbs b hb).1 e.symm hf.2 with ⟨t, k⟩ | ⟨z, r', l, k, k1, k2⟩
          · obtain ⟨w, hw⟩ := way_exists ps hok'
            exact ⟨s :: (b ++ j :: w), .block hb hw, t ++ j :: w, by rw [← k]; simp [Piece.first]⟩
          · have ml : l ∈ d.getNodes := mb b hb l (List.mem_of_getLast? k1)
            obtain ⟨mz, fz⟩ := next_feeds h ml k2
            have ez : z = j := by
              obtain ⟨i, i1, i2⟩ := (hbs b hb).2.2.2 l k1
              obtain ⟨i', i3, i4⟩ := fz
              rw [i2, List.mem_singleton] at i3
              subst i3
              exact target_unique h ml mz mj (by simp [i2]) i4 i1
            subst ez
            have hf2 := hf.2
            rw [k] at hf2
            obtain ⟨w, hw, t, e⟩ := go r' (follows_append hf2).2
            refine ⟨s :: (b ++ z :: w), .block hb hw, t, ?_⟩
            rw [k, ← e]
            simp [Piece.first]

theorem way_head {ps : List Piece} {w : List Node} (hw : WayThrough ps w) : w.head? = ps.head?.map Piece.first := by
  cases hw <;> simp [Piece.first]

theorem way_last {ps : List Piece} {w : List Node} (hw : WayThrough ps w) : w.getLast? = ps.getLast?.map Piece.last := by
  induction hw with
  | nil => rfl
  | @step n ps w hw ih =>
    cases ps with
    | nil => cases hw; rfl
    | cons q ps =>
      rw [List.getLast?_cons_cons, ← ih]
      cases hw <;> simp [List.getLast?_cons]
  | @block s j bs b ps w hb hw ih =>
    cases ps with
    | nil => cases hw; simp [Piece.last, List.getLast?_cons, List.getLast?_append]
    | cons q ps =>
      rw [List.getLast?_cons_cons, ← ih]
      cases hw <;> simp [List.getLast?_cons, List.getLast?_append]

theorem way_sublist {ps : List Piece} {w : List Node} (hw : WayThrough ps w) : w.Sublist (ps.flatMap Piece.nodes) := by
  induction hw with
  | nil => simp
  | step hw ih => simpa [Piece.nodes] using ih
  | @block s j bs b ps w hb hw ih =>
    simp only [List.flatMap_cons, Piece.nodes, List.cons_append, List.append_assoc]
    refine List.Sublist.cons_cons _ ((List.sublist_flatten_of_mem hb).append ?_)
    exact ih.cons_cons _

theorem way_chain {ps : List Piece} {w : List Node} (hw : WayThrough ps w) (hok : ∀ p ∈ ps, p.Ok) (hch : List.IsChain (fun p q => Link p.last q.first) ps) :
    List.IsChain Feeds w := by
  have join : ∀ (p : Piece) (ps : List Piece) (w : List Node), WayThrough ps w → List.IsChain (fun p q => Link p.last q.first) (p :: ps) →
      List.IsChain Feeds w → List.IsChain Feeds (p.last :: w) := by
    intro p ps w hw hch k
    have := way_head hw
    cases w with
    | nil => simp
    | cons a w =>
      cases ps with
      | nil => simp at this
      | cons q ps =>
        have ea : a = q.first := by simpa using this
        rw [ea] at k ⊢
        exact List.isChain_cons_cons.2 ⟨link_feeds (List.isChain_cons_cons.1 hch).1, k⟩
  induction hw with
  | nil => simp
  | @step n ps w hw ih => exact join (.step n) ps w hw hch (ih (fun q hq => hok q (by simp [hq])) hch.tail)
  | @block s j bs b ps w hb hw ih =>
    have k := join (.block s bs j) ps w hw hch (ih (fun q hq => hok q (by simp [hq])) hch.tail)
    obtain ⟨h2, hlo, hli, hbs⟩ := hok _ (List.mem_cons_self ..)
    obtain ⟨b1, b2, b3, b4⟩ := hbs b hb
    cases b with
    | nil => exact absurd rfl b1
    | cons a b =>
      rw [List.cons_append, List.isChain_cons_cons]
      constructor
      · obtain ⟨i, i1, i2⟩ := b3 a rfl
        exact ⟨i, i1, by simp [i2]⟩
      · rw [← List.cons_append, List.isChain_append]
        refine ⟨b2.imp fun _ _ => link_feeds, k, ?_⟩
        intro x hx y hy
        simp only [Piece.last, List.head?_cons, Option.mem_def, Option.some.injEq] at hy
        subst hy
        obtain ⟨i, i1, i2⟩ := b4 x hx
        exact ⟨i, by simp [i2], i1⟩

theorem follows_of_feeds (h : Consistent d) : ∀ {l : List Node}, (∀ n ∈ l, n ∈ d.getNodes) → List.IsChain Feeds l → Follows d l
  | [], _, _ => trivial
  | [_], _, _ => trivial
  | a :: b :: l, hin, hc => ⟨feeds_next h (hin a (by simp)) (hin b (by simp)) (List.isChain_cons_cons.1 hc).1,
      follows_of_feeds h (l := b :: l) (fun n hn => hin n (List.mem_cons_of_mem _ hn)) (List.isChain_cons_cons.1 hc).2⟩

/-- A path whose last node has no outgoing flow goes no further. -/
theorem path_stops : ∀ {p w : List Node}, p <+: w → p ≠ [] → (∀ n ∈ p.getLast?, outs n = []) → List.IsChain Feeds w → p = w := by
  rintro p w ⟨t, rfl⟩ hne ho hc
  cases t with
  | nil => simp
  | cons x t =>
    exfalso
    obtain ⟨u, l, rfl⟩ : ∃ u l, p = u ++ [l] := by
      rcases List.eq_nil_or_concat p with h | ⟨u, l, h⟩
      · exact absurd h hne
      · exact ⟨u, l, by simpa using h⟩
    rw [List.append_assoc] at hc
    obtain ⟨i, hi, -⟩ := (List.isChain_cons_cons.1 (List.isChain_append.1 hc).2.1).1
    rw [ho l (by simp)] at hi
    simp at hi

end

/-- **C123.** The paths from the start to the end of a line of steps and blocks are exactly the ways through it. -/
theorem C123_paths (d : Diagram) (h : Consistent d) (ps : List Piece) (hb : Blocks d ps) (hne : ps ≠ []) (p : List Node) :
    CompletePath d p ↔ WayThrough ps p := by
  have hin : ∀ n ∈ ps.flatMap Piece.nodes, n ∈ d.getNodes := fun n hn => hb.nodes.mem_iff.1 hn
  have hnd : (ps.flatMap Piece.nodes).Nodup := hb.nodes.nodup_iff.2 h.ids.of_map
  constructor
  · intro c
    have hh : p.head? = ps.head?.map Piece.first := by
      have c1 := c.nonempty
      cases p with
      | nil => exact absurd rfl c1
      | cons n p =>
        rcases blocks_entered ps hb.parts hb.line n (hb.nodes.mem_iff.2 (c.nodes n (by simp))) with ⟨q, hq, rfl⟩ | k
        · rw [hq]; rfl
        · exact absurd (c.starts n rfl) k
    obtain ⟨w, hw, hp⟩ := way_of_path h ps p hb.parts hb.line hin hnd hb.stop hh c.follows
    rw [path_stops hp c.nonempty c.ends (way_chain hw hb.parts hb.line)]
    exact hw
  · intro hw
    have hi : ∀ n ∈ p, n ∈ d.getNodes := fun n hn => hin n ((way_sublist hw).subset hn)
    refine ⟨⟨?_, hi, follows_of_feeds h hi (way_chain hw hb.parts hb.line), (way_sublist hw).nodup hnd⟩, ?_, ?_⟩
    · rintro rfl
      cases hw
      exact hne rfl
    · intro n hn
      rw [way_head hw] at hn
      obtain ⟨q, hq, rfl⟩ := Option.map_eq_some_iff.1 hn
      exact hb.start q hq
    · intro n hn
      rw [way_last hw] at hn
      obtain ⟨q, hq, rfl⟩ := Option.map_eq_some_iff.1 hn
      exact hb.stop q hq

theorem work_append (a b : List Node) : workIn (a ++ b) = workIn a + workIn b := by simp [workIn, activities]

theorem work_cons (n : Node) (b : List Node) : workIn (n :: b) = workIn [n] + workIn b := work_append [n] b

theorem way_work_le {ps : List Piece} {w : List Node} (hw : WayThrough ps w) : workIn w ≤ mostWork ps := by
  induction hw with
  | nil => simp [workIn, activities]
  | @step n ps w hw ih => rw [work_cons]; simp only [mostWork]; omega
  | @block s j bs b ps w hb hw ih =>
    rw [work_cons, work_append, work_cons j]
    simp only [mostWork]
    have : workIn b ≤ (bs.map workIn).foldr max 0 := by
      clear ih hw
      induction bs with
      | nil => simp at hb
      | cons c bs ih =>
        rcases List.mem_cons.1 hb with rfl | hb
        · simp
        · have := ih hb
          simp only [List.map_cons, List.foldr_cons]
          omega
    omega

theorem way_most (ps : List Piece) (hok : ∀ p ∈ ps, p.Ok) : ∃ w, WayThrough ps w ∧ workIn w = mostWork ps := by
  induction ps with
  | nil => exact ⟨[], .nil, rfl⟩
  | cons p ps ih =>
    obtain ⟨w, hw, e⟩ := ih (fun q hq => hok q (by simp [hq]))
    cases p with
    | step n => exact ⟨_, .step hw, by rw [work_cons, e]; rfl⟩
    | block s bs j =>
      obtain ⟨h2, -⟩ := hok _ (List.mem_cons_self ..)
      have : ∃ b ∈ bs, workIn b = (bs.map workIn).foldr max 0 := by
        clear hok hw
        have h1 : bs ≠ [] := by rintro rfl; simp at h2
        clear h2
        induction bs with
        | nil => exact absurd rfl h1
        | cons c bs ih =>
          simp only [List.map_cons, List.foldr_cons]
          by_cases hn : bs = []
          · subst hn
            exact ⟨c, by simp, by simp⟩
          · obtain ⟨b, hb, e⟩ := ih hn
            by_cases hle : workIn c ≤ workIn b
            · exact ⟨b, by simp [hb], by omega⟩
            · exact ⟨c, by simp, by omega⟩
      obtain ⟨b, hb, eb⟩ := this
      exact ⟨_, .block hb hw, by rw [work_cons, work_append, work_cons j, eb, e]; rfl⟩

/-- **C123.** `compute_longest_path_tasks` counts every task and sub-process on the line, and of each block those of the branch that has most. -/
theorem C123_most_work (d : Diagram) (h : Consistent d) (ps : List Piece) (hb : Blocks d ps) (hne : ps ≠ []) :
    ∃ q, ∀ fuel, 2 * d.getNodes.length < fuel → computeLongestPathTasks fuel d = .ok (q, mostWork ps) := by
  obtain ⟨hac, -⟩ := blocks_acyclic h hb
  have hin : ∀ n ∈ ps.flatMap Piece.nodes, n ∈ d.getNodes := fun n hn => hb.nodes.mem_iff.1 hn
  have hnd : (ps.flatMap Piece.nodes).Nodup := hb.nodes.nodup_iff.2 h.ids.of_map
  obtain ⟨q, h1, h2, h3⟩ := C21_longest_path_tasks d h (noSelfLoop_of_acyclic h hac)
  refine ⟨q, fun fuel hf => ?_⟩
  rw [h1 fuel hf]
  have e : q.length = mostWork ps := by
    apply Nat.le_antisymm
    · rcases h2 with rfl | ⟨n, rest, sp, h0, rfl⟩
      · simp
      · have hh : (n :: rest).head? = ps.head?.map Piece.first := by
          rcases blocks_entered ps hb.parts hb.line n (hb.nodes.mem_iff.2 (sp.nodes n (by simp))) with ⟨q, hq, rfl⟩ | k
          · rw [hq]; rfl
          · exact absurd h0 k
        obtain ⟨w, hw, t, e⟩ := way_of_path h ps (n :: rest) hb.parts hb.line hin hnd hb.stop hh sp.follows
        have := way_work_le hw
        rw [← e, work_append] at this
        unfold workIn at this
        omega
    · obtain ⟨w, hw, e⟩ := way_most ps hb.parts
      rw [← e]
      have c := (C123_paths d h ps hb hne w).2 hw
      cases w with
      | nil => exact absurd rfl c.nonempty
      | cons n rest => exact h3 n rest c.toSimplePath (c.starts n rfl)
  rw [e]

theorem chain_outs : ∀ {b : List Node}, List.IsChain Link b → (∀ n ∈ b.getLast?, (outs n).length = 1) → (b.map fun n => (outs n).length).sum = b.length
  | [], _, _ => rfl
  | [a], _, hl => by simp [hl a (by simp)]
  | a :: b :: l, hc, hl => by
    obtain ⟨⟨i, i1, -⟩, hc⟩ := List.isChain_cons_cons.1 hc
    have := chain_outs hc (fun n hn => hl n (by rw [List.getLast?_cons_cons]; exact hn))
    rw [List.map_cons, List.sum_cons, this, i1]
    simp
    omega

theorem branches_outs {bs : List (List Node)} (h : ∀ b ∈ bs, (b.map fun n => (outs n).length).sum = b.length) :
    (bs.flatten.map fun n => (outs n).length).sum = bs.flatten.length := by
  induction bs with
  | nil => rfl
  | cons b bs ih =>
    rw [List.flatten_cons, List.map_append, List.sum_append, List.length_append, h b (by simp), ih (fun c hc => h c (by simp [hc]))]

theorem line_outs : ∀ ps : List Piece, ps ≠ [] → (∀ p ∈ ps, p.Ok) → List.IsChain (fun p q => Link p.last q.first) ps → (∀ p ∈ ps.getLast?, outs p.last = []) →
    ((ps.flatMap Piece.nodes).map fun n => (outs n).length).sum + 1 = (ps.flatMap Piece.nodes).length + sideBranches ps := by
  -- one part, whose last node has `k` flows
  have part : ∀ p : Piece, p.Ok → (p.nodes.map fun n => (outs n).length).sum + 1 = p.nodes.length + sideBranches [p] + (outs p.last).length := by
    intro p hp
    cases p with
    | step n => simp [Piece.nodes, Piece.last, sideBranches]; omega
    | block s bs j =>
      obtain ⟨h2, hlo, hli, hbs⟩ := hp
      have := branches_outs (bs := bs) (fun b hb => chain_outs (hbs b hb).2.1 (fun n hn => by
        obtain ⟨i, -, e⟩ := (hbs b hb).2.2.2 n hn
        rw [e]
        rfl))
      simp only [Piece.nodes, List.map_cons, List.sum_cons, List.map_append, List.sum_append, this, List.length_cons, List.length_append, List.map_nil, List.sum_nil,
        List.length_nil, sideBranches, Piece.last, hlo]
      omega
  intro ps
  induction ps with
  | nil => intro h; exact absurd rfl h
  | cons p ps ih =>
    intro _ hok hch hstop
    have hp := part p (hok p (by simp))
    have split : sideBranches (p :: ps) = sideBranches [p] + sideBranches ps := by cases p <;> simp [sideBranches]
    rw [List.flatMap_cons, List.map_append, List.sum_append, List.length_append, split]
    cases ps with
    | nil =>
      rw [hstop p (by simp)] at hp
      simp [sideBranches] at hp ⊢
      omega
    | cons q ps =>
      have k := ih (by simp) (fun q hq => hok q (by simp [hq])) hch.tail (fun x hx => hstop x (by rw [List.getLast?_cons_cons]; exact hx))
      obtain ⟨i, i1, -⟩ := (List.isChain_cons_cons.1 hch).1
      rw [i1] at hp
      simp only [List.length_singleton] at hp
      omega

/-- **C123.** The number of flows is the number of nodes less one, plus one for each branch but the first of every block; this gives the coefficient of
network complexity. -/
theorem C123_flows (d : Diagram) (h : Consistent d) (ps : List Piece) (hb : Blocks d ps) (hne : ps ≠ []) :
    d.getFlows.length + 1 = d.getNodes.length + sideBranches ps ∧
    Metrics.cnc d = .ok (((d.getNodes.length + sideBranches ps : Nat) - 1 : Rat) / (d.getNodes.length : Rat)) := by
  have e : d.getFlows.length + 1 = d.getNodes.length + sideBranches ps := by
    have h1 := (flow_ids h).length_eq
    rw [List.length_map, List.length_map, List.length_flatMap] at h1
    rw [h1, ← hb.nodes.length_eq, ← line_outs ps hne hb.parts hb.line hb.stop, (hb.nodes.map _).sum_eq]
  refine ⟨e, ?_⟩
  have hn : d.getNodes ≠ [] := by
    intro k
    have := hb.nodes
    rw [k] at this
    cases ps with
    | nil => exact hne rfl
    | cons p ps =>
      have hm := this.mem_iff.1 (List.mem_flatMap.2 ⟨p, List.mem_cons_self .., first_mem p⟩)
      simp at hm
  rw [(C16_network_complexity d).2 hn, ← e]
  push_cast
  congr 2
  ring

/-- **C123.** The coefficient is less than one exactly if there is no block. -/
theorem C123_complexity (d : Diagram) (h : Consistent d) (ps : List Piece) (hb : Blocks d ps) (hne : ps ≠ []) :
    ∃ c, Metrics.cnc d = .ok c ∧ (c < 1 ↔ ∀ p ∈ ps, ∃ n, p = .step n) := by
  refine ⟨_, (C123_flows d h ps hb hne).2, ?_⟩
  have hn : 0 < d.getNodes.length := by
    rw [← hb.nodes.length_eq]
    cases ps with
    | nil => exact absurd rfl hne
    | cons p ps => exact List.length_pos_of_mem (List.mem_flatMap.2 ⟨p, List.mem_cons_self .., first_mem p⟩)
  have hn' : (0 : Rat) < (d.getNodes.length : Rat) := by exact_mod_cast hn
  rw [div_lt_one hn']
  have none : sideBranches ps = 0 ↔ ∀ p ∈ ps, ∃ n, p = .step n := by
    have hok := hb.parts
    clear hb hne
    induction ps with
    | nil => simp [sideBranches]
    | cons p ps ih =>
      have ih := ih (fun q hq => hok q (by simp [hq]))
      cases p with
      | step n =>
        simp only [sideBranches, ih, List.forall_mem_cons]
        exact ⟨fun k => ⟨⟨n, rfl⟩, k⟩, fun k => k.2⟩
      | block s bs j =>
        obtain ⟨h2, -⟩ := hok _ (List.mem_cons_self ..)
        simp [sideBranches]
        omega
  rw [← none]
  push_cast
  constructor
  · intro k
    by_contra c
    have : (1 : Rat) ≤ (sideBranches ps : Rat) := by exact_mod_cast Nat.one_le_iff_ne_zero.2 c
    linarith
  · intro k
    rw [k]
    push_cast
    linarith

set_option maxRecDepth 8000 in
/-- `threeOps`: the longest branch of its block has two tasks, there are eight nodes and nine flows, and one of the paths takes this branch. -/
example : (∃ q, ∀ fuel, 16 < fuel → computeLongestPathTasks fuel (Op.run {} threeOps) = .ok (q, 2)) ∧ (Op.run {} threeOps).getFlows.length = 9 ∧
    ∃ w, CompletePath (Op.run {} threeOps) w ∧ w.map (·.1) = ["s", "g", "b1", "b2", "j", "e"] := by
  have h := consistent_of_allowed _ three_allowed
  have hne : threePieces (Op.run {} threeOps).getNodes three_nodes ≠ [] := by simp [threePieces]
  refine ⟨?_, ?_, ?_⟩
  · have e : mostWork (threePieces (Op.run {} threeOps).getNodes three_nodes) = 2 := by decide
    obtain ⟨q, hq⟩ := C123_most_work _ h _ three_blocks hne
    rw [e, three_nodes] at hq
    exact ⟨q, hq⟩
  · have e : sideBranches (threePieces (Op.run {} threeOps).getNodes three_nodes) = 2 := by decide
    have := (C123_flows _ h _ three_blocks hne).1
    rw [e, three_nodes] at this
    omega
  · have way : WayThrough (threePieces (Op.run {} threeOps).getNodes three_nodes) _ :=
      .step (.block (b := [(Op.run {} threeOps).getNodes[3]'(by decide), (Op.run {} threeOps).getNodes[4]'(by decide)]) (by simp) (.step .nil))
    exact ⟨_, (C123_paths _ h _ three_blocks hne _).2 way, by decide⟩

end Bpmn.Props

import Verif.Lemmas.BlockLines
import Verif.Spec.Shapes
/-!
# Which cells of the grid the flows of a line of steps and blocks run through (for C119)
-/
set_option linter.unusedSimpArgs false
set_option linter.unusedVariables false

namespace Bpmn.Props
open Bpmn Spec Layouter LayoutMetrics

section
variable {d : Diagram} {col row : String → Int}

/-- How a flow from `a` to `b` is drawn among the nodes `l`: to the right neighbour; from a gateway that is alone in its column, to the next column; or to a
gateway that is alone in its column, with nothing between in the row. -/
def Runs (col row : String → Int) (l : List Node) (a b : Node) : Prop :=
  (row a.1 = row b.1 ∧ col b.1 = col a.1 + 1) ∨
  (Bends a ∧ col b.1 = col a.1 + 1 ∧ ∀ q ∈ l, col q.1 = col a.1 → q = a) ∨
  (¬Bends a ∧ Bends b ∧ col a.1 < col b.1 ∧ (∀ q ∈ l, col q.1 = col b.1 → q = b) ∧
    ∀ q ∈ l, row q.1 = row a.1 → col a.1 < col q.1 → col b.1 ≤ col q.1)

theorem Runs.more {l l' : List Node} {a b : Node} (h : Runs col row l a b) (hl : ∀ q ∈ l', q ∉ l → col q.1 < col a.1 ∨ col b.1 < col q.1)
    (hab : col a.1 < col b.1) : Runs col row l' a b := by
  rcases h with h | ⟨h1, h2, h3⟩ | ⟨h1, h2, h3, h4, h5⟩
  · exact .inl h
  · refine .inr (.inl ⟨h1, h2, fun q hq e => ?_⟩)
    by_cases c : q ∈ l
    · exact h3 q c e
    · have := hl q hq c; omega
  · refine .inr (.inr ⟨h1, h2, h3, fun q hq e => ?_, fun q hq e1 e2 => ?_⟩)
    · by_cases c : q ∈ l
      · exact h4 q c e
      · have := hl q hq c; omega
    · by_cases c : q ∈ l
      · exact h5 q c e1 e2
      · have := hl q hq c; omega

theorem Runs.lt {l : List Node} {a b : Node} (h : Runs col row l a b) : col a.1 < col b.1 := by
  rcases h with h | ⟨h1, h2, h3⟩ | ⟨h1, h2, h3, h4, h5⟩ <;> omega

/-- The nodes of a row are all of one branch. -/
theorem same_branch {c r : Int} {N : Nat} {bs : List (List Node)} {ks : List Nat} (hk : ks.Nodup) (hlt : ∀ k ∈ ks, k < N)
    (F : List.Forall₂ (fun (b : List Node) (k : Nat) => ∀ (t : Nat) (n : Node), b[t]? = some n → col n.1 = c + t ∧ row n.1 = r + branchRow N k) bs ks) :
    ∀ br ∈ bs, ∀ a ∈ br, ∀ q ∈ bs.flatten, row a.1 = row q.1 → q ∈ br := by
  induction F with
  | nil => simp
  | @cons b k bs ks hb F ih =>
    have hk' := List.nodup_cons.1 hk
    have inB : ∀ n ∈ b, row n.1 = r + branchRow N k := by
      intro n hn
      obtain ⟨t, ht, e⟩ := List.mem_iff_getElem.1 hn
      exact (hb t n (by rw [← e]; exact List.getElem?_eq_getElem ht)).2
    have inBs : ∀ n ∈ bs.flatten, ∃ k' ∈ ks, row n.1 = r + branchRow N k' := by
      intro n hn
      obtain ⟨b', hb', hn'⟩ := List.mem_flatten.1 hn
      obtain ⟨k', hk'', hh⟩ := forall₂_left F hb'
      obtain ⟨t, ht, e⟩ := List.mem_iff_getElem.1 hn'
      exact ⟨k', hk'', (hh t n (by rw [← e]; exact List.getElem?_eq_getElem ht)).2⟩
    have cross : ∀ n ∈ b, ∀ m ∈ bs.flatten, row n.1 ≠ row m.1 := by
      intro n hn m hm e
      have e1 := inB n hn
      obtain ⟨k', hk'', e2⟩ := inBs m hm
      have := branchRow_inj (hlt k (by simp)) (hlt k' (by simp [hk''])) (by omega)
      subst this
      exact hk'.1 hk''
    intro br hbr a ha q hq er
    rw [List.flatten_cons, List.mem_append] at hq
    rcases List.mem_cons.1 hbr with hbr | hbr
    · subst hbr
      rcases hq with hq | hq
      · exact hq
      · exact absurd er (cross a ha q hq)
    · rcases hq with hq | hq
      · exact absurd er.symm (cross q hq a (List.mem_flatten.2 ⟨br, hbr, ha⟩))
      · exact ih hk'.2 (fun k hk => hlt k (by simp [hk])) br hbr a ha q hq er

theorem flow_kinds (h : Consistent d) : ∀ (ps : List Piece) (c : Int), (∀ p ∈ ps, p.Ok) → (∀ p ∈ ps, Gated p) →
    List.IsChain (fun p q => Link p.last q.first) ps →
    (∀ n ∈ ps.flatMap Piece.nodes, n ∈ d.getNodes) → (ps.flatMap Piece.nodes).Nodup → (∀ p ∈ ps.getLast?, outs p.last = []) →
    Drawn (fun n x y => col n.1 = x ∧ row n.1 = y) c ps →
    ∀ a ∈ ps.flatMap Piece.nodes, ∀ b ∈ d.getNodes, Feeds a b → Runs col row (ps.flatMap Piece.nodes) a b := by
  intro ps
  induction ps with
  | nil => simp
  | cons p ps ih =>
    intro c hok hg hch hin hnd hstop D a ha b hb hf
    have hinp : ∀ n ∈ p.nodes, n ∈ d.getNodes := fun n hn => hin n (by simp [hn])
    have hlastMem : p.last ∈ p.nodes := by cases p <;> simp [Piece.last, Piece.nodes]
    rw [List.flatMap_cons] at ha hnd ⊢
    have ndp := (List.nodup_append.1 hnd).1
    have ndr := (List.nodup_append.1 hnd).2.1
    -- the last node of the part
    have lastCase : ∀ e, col p.last.1 = e ∧ row p.last.1 = 2 → Drawn (fun n x y => col n.1 = x ∧ row n.1 = y) (e + 1) ps → a = p.last →
        Runs col row (p.nodes ++ ps.flatMap Piece.nodes) a b := by
      rintro e ⟨e1, e2⟩ D' rfl
      cases ps with
      | nil =>
        have := hstop p (by simp)
        obtain ⟨i, hi, -⟩ := hf
        rw [this] at hi
        simp at hi
      | cons q ps =>
        have link := (List.isChain_cons_cons.1 hch).1
        have hq : q.first ∈ (q :: ps).flatMap Piece.nodes := by
          rw [List.flatMap_cons]
          refine List.mem_append_left _ ?_
          cases q <;> simp [Piece.first, Piece.nodes]
        have e' := link_next h (hinp _ hlastMem) (hin _ (by rw [List.flatMap_cons]; exact List.mem_append_right _ hq)) hb link hf
        subst e'
        obtain ⟨k1, k2⟩ := drawn_first D'
        exact .inl ⟨by omega, by omega⟩
    have restCase : ∀ e, (∀ n ∈ p.nodes, col n.1 < e) → Drawn (fun n x y => col n.1 = x ∧ row n.1 = y) e ps → a ∈ ps.flatMap Piece.nodes →
        Runs col row (p.nodes ++ ps.flatMap Piece.nodes) a b := by
      intro e hlt D' har
      have := ih e (fun p hp => hok p (by simp [hp])) (fun p hp => hg p (by simp [hp])) hch.tail
        (fun n hn => hin n (by rw [List.flatMap_cons]; exact List.mem_append_right _ hn))
        ndr (by
          intro q hq
          apply hstop q
          cases ps with
          | nil => simp at hq
          | cons q' ps => rw [List.getLast?_cons_cons]; exact hq) D' a har b hb hf
      refine this.more (fun q hq hn => ?_) this.lt
      rcases List.mem_append.1 hq with hq | hq
      · have := hlt q hq
        have := drawn_le D' a har
        omega
      · exact absurd hq hn
    cases p with
    | step n =>
      obtain ⟨h1, D'⟩ := D
      rcases List.mem_append.1 ha with hap | har
      · simp only [Piece.nodes, List.mem_singleton] at hap
        exact lastCase c h1 D' hap
      · refine restCase _ ?_ D' har
        intro m hm
        simp only [Piece.nodes, List.mem_singleton] at hm
        subst hm
        have := h1.1
        omega
    | block s bs j =>
      obtain ⟨⟨h1, h1'⟩, ⟨ks, hp, F⟩, ⟨h2, h2'⟩, h3⟩ := D
      obtain ⟨bends, bendj, hgb⟩ := hg (.block s bs j) (by simp)
      have inner : ∀ n ∈ bs.flatten, c + 1 ≤ col n.1 ∧ col n.1 < c + 1 + longest bs := by
        intro n hn
        obtain ⟨b, hb, hn⟩ := List.mem_flatten.1 hn
        obtain ⟨k, -, hk⟩ := forall₂_left F hb
        obtain ⟨t, ht, e⟩ := List.mem_iff_getElem.1 hn
        have := (hk t n (by rw [← e]; exact List.getElem?_eq_getElem ht)).1
        have := longest_ge hb
        omega
      have places : ∀ n ∈ (Piece.block s bs j).nodes ++ ps.flatMap Piece.nodes, n = s ∨ n ∈ bs.flatten ∨ n = j ∨ c + 2 + longest bs ≤ col n.1 := by
        intro n hn
        simp only [Piece.nodes, List.mem_cons, List.mem_append, List.not_mem_nil, or_false] at hn
        rcases hn with (hn | hn | hn) | hn
        · exact .inl hn
        · exact .inr (.inl hn)
        · exact .inr (.inr (.inl hn))
        · exact .inr (.inr (.inr (drawn_le h3 n (by simpa using hn))))
      rcases List.mem_append.1 ha with hap | har
      · obtain ⟨hmany, hlo, hli, hbr⟩ := hok (.block s bs j) (by simp)
        have hbin : ∀ b ∈ bs, ∀ n ∈ b, n ∈ d.getNodes := fun b hb n hn => hinp n (by
          simp only [Piece.nodes, List.mem_cons, List.mem_append, List.mem_flatten]
          exact .inr (.inl ⟨b, hb, hn⟩))
        have hne : ∀ b ∈ bs, b ≠ [] := fun b hb => (hbr b hb).1
        have ndf : bs.flatten.Nodup := (List.nodup_append.1 (List.nodup_cons.1 ndp).2).1
        have hs : s ∈ d.getNodes := hinp s (by simp [Piece.nodes])
        have hj : j ∈ d.getNodes := hinp j (by simp [Piece.nodes])
        simp only [Piece.nodes, List.mem_cons, List.mem_append, List.not_mem_nil, or_false] at hap
        rcases hap with hap | hap | hap
        · -- the split
          subst hap
          have hmem := count_out h hs ((heads_sublist bs).nodup ndf) (by rw [hlo, heads_length hne]) (by
            intro n hn
            obtain ⟨b, hb, e⟩ := mem_heads.1 hn
            exact ⟨hbin b hb n (List.mem_of_mem_head? e), (hbr b hb).2.2.1 n e⟩) hb hf
          obtain ⟨b', hb', e⟩ := mem_heads.1 hmem
          obtain ⟨k, -, hk⟩ := forall₂_left F hb'
          obtain ⟨k1, k2⟩ := hk 0 b (by rw [← List.head?_eq_getElem?]; exact e)
          refine .inr (.inl ⟨bends, by push_cast at k1; omega, fun q hq eq => ?_⟩)
          rcases places q hq with hq | hq | hq | hq
          · exact hq
          · have := inner q hq; omega
          · subst hq; omega
          · omega
        · obtain ⟨br, hbr', har⟩ := List.mem_flatten.1 hap
          obtain ⟨u, v, e⟩ := List.append_of_mem har
          obtain ⟨k, hkm, hk⟩ := forall₂_left F hbr'
          obtain ⟨k1, k2⟩ := hk u.length a (by rw [e]; simp)
          cases v with
          | nil =>
            -- the end of a branch
            have hl : br.getLast? = some a := by rw [e]; simp
            obtain ⟨i, g1, g2⟩ := (hbr br hbr').2.2.2 a hl
            have : b = j := by
              obtain ⟨k, h3, h4⟩ := hf
              rw [g2] at h3
              simp only [List.mem_singleton] at h3
              subst h3
              exact target_unique h (hbin br hbr' a har) hb hj (by simp [g2]) h4 g1
            subst this
            have ia := inner a hap
            refine .inr (.inr ⟨hgb br hbr' a hl, bendj, by omega, fun q hq eq => ?_, fun q hq eq lt => ?_⟩)
            · rcases places q hq with hq | hq | hq | hq
              · subst hq; omega
              · have := inner q hq; omega
              · exact hq
              · omega
            · rcases places q hq with hq | hq | hq | hq
              · subst hq; omega
              · exfalso
                -- a node of the same row is of the same branch, and not behind its end
                have hq2 := same_branch (hp.nodup_iff.2 List.nodup_range) (fun k hk => List.mem_range.1 (hp.mem_iff.1 hk)) F br hbr' a har q hq eq.symm
                obtain ⟨t, ht, et⟩ := List.mem_iff_getElem.1 hq2
                have hlen : br.length = u.length + 1 := by rw [e]; simp
                have := (hk t q (by rw [← et]; exact List.getElem?_eq_getElem ht)).1
                omega
              · subst hq; omega
              · omega
          | cons y v =>
            have hc := (hbr br hbr').2.1
            rw [e] at hc
            have link : Link a y := (List.isChain_cons_cons.1 (List.isChain_append.1 hc).2.1).1
            have hy : y ∈ br := by rw [e]; simp
            have := link_next h (hbin br hbr' a har) (hbin br hbr' y hy) hb link hf
            subst this
            obtain ⟨k3, k4⟩ := hk (u.length + 1) b (by rw [e]; simp)
            exact .inl ⟨by omega, by push_cast at k3; omega⟩
        · exact lastCase _ ⟨h2, h2'⟩ (by rw [show c + 1 + (longest bs : Int) + 1 = c + 2 + longest bs by omega]; exact h3) hap
      · refine restCase _ ?_ h3 har
        intro n hn
        simp only [Piece.nodes, List.mem_cons, List.mem_append, List.not_mem_nil, or_false] at hn
        rcases hn with rfl | hn | rfl
        · omega
        · have := inner n hn; omega
        · omega

end
end Bpmn.Props

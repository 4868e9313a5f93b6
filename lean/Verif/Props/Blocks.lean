import Verif.Props.Grid
import Verif.Lemmas.Blocks
/-!
# Processes of steps and blocks are laid out (C87)
-/
set_option linter.unusedSimpArgs false
set_option linter.unusedVariables false

namespace Bpmn.Props
open Bpmn Spec Layouter Classify

/-- `generate_layout` has put the node into this column and row: 150 units per column, 100 per row. -/
def PutAt (d' : Diagram) (n : Node) (x y : Int) : Prop := ∃ n', d'.getNodeById n.1 = some n' ∧ At n' (150 * x + 50) (100 * y + 50)

theorem idx_of_sublist {l : List Node} (hnd : l.Nodup) {a b : Node} (h : List.Sublist [a, b] l) : ∃ pre post, l = pre ++ b :: post ∧ a ∈ pre := by
  induction l with
  | nil => simp at h
  | cons x l ih =>
    cases h with
    | cons _ h =>
      obtain ⟨pre, post, e, hp⟩ := ih (List.nodup_cons.1 hnd).2 h
      exact ⟨x :: pre, post, by rw [e]; rfl, by simp [hp]⟩
    | cons_cons _ h =>
      obtain ⟨u, v, e⟩ := List.append_of_mem (List.singleton_sublist.1 h)
      exact ⟨a :: u, v, by rw [e]; rfl, by simp⟩

/-- **C87.** Every process that is one line of steps and blocks (any number of them, with any number of branches of any length) is laid out:
`generate_layout` returns, the line is drawn from left to right in row 2 (`y = 250`), and the branches of each block in rows of their own, evenly above
and below the line. -/
theorem C87_blocks_are_laid_out (d : Diagram) (h : Consistent d) (ps : List Piece) (hb : Blocks d ps) :
    ∃ bound, ∀ fuel ≥ bound, ∃ d', generateLayout fuel d = .ok d' ∧ Drawn (PutAt d') 1 ps := by
  have hin : ∀ n ∈ ps.flatMap Piece.nodes, n ∈ d.getNodes := fun n hn => hb.nodes.mem_iff.1 hn
  have hnd : (ps.flatMap Piece.nodes).Nodup := hb.nodes.nodup_iff.2 h.ids.of_map
  have fwd := blocks_forward h ps hb.parts hb.line hin hnd hb.stop
  have hac : Acyclic d := by
    classical
    apply acyclic_of_feeds h (fun n => (ps.flatMap Piece.nodes).idxOf n)
    intro a ha b hb' hf
    obtain ⟨pre, post, e, hp⟩ := idx_of_sublist hnd (fwd a (hb.nodes.mem_iff.2 ha) b hb' hf).1
    rw [e] at hnd ⊢
    have h1 : b ∉ pre := fun h => (List.nodup_append.1 hnd).2.2 b h b (by simp) rfl
    rw [List.idxOf_append_of_mem hp, List.idxOf_append_of_notMem h1]
    have := List.idxOf_lt_length_of_mem hp
    omega
  have hap : SplitsApart d := fun n hn m hm hf hs => (fwd n (hb.nodes.mem_iff.2 hn) m hm hf).2 hs
  obtain ⟨order, row, col, bound, ho, hg, hyes, -⟩ := C85_drawn_on_grid d h hb.supported hac hap
  have D : Drawn (fun n x y => col n.1 = x ∧ row n.1 = y) 1 ps := by
    apply drawn h ho hg hap ps 1 (by omega) hb.parts hb.line hin hnd
    intro p hp
    have hfirst : p.first ∈ d.getNodes := by
      apply hin
      cases ps with
      | nil => simp at hp
      | cons q ps =>
        simp only [List.head?_cons, Option.mem_def, Option.some.injEq] at hp
        subst hp
        rw [List.flatMap_cons]
        refine List.mem_append_left _ ?_
        cases q <;> simp [Piece.first, Piece.nodes]
    have h0 := hb.start p hp
    obtain ⟨g1, g2⟩ := hg.start p.first hfirst h0
    refine ⟨g1, ?_, ?_⟩
    · rw [g2]
      have : placeAmong order (d.getNodes.filter fun n => decide (ins n = [])) p.first.1 = 0 := by
        unfold placeAmong
        have only : ∀ j ∈ order.filter (fun j => decide (j ∈ (d.getNodes.filter fun n => decide (ins n = [])).map (·.1))), j = p.first.1 := by
          intro j hj
          have := (List.mem_filter.1 hj).2
          simp only [List.mem_map, List.mem_filter, decide_eq_true_eq] at this
          obtain ⟨n, ⟨hn, hi⟩, rfl⟩ := this
          rcases blocks_entered ps hb.parts hb.line n (hb.nodes.mem_iff.2 hn) with ⟨q, hq, rfl⟩ | hne
          · simp only [Option.mem_def] at hq hp
            rw [hp] at hq
            rw [Option.some.inj hq]
          · exact absurd hi hne
        have hmem : p.first.1 ∈ order.filter (fun j => decide (j ∈ (d.getNodes.filter fun n => decide (ins n = [])).map (·.1))) := by
          simp only [List.mem_filter, List.mem_map, decide_eq_true_eq]
          exact ⟨ho.all.mem_iff.2 (List.mem_map_of_mem hfirst), p.first, ⟨hfirst, h0⟩, rfl⟩
        generalize order.filter (fun j => decide (j ∈ (d.getNodes.filter fun n => decide (ins n = [])).map (·.1))) = l at only hmem
        cases l with
        | nil => simp at hmem
        | cons x l =>
          rw [only x (by simp)]
          simp
      rw [this]
      rfl
    · intro q hq hf
      obtain ⟨i, -, hi⟩ := hf
      rw [h0] at hi
      simp at hi
  have hone : OneEach d row col := fun n hn m hm er ec =>
    congrArg (·.1) (drawn_apart D n (hb.nodes.mem_iff.2 hn) m (hb.nodes.mem_iff.2 hm) er ec)
  refine ⟨bound, fun fuel hfuel => ?_⟩
  obtain ⟨d', h1, h2⟩ := hyes hone fuel hfuel
  refine ⟨d', h1, Drawn.mono ps 1 ?_ D⟩
  rintro n hn x y ⟨e1, e2⟩
  obtain ⟨n', h3, h4⟩ := h2 n (hin n hn)
  rw [e1, e2] at h4
  exact ⟨n', h3, h4⟩

/-- A line with a block of three branches of different lengths. -/
def threeOps : List Op :=
  [.createNew "d" "D", .addProcess "p" false true "None" "PL" "P",
   .addStartEvent "P" "s" none false true (some "s") "u1" "u2",
   .addExclusiveGateway "P" "g" "Diverging" none none "g",
   .addTask "P" "a" (some "a") "u3", .addTask "P" "b1" (some "b1") "u4", .addTask "P" "b2" (some "b2") "u5", .addTask "P" "c" (some "c") "u6",
   .addExclusiveGateway "P" "j" "Converging" none none "j", .addEndEvent "P" "e" none (some "e") "u7" "u8",
   .addSequenceFlow "P" "s" "g" "" "f1", .addSequenceFlow "P" "g" "a" "x" "f2", .addSequenceFlow "P" "g" "b1" "y" "f3",
   .addSequenceFlow "P" "g" "c" "z" "f4", .addSequenceFlow "P" "b1" "b2" "" "f5", .addSequenceFlow "P" "a" "j" "" "f6",
   .addSequenceFlow "P" "b2" "j" "" "f7", .addSequenceFlow "P" "c" "j" "" "f8", .addSequenceFlow "P" "j" "e" "" "f9"]

theorem three_allowed : AllowedHistory {} threeOps := by
  simp [threeOps, AllowedHistory, Allowed, step, declaredNode, declaredFlow, directionArg, directions, chosen]

set_option maxRecDepth 8000 in
theorem three_nodes : (Op.run {} threeOps).getNodes.length = 8 := by decide

/-- The parts of `threeOps`. -/
def threePieces (ns : List Node) (h : ns.length = 8) : List Piece :=
  [.step ns[0], .block ns[1] [[ns[2]], [ns[3], ns[4]], [ns[5]]] ns[6], .step ns[7]]

set_option maxRecDepth 8000 in
theorem three_blocks : Blocks (Op.run {} threeOps) (threePieces (Op.run {} threeOps).getNodes three_nodes) := by
  refine ⟨by decide, by decide, ?_, ?_, ?_, ?_⟩
  · intro p hp
    simp only [threePieces, List.mem_cons, List.not_mem_nil, or_false] at hp
    rcases hp with rfl | rfl | rfl
    · trivial
    · refine ⟨by decide, by decide, by decide, ?_⟩
      intro b hb
      simp only [List.mem_cons, List.not_mem_nil, or_false] at hb
      rcases hb with rfl | rfl | rfl
      · exact ⟨by simp, List.isChain_singleton _, by decide, by decide⟩
      · exact ⟨by simp, List.isChain_cons_cons.2 ⟨⟨"f5", by decide, by decide⟩, List.isChain_singleton _⟩, by decide, by decide⟩
      · exact ⟨by simp, List.isChain_singleton _, by decide, by decide⟩
    · trivial
  · exact List.isChain_cons_cons.2 ⟨⟨"f1", by decide, by decide⟩, List.isChain_cons_cons.2 ⟨⟨"f9", by decide, by decide⟩, List.isChain_singleton _⟩⟩
  · intro p hp
    simp only [threePieces, List.head?_cons, Option.mem_def, Option.some.injEq] at hp
    subst hp
    decide
  · intro p hp
    simp only [threePieces, List.getLast?_cons_cons, List.getLast?_singleton, Option.mem_def, Option.some.injEq] at hp
    subst hp
    decide

example : ∃ ps, Consistent (Op.run {} threeOps) ∧ Blocks (Op.run {} threeOps) ps ∧ ps.length = 3 :=
  ⟨threePieces (Op.run {} threeOps).getNodes three_nodes, consistent_of_allowed _ three_allowed, three_blocks, rfl⟩

end Bpmn.Props

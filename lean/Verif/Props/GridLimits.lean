import Verif.Props.Grid
import Verif.Lemmas.GridLog
import Mathlib.Data.List.Pairwise
/-!
# Which diagrams `generate_layout` cannot draw, loops included (C88)
-/
set_option linter.unusedSimpArgs false
set_option linter.unusedVariables false

namespace Bpmn.Props
open Bpmn Spec Layouter Classify

/-- What is known about the order in which a successful run placed the nodes. -/
theorem layout_order (d d' : Diagram) (h : Consistent d) {fuel : Nat} (hl : generateLayout fuel d = .ok d') :
    ∃ order : List String, order.Perm (d.getNodes.map (·.1)) ∧
      (∀ n ∈ d.getNodes, ∀ m ∈ d.getNodes, Feeds n m → Splits n ∨ ¬Joins m → Before order n.1 m.1) ∧
      ∀ n ∈ d.getNodes, ∀ n' ∈ d.getNodes, ∀ m ∈ d.getNodes, Feeds n m → Feeds n' m → Splits n → Splits n' → n.1 = n'.1 := by
  obtain ⟨all, sorted, back, grid, ns, ws, h1, h2, h3, h4, -, -⟩ := layout_steps hl
  have hall : all = (byType d).map ncOf := by
    rw [elements_eq h.complete] at h1
    exact (Except.ok.inj h1).symm
  subst hall
  obtain ⟨hperm, -⟩ := C24_topological_order d h (by
    simp only [generateElementsClassification, h1, bind, Except.bind, pure, Except.pure]
    rfl) h2
  have hids : (((byType d).map ncOf).map (·.id)).Nodup := by
    have := byType_ids h.ids
    simpa [List.map_map, Function.comp_def, ncOf] using this
  have hidS : (sorted.map (·.id)).Nodup := (hperm.map (·.id)).nodup_iff.2 hids
  unfold gridLayout at h3
  obtain ⟨L, roots, g1, g2, g3, g4⟩ := gridLoop_log hids fuel fuel (p := ⟨[], gridColumnWidth, 1, sorted⟩) (fun y hy => hperm.mem_iff.1 hy) hidS h3
  obtain ⟨-, hpf⟩ := gridLoop_inv (fun g _ => PredFirst d ((byType d).map ncOf) g) (predFirst_step hids) fuel fuel
    (p := ⟨[], gridColumnWidth, 1, sorted⟩) (fun y hy => hperm.mem_iff.1 hy) (by intro x hx i l _ _ pre c post e; simp at e) h3
  simp only [List.map_nil, List.nil_append] at g1 g2
  have hnd : L.Nodup := g2.nodup_iff.1 hidS
  have hin : ∀ n ∈ d.getNodes, n.1 ∈ L := by
    intro n hn
    obtain ⟨c, hc, -⟩ := setCoordinates_all h4 n hn
    rw [← g1]
    exact List.mem_map.2 ⟨c, List.mem_of_find?_eq_some hc, by simpa using List.find?_some hc⟩
  have hmem : ∀ n ∈ d.getNodes, n ∈ byType d := by
    intro n hn
    have := g2.mem_iff.2 (hin n hn)
    obtain ⟨y, hy, e⟩ := List.mem_map.1 this
    obtain ⟨n', hn', rfl⟩ := List.mem_map.1 (hperm.mem_iff.1 hy)
    rw [← h.node_eq (mem_byType.1 hn').1 hn e]
    exact hn'
  have htgt : ∀ n ∈ d.getNodes, ∀ m ∈ d.getNodes, Feeds n m → Splits n → m.1 ∈ targetsOf d (ncOf n) := by
    rintro n hn m hm ⟨i, hi, hi'⟩ hs
    unfold targetsOf
    rw [if_pos (show "Split" ∈ (ncOf n).labels from (split_mem_labels n).2 hs)]
    obtain ⟨r, e1, -, e3⟩ := endsOf_mem (get := flowTarget d) (outs n) (by
      intro i hi
      obtain ⟨m, hm, hf, -⟩ := h.outFlow n hn i hi
      exact ⟨_, flowFromTo_target hf⟩)
    rw [show (ncOf n).outs = outs n from rfl, e1]
    exact (e3 m.1).2 ⟨i, hi, flowFromTo_target (feeds_flow h hn hm hi hi')⟩
  refine ⟨L, ?_, ?_, ?_⟩
  · refine (List.perm_ext_iff_of_nodup hnd h.ids).2 fun a => ⟨fun ha => ?_, fun ha => ?_⟩
    · obtain ⟨y, hy, rfl⟩ := List.mem_map.1 (g2.mem_iff.2 ha)
      obtain ⟨n', hn', rfl⟩ := List.mem_map.1 (hperm.mem_iff.1 hy)
      exact List.mem_map.2 ⟨n', (mem_byType.1 hn').1, rfl⟩
    · obtain ⟨n, hn, rfl⟩ := List.mem_map.1 ha
      exact hin n hn
  · intro n hn m hm hf hc
    by_cases hs : Splits n
    · exact g4 (ncOf n) (List.mem_map_of_mem (hmem n hn)) (hin n hn) m.1 (htgt n hn m hm hf hs)
    · have hj : ¬Joins m := hc.resolve_left hs
      obtain ⟨i, hi, hi'⟩ := hf
      cases hl : ins m with
      | nil => rw [hl] at hi'; cases hi'
      | cons k l =>
        have hk : i = k ∧ l = [] := by
          unfold Joins at hj
          rw [hl] at hj hi'
          have : l = [] := List.length_eq_zero_iff.1 (by simp only [List.length_cons] at hj; omega)
          subst this
          exact ⟨by simpa using hi', rfl⟩
        obtain ⟨rfl, -⟩ := hk
        obtain ⟨pre, post, e⟩ := List.append_of_mem (hin m hm)
        have e' := g1.trans e
        obtain ⟨gp, gq, rfl, e1, e2⟩ := List.map_eq_append_iff.1 e'
        obtain ⟨c, gr, rfl, e3, e4⟩ := List.map_eq_cons_iff.1 e2
        obtain ⟨s, hsrc, hpre⟩ := hpf (ncOf m) (List.mem_map_of_mem (hmem m hm)) i l hl (fun hh => hj ((join_mem_labels m).1 hh)) gp c gr rfl e3
        rw [flowFromTo_source (feeds_flow h hn hm hi hi')] at hsrc
        cases hsrc
        rw [e]
        exact ⟨pre, post, rfl, e1 ▸ hpre⟩
  · intro n hn n' hn' m hm hf hf' hs hs'
    by_contra hne
    have hnd2 : (L.flatMap (targetsAt d ((byType d).map ncOf))).Nodup := (List.nodup_append.1 (g3.nodup_iff.1 hnd)).2.1
    have a1 : m.1 ∈ targetsAt d ((byType d).map ncOf) n.1 := by
      rw [show n.1 = (ncOf n).id from rfl, targetsAt_id hids (List.mem_map_of_mem (hmem n hn))]
      exact htgt n hn m hm hf hs
    have a2 : m.1 ∈ targetsAt d ((byType d).map ncOf) n'.1 := by
      rw [show n'.1 = (ncOf n').id from rfl, targetsAt_id hids (List.mem_map_of_mem (hmem n' hn'))]
      exact htgt n' hn' m hm hf' hs'
    rw [List.nodup_flatMap] at hnd2
    have : Std.Symm (Function.onFun List.Disjoint (targetsAt d ((byType d).map ncOf))) := ⟨fun a b hab => List.Disjoint.symm hab⟩
    exact hnd2.2.forall (hin n hn) (hin n' hn') hne a1 a2

/-- **C88.** If `generate_layout` returns, the nodes can be listed so that every flow leads forward in the list, except possibly flows from a node that
is no split to a join. -/
theorem C88_order (d d' : Diagram) (h : Consistent d) {fuel : Nat} (hl : generateLayout fuel d = .ok d') :
    ∃ order : List String, order.Perm (d.getNodes.map (·.1)) ∧ ∀ n m, Forward d n m → Before order n.1 m.1 := by
  obtain ⟨order, h1, h2, -⟩ := layout_order d d' h hl
  exact ⟨order, h1, fun n m hf => h2 n hf.1 m hf.2.1 hf.2.2.1 hf.2.2.2⟩

/-- **C88.** If `generate_layout` returns, no node directly follows two splits. -/
theorem C88_one_split (d d' : Diagram) (h : Consistent d) {fuel : Nat} (hl : generateLayout fuel d = .ok d') {n n' m : Node} (hn : n ∈ d.getNodes)
    (hn' : n' ∈ d.getNodes) (hm : m ∈ d.getNodes) (hf : Feeds n m) (hf' : Feeds n' m) (hs : Splits n) (hs' : Splits n') : n.1 = n'.1 := by
  obtain ⟨order, -, -, h3⟩ := layout_order d d' h hl
  exact h3 n hn n' hn' m hm hf hf' hs hs'

/-- **C88.** A loop that can be run through by such flows only is never laid out. -/
theorem C88_loops (d : Diagram) (h : Consistent d) {n : Node} (hc : Relation.TransGen (Forward d) n n) :
    ∀ fuel d', generateLayout fuel d ≠ .ok d' := by
  intro fuel d' hl
  obtain ⟨order, h1, h2⟩ := C88_order d d' h hl
  have hnd : order.Nodup := h1.nodup_iff.2 h.ids
  have lower : ∀ n m, Relation.TransGen (Forward d) n m → order.idxOf n.1 < order.idxOf m.1 := by
    intro n m hc
    have one : ∀ a b, Forward d a b → order.idxOf a.1 < order.idxOf b.1 := by
      intro a b hab
      obtain ⟨pre, post, e, hpre⟩ := h2 a b hab
      rw [e] at hnd ⊢
      have h1 : b.1 ∉ pre := fun h => (List.nodup_append.1 hnd).2.2 b.1 h b.1 (by simp) rfl
      rw [List.idxOf_append_of_mem hpre, List.idxOf_append_of_notMem h1]
      have := List.idxOf_lt_length_of_mem hpre
      omega
    induction hc with
    | single hab => exact one _ _ hab
    | tail _ hab ih => exact Nat.lt_trans ih (one _ _ hab)
  exact Nat.lt_irrefl _ (lower n n hc)

/-- **C88.** In particular a loop whose way back leads directly from the split to the join where the loop begins, if the nodes of its body are entered by
one flow each. -/
theorem C88_direct_way_back (d : Diagram) (h : Consistent d) {j s : Node} (hj : j ∈ d.getNodes) (hs : s ∈ d.getNodes) (back : Feeds s j) (split : Splits s)
    (body : Relation.ReflTransGen (fun n m => n ∈ d.getNodes ∧ m ∈ d.getNodes ∧ Feeds n m ∧ ¬Joins m) j s) :
    ∀ fuel d', generateLayout fuel d ≠ .ok d' := by
  refine C88_loops d h (n := s) (Relation.TransGen.head' ⟨hs, hj, back, .inl split⟩ ?_)
  exact Relation.ReflTransGen.mono (fun a b (hab : a ∈ d.getNodes ∧ b ∈ d.getNodes ∧ Feeds a b ∧ ¬Joins b) => ⟨hab.1, hab.2.1, hab.2.2.1, .inr hab.2.2.2⟩) _ _ body

/-! ## Concrete cases -/

/-- A task that is repeated until the gateway behind it is left for the end; the way back leads directly to the gateway before the task. -/
def untilOps : List Op :=
  [.createNew "d" "D", .addProcess "p" false true "None" "PL" "P",
   .addStartEvent "P" "s" none false true (some "s") "u1" "u2",
   .addExclusiveGateway "P" "j" "Converging" none none "j", .addTask "P" "t" (some "t") "u3",
   .addExclusiveGateway "P" "g" "Diverging" none none "g", .addEndEvent "P" "e" none (some "e") "u7" "u8",
   .addSequenceFlow "P" "s" "j" "" "f1", .addSequenceFlow "P" "j" "t" "" "f2", .addSequenceFlow "P" "t" "g" "" "f3",
   .addSequenceFlow "P" "g" "j" "again" "f4", .addSequenceFlow "P" "g" "e" "done" "f5"]

theorem until_allowed : AllowedHistory {} untilOps := by
  simp [untilOps, AllowedHistory, Allowed, step, declaredNode, declaredFlow, directionArg, directions, chosen]

set_option maxRecDepth 8000 in
/-- It is never laid out. -/
example : ∀ fuel d', generateLayout fuel (Op.run {} untilOps) ≠ .ok d' := by
  let ns := (Op.run {} untilOps).getNodes
  refine C88_direct_way_back _ (consistent_of_allowed _ until_allowed) (j := ns[1]'(by decide)) (s := ns[3]'(by decide)) (by decide) (by decide) (by decide)
    (by decide) ?_
  refine .head (b := ns[2]'(by decide)) (by decide) (.head (b := ns[3]'(by decide)) (by decide) .refl)

/-- The same with a task on the way back. -/
def againOps : List Op :=
  [.createNew "d" "D", .addProcess "p" false true "None" "PL" "P",
   .addStartEvent "P" "s" none false true (some "s") "u1" "u2",
   .addExclusiveGateway "P" "j" "Converging" none none "j", .addTask "P" "t" (some "t") "u3",
   .addExclusiveGateway "P" "g" "Diverging" none none "g", .addTask "P" "b" (some "b") "u4", .addEndEvent "P" "e" none (some "e") "u7" "u8",
   .addSequenceFlow "P" "s" "j" "" "f1", .addSequenceFlow "P" "j" "t" "" "f2", .addSequenceFlow "P" "t" "g" "" "f3",
   .addSequenceFlow "P" "g" "b" "again" "f4", .addSequenceFlow "P" "b" "j" "" "f5", .addSequenceFlow "P" "g" "e" "done" "f6"]

theorem again_allowed : AllowedHistory {} againOps := by
  simp [againOps, AllowedHistory, Allowed, step, declaredNode, declaredFlow, directionArg, directions, chosen]

set_option maxRecDepth 8000 in
/-- It is laid out. -/
example : Consistent (Op.run {} againOps) ∧ ∃ d', generateLayout 20 (Op.run {} againOps) = .ok d' := by
  have h := consistent_of_allowed _ again_allowed
  refine ⟨h, ?_⟩
  have hg : ((topologicalSort 20 (Op.run {} againOps) ((byType (Op.run {} againOps)).map ncOf)).bind fun r => gridLayout 20 (Op.run {} againOps) r.1) =
    .ok [⟨2, 1, "s"⟩, ⟨1, 2, "j"⟩, ⟨1, 3, "t"⟩, ⟨1, 4, "g"⟩, ⟨3, 5, "e"⟩, ⟨-1, 5, "b"⟩] := by decide
  cases hs : topologicalSort 20 (Op.run {} againOps) ((byType (Op.run {} againOps)).map ncOf) with
  | error e => rw [hs] at hg; cases hg
  | ok r =>
    obtain ⟨sorted, back⟩ := r
    rw [hs] at hg
    obtain ⟨d', ns, h1, -, -⟩ := layout_ok h hs hg (by decide)
    exact ⟨d', h1⟩

/-- Two gateways that lead to the same task. -/
def sharedOps : List Op :=
  [.createNew "d" "D", .addProcess "p" false true "None" "PL" "P",
   .addStartEvent "P" "s" none false true (some "s") "u1" "u2",
   .addExclusiveGateway "P" "g" "Diverging" none none "g", .addTask "P" "a" (some "a") "u3",
   .addExclusiveGateway "P" "g1" "Diverging" none none "g1", .addTask "P" "b" (some "b") "u4", .addTask "P" "c" (some "c") "u5",
   .addSequenceFlow "P" "s" "g" "" "f1", .addSequenceFlow "P" "g" "a" "" "f2", .addSequenceFlow "P" "g" "b" "" "f3",
   .addSequenceFlow "P" "a" "g1" "" "f4", .addSequenceFlow "P" "g1" "b" "" "f5", .addSequenceFlow "P" "g1" "c" "" "f6"]

theorem shared_allowed : AllowedHistory {} sharedOps := by
  simp [sharedOps, AllowedHistory, Allowed, step, declaredNode, declaredFlow, directionArg, directions, chosen]

set_option maxRecDepth 8000 in
/-- They are never laid out. -/
example : ∀ fuel d', generateLayout fuel (Op.run {} sharedOps) ≠ .ok d' := by
  intro fuel d' h
  let ns := (Op.run {} sharedOps).getNodes
  have := C88_one_split _ d' (consistent_of_allowed _ shared_allowed) h (n := ns[1]'(by decide)) (n' := ns[3]'(by decide)) (m := ns[4]'(by decide))
    (by decide) (by decide) (by decide) (by decide) (by decide) (by decide) (by decide)
  revert this
  decide

end Bpmn.Props

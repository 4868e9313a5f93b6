import Verif.Lemmas.SeqFlow
/-!
Effects of the node constructors from arbitrary states, and frame lemmas for whole calls.
-/
set_option linter.unusedSimpArgs false
set_option linter.unusedVariables false

namespace Bpmn
open Spec

/-- The declaration as stored: with empty flow lists. -/
def stored (n : ANode) : NodeAttrs := { n.attrs with incoming := some [], outgoing := some [] }

def valid (op : Op) : Prop := ∀ dir, directionArg op = some dir → dir ∈ directions

theorem updNode_addFlowNode (d : Diagram) (p ty nm n : String) (g) :
    (d.addFlowNode p ty nm n).updNode n g =
      { d with graph := (d.graph.addNode n).modifyNode n (g ∘ Diagram.flowNodeAttrs p ty nm n) } := by
  simp [Diagram.addFlowNode, Diagram.updNode, Graph.modifyNode, Dict.modify_modify]

theorem updNode_updNode (d : Diagram) (n : String) (f g) : (d.updNode n f).updNode n g = d.updNode n (g ∘ f) := by
  simp [Diagram.updNode, Graph.modifyNode, Dict.modify_modify]

/-- The effect of a node constructor on an arbitrary state. -/
theorem nodeOp_effect (d : Diagram) {op : Op} {n : ANode} (h : declaredNode op = some n) :
    ∃ f : NodeAttrs → NodeAttrs,
      (op.exec d).1 = { d with graph := (d.graph.addNode n.id).modifyNode n.id f } ∧
      (∀ a, (f a).incoming = some [] ∧ (f a).outgoing = some [] ∧ (f a).type = n.attrs.type ∧ (f a).id = some n.id ∧
        (f a).nodeName = n.attrs.nodeName ∧ (f a).process = n.attrs.process) ∧
      (valid op → f {} = stored n ∧ (op.exec d).2 = .ok n.id) ∧
      (¬valid op → f {} = { stored n with gatewayDirection := none, default := none } ∧
        (op.exec d).2 = .error .bpmnError) := by
  have noarg : ∀ {op : Op}, directionArg op = none → valid op := by
    intro op h dir hd; rw [h] at hd; simp at hd
  cases op with
  | createNew => simp [declaredNode] at h
  | addProcess => simp [declaredNode] at h
  | addSequenceFlow => simp [declaredNode] at h
  | addFlowNode p ty nm i uid =>
    simp only [declaredNode, Option.some.injEq] at h; subst h
    refine ⟨Diagram.flowNodeAttrs p ty nm (Diagram.pickId i uid), ?_, ?_, ?_, fun h => absurd (noarg rfl) h⟩
    · simp [Op.exec, Diagram.addFlowNode]
    · intro a; simp [Diagram.flowNodeAttrs, baseNode]
    · intro _; simp [Diagram.flowNodeAttrs, baseNode, stored, Op.exec]
  | addTask p nm i uid =>
    simp only [declaredNode, Option.some.injEq] at h; subst h
    refine ⟨Diagram.flowNodeAttrs p "task" nm (Diagram.pickId i uid), ?_, ?_, ?_, fun h => absurd (noarg rfl) h⟩
    · simp [Op.exec, Diagram.addFlowNode, Diagram.addTask]
    · intro a; simp [Diagram.flowNodeAttrs, baseNode]
    · intro _; simp [Diagram.flowNodeAttrs, baseNode, stored, Op.exec]
  | addSubprocess p nm ex tr i uid =>
    simp only [declaredNode, Option.some.injEq] at h; subst h
    apply Exists.intro
    refine ⟨?_, ?_, ?_, fun h => absurd (noarg rfl) h⟩
    · simp only [Op.exec, Diagram.addSubprocess, updNode_addFlowNode, chosen_eq]; rfl
    · intro a; simp [Diagram.flowNodeAttrs, baseNode]
    · intro _; simp [Diagram.flowNodeAttrs, baseNode, stored, Op.exec]
  | addStartEvent p nm df pm ii i uid du =>
    simp only [declaredNode, Option.some.injEq] at h; subst h
    apply Exists.intro
    refine ⟨?_, ?_, ?_, fun h => absurd (noarg rfl) h⟩
    · simp only [Op.exec, Diagram.addStartEvent, updNode_addFlowNode, chosen_eq]; rfl
    · intro a; simp [Diagram.flowNodeAttrs, baseNode, startDefs_eq]
    · intro _; simp [Diagram.flowNodeAttrs, baseNode, stored, Op.exec, startDefs_eq]
  | addEndEvent p nm df i uid du =>
    simp only [declaredNode, Option.some.injEq] at h; subst h
    apply Exists.intro
    refine ⟨?_, ?_, ?_, fun h => absurd (noarg rfl) h⟩
    · simp only [Op.exec, Diagram.addEndEvent, updNode_addFlowNode, chosen_eq]; rfl
    · intro a; simp [Diagram.flowNodeAttrs, baseNode, endDefs_eq]
    · intro _; simp [Diagram.flowNodeAttrs, baseNode, stored, Op.exec, endDefs_eq]
  | addGateway p ty nm dir i uid =>
    simp only [declaredNode, Option.some.injEq] at h; subst h
    by_cases hv : Diagram.validDirection dir = true
    · have hval : valid (.addGateway p ty nm dir i uid) := by
        intro dir' h; simp [directionArg] at h; subst h; exact (validDirection_iff _).1 hv
      apply Exists.intro
      refine ⟨?_, ?_, ?_, fun h => absurd hval h⟩
      · simp only [Op.exec, Diagram.addGateway, hv, if_true, updNode_addFlowNode, chosen_eq]; rfl
      · intro a; simp [Diagram.flowNodeAttrs, baseNode]
      · intro _; simp [Diagram.flowNodeAttrs, baseNode, stored, Op.exec, Diagram.addGateway, hv]
    · have hval : ¬valid (.addGateway p ty nm dir i uid) := by
        intro h; exact hv ((validDirection_iff _).2 (h dir rfl))
      refine ⟨Diagram.flowNodeAttrs p ty nm (Diagram.pickId i uid), ?_, ?_, fun h => absurd h hval, ?_⟩
      · simp [Op.exec, Diagram.addGateway, hv, Diagram.addFlowNode]
      · intro a; simp [Diagram.flowNodeAttrs, baseNode]
      · intro _; simp [Diagram.flowNodeAttrs, baseNode, stored, Op.exec, Diagram.addGateway, hv]
  | addExclusiveGateway p nm dir df i uid =>
    simp only [declaredNode, Option.some.injEq] at h; subst h
    by_cases hv : Diagram.validDirection dir = true
    · have hval : valid (.addExclusiveGateway p nm dir df i uid) := by
        intro dir' h; simp [directionArg] at h; subst h; exact (validDirection_iff _).1 hv
      apply Exists.intro
      refine ⟨?_, ?_, ?_, fun h => absurd hval h⟩
      · simp only [Op.exec, Diagram.addExclusiveGateway, Diagram.addDefaultGateway, Diagram.addGateway, hv, if_true]
        rw [updNode_updNode, updNode_addFlowNode]; simp only [chosen_eq]; rfl
      · intro a; simp [Diagram.flowNodeAttrs, baseNode]
      · intro _; simp [Diagram.flowNodeAttrs, baseNode, stored, Op.exec, Diagram.addExclusiveGateway,
          Diagram.addDefaultGateway, Diagram.addGateway, hv]
    · have hval : ¬valid (.addExclusiveGateway p nm dir df i uid) := by
        intro h; exact hv ((validDirection_iff _).2 (h dir rfl))
      refine ⟨Diagram.flowNodeAttrs p "exclusiveGateway" nm (Diagram.pickId i uid), ?_, ?_, fun h => absurd h hval, ?_⟩
      · simp [Op.exec, Diagram.addExclusiveGateway, Diagram.addDefaultGateway, Diagram.addGateway, hv, Diagram.addFlowNode]
      · intro a; simp [Diagram.flowNodeAttrs, baseNode]
      · intro _; simp [Diagram.flowNodeAttrs, baseNode, stored, Op.exec, Diagram.addExclusiveGateway,
          Diagram.addDefaultGateway, Diagram.addGateway, hv]
  | addInclusiveGateway p nm dir df i uid =>
    simp only [declaredNode, Option.some.injEq] at h; subst h
    by_cases hv : Diagram.validDirection dir = true
    · have hval : valid (.addInclusiveGateway p nm dir df i uid) := by
        intro dir' h; simp [directionArg] at h; subst h; exact (validDirection_iff _).1 hv
      apply Exists.intro
      refine ⟨?_, ?_, ?_, fun h => absurd hval h⟩
      · simp only [Op.exec, Diagram.addInclusiveGateway, Diagram.addDefaultGateway, Diagram.addGateway, hv, if_true]
        rw [updNode_updNode, updNode_addFlowNode]; simp only [chosen_eq]; rfl
      · intro a; simp [Diagram.flowNodeAttrs, baseNode]
      · intro _; simp [Diagram.flowNodeAttrs, baseNode, stored, Op.exec, Diagram.addInclusiveGateway,
          Diagram.addDefaultGateway, Diagram.addGateway, hv]
    · have hval : ¬valid (.addInclusiveGateway p nm dir df i uid) := by
        intro h; exact hv ((validDirection_iff _).2 (h dir rfl))
      refine ⟨Diagram.flowNodeAttrs p "inclusiveGateway" nm (Diagram.pickId i uid), ?_, ?_, fun h => absurd h hval, ?_⟩
      · simp [Op.exec, Diagram.addInclusiveGateway, Diagram.addDefaultGateway, Diagram.addGateway, hv, Diagram.addFlowNode]
      · intro a; simp [Diagram.flowNodeAttrs, baseNode]
      · intro _; simp [Diagram.flowNodeAttrs, baseNode, stored, Op.exec, Diagram.addInclusiveGateway,
          Diagram.addDefaultGateway, Diagram.addGateway, hv]
  | addParallelGateway p nm dir i uid =>
    simp only [declaredNode, Option.some.injEq] at h; subst h
    by_cases hv : Diagram.validDirection dir = true
    · have hval : valid (.addParallelGateway p nm dir i uid) := by
        intro dir' h; simp [directionArg] at h; subst h; exact (validDirection_iff _).1 hv
      apply Exists.intro
      refine ⟨?_, ?_, ?_, fun h => absurd hval h⟩
      · simp only [Op.exec, Diagram.addParallelGateway, Diagram.addGateway, hv, if_true, updNode_addFlowNode, chosen_eq]; rfl
      · intro a; simp [Diagram.flowNodeAttrs, baseNode]
      · intro _; simp [Diagram.flowNodeAttrs, baseNode, stored, Op.exec, Diagram.addParallelGateway, Diagram.addGateway, hv]
    · have hval : ¬valid (.addParallelGateway p nm dir i uid) := by
        intro h; exact hv ((validDirection_iff _).2 (h dir rfl))
      refine ⟨Diagram.flowNodeAttrs p "parallelGateway" nm (Diagram.pickId i uid), ?_, ?_, fun h => absurd h hval, ?_⟩
      · simp [Op.exec, Diagram.addParallelGateway, Diagram.addGateway, hv, Diagram.addFlowNode]
      · intro a; simp [Diagram.flowNodeAttrs, baseNode]
      · intro _; simp [Diagram.flowNodeAttrs, baseNode, stored, Op.exec, Diagram.addParallelGateway, Diagram.addGateway, hv]

/-- Node lookup after `add_node` and an in place update. -/
theorem get?_addNode_modify (g : Graph) (n x : String) (f : NodeAttrs → NodeAttrs) :
    ((g.addNode n).modifyNode n f).nodes.get? x =
      if x = n then some (f ((g.nodes.get? n).getD {})) else g.nodes.get? x := by
  simp only [Graph.modifyNode, Dict.get?_modify, Graph.get?_addNode]
  by_cases e : x = n
  · subst e
    by_cases h : x ∈ g.nodes.keys
    · obtain ⟨a, ha⟩ := Option.isSome_iff_exists.1 ((Dict.get?_isSome_iff _ _).2 h)
      simp [h, ha]
    · simp [h, (Dict.get?_eq_none_iff _ _).2 h]
  · by_cases h : x ∈ g.nodes.keys
    · simp [h, e, Ne.symm e]
    · simp [h, e, Ne.symm e, (Dict.get?_eq_none_iff _ _).2 h]

/-- Calls other than `create_new_diagram_graph` and `add_process_to_diagram` leave processes and plane alone. -/
theorem exec_procs (d : Diagram) (op : Op) (h1 : ∀ a b, op ≠ .createNew a b)
    (h2 : ∀ a b c e f g, op ≠ .addProcess a b c e f g) :
    (op.exec d).1.processElements = d.processElements ∧ (op.exec d).1.planeElement = d.planeElement ∧
      (op.exec d).1.planeId = d.planeId := by
  cases hop : declaredNode op with
  | some n =>
    obtain ⟨f, e, -⟩ := nodeOp_effect d hop
    simp [e]
  | none =>
    cases op with
    | createNew a b => exact absurd rfl (h1 a b)
    | addProcess a b c e f g => exact absurd rfl (h2 a b c e f g)
    | addSequenceFlow p s t nm uid =>
      obtain ⟨f, -, -, -, -, h⟩ := addSequenceFlow_effect d p s t nm uid
      exact h
    | _ => simp [declaredNode] at hop

theorem run_append (d : Diagram) (l m : List Op) : Op.run d (l ++ m) = Op.run (Op.run d l) m := by
  induction l generalizing d with
  | nil => rfl
  | cons op l ih => exact ih _

end Bpmn

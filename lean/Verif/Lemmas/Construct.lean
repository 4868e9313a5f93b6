import Verif.Spec.Abstract
import Verif.Lemmas.Graph
/-!
Refinement: under the caller's obligations the concrete object is determined by the abstract diagram.
-/
set_option linter.unusedSimpArgs false
set_option linter.unusedVariables false

namespace Bpmn
open Spec

/-- Ids of the flows leaving `n`, in order of creation. -/
def outIds (fs : List AFlow) (n : String) : List String := (fs.filter (·.src == n)).map (·.id)
/-- Ids of the flows entering `n`, in order of creation. -/
def inIds (fs : List AFlow) (n : String) : List String := (fs.filter (·.tgt == n)).map (·.id)

def nodeOf (fs : List AFlow) (n : ANode) : NodeAttrs :=
  { n.attrs with incoming := some (inIds fs n.id), outgoing := some (outIds fs n.id) }

def edgeOf (f : AFlow) : Edge :=
  ⟨f.src, f.tgt, { id := some f.id, name := some f.name, process := some f.process,
                   sourceRef := some f.src, targetRef := some f.tgt,
                   waypoints := some [("100", "100"), ("100", "100")] }⟩

def procOf (p : AProc) : String × ProcAttrs :=
  (p.id, { name := some p.name, isClosed := some (flag p.isClosed), isExecutable := some (flag p.isExecutable),
           processType := some p.processType })

/-- The concrete object that represents an abstract diagram. -/
def concretize (A : ADiagram) : Diagram :=
  { graph := { nodes := A.nodes.map fun n => (n.id, nodeOf A.flows n), edges := A.flows.map edgeOf }
    sequenceFlows := A.flows.map fun f => (f.id, ⟨f.name, f.src, f.tgt⟩)
    processElements := A.procs.map procOf
    diagramId := A.header.map (·.1)
    diagramName := A.header.map (·.2)
    planeId := A.plane.map (·.1)
    planeElement := A.plane.map (·.2) }

/-- Invariant of abstract diagrams reached by allowed histories. -/
structure AWF (A : ADiagram) : Prop where
  nodesNodup : (A.nodes.map (·.id)).Nodup
  flowsNodup : (A.flows.map (·.id)).Nodup
  procsNodup : (A.procs.map (·.id)).Nodup
  ends : ∀ f ∈ A.flows, f.src ∈ A.nodes.map (·.id) ∧ f.tgt ∈ A.nodes.map (·.id)
  simple : A.flows.Pairwise fun f g => ¬(f.src = g.src ∧ f.tgt = g.tgt) ∧ ¬(f.src = g.tgt ∧ f.tgt = g.src)
  geom : ∀ n ∈ A.nodes, n.attrs.x = some "100" ∧ n.attrs.y = some "100" ∧ n.attrs.id = some n.id ∧
    n.attrs.type.isSome ∧ n.attrs.nodeName.isSome ∧ n.attrs.process.isSome ∧
    n.attrs.width = some "100" ∧ n.attrs.height = some "100"

theorem AWF.empty (h) : AWF { header := h } := by constructor <;> simp

@[simp] theorem flag_eq (b : Bool) : flag b = boolStr b := by cases b <;> rfl
@[simp] theorem chosen_eq (n : Option String) (u : String) : chosen n u = Diagram.pickId n u := by cases n <;> rfl

theorem startDefs_eq (df : Option String) (du : String) :
    definitionsOf startKinds df du = Diagram.startEventDefs df du := by
  unfold definitionsOf startKinds Diagram.startEventDefs
  cases df with
  | none => simp
  | some s =>
    by_cases h1 : s = "message"; · subst h1; simp
    by_cases h2 : s = "timer"; · subst h2; simp
    by_cases h3 : s = "conditional"; · subst h3; simp
    by_cases h4 : s = "signal"; · subst h4; simp
    by_cases h5 : s = "escalation"; · subst h5; simp
    simp [h1, h2, h3, h4, h5, Ne.symm h1, Ne.symm h2, Ne.symm h3, Ne.symm h4, Ne.symm h5, List.filter_cons]

theorem endDefs_eq (df : Option String) (du : String) :
    definitionsOf endKinds df du = Diagram.endEventDefs df du := by
  unfold definitionsOf endKinds Diagram.endEventDefs
  cases df with
  | none => simp
  | some s =>
    by_cases h1 : s = "terminate"; · subst h1; simp
    by_cases h2 : s = "escalation"; · subst h2; simp
    by_cases h3 : s = "message"; · subst h3; simp
    by_cases h4 : s = "compensate"; · subst h4; simp
    by_cases h5 : s = "signal"; · subst h5; simp
    by_cases h6 : s = "error"; · subst h6; simp
    simp [h1, h2, h3, h4, h5, h6, Ne.symm h1, Ne.symm h2, Ne.symm h3, Ne.symm h4, Ne.symm h5, Ne.symm h6, List.filter_cons]

theorem validDirection_iff (s : String) : Diagram.validDirection s = true ↔ s ∈ directions := by
  simp [Diagram.validDirection, directions, or_assoc]

@[simp] theorem keys_concretize (A : ADiagram) : (concretize A).graph.nodes.keys = A.nodes.map (·.id) := by
  simp [concretize, Dict.keys, Function.comp_def]

/-- Adding a node with a new id appends it. -/
theorem addFlowNode_new (d : Diagram) (p ty nm n : String) (h : n ∉ d.graph.nodes.keys) :
    d.addFlowNode p ty nm n =
      { d with graph := { d.graph with nodes := d.graph.nodes ++ [(n, Diagram.flowNodeAttrs p ty nm n {})] } } := by
  simp [Diagram.addFlowNode, Graph.addNode_of_not_mem h, Graph.modifyNode, Dict.modify_append _ _ _ h, Dict.modify]

/-- Updating the node appended last. -/
theorem updNode_append (d : Diagram) (ns : Dict String NodeAttrs) (n : String) (a : NodeAttrs) (f) (h : n ∉ ns.keys) :
    ({ d with graph := { d.graph with nodes := ns ++ [(n, a)] } } : Diagram).updNode n f =
      { d with graph := { d.graph with nodes := ns ++ [(n, f a)] } } := by
  simp [Diagram.updNode, Graph.modifyNode, Dict.modify_append _ _ _ h, Dict.modify]

theorem concretize_addNode (A : ADiagram) (n : ANode) (hi : inIds A.flows n.id = []) (ho : outIds A.flows n.id = []) :
    concretize { A with nodes := A.nodes ++ [n] } =
      { concretize A with graph := { (concretize A).graph with
          nodes := (concretize A).graph.nodes ++ [(n.id, { n.attrs with incoming := some [], outgoing := some [] })] } } := by
  simp [concretize, nodeOf, hi, ho]

theorem noFlows {A : ADiagram} (w : AWF A) {n : String} (hn : n ∉ A.nodes.map (·.id)) :
    inIds A.flows n = [] ∧ outIds A.flows n = [] := by
  constructor
  · simp only [inIds, List.map_eq_nil_iff, List.filter_eq_nil_iff]
    intro f hf e
    simp at e
    exact hn (e ▸ (w.ends f hf).2)
  · simp only [outIds, List.map_eq_nil_iff, List.filter_eq_nil_iff]
    intro f hf e
    simp at e
    exact hn (e ▸ (w.ends f hf).1)

theorem modify_map {ι α : Type} (l : List ι) (key : ι → String) (g : ι → α) (k : String) (f : α → α)
    (nd : (l.map key).Nodup) :
    Dict.modify (l.map fun n => (key n, g n)) k f = l.map fun n => (key n, if key n = k then f (g n) else g n) := by
  induction l with
  | nil => rfl
  | cons x l ih =>
    simp only [List.map_cons, List.nodup_cons] at nd
    by_cases h : key x = k
    · have : l.map (fun n => (key n, if key n = k then f (g n) else g n)) = l.map fun n => (key n, g n) := by
        apply List.map_congr_left
        intro y hy
        have : key y ≠ k := fun e => nd.1 (by rw [h, ← e]; exact List.mem_map_of_mem hy)
        simp [this]
      simp [Dict.modify, h, this]
    · simp [Dict.modify, h, ih nd.2]

theorem get?_map {ι α : Type} (l : List ι) (key : ι → String) (g : ι → α) (nd : (l.map key).Nodup) {x : ι} (hx : x ∈ l) :
    Dict.get? (l.map fun n => (key n, g n)) (key x) = some (g x) := by
  apply Dict.get?_of_mem
  · simpa [Dict.keys, Function.comp_def] using nd
  · exact List.mem_map.2 ⟨x, hx, rfl⟩

/-- Adding a flow between two existing, not yet joined nodes. -/
theorem addSequenceFlow_new {A : ADiagram} (w : AWF A) {f : AFlow}
    (hs : ∃ n ∈ A.nodes, n.id = f.src) (ht : ∃ n ∈ A.nodes, n.id = f.tgt)
    (hf : ∀ g ∈ A.flows, g.id ≠ f.id ∧ ¬(g.src = f.src ∧ g.tgt = f.tgt) ∧ ¬(g.src = f.tgt ∧ g.tgt = f.src)) :
    (concretize A).addSequenceFlow f.process f.src f.tgt f.name f.id =
      (concretize { A with flows := A.flows ++ [f] }, .ok f.id) := by
  obtain ⟨ns, hns, hsid⟩ := hs
  obtain ⟨nt, hnt, htid⟩ := ht
  have hks : f.src ∈ (concretize A).graph.nodes.keys := by
    rw [keys_concretize]; exact List.mem_map.2 ⟨ns, hns, hsid⟩
  have hkt : f.tgt ∈ (concretize A).graph.nodes.keys := by
    rw [keys_concretize]; exact List.mem_map.2 ⟨nt, hnt, htid⟩
  have hne : (concretize A).graph.hasEdge f.src f.tgt = false := by
    rw [Bool.eq_false_iff]
    intro h
    obtain ⟨e, he, hj⟩ := (Graph.hasEdge_iff _ _ _).1 h
    simp only [concretize, List.mem_map] at he
    obtain ⟨g, hg, rfl⟩ := he
    rw [Edge.joins_iff] at hj
    exact hj.elim (hf g hg).2.1 (hf g hg).2.2
  have hedge : ∀ (fn : EdgeAttrs → EdgeAttrs) (a : EdgeAttrs),
      List.map (fun e : Edge => if e.joins f.src f.tgt then { e with attrs := fn e.attrs } else e) (A.flows.map edgeOf ++ [(⟨f.src, f.tgt, a⟩ : Edge)]) =
      A.flows.map edgeOf ++ [⟨f.src, f.tgt, fn a⟩] := by
    intro fn a
    rw [List.map_append]
    congr 1
    · conv => rhs; rw [← List.map_id (A.flows.map edgeOf)]
      apply List.map_congr_left
      intro e he
      obtain ⟨g, hg, rfl⟩ := List.mem_map.1 he
      have : (edgeOf g).joins f.src f.tgt = false := by
        rw [Bool.eq_false_iff]
        intro hj
        rw [Edge.joins_iff] at hj
        exact hj.elim (hf g hg).2.1 (hf g hg).2.2
      simp [this]
    · simp [Edge.joins]
  have hadd : (concretize A).graph.addEdge f.src f.tgt =
      { (concretize A).graph with edges := A.flows.map edgeOf ++ [⟨f.src, f.tgt, {}⟩] } := by
    unfold Graph.addEdge
    rw [Graph.addNode_of_mem hks, Graph.addNode_of_mem hkt]
    simp only [hne, Bool.false_eq_true, if_false]
    rfl
  have hseq : (concretize A).sequenceFlows.set f.id ⟨f.name, f.src, f.tgt⟩ =
      (A.flows ++ [f]).map fun f => (f.id, (⟨f.name, f.src, f.tgt⟩ : SeqFlow)) := by
    rw [Dict.set_of_not_mem]
    · simp [concretize]
    · simp only [concretize, Dict.keys, List.map_map, List.mem_map, Function.comp_def, not_exists, not_and]
      intro g hg; exact (hf g hg).1
  have gs : Dict.get? (A.nodes.map fun n => (n.id, nodeOf A.flows n)) f.src = some (nodeOf A.flows ns) := by
    rw [← hsid]; exact get?_map A.nodes (·.id) (nodeOf A.flows) w.nodesNodup hns
  have gt : Dict.get? (A.nodes.map fun n => (n.id, nodeOf A.flows n)) f.tgt = some (nodeOf A.flows nt) := by
    rw [← htid]; exact get?_map A.nodes (·.id) (nodeOf A.flows) w.nodesNodup hnt
  have wp : Diagram.newWaypoints (nodeOf A.flows ns) (nodeOf A.flows nt) = .ok [("100", "100"), ("100", "100")] := by
    simp [Diagram.newWaypoints, nodeOf, w.geom ns hns, w.geom nt hnt]
  have he1 := hedge (fun a => { a with id := some f.id, name := some f.name, process := some f.process,
                                       sourceRef := some f.src, targetRef := some f.tgt }) {}
  have he2 := hedge (fun a => { a with waypoints := some [("100", "100"), ("100", "100")] })
    { id := some f.id, name := some f.name, process := some f.process, sourceRef := some f.src, targetRef := some f.tgt }
  simp only at he1 he2
  simp only [Diagram.addSequenceFlow, hadd, Graph.modifyEdge, he1]
  simp only [Diagram.nodeAttrs, concretize, gs, gt, need_some, wp, he2]
  have o1 : Diagram.appendTo (nodeOf A.flows ns).outgoing f.id = .ok (outIds (A.flows ++ [f]) f.src) := by
    simp [Diagram.appendTo, nodeOf, outIds, hsid]
  simp only [o1, Diagram.updNode, Graph.modifyNode]
  rw [modify_map A.nodes (·.id) (nodeOf A.flows) f.src _ w.nodesNodup]
  have gt2 : Dict.get? (A.nodes.map fun n => (n.id, if n.id = f.src then
        { nodeOf A.flows n with outgoing := some (outIds (A.flows ++ [f]) f.src) } else nodeOf A.flows n)) f.tgt =
      some (if nt.id = f.src then { nodeOf A.flows nt with outgoing := some (outIds (A.flows ++ [f]) f.src) }
        else nodeOf A.flows nt) := by
    rw [← htid]
    exact get?_map A.nodes (·.id) (fun n => if n.id = f.src then
        { nodeOf A.flows n with outgoing := some (outIds (A.flows ++ [f]) f.src) } else nodeOf A.flows n) w.nodesNodup hnt
  have i1 : Diagram.appendTo (if nt.id = f.src then
        { nodeOf A.flows nt with outgoing := some (outIds (A.flows ++ [f]) f.src) } else nodeOf A.flows nt).incoming f.id =
      .ok (inIds (A.flows ++ [f]) f.tgt) := by
    split <;> simp [Diagram.appendTo, nodeOf, inIds, htid]
  simp only [gt2, need_some, i1]
  rw [modify_map A.nodes (·.id) (fun n => if n.id = f.src then
        { nodeOf A.flows n with outgoing := some (outIds (A.flows ++ [f]) f.src) } else nodeOf A.flows n) f.tgt _
        w.nodesNodup]
  have hnodes : (A.nodes.map fun n => (n.id, if n.id = f.tgt then
        { (if n.id = f.src then { nodeOf A.flows n with outgoing := some (outIds (A.flows ++ [f]) f.src) }
            else nodeOf A.flows n) with incoming := some (inIds (A.flows ++ [f]) f.tgt) }
        else (if n.id = f.src then { nodeOf A.flows n with outgoing := some (outIds (A.flows ++ [f]) f.src) }
            else nodeOf A.flows n))) = A.nodes.map fun n => (n.id, nodeOf (A.flows ++ [f]) n) := by
    apply List.map_congr_left
    intro n _
    have e1 : n.id ≠ f.src → outIds (A.flows ++ [f]) n.id = outIds A.flows n.id := by
      intro h; simp [outIds, List.filter_cons, Ne.symm h]
    have e2 : n.id ≠ f.tgt → inIds (A.flows ++ [f]) n.id = inIds A.flows n.id := by
      intro h; simp [inIds, List.filter_cons, Ne.symm h]
    by_cases h1 : n.id = f.src <;> by_cases h2 : n.id = f.tgt
    · have h3 : f.tgt = f.src := h2 ▸ h1
      simp [h1, h2, h3, nodeOf]
    · have h3 := e2 h2
      simp [h2, nodeOf, h3]
      simp [h1]
    · have h3 := e1 h1
      simp [h1, nodeOf, h3]
      simp [h2]
    · have h3 := e1 h1
      have h4 := e2 h2
      simp [h1, h2, nodeOf, h3, h4]
  rw [hnodes]
  simp only [concretize] at hseq
  rw [hseq]
  simp [edgeOf]

theorem declaredNode_attrs {op : Op} {n : ANode} (h : declaredNode op = some n) :
    n.attrs.x = some "100" ∧ n.attrs.y = some "100" ∧ n.attrs.id = some n.id ∧
    n.attrs.type.isSome ∧ n.attrs.nodeName.isSome ∧ n.attrs.process.isSome ∧
    n.attrs.width = some "100" ∧ n.attrs.height = some "100" := by
  cases op <;> simp only [declaredNode, Option.some.injEq, reduceCtorEq] at h <;> subst h <;> simp [baseNode]

/-- One allowed call on the representation of an abstract diagram. -/
theorem exec_concretize {A : ADiagram} (w : AWF A) {op : Op} (h : Allowed A op) :
    (op.exec (concretize A)).1 = concretize (step A op) ∧ (∃ id, (op.exec (concretize A)).2 = .ok id) := by
  have fresh : ∀ n, (∀ m ∈ A.nodes, m.id ≠ n) → n ∉ A.nodes.map (·.id) := by
    intro n hn hm
    obtain ⟨m, hm', e⟩ := List.mem_map.1 hm
    exact hn m hm' e
  cases op with
  | createNew name uid => exact ⟨rfl, _, rfl⟩
  | addProcess name c e ty pl pr =>
    refine ⟨?_, _, rfl⟩
    simp only [Allowed] at h
    have : pr ∉ Dict.keys (A.procs.map procOf) := by
      simp only [Dict.keys, List.map_map, List.mem_map, not_exists, not_and]
      intro p hp; exact h p hp
    simp [Op.exec, Diagram.addProcess, concretize, step, Dict.set_of_not_mem _ _ this, procOf]
  | addSequenceFlow p s t nm uid =>
    obtain ⟨_, _, h⟩ := h
    obtain ⟨h1, h2, h3⟩ := h ⟨uid, nm, p, s, t⟩ rfl
    have := addSequenceFlow_new w (f := ⟨uid, nm, p, s, t⟩) h1 h2 h3
    simp only at this
    simp [Op.exec, this, step, declaredNode, declaredFlow]
  | addFlowNode p ty nm n uid =>
    obtain ⟨h, -, -⟩ := h
    have hn := fresh _ (h _ rfl)
    simp only [chosen_eq] at hn
    refine ⟨?_, _, rfl⟩
    obtain ⟨hi, ho⟩ := noFlows w hn
    simp only [Op.exec, step, declaredNode, declaredFlow, Option.toList, chosen_eq, List.append_nil]
    rw [concretize_addNode _ _ hi ho, addFlowNode_new _ _ _ _ _ (by rwa [keys_concretize])]
    rfl
  | addTask p nm n uid =>
    obtain ⟨h, -, -⟩ := h
    have hn := fresh _ (h _ rfl)
    simp only [chosen_eq] at hn
    refine ⟨?_, _, rfl⟩
    obtain ⟨hi, ho⟩ := noFlows w hn
    simp only [Op.exec, Diagram.addTask, step, declaredNode, declaredFlow, Option.toList, chosen_eq, List.append_nil]
    rw [concretize_addNode _ _ hi ho, addFlowNode_new _ _ _ _ _ (by rwa [keys_concretize])]
    rfl
  | addSubprocess p nm ex tr n uid =>
    obtain ⟨h, -, -⟩ := h
    have hn := fresh _ (h _ rfl)
    simp only [chosen_eq] at hn
    refine ⟨?_, _, rfl⟩
    obtain ⟨hi, ho⟩ := noFlows w hn
    simp only [Op.exec, Diagram.addSubprocess, step, declaredNode, declaredFlow, Option.toList, chosen_eq, List.append_nil]
    rw [concretize_addNode _ _ hi ho, addFlowNode_new _ _ _ _ _ (by rwa [keys_concretize]),
      updNode_append _ _ _ _ _ (by rwa [keys_concretize])]
    simp [Diagram.flowNodeAttrs, baseNode]
  | addStartEvent p nm df pm ii n uid du =>
    obtain ⟨h, -, -⟩ := h
    have hn := fresh _ (h _ rfl)
    simp only [chosen_eq] at hn
    refine ⟨?_, _, rfl⟩
    obtain ⟨hi, ho⟩ := noFlows w hn
    simp only [Op.exec, Diagram.addStartEvent, step, declaredNode, declaredFlow, Option.toList, chosen_eq, List.append_nil]
    rw [concretize_addNode _ _ hi ho, addFlowNode_new _ _ _ _ _ (by rwa [keys_concretize]),
      updNode_append _ _ _ _ _ (by rwa [keys_concretize])]
    simp [Diagram.flowNodeAttrs, baseNode, startDefs_eq]
  | addEndEvent p nm df n uid du =>
    obtain ⟨h, -, -⟩ := h
    have hn := fresh _ (h _ rfl)
    simp only [chosen_eq] at hn
    refine ⟨?_, _, rfl⟩
    obtain ⟨hi, ho⟩ := noFlows w hn
    simp only [Op.exec, Diagram.addEndEvent, step, declaredNode, declaredFlow, Option.toList, chosen_eq, List.append_nil]
    rw [concretize_addNode _ _ hi ho, addFlowNode_new _ _ _ _ _ (by rwa [keys_concretize]),
      updNode_append _ _ _ _ _ (by rwa [keys_concretize])]
    simp [Diagram.flowNodeAttrs, baseNode, endDefs_eq]
  | addGateway p ty nm dir n uid =>
    obtain ⟨h, hd, -⟩ := h
    have hv := (validDirection_iff dir).2 (hd dir rfl)
    have hn := fresh _ (h _ rfl)
    simp only [chosen_eq] at hn
    obtain ⟨hi, ho⟩ := noFlows w hn
    simp only [Op.exec, Diagram.addGateway, hv, if_true, step, declaredNode, declaredFlow, Option.toList, chosen_eq,
      List.append_nil]
    refine ⟨?_, _, rfl⟩
    rw [concretize_addNode _ _ hi ho, addFlowNode_new _ _ _ _ _ (by rwa [keys_concretize]),
      updNode_append _ _ _ _ _ (by rwa [keys_concretize])]
    simp [Diagram.flowNodeAttrs, baseNode]
  | addExclusiveGateway p nm dir df n uid =>
    obtain ⟨h, hd, -⟩ := h
    have hv := (validDirection_iff dir).2 (hd dir rfl)
    have hn := fresh _ (h _ rfl)
    simp only [chosen_eq] at hn
    obtain ⟨hi, ho⟩ := noFlows w hn
    simp only [Op.exec, Diagram.addExclusiveGateway, Diagram.addDefaultGateway, Diagram.addGateway, hv, if_true, step,
      declaredNode, declaredFlow, Option.toList, chosen_eq, List.append_nil]
    refine ⟨?_, _, rfl⟩
    rw [concretize_addNode _ _ hi ho, addFlowNode_new _ _ _ _ _ (by rwa [keys_concretize]),
      updNode_append _ _ _ _ _ (by rwa [keys_concretize]), updNode_append _ _ _ _ _ (by rwa [keys_concretize])]
    simp [Diagram.flowNodeAttrs, baseNode]
  | addInclusiveGateway p nm dir df n uid =>
    obtain ⟨h, hd, -⟩ := h
    have hv := (validDirection_iff dir).2 (hd dir rfl)
    have hn := fresh _ (h _ rfl)
    simp only [chosen_eq] at hn
    obtain ⟨hi, ho⟩ := noFlows w hn
    simp only [Op.exec, Diagram.addInclusiveGateway, Diagram.addDefaultGateway, Diagram.addGateway, hv, if_true, step,
      declaredNode, declaredFlow, Option.toList, chosen_eq, List.append_nil]
    refine ⟨?_, _, rfl⟩
    rw [concretize_addNode _ _ hi ho, addFlowNode_new _ _ _ _ _ (by rwa [keys_concretize]),
      updNode_append _ _ _ _ _ (by rwa [keys_concretize]), updNode_append _ _ _ _ _ (by rwa [keys_concretize])]
    simp [Diagram.flowNodeAttrs, baseNode]
  | addParallelGateway p nm dir n uid =>
    obtain ⟨h, hd, -⟩ := h
    have hv := (validDirection_iff dir).2 (hd dir rfl)
    have hn := fresh _ (h _ rfl)
    simp only [chosen_eq] at hn
    obtain ⟨hi, ho⟩ := noFlows w hn
    simp only [Op.exec, Diagram.addParallelGateway, Diagram.addGateway, hv, if_true, step,
      declaredNode, declaredFlow, Option.toList, chosen_eq, List.append_nil]
    refine ⟨?_, _, rfl⟩
    rw [concretize_addNode _ _ hi ho, addFlowNode_new _ _ _ _ _ (by rwa [keys_concretize]),
      updNode_append _ _ _ _ _ (by rwa [keys_concretize])]
    simp [Diagram.flowNodeAttrs, baseNode]

theorem nodup_snoc {α β : Type} (f : α → β) {l : List α} {a : α} (nd : (l.map f).Nodup) (h : ∀ m ∈ l, f m ≠ f a) :
    ((l ++ [a]).map f).Nodup := by
  rw [List.map_append, List.nodup_append]
  refine ⟨nd, by simp, ?_⟩
  intro x hx y hy e
  simp at hy
  subst hy; subst e
  obtain ⟨m, hm, hmx⟩ := List.mem_map.1 hx
  exact h m hm hmx

theorem AWF.step {A : ADiagram} (w : AWF A) {op : Op} (h : Allowed A op) : AWF (step A op) := by
  have gen : (∀ n, declaredNode op = some n → ∀ m ∈ A.nodes, m.id ≠ n.id) →
      (∀ f, declaredFlow op = some f →
      (∃ n ∈ A.nodes, n.id = f.src) ∧ (∃ n ∈ A.nodes, n.id = f.tgt) ∧
      ∀ g ∈ A.flows, g.id ≠ f.id ∧ ¬(g.src = f.src ∧ g.tgt = f.tgt) ∧ ¬(g.src = f.tgt ∧ g.tgt = f.src)) →
      AWF { A with nodes := A.nodes ++ (declaredNode op).toList, flows := A.flows ++ (declaredFlow op).toList } := by
    intro h1 h2
    constructor
    · cases hn : declaredNode op with
      | none => simpa using w.nodesNodup
      | some n => exact nodup_snoc (fun n : ANode => n.id) w.nodesNodup (h1 n hn)
    · cases hn : declaredFlow op with
      | none => simpa using w.flowsNodup
      | some f => exact nodup_snoc (fun n : AFlow => n.id) w.flowsNodup (fun g hg => ((h2 f hn).2.2 g hg).1)
    · exact w.procsNodup
    · intro f hf
      simp only [List.mem_append, List.map_append] at hf ⊢
      rcases hf with hf | hf
      · exact ⟨Or.inl (w.ends f hf).1, Or.inl (w.ends f hf).2⟩
      · obtain ⟨⟨a, ha, ha'⟩, ⟨b, hb, hb'⟩, -⟩ := h2 f (by simpa using hf)
        exact ⟨Or.inl (List.mem_map.2 ⟨a, ha, ha'⟩), Or.inl (List.mem_map.2 ⟨b, hb, hb'⟩)⟩
    · cases hn : declaredFlow op with
      | none => simpa using w.simple
      | some f =>
        simp only [Option.toList]
        rw [List.pairwise_append]
        refine ⟨w.simple, by simp, ?_⟩
        intro g hg f' hf'
        simp at hf'; subst hf'
        exact ((h2 f' hn).2.2 g hg).2
    · intro n hn
      simp only [List.mem_append] at hn
      rcases hn with hn | hn
      · exact w.geom n hn
      · exact declaredNode_attrs (op := op) (by simpa using hn)
  cases op with
  | createNew name uid => exact AWF.empty _
  | addProcess name c e ty pl pr =>
    simp only [Allowed] at h
    exact ⟨w.nodesNodup, w.flowsNodup, nodup_snoc (fun p : AProc => p.id) w.procsNodup h, w.ends, w.simple, w.geom⟩
  | addSequenceFlow => exact gen h.1 h.2.2
  | addFlowNode => exact gen h.1 h.2.2
  | addTask => exact gen h.1 h.2.2
  | addSubprocess => exact gen h.1 h.2.2
  | addStartEvent => exact gen h.1 h.2.2
  | addEndEvent => exact gen h.1 h.2.2
  | addGateway => exact gen h.1 h.2.2
  | addExclusiveGateway => exact gen h.1 h.2.2
  | addInclusiveGateway => exact gen h.1 h.2.2
  | addParallelGateway => exact gen h.1 h.2.2

/-- Refinement for histories. -/
theorem run_concretize (ops : List Op) (A : ADiagram) (w : AWF A) (h : AllowedHistory A ops) :
    Op.run (concretize A) ops = concretize (runAbs A ops) ∧ AWF (runAbs A ops) := by
  induction ops generalizing A with
  | nil => exact ⟨rfl, w⟩
  | cons op ops ih =>
    obtain ⟨h1, h2⟩ := h
    simp only [Op.run, runAbs]
    rw [(exec_concretize w h1).1]
    exact ih _ (w.step h1) h2

theorem run_empty (ops : List Op) (h : AllowedHistory {} ops) :
    Op.run {} ops = concretize (runAbs {} ops) ∧ AWF (runAbs {} ops) :=
  run_concretize ops {} (AWF.empty none) h

end Bpmn

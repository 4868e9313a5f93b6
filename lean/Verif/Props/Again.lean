import Verif.Lemmas.Restore
import Verif.Props.Merge
/-!
# Loading the same document again (C103)
-/
set_option linter.unusedSimpArgs false
set_option linter.unusedVariables false

namespace Bpmn.Props
open Bpmn Spec Layouter Import

/-- **C103.** Loading the same document again into the same object changes nothing, whatever the object held before and whatever the document is. -/
theorem C103_again (ord : List String → List String) (root : Xml) (d e : Diagram) (hd : EachKeyOnce d) (h : load ord root d = .ok e) :
    load ord root e = .ok e :=
  load_again hd h

/-- **C103.** The object that a document was loaded into is again one whose dictionaries hold every key once; so the statement above applies to it. -/
theorem C103_keys (ord : List String → List String) (root : Xml) (d e : Diagram) (hd : EachKeyOnce d) (h : load ord root d = .ok e) : EachKeyOnce e :=
  load_once hd h

/-- Where the flow is between the same nodes, the attributes are those under `eview`. -/
theorem flowBetween_eview {d e : Diagram} {u v : String} (h : e.graph.edges.map ends = d.graph.edges.map ends)
    (g : eview e.graph.edges u v = eview d.graph.edges u v) : flowBetween e u v = flowBetween d u v := by
  rw [flowBetween_eq, flowBetween_eq]
  have key : ∀ (l : List Edge), l.any (·.joins u v) = (l.map ends).any fun p => (⟨p.1, p.2, {}⟩ : Edge).joins u v := by
    intro l
    rw [List.any_map]
    rfl
  have ha : e.graph.edges.any (·.joins u v) = d.graph.edges.any (·.joins u v) := by rw [key, key, h]
  unfold eview at g
  cases h1 : e.graph.edges.find? (·.joins u v) with
  | none =>
    cases h2 : d.graph.edges.find? (·.joins u v) with
    | none => rfl
    | some y =>
      have : d.graph.edges.any (·.joins u v) = true := List.any_eq_true.2 ⟨y, List.mem_of_find?_eq_some h2, List.find?_some (p := fun x : Edge => x.joins u v) h2⟩
      rw [← ha, List.any_eq_true] at this
      obtain ⟨x, hx, hj⟩ := this
      exact absurd hj (List.find?_eq_none.1 h1 x hx)
  | some x =>
    cases h2 : d.graph.edges.find? (·.joins u v) with
    | none =>
      have : e.graph.edges.any (·.joins u v) = true := List.any_eq_true.2 ⟨x, List.mem_of_find?_eq_some h1, List.find?_some (p := fun x : Edge => x.joins u v) h1⟩
      rw [ha, List.any_eq_true] at this
      obtain ⟨y, hy, hj⟩ := this
      exact absurd hj (List.find?_eq_none.1 h2 y hy)
    | some y =>
      rw [h1, h2] at g
      exact congrArg some g

/-- **C103.** If coordinates of nodes and waypoints of flows were changed after the document had been loaded, loading it again gives all nodes and flows
that the document draws their old values back, and changes nothing else but coordinates and waypoints. -/
theorem C103_restores (ord : List String → List String) (root diagram plane : Xml) (d e e' : Diagram) (hd : EachKeyOnce d) (h : load ord root d = .ok e)
    (hdia : (Xml.byNameIn "BPMNDiagram" [root]).head? = some diagram) (hpl : (diagram.byName "BPMNPlane").head? = some plane)
    (he : eraseLayout e' = eraseLayout e) : ∃ f, load ord root e' = .ok f ∧ eraseLayout f = eraseLayout e ∧
      (∀ n, (shapeFor plane n).isSome → f.getNodeById n = e.getNodeById n) ∧
      ∀ u v, FlowShown plane e u v → flowBetween f u v = flowBetween e u v := by
  obtain ⟨f, h1, h2, h3, h4, -⟩ := load_restores hd h hdia hpl he
  refine ⟨f, h1, h2, fun n hn => ?_, fun u v hs => flowBetween_eview (samePlaces h2).ends (h4 u v hs)⟩
  unfold Diagram.getNodeById
  rw [Dict.find?_eq_get?, Dict.find?_eq_get?, h3 n hn]

/-- **C103.** If the document draws everything, loading it again takes a layout back completely. -/
theorem C103_layout_undone (ord : List String → List String) (root diagram plane : Xml) (d e e' : Diagram) (fuel : Nat) (hd : EachKeyOnce d)
    (h : load ord root d = .ok e) (hdia : (Xml.byNameIn "BPMNDiagram" [root]).head? = some diagram) (hpl : (diagram.byName "BPMNPlane").head? = some plane)
    (hn : ∀ n ∈ e.getNodes, (shapeFor plane n.1).isSome) (hf : ∀ x ∈ e.graph.edges, FlowShown plane e x.u x.v)
    (he : generateLayout fuel e = .ok e') : load ord root e' = .ok e := by
  obtain ⟨f, h1, -, -, -, h5⟩ := load_restores hd h hdia hpl (C29_only_layout_changes e e' he)
  rw [h1, h5 (fun n hn' => ?_) hf]
  obtain ⟨p, hp, rfl⟩ := List.mem_map.1 hn'
  exact hn p hp

/-- The tables of an object without pools. -/
structure Tables (d : Diagram) : Prop where
  table : d.sequenceFlows.keys.Nodup
  processes : d.processElements.keys.Nodup
  noPools : d.collaboration = none

theorem Tables.exec {d : Diagram} (h : Tables d) (op : Op) : Tables (op.exec d).1 := by
  cases op with
  | createNew name uid => exact ⟨List.nodup_nil, List.nodup_nil, rfl⟩
  | addProcess name c e ty pl pr => exact ⟨h.table, Dict.nodup_keys_set h.processes _ _, h.noPools⟩
  | addFlowNode p ty nm n uid => exact ⟨h.table, h.processes, h.noPools⟩
  | addTask p nm n uid => exact ⟨h.table, h.processes, h.noPools⟩
  | addSubprocess p nm ex tr n uid => exact ⟨h.table, h.processes, h.noPools⟩
  | addStartEvent p nm df pm ii n uid du => exact ⟨h.table, h.processes, h.noPools⟩
  | addEndEvent p nm df n uid du => exact ⟨h.table, h.processes, h.noPools⟩
  | addGateway p ty nm dir n uid =>
    simp only [Op.exec, Diagram.addGateway]
    split <;> exact ⟨h.table, h.processes, h.noPools⟩
  | addExclusiveGateway p nm dir df n uid =>
    simp only [Op.exec, Diagram.addExclusiveGateway, Diagram.addDefaultGateway, Diagram.addGateway]
    by_cases c : Diagram.validDirection dir
    · rw [if_pos c]; exact ⟨h.table, h.processes, h.noPools⟩
    · rw [if_neg c]; exact ⟨h.table, h.processes, h.noPools⟩
  | addInclusiveGateway p nm dir df n uid =>
    simp only [Op.exec, Diagram.addInclusiveGateway, Diagram.addDefaultGateway, Diagram.addGateway]
    by_cases c : Diagram.validDirection dir
    · rw [if_pos c]; exact ⟨h.table, h.processes, h.noPools⟩
    · rw [if_neg c]; exact ⟨h.table, h.processes, h.noPools⟩
  | addParallelGateway p nm dir n uid =>
    simp only [Op.exec, Diagram.addParallelGateway, Diagram.addGateway]
    split <;> exact ⟨h.table, h.processes, h.noPools⟩
  | addSequenceFlow p s t nm uid =>
    have k : Tables { d with sequenceFlows := d.sequenceFlows.set uid ⟨nm, s, t⟩ } := ⟨Dict.nodup_keys_set h.table _ _, h.processes, h.noPools⟩
    simp only [Op.exec, Diagram.addSequenceFlow]
    repeat' split
    all_goals exact ⟨k.table, k.processes, k.noPools⟩

/-- **C103.** Objects built by calls, whatever the calls, hold every key once. -/
theorem C103_built (ops : List Op) : EachKeyOnce (Op.run {} ops) := by
  have hs : Sane (Op.run {} ops) := Sane.empty.run ops
  have : ∀ (l : List Op) (d : Diagram), Tables d → Tables (Op.run d l) := by
    intro l
    induction l with
    | nil => exact fun d h => h
    | cons op l ih => exact fun d h => ih _ (h.exec op)
  have ht := this ops {} ⟨by decide, by decide, rfl⟩
  exact ⟨hs.nodesUnique, hs.onePerPair, ht.table, ht.processes, fun c hc => by rw [ht.noPools] at hc; cases hc⟩

/-! ## Cases -/

/-- The case: a document with pools, lanes, a sub-process and a message flow, loaded twice into a diagram that was in use. -/
example : ∃ e, load id orderDoc (Op.run {} ownOps) = .ok e ∧ load id orderDoc e = .ok e ∧ e.getNodes.length = 8 := by
  obtain ⟨e, h, hc⟩ := ok_of_check (x := load id orderDoc (Op.run {} ownOps)) (fun d => decide (d.getNodes.length = 8)) (by decide +kernel)
  exact ⟨e, h, C103_again id orderDoc _ e (C103_built ownOps) h, of_decide_eq_true hc⟩

/-- The plane of a document: three nodes, all at the same place, and two flows. -/
def shownPlane : Xml := .elem "BPMNPlane" [("id", "PL"), ("bpmnElement", "P")] (["s", "t", "e"].map shapeOf ++ ["f", "g"].map Props.edgeOf)

/-- The document. -/
def shownDoc : Xml :=
  .elem "definitions" []
    [.elem "process" [("id", "P")]
       [.elem "startEvent" [("id", "s")] [], .elem "task" [("id", "t")] [], .elem "endEvent" [("id", "e")] [],
        .elem "sequenceFlow" [("id", "f"), ("sourceRef", "s"), ("targetRef", "t")] [],
        .elem "sequenceFlow" [("id", "g"), ("sourceRef", "t"), ("targetRef", "e")] []],
     .elem "BPMNDiagram" [("id", "D")] [shownPlane]]

/-- What is loaded from this document. -/
def shown : Diagram := (load id shownDoc {}).toOption.getD {}

theorem shown_eq : load id shownDoc {} = .ok shown := by
  have h : (load id shownDoc {}).isOk = true := by decide +kernel
  unfold shown
  cases g : load id shownDoc {} with
  | ok e => rfl
  | error x => rw [g] at h; cases h

/-- `FlowFromTo` as a check. -/
theorem flowFromTo_of {d : Diagram} {i s t : String} (h : (match d.getFlowById i with
    | .ok (some f) => decide (f.2.2.id = some i ∧ f.2.2.sourceRef = some s ∧ f.2.2.targetRef = some t)
    | _ => false) = true) : FlowFromTo d i s t := by
  split at h
  next f g =>
    obtain ⟨h1, h2, h3⟩ := of_decide_eq_true h
    exact ⟨f.1, f.2.1, f.2.2, g, h1, h2, h3⟩
  next => cases h

theorem shown_consistent : Consistent shown := by
  refine ⟨by decide +kernel, by decide +kernel, by decide +kernel, ?_, ?_, by decide +kernel, ?_⟩
  · have : ∀ n ∈ shown.getNodes, ∀ i ∈ outs n, ∃ m ∈ shown.getNodes, (match shown.getFlowById i with
        | .ok (some f) => decide (f.2.2.id = some i ∧ f.2.2.sourceRef = some n.1 ∧ f.2.2.targetRef = some m.1)
        | _ => false) = true ∧ i ∈ ins m := by decide +kernel
    intro n hn i hi
    obtain ⟨m, h1, h2, h3⟩ := this n hn i hi
    exact ⟨m, h1, flowFromTo_of h2, h3⟩
  · have : ∀ m ∈ shown.getNodes, ∀ i ∈ ins m, ∃ n ∈ shown.getNodes, (match shown.getFlowById i with
        | .ok (some f) => decide (f.2.2.id = some i ∧ f.2.2.sourceRef = some n.1 ∧ f.2.2.targetRef = some m.1)
        | _ => false) = true ∧ i ∈ outs n := by decide +kernel
    intro n hn i hi
    obtain ⟨m, h1, h2, h3⟩ := this n hn i hi
    exact ⟨m, h1, flowFromTo_of h2, h3⟩
  · have : ∀ f ∈ shown.getFlows, ∃ i ∈ f.2.2.id.toList, ∃ n ∈ shown.getNodes, f.2.2.sourceRef = some n.1 ∧ i ∈ outs n := by decide +kernel
    intro f hf
    obtain ⟨i, h1, n, h2, h3, h4⟩ := this f hf
    exact ⟨i, n, h2, Option.mem_toList.1 h1, h3, h4⟩

/-- The grid of this diagram. -/
def shownGrid : List Cell := [⟨2, 1, "s"⟩, ⟨2, 2, "t"⟩, ⟨2, 3, "e"⟩]

theorem shown_layout : ∃ e', generateLayout 20 shown = .ok e' := by
  have hg : ((topologicalSort 20 shown ((byType shown).map ncOf)).bind fun r => gridLayout 20 shown r.1) = .ok shownGrid := by decide +kernel
  cases hs : topologicalSort 20 shown ((byType shown).map ncOf) with
  | error e => rw [hs] at hg; cases hg
  | ok r =>
    obtain ⟨sorted, back⟩ := r
    rw [hs] at hg
    obtain ⟨d', ns, h1, -, -⟩ := layout_ok shown_consistent hs hg (by decide +kernel)
    exact ⟨d', h1⟩

/-- The case: this document is loaded, laid out (which moves the nodes) and loaded again. -/
example : ∃ e', load id shownDoc {} = .ok shown ∧ generateLayout 20 shown = .ok e' ∧ e' ≠ shown ∧ load id shownDoc e' = .ok shown := by
  obtain ⟨e', h⟩ := shown_layout
  refine ⟨e', shown_eq, h, ?_, ?_⟩
  · rintro rfl
    refine C27_distinct_positions _ _ h (shown.getNodes[0]'(by decide +kernel)) (List.getElem_mem _) (shown.getNodes[1]'(by decide +kernel)) (List.getElem_mem _) ?_ ?_
    · decide +kernel
    · decide +kernel
  · refine C103_layout_undone id shownDoc (.elem "BPMNDiagram" [("id", "D")] [shownPlane]) shownPlane {} shown e' 20 ?_ shown_eq rfl rfl (by decide +kernel) ?_ h
    · exact C103_built []
    · intro x hx
      have : ends x ∈ shown.graph.edges.map ends := List.mem_map_of_mem hx
      rw [show shown.graph.edges.map ends = [("s", "t"), ("t", "e")] by decide +kernel] at this
      simp only [List.mem_cons, List.not_mem_nil, or_false, ends, Prod.mk.injEq] at this
      rcases this with ⟨k1, k2⟩ | ⟨k1, k2⟩
      · exact ⟨Props.edgeOf "f", by simp [shownPlane, Xml.children], by decide +kernel, .inl ⟨⟨"", "s", "t"⟩, by decide +kernel, .inl ⟨k1.symm, k2.symm⟩⟩⟩
      · exact ⟨Props.edgeOf "g", by simp [shownPlane, Xml.children], by decide +kernel, .inl ⟨⟨"", "t", "e"⟩, by decide +kernel, .inl ⟨k1.symm, k2.symm⟩⟩⟩

end Bpmn.Props

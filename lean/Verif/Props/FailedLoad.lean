import Verif.Lemmas.FailedLoad
import Verif.Props.Again
/-!
# C108: a document that cannot be loaded
-/
set_option linter.unusedSimpArgs false
set_option linter.unusedVariables false

namespace Bpmn.Props
open Bpmn Spec Import

/-- The two models of `load_diagram_from_xml` agree: a call returns exactly if `load` gives a diagram, and this is then the object; otherwise it raises the
same exception. -/
theorem C108_object (ord : List String → List String) (root : Xml) (d d' : Diagram) (e : PyErr) :
    (load ord root d = .ok d' ↔ loadObject ord root d = (d', .ok ())) ∧ (load ord root d = .error e ↔ (loadObject ord root d).2 = .error e) := by
  have h := agree_load ord root d
  unfold Agree at h
  rw [h]
  rcases loadObject ord root d with ⟨o, u | u⟩
  · simp [Except.map]
  · simp [Except.map]

/-- **C108.** A document without a diagram and a plane leaves the object as it was. -/
theorem C108_no_plane (ord : List String → List String) (root : Xml) (d : Diagram)
    (h : ∀ diagram, (Xml.byNameIn "BPMNDiagram" [root]).head? = some diagram → (diagram.byName "BPMNPlane").head? = none) :
    loadObject ord root d = (d, .error .indexError) :=
  loadObject_index ord root d h

/-- **C108.** Any other document gives the object its names and ids of the diagram and the plane, also if the call raises. -/
theorem C108_header (ord : List String → List String) (root diagram plane : Xml) (d : Diagram)
    (hd : (Xml.byNameIn "BPMNDiagram" [root]).head? = some diagram) (hp : (diagram.byName "BPMNPlane").head? = some plane) :
    (loadObject ord root d).1.diagramId = some (diagram.getAttr "id") ∧ (loadObject ord root d).1.diagramName = some (diagram.attrOr "name" "") ∧
      (loadObject ord root d).1.planeId = some (plane.getAttr "id") ∧ (loadObject ord root d).1.planeElement = some (plane.getAttr "bpmnElement") :=
  loadObject_header ord d hd hp

/-- **C108.** Nodes, processes and entries of the table of flows that the document does not mention are not touched, also if the call raises. -/
theorem C108_untouched (ord : List String → List String) (root : Xml) (d : Diagram) (v : String) (hv : ¬ Mentioned root v) :
    (loadObject ord root d).1.getNodeById v = d.getNodeById v ∧ (loadObject ord root d).1.sequenceFlows.get? v = d.sequenceFlows.get? v ∧
      (loadObject ord root d).1.processElements.get? v = d.processElements.get? v := by
  obtain ⟨h1, h2, h3⟩ := (kept_entries d (Mentioned root) v hv).holdsS ord root (names_mentioned root) (D := d) (P := fun D =>
    D.graph.nodes.get? v = d.graph.nodes.get? v ∧ D.sequenceFlows.get? v = d.sequenceFlows.get? v ∧ D.processElements.get? v = d.processElements.get? v)
    ⟨rfl, rfl, rfl⟩ fun a b c e => ⟨rfl, rfl, rfl⟩
  refine ⟨?_, h2, h3⟩
  unfold Diagram.getNodeById
  rw [Dict.find?_eq_get?, Dict.find?_eq_get?, h1]

/-- **C108.** A flow is not touched if the document does not mention both ends, nor the name under which the flow is filed. -/
theorem C108_flow_untouched (ord : List String → List String) (root : Xml) (d : Diagram) (u v : String)
    (hv : ¬ (Mentioned root u ∧ Mentioned root v)) (hf : ¬ FiledUnderMentioned root d u v) :
    flowBetween (loadObject ord root d).1 u v = flowBetween d u v := by
  have h0 : (∀ i f, Mentioned root i → d.sequenceFlows.get? i = some f → ¬ SamePair f.sourceRef f.targetRef u v) ∧
      ∀ k, (d.collaboration.map (·.messageFlows)) = some k → ∀ i m, Mentioned root i → k.get? i = some m → ¬ SamePair m.sourceRef m.targetRef u v := by
    refine ⟨?_, ?_⟩
    · intro i f hi hs hp
      exact hf (.inl ⟨i, f, hs, hi, hp⟩)
    · intro k hk i m hi hm hp
      obtain ⟨c, hc, rfl⟩ := Option.map_eq_some_iff.1 hk
      exact hf (.inr ⟨c, i, m, hc, hm, hi, hp⟩)
  have := (kept_flow d (Mentioned root) u v hv).holdsS ord root (names_mentioned root) (D := d) (P := fun D =>
    D.graph.edges.find? (·.joins u v) = d.graph.edges.find? (·.joins u v) ∧
    (∀ i f, Mentioned root i → D.sequenceFlows.get? i = some f → ¬ SamePair f.sourceRef f.targetRef u v) ∧
    ∀ k, (D.collaboration.map (·.messageFlows)) = some k → ∀ i m, Mentioned root i → k.get? i = some m → ¬ SamePair m.sourceRef m.targetRef u v)
    ⟨rfl, h0⟩ fun a b c e => ⟨rfl, h0⟩
  rw [flowBetween_eq, flowBetween_eq, this.1]

/-- **C108.** A document that uses none of the names in the object raises what it raises with a new object.  The object then is as it was, or it holds what it
held and what the new object holds. -/
theorem C108_together (ord : List String → List String) (root : Xml) (d : Diagram) (h : ∀ v, Mentioned root v → ¬ Uses d v) :
    (loadObject ord root d).2 = (loadObject ord root {}).2 ∧
      ((loadObject ord root d).1 = d ∧ (loadObject ord root {}).1 = {} ∨ Together d (loadObject ord root {}).1 (loadObject ord root d).1) := by
  have r := (kept_merge d _ h).loadS ord root (names_mentioned root) (D := {}) (E := d) (by
    intro a b c e
    refine ⟨by simp [merge], ?_, ?_, ?_, ?_, ?_⟩ <;> simp [Dict.keys])
  refine ⟨r.related.1.symm, ?_⟩
  rcases r.related.2 with q | q | q
  · exact .inr (q.1 ▸ together_merge h q.2)
  · exact .inr (q.1 ▸ together_merge h q.2)
  · exact .inl ⟨q.2, q.1⟩

/-- **C108.** Loading the document once more into the object raises the same exception and changes nothing. -/
theorem C108_again (ord : List String → List String) (root : Xml) (d e : Diagram) (x : PyErr) (hd : EachKeyOnce d) (h : loadObject ord root d = (e, .error x)) :
    loadObject ord root e = (e, .error x) ∧ EachKeyOnce e := by
  have h1 := loadObject_again ord root hd
  have h2 := loadObject_once ord root hd
  rw [h] at h1 h2
  exact ⟨h1, h2⟩

/-! ## Examples -/

/-- Two tasks and a flow; `c` are the children of the flow, `t` is its target. -/
def halfDoc (c : List Xml) (t : String) : Xml :=
  .elem "definitions" []
    [.elem "process" [("id", "P")]
       [.elem "task" [("id", "a")] [], .elem "task" [("id", "b")] [], .elem "task" [("id", "c")] [],
        .elem "sequenceFlow" [("id", "f"), ("sourceRef", "a"), ("targetRef", t)] c],
     .elem "BPMNDiagram" [("id", "D"), ("name", "half")] [.elem "BPMNPlane" [("id", "PL"), ("bpmnElement", "P")] []]]

/-- A flow with a condition without text to the wrong task. -/
def brokenDoc : Xml := halfDoc [.elem "conditionExpression" [("id", "x")] []] "b"

/-- The document after it was corrected. -/
def correctedDoc : Xml := halfDoc [] "c"

/-- `brokenDoc` cannot be loaded.  What is left behind in a new object is not a diagram in order: the flow is in the table and in the graph, but its ends do
not list it. -/
example : (loadObject id brokenDoc {}).2 = .error .attributeError ∧
    (loadObject id brokenDoc {}).1.getNodes.map (fun n => (n.1, n.2.outgoing, n.2.incoming)) =
      [("a", some [], some []), ("b", some [], some []), ("c", some [], some [])] ∧
    (loadObject id brokenDoc {}).1.getFlows.map (fun f => (f.1, f.2.1, f.2.2.id)) = [("a", "b", some "f")] ∧
    (loadObject id brokenDoc {}).1.sequenceFlows = [("f", ⟨"", "a", "b"⟩)] ∧ (loadObject id brokenDoc {}).1.diagramName = some "half" ∧
    ¬ Consistent (loadObject id brokenDoc {}).1 := by
  refine ⟨?_, ?_, ?_, ?_, ?_, ?_⟩
  · decide +kernel
  · decide +kernel
  · decide +kernel
  · decide +kernel
  · decide +kernel
  · intro h
    have : ∀ f ∈ (loadObject id brokenDoc {}).1.getFlows, ∀ i, f.2.2.id = some i → ∀ n ∈ (loadObject id brokenDoc {}).1.getNodes, i ∉ outs n := by
      have k : ∀ f ∈ (loadObject id brokenDoc {}).1.getFlows, f.2.2.id = some "f" := by decide +kernel
      have l : ∀ n ∈ (loadObject id brokenDoc {}).1.getNodes, "f" ∉ outs n := by decide +kernel
      intro f hf i hi n hn
      rw [k f hf] at hi
      cases hi
      exact l n hn
    cases hf : (loadObject id brokenDoc {}).1.getFlows with
    | nil => revert hf; decide +kernel
    | cons f r =>
      have hm : f ∈ (loadObject id brokenDoc {}).1.getFlows := by rw [hf]; simp
      obtain ⟨i, n, hn, h1, h2, h3⟩ := h.listed f hm
      exact this f hm i h1 n hn h3

/-- **C108 (a correction).** After a document that raised, the corrected document can be loaded into the same object, but the result need not be what a new
object would hold: the flow to the wrong task is still there. -/
theorem C108_corrected : (loadObject id brokenDoc {}).2 = .error .attributeError ∧ ∃ D e, load id correctedDoc {} = .ok D ∧
    load id correctedDoc (loadObject id brokenDoc {}).1 = .ok e ∧ D.getFlows.map (fun f => (f.1, f.2.1)) = [("a", "c")] ∧
    e.getFlows.map (fun f => (f.1, f.2.1)) = [("a", "b"), ("a", "c")] ∧ e.getNodes.map (·.1) = D.getNodes.map (·.1) := by
  refine ⟨by decide +kernel, ?_⟩
  obtain ⟨D, h1, h2⟩ := ok_of_check (x := load id correctedDoc {}) (fun D => D.getFlows.map (fun f => (f.1, f.2.1)) = [("a", "c")] ∧ D.getNodes.map (·.1) = ["a", "b", "c"])
    (by decide +kernel)
  obtain ⟨e, h3, h4⟩ := ok_of_check (x := load id correctedDoc (loadObject id brokenDoc {}).1)
    (fun D => D.getFlows.map (fun f => (f.1, f.2.1)) = [("a", "b"), ("a", "c")] ∧ D.getNodes.map (·.1) = ["a", "b", "c"]) (by decide +kernel)
  simp only [decide_eq_true_eq] at h2 h4
  exact ⟨D, e, h1, h3, h2.1, h4.1, h4.2.trans h2.2.symm⟩

/-- A flow with a condition, and another one without text. -/
def halfFlowDoc : Xml := halfDoc [.elem "conditionExpression" [("id", "x")] [.text "paid"], .elem "conditionExpression" [("id", "y")] []] "b"

/-- **C108 (half a flow).** There is a document that cannot be loaded because of the second condition of a flow; the object keeps the flow with the first condition,
in the table and in the graph, but the ends of the flow do not list it. -/
theorem C108_half_flow : (loadObject id halfFlowDoc {}).2 = .error .attributeError ∧
    (flowBetween (loadObject id halfFlowDoc {}).1 "a" "b").map (fun a => (a.id, a.conditionExpression)) = some (some "f", some ⟨"x", "paid"⟩) ∧
      (loadObject id halfFlowDoc {}).1.sequenceFlows = [("f", ⟨"", "a", "b"⟩)] ∧
      (loadObject id halfFlowDoc {}).1.getNodes.map (fun n => (n.1, n.2.outgoing, n.2.incoming)) =
        [("a", some [], some []), ("b", some [], some []), ("c", some [], some [])] :=
  ⟨by decide +kernel, by decide +kernel, by decide +kernel, by decide +kernel⟩

/-- `brokenDoc` and the diagram of `ownOps`: nothing is shared, so `C108_together` and `C108_untouched` apply, and the object holds both. -/
example : (∀ v, Mentioned brokenDoc v → ¬ Uses (Op.run {} ownOps) v) ∧ EachKeyOnce (Op.run {} ownOps) ∧
    (loadObject id brokenDoc (Op.run {} ownOps)).2 = .error .attributeError ∧
    (loadObject id brokenDoc (Op.run {} ownOps)).1.getNodes.map (·.1) = (Op.run {} ownOps).getNodes.map (·.1) ++ ["a", "b", "c"] := by
  refine ⟨fun v hv hu => apart_of_check (root := brokenDoc) (d := Op.run {} ownOps) (by decide +kernel) v hv |>.1 hu, C103_built _, by decide +kernel, by decide +kernel⟩

/-- A document without a plane. -/
example : loadObject id (.elem "definitions" [] [.elem "process" [("id", "P")] []]) (Op.run {} ownOps) = (Op.run {} ownOps, .error .indexError) :=
  C108_no_plane _ _ _ (by decide)

end Bpmn.Props

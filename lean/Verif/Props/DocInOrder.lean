import Verif.Lemmas.DocInOrder
import Verif.Props.XmlPools
/-!
# Property C100: a document in order comes back when it is loaded and saved
-/
set_option linter.unusedSimpArgs false
set_option linter.unusedVariables false

namespace Bpmn.Props
open Bpmn Bpmn.Spec Bpmn.Import

/-- **C100.** What is loaded from a document in order is a complete diagram, so it can be saved, and loading the file gives the same
diagram, whatever the iteration orders of sets. -/
theorem C100_comes_back (ord : List String → List String) (hord : ∀ l, (ord l).Perm l) (root diagram plane : Xml) (d : Diagram)
    (h : load ord root {} = .ok d) (hd : (Xml.byNameIn "BPMNDiagram" [root]).head? = some diagram)
    (hp : (diagram.byName "BPMNPlane").head? = some plane) (o : DocInOrder root plane) :
    ∃ t N, (∀ fuel ≥ N, Export.exportXmlFile fuel d = .ok t) ∧
      ∀ ord' : List String → List String, (∀ l, (ord' l).Perm l) → ∃ e, load ord' t.toDom {} = .ok e ∧ SameDiagram d e :=
  C33_round_trip d (exportable_of_doc hord h hd hp o)

/-- **C100.** The same after any number of times of saving and loading. -/
theorem C100_any_number_of_times (ord : List String → List String) (hord : ∀ l, (ord l).Perm l) (root diagram plane : Xml) (d : Diagram)
    (h : load ord root {} = .ok d) (hd : (Xml.byNameIn "BPMNDiagram" [root]).head? = some diagram)
    (hp : (diagram.byName "BPMNPlane").head? = some plane) (o : DocInOrder root plane) (n : Nat) (f : Diagram) (hf : After n d f) :
    SameDiagram d f ∧ ∃ t N, (∀ fuel ≥ N, Export.exportXmlFile fuel f = .ok t) ∧
      ∀ ord' : List String → List String, (∀ l, (ord' l).Perm l) → ∃ e, load ord' t.toDom {} = .ok e ∧ After (n + 1) d e := by
  obtain ⟨h1, -, h2⟩ := C72_any_number_of_times n d f (exportable_of_doc hord h hd hp o) hf
  exact ⟨h1, h2⟩

/-- A shape. -/
def shapeOf (i : String) : Xml := .elem "bpmndi:BPMNShape" [("bpmnElement", i), ("isHorizontal", "true")] [.elem "omgdc:Bounds" [("x", "1"), ("width", "7")] []]
/-- An edge. -/
def edgeOf (i : String) : Xml :=
  .elem "bpmndi:BPMNEdge" [("bpmnElement", i)] [.elem "omgdi:waypoint" [("x", "1"), ("y", "2")] [], .elem "omgdi:waypoint" [("x", "3"), ("y", "2")] []]

/-- A document as other programs write it: prefixes, two pools with a process each, lanes, a sub-process, a boundary event, a conditional
flow, a message flow; most attributes are missing. -/
def orderDoc : Xml :=
  .elem "bpmn:definitions" []
    [.elem "bpmn:collaboration" [("id", "co")]
       [.elem "bpmn:participant" [("id", "pa"), ("name", "A"), ("processRef", "P")] [],
        .elem "bpmn:participant" [("id", "pb"), ("name", "B"), ("processRef", "Q")] [],
        .elem "bpmn:messageFlow" [("id", "m"), ("sourceRef", "t"), ("targetRef", "e")] []],
     .elem "bpmn:process" [("id", "P")]
       [.elem "bpmn:laneSet" [("id", "ls")] [.elem "bpmn:lane" [("id", "l1")] [.elem "bpmn:flowNodeRef" [] [.text "t"]],
          .elem "bpmn:lane" [("id", "l2")] []],
        .elem "bpmn:task" [("id", "t")] [.elem "bpmn:outgoing" [] [.text "f"]],
        .elem "bpmn:subProcess" [("id", "s")] [.elem "bpmn:userTask" [("id", "u")] [],
          .elem "bpmn:startEvent" [("id", "v")] [.elem "bpmn:timerEventDefinition" [("id", "w")] []],
          .elem "bpmn:sequenceFlow" [("id", "h"), ("sourceRef", "v"), ("targetRef", "u")] []],
        .elem "bpmn:boundaryEvent" [("id", "b"), ("attachedToRef", "t")] [],
        .elem "bpmn:sequenceFlow" [("id", "f"), ("name", "x > 1"), ("sourceRef", "t"), ("targetRef", "s")] [.elem "bpmn:conditionExpression" [] [.text "x > 1"]]],
     .elem "bpmn:process" [("id", "Q"), ("isClosed", "true")] [.elem "bpmn:endEvent" [("id", "e")] []],
     .elem "bpmndi:BPMNDiagram" [("id", "D")] [.elem "bpmndi:BPMNPlane" [("id", "PL"), ("bpmnElement", "co")]
       (["pa", "pb", "l1", "l2", "t", "s", "u", "v", "b", "e"].map shapeOf ++ ["f", "h", "m"].map edgeOf)]]

/-- Its plane. -/
def orderPlane : Xml := (Xml.byNameIn "BPMNPlane" [orderDoc]).head?.getD (.text "")

/-- Tests whether the flows among the elements join nodes among them. -/
def flowsCheck (ks : List Xml) : Bool :=
  ks.all fun x => match x with
    | .elem t _ _ => removeNamespace t != "sequenceFlow" || (decide (x.getAttr "sourceRef" ∈ nodeIdsAll ks) && decide (x.getAttr "targetRef" ∈ nodeIdsAll ks))
    | _ => true

mutual
/-- Tests the flows in a sub-process. -/
def localCheck : Xml → Bool
  | .elem t _ ks => removeNamespace t != "subProcess" || (flowsCheck ks && localChecks ks)
  | _ => true
/-- The same for a list of elements. -/
def localChecks : List Xml → Bool
  | [] => true
  | x :: r => localCheck x && localChecks r
end

theorem flowsCheck_sound (ks : List Xml) (h : flowsCheck ks = true) : FlowsLocal ks := by
  rintro x hx ⟨t, as, k, rfl, ht⟩
  have := List.all_eq_true.mp h _ hx
  simp only [ht, bne_self_eq_false, Bool.false_or, Bool.and_eq_true, decide_eq_true_eq] at this
  exact this

mutual
theorem localCheck_sound : ∀ x : Xml, localCheck x = true → LocalIn x
  | .elem t as ks, h => by
    intro ht
    simp only [localCheck, ht, bne_self_eq_false, Bool.false_or, Bool.and_eq_true] at h
    exact ⟨flowsCheck_sound ks h.1, localChecks_sound ks h.2⟩
  | .text _, _ => trivial
  | .other _, _ => trivial
theorem localChecks_sound : ∀ ks : List Xml, localChecks ks = true → LocalAll ks
  | [], _ => trivial
  | x :: r, h => by
    simp only [localChecks, Bool.and_eq_true] at h
    exact ⟨localCheck_sound x h.1, localChecks_sound r h.2⟩
end

set_option maxRecDepth 8000 in
theorem order_ok : DocInOrder orderDoc orderPlane where
  distinct := ⟨by decide +kernel, by decide +kernel, by decide +kernel, by unfold SameEnds; decide +kernel, by decide +kernel, by decide +kernel⟩
  drawn := by
    refine ⟨by decide +kernel, by decide +kernel, by decide +kernel, by decide +kernel, ?_⟩
    have : ∀ p ∈ Xml.byNameIn "process" [orderDoc], ∀ y ∈ (p.byName "laneSet").head?.toList, ∀ z ∈ namedIn "lane" y.children,
        (drawingOf orderPlane (z.getAttr "id")).isSome ∧ (namedIn "childLaneSet" z.children).getLast?.isNone := by decide +kernel
    intro p hp y hy z hz _
    obtain ⟨h1, h2⟩ := this p hp y (by simp [hy]) z hz
    refine ⟨h1, fun w _ hw => ?_⟩
    rw [hw] at h2
    simp at h2
  placed := by
    have : ∀ p ∈ Xml.byNameIn "process" [orderDoc], flowsCheck p.children = true ∧ localChecks p.children = true := by decide +kernel
    exact fun p hp => ⟨flowsCheck_sound _ (this p hp).1, localChecks_sound _ (this p hp).2⟩
  references := by decide +kernel
  flowIds := by decide +kernel
  conditions := by
    have : ∀ f ∈ sequenceFlowElements orderDoc, ∀ c ∈ (conditionOf f.2).toList, c.expr ≠ "" ∧ f.2.attrOr "name" "" = c.expr := by decide +kernel
    exact fun f hf c hc => this f hf c (by simp [hc])
  pools := by decide +kernel
  lanes := by
    have : ∀ p ∈ Xml.byNameIn "process" [orderDoc], ∀ y ∈ (p.byName "laneSet").head?.toList, ∀ z ∈ namedIn "lane" y.children,
        (namedIn "childLaneSet" z.children).isEmpty ∧ "" ∉ textsOf "flowNodeRef" z.children := by decide +kernel
    intro p hp y hy z hz
    obtain ⟨h1, h2⟩ := this p hp y (by simp [hy]) z hz
    exact ⟨by simpa using h1, h2⟩
  shapes := by decide +kernel
  laneFlows := by decide +kernel

/-- All hypotheses hold of `orderDoc`. -/
example : ∃ d diagram, load id orderDoc {} = .ok d ∧ d.getNodes.length = 6 ∧ d.getFlows.length = 3 ∧
    (Xml.byNameIn "BPMNDiagram" [orderDoc]).head? = some diagram ∧ (diagram.byName "BPMNPlane").head? = some orderPlane ∧
    DocInOrder orderDoc orderPlane := by
  obtain ⟨d, h, e⟩ := ok_of_check (x := load id orderDoc {}) (fun d => decide (d.getNodes.length = 6 ∧ d.getFlows.length = 3)) (by decide +kernel)
  have e := of_decide_eq_true e
  exact ⟨d, _, h, e.1, e.2, rfl, rfl, order_ok⟩

end Bpmn.Props

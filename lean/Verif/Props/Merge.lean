import Verif.Lemmas.MergeSave
import Verif.Lemmas.MergeFrame
import Verif.Props.Session
/-!
# Loading a document into a diagram that is already in use (C102)
-/
set_option linter.unusedSimpArgs false
set_option linter.unusedVariables false

namespace Bpmn.Props
open Bpmn Spec Layouter Import

/-- **C102.** If the document uses none of the names in the diagram, loading it into the diagram raises exactly the exceptions of loading it into a new
object; otherwise the diagram then holds its old content followed by the content that a new object would have. -/
theorem C102_together (ord : List String → List String) (root : Xml) (d : Diagram) (h : ∀ v, Mentioned root v → ¬ Uses d v) :
    (∀ D, load ord root {} = .ok D → ∃ e, load ord root d = .ok e ∧ Together d D e) ∧
      ∀ x, load ord root {} = .error x → load ord root d = .error x := by
  have r := load_merge ord root d h
  constructor
  · intro D hD
    rw [hD] at r
    cases r' : load ord root d with
    | error x => rw [r'] at r; cases r
    | ok e =>
      rw [r'] at r
      cases r with
      | ok q =>
        refine ⟨e, rfl, ?_⟩
        rw [q.1]
        exact together_merge h q.2
  · intro x hx
    rw [hx] at r
    cases r' : load ord root d with
    | ok e => rw [r'] at r; cases r
    | error y => rw [r'] at r; cases r; rfl

/-- **C102.** Whatever the diagram holds: nodes, processes and entries of the table of flows that the document does not mention are not touched. -/
theorem C102_untouched (ord : List String → List String) (root : Xml) (d e : Diagram) (h : load ord root d = .ok e) (v : String) (hv : ¬ Mentioned root v) :
    e.getNodeById v = d.getNodeById v ∧ e.sequenceFlows.get? v = d.sequenceFlows.get? v ∧ e.processElements.get? v = d.processElements.get? v := by
  have r := (kept_entries d (Mentioned root) v hv).load ord root (names_mentioned root) (D := d) (E := d) fun a b c e => ⟨rfl, rfl, rfl, rfl⟩
  obtain ⟨h1, h2, h3⟩ := Rel.holds (P := fun D => D.graph.nodes.get? v = d.graph.nodes.get? v ∧ D.sequenceFlows.get? v = d.sequenceFlows.get? v ∧
    D.processElements.get? v = d.processElements.get? v) r h
  refine ⟨?_, h2, h3⟩
  unfold Diagram.getNodeById
  rw [Dict.find?_eq_get?, Dict.find?_eq_get?, h1]

/-- **C102.** A flow is not touched if the document does not mention both ends, nor the name under which the flow is filed. -/
theorem C102_flow_untouched (ord : List String → List String) (root : Xml) (d e : Diagram) (h : load ord root d = .ok e) (u v : String)
    (hv : ¬ (Mentioned root u ∧ Mentioned root v)) (hf : ¬ FiledUnderMentioned root d u v) : flowBetween e u v = flowBetween d u v := by
  have r := (kept_flow d (Mentioned root) u v hv).load ord root (names_mentioned root) (D := d) (E := d) fun a b c e => by
    refine ⟨rfl, rfl, ?_, ?_⟩
    · intro i f hi hs hp
      exact hf (.inl ⟨i, f, hs, hi, hp⟩)
    · intro k hk i m hi hm hp
      obtain ⟨c, hc, rfl⟩ := Option.map_eq_some_iff.1 hk
      exact hf (.inr ⟨c, i, m, hc, hm, hi, hp⟩)
  rw [flowBetween_eq, flowBetween_eq]
  have := Rel.holds (P := fun D => D.graph.edges.find? (·.joins u v) = d.graph.edges.find? (·.joins u v) ∧
    (∀ i f, Mentioned root i → D.sequenceFlows.get? i = some f → ¬ SamePair f.sourceRef f.targetRef u v) ∧
    ∀ k, (D.collaboration.map (·.messageFlows)) = some k → ∀ i m, Mentioned root i → k.get? i = some m → ¬ SamePair m.sourceRef m.targetRef u v) r h
  rw [this.1]

/-- **C102.** Names and ids of the diagram are always those of the document loaded last. -/
theorem C102_header (ord : List String → List String) (root diagram plane : Xml) (d e : Diagram) (h : load ord root d = .ok e)
    (hd : (Xml.byNameIn "BPMNDiagram" [root]).head? = some diagram) (hp : (diagram.byName "BPMNPlane").head? = some plane) :
    e.diagramId = some (diagram.getAttr "id") ∧ e.diagramName = some (diagram.attrOr "name" "") ∧ e.planeId = some (plane.getAttr "id") ∧
      e.planeElement = some (plane.getAttr "bpmnElement") :=
  load_header h hd hp

/-- **C102.** If both have pools, the old pools and message flows are gone. -/
theorem C102_pools_lost (ord : List String → List String) (root : Xml) (d D e : Diagram) (old : Collab) (h : ∀ v, Mentioned root v → ¬ Uses d v)
    (hD : load ord root {} = .ok D) (he : load ord root d = .ok e) (ho : d.collaboration = some old) (hn : D.collaboration ≠ none) :
    ∃ new, e.collaboration = some new ∧ (∀ i ∈ old.participants.keys, i ∉ new.participants.keys) ∧
      ∀ i ∈ old.messageFlows.keys, i ∉ new.messageFlows.keys := by
  have r := load_merge ord root d h
  rw [hD, he] at r
  cases r with
  | ok q =>
    cases hc : D.collaboration with
    | none => exact absurd hc hn
    | some new =>
      refine ⟨new, ?_, ?_, ?_⟩
      · rw [q.1]; simp [merge, hc]
      · intro i hi hi'
        exact h i ((q.2.collab new hc).pools i hi') (.inr (.inr (.inr (.inr ⟨old, ho, .inl hi⟩))))
      · intro i hi hi'
        obtain ⟨m, hm, rfl⟩ := List.mem_map.1 hi'
        exact h m.1 ((q.2.collab new hc).messages m hm).1 (.inr (.inr (.inr (.inr ⟨old, ho, .inr hi⟩))))

/-- **C102.** A document in order loaded into a complete diagram: if the names are different and no message flow loses its entry, both can be saved in one
file, and this file gives both back. -/
theorem C102_one_file (ord : List String → List String) (hord : ∀ l, (ord l).Perm l) (root diagram plane : Xml) (d D : Diagram)
    (hd : Exportable d) (hD : load ord root {} = .ok D) (h1 : (Xml.byNameIn "BPMNDiagram" [root]).head? = some diagram)
    (h2 : (diagram.byName "BPMNPlane").head? = some plane) (o : DocInOrder root plane) (h : ∀ v, Mentioned root v → ¬ Uses d v ∧ v ∉ laneIds d)
    (hm : D.collaboration = none ∨ messageIds d = []) :
    ∃ e, load ord root d = .ok e ∧ Together d D e ∧ Exportable e ∧ ∃ t N, (∀ fuel ≥ N, Export.exportXmlFile fuel e = .ok t) ∧
      ∀ ord : List String → List String, (∀ l, (ord l).Perm l) → ∃ f, load ord t.toDom {} = .ok f ∧ SameDiagram e f := by
  have r := load_merge ord root d fun v hv => (h v hv).1
  rw [hD] at r
  cases r' : load ord root d with
  | error x => rw [r'] at r; cases r
  | ok e =>
    rw [r'] at r
    cases r with
    | ok q =>
      obtain ⟨q1, q2⟩ := q
      have ex : Exportable e := by
        rw [q1]
        exact exportable_merge q2 (fun v hv => (h v hv).1) (fun v hv => (h v hv).2) hd (Import.exportable_of_doc hord hD h1 h2 o) hm
      exact ⟨e, rfl, by rw [q1]; exact together_merge (fun v hv => (h v hv).1) q2, ex, C33_round_trip e ex⟩

/-! ## A case -/

mutual
/-- All attribute values. -/
def attrValues : Xml → List String
  | .elem _ as ks => as.map (·.2) ++ attrValuesAll ks
  | _ => []
/-- The same for a list. -/
def attrValuesAll : List Xml → List String
  | [] => []
  | x :: r => attrValues x ++ attrValuesAll r
end

theorem attrValuesAll_mem : ∀ (l : List Xml) (x : Xml), x ∈ l → ∀ v ∈ attrValues x, v ∈ attrValuesAll l
  | [], x, h => by cases h
  | y :: r, x, h => by
    intro v hv
    rw [attrValuesAll, List.mem_append]
    rcases List.mem_cons.1 h with rfl | h
    · exact .inl hv
    · exact .inr (attrValuesAll_mem r x h v hv)

theorem mem_attrValues {x y : Xml} (h : Inside x y) : ∀ v ∈ attrValues x, v ∈ attrValues y := by
  induction h with
  | self => exact fun _ h => h
  | child hk _ ih =>
    intro v hv
    rw [attrValues, List.mem_append]
    exact .inr (attrValuesAll_mem _ _ hk v (ih v hv))

theorem mentioned_values {root : Xml} {v : String} (h : Mentioned root v) : v = "" ∨ v ∈ attrValues root := by
  rcases h with h | ⟨t, as, ks, k, hi, hm⟩
  · exact .inl h
  · refine .inr (mem_attrValues hi v ?_)
    rw [attrValues, List.mem_append]
    exact .inl (List.mem_map.2 ⟨(k, v), hm, rfl⟩)

/-- The names in a diagram. -/
def usedNames (d : Diagram) : List String :=
  d.graph.nodes.keys ++ d.graph.edges.map (·.u) ++ d.graph.edges.map (·.v) ++ d.sequenceFlows.keys ++ d.processElements.keys ++
    ((d.collaboration.map fun c => c.participants.keys ++ c.messageFlows.keys).getD []) ++ laneIds d

theorem uses_names {d : Diagram} {v : String} (h : Uses d v ∨ v ∈ laneIds d) : v ∈ usedNames d := by
  simp only [usedNames, List.mem_append, List.mem_map]
  rcases h with (h | ⟨e, he, h | h⟩ | h | h | ⟨c, hc, h⟩) | h
  · simp [h]
  · exact .inl (.inl (.inl (.inl (.inl (.inr ⟨e, he, h⟩)))))
  · exact .inl (.inl (.inl (.inl (.inr ⟨e, he, h⟩))))
  · exact .inl (.inl (.inl (.inr h)))
  · exact .inl (.inl (.inr h))
  · refine .inl (.inr ?_)
    rw [hc]
    simpa using h
  · exact .inr h

theorem apart_of_check {root : Xml} {d : Diagram} (h : ("" :: attrValues root).all (fun v => decide (v ∉ usedNames d)) = true) :
    ∀ v, Mentioned root v → ¬ Uses d v ∧ v ∉ laneIds d := by
  intro v hv
  have : v ∈ "" :: attrValues root := by
    rcases mentioned_values hv with h | h
    · simp [h]
    · simp [h]
  have := List.all_eq_true.1 h v this
  simp only [decide_eq_true_eq] at this
  exact ⟨fun hu => this (uses_names (.inl hu)), fun hl => this (uses_names (.inr hl))⟩

/-- A diagram built by calls, none of whose names occurs in the document of C100. -/
def ownOps : List Op :=
  [.createNew "own" "OD", .addProcess "own" false false "None" "OP" "R", .addTask "R" "one" (some "k1") "z1", .addTask "R" "two" (some "k2") "z2",
   .addSequenceFlow "R" "k1" "k2" "" "k3"]

theorem own_orderly : OrderlyHistory {} ownOps := by
  simp only [ownOps, OrderlyHistory]
  refine ⟨⟨?_, ?_⟩, ⟨?_, ?_⟩, ⟨?_, ?_⟩, ⟨?_, ?_⟩, ⟨?_, ?_⟩, trivial⟩
  all_goals first
    | (constructor <;> simp [Allowed, step, declaredNode, declaredFlow, directionArg, directions, chosen, usable, Placed, baseNode])
    | simp [Allowed, step, declaredNode, declaredFlow, directionArg, directions, chosen]

theorem own_exportable : Exportable (Op.run {} ownOps) := exportable_of_orderly own_orderly (by decide) (by decide)

/-- The case: a document with two pools, lanes, a sub-process and a message flow is loaded into that diagram. -/
example : ∃ D e, load id orderDoc {} = .ok D ∧ load id orderDoc (Op.run {} ownOps) = .ok e ∧ Together (Op.run {} ownOps) D e ∧ Exportable e ∧
    e.getNodes.map (·.1) = ["k1", "k2", "t", "s", "u", "v", "b", "e"] := by
  obtain ⟨D, h, hc⟩ := ok_of_check (x := load id orderDoc {}) (fun d => decide (d.getNodes.map (·.1) = ["t", "s", "u", "v", "b", "e"])) (by decide +kernel)
  have ap := apart_of_check (root := orderDoc) (d := Op.run {} ownOps) (by decide +kernel)
  obtain ⟨e, h1, h2, h3, _⟩ := C102_one_file id (fun l => .refl l) orderDoc _ orderPlane _ D own_exportable h rfl rfl order_ok ap (.inr (by decide +kernel))
  refine ⟨D, e, h, h1, h2, h3, ?_⟩
  rw [h2.nodes, List.map_append, of_decide_eq_true hc]
  have : (Op.run {} ownOps).getNodes.map (·.1) = ["k1", "k2"] := by decide +kernel
  rw [this]
  rfl

/-- The same document has pools, so that it makes a second document with pools lose them. -/
example : ∃ old : Collab, ∃ d D e, load id orderDoc {} = .ok D ∧ load id orderDoc d = .ok e ∧ d.collaboration = some old ∧ old.participants.keys = ["kp"] ∧
    D.collaboration ≠ none ∧ ∀ v, Mentioned orderDoc v → ¬ Uses d v := by
  let old : Collab := ⟨"kc", [("kp", ⟨"k", "R", none⟩)], []⟩
  let d : Diagram := { Op.run {} ownOps with collaboration := some old }
  have ap := apart_of_check (root := orderDoc) (d := d) (by decide +kernel)
  obtain ⟨D, h, hc⟩ := ok_of_check (x := load id orderDoc {}) (fun d => d.collaboration.isSome) (by decide +kernel)
  obtain ⟨e, he, _⟩ := (C102_together id orderDoc d fun v hv => (ap v hv).1).1 D h
  refine ⟨old, d, D, e, h, he, rfl, rfl, ?_, fun v hv => (ap v hv).1⟩
  intro hn
  rw [hn] at hc
  cases hc

/-- Names that the document does not mention, in a diagram that shares names with it: the document of C100 is loaded on top of itself and of a further
task. -/
example : ∃ d e, load id orderDoc ((Op.addTask "P" "more" (some "k1") "z1").exec d).1 = .ok e ∧ d.getNodes.length = 6 ∧ ¬ Mentioned orderDoc "k1" ∧
    (e.getNodeById "k1").isSome := by
  obtain ⟨d, h, hc⟩ := ok_of_check (x := load id orderDoc {}) (fun d => decide (d.getNodes.length = 6 ∧
    ((((Op.addTask "P" "more" (some "k1") "z1").exec d).1.getNodeById "k1").isSome = true) ∧ (load id orderDoc ((Op.addTask "P" "more" (some "k1") "z1").exec d).1).toOption.isSome)) (by decide +kernel)
  have hc := of_decide_eq_true hc
  have nm : ¬ Mentioned orderDoc "k1" := by
    intro hm
    have := mentioned_values hm
    revert this
    decide +kernel
  cases e : load id orderDoc ((Op.addTask "P" "more" (some "k1") "z1").exec d).1 with
  | error x => rw [e] at hc; exact absurd hc.2.2 (by simp [Except.toOption])
  | ok f =>
    refine ⟨d, f, e, hc.1, nm, ?_⟩
    rw [(C102_untouched id orderDoc _ f e "k1" nm).1]
    exact hc.2.1

end Bpmn.Props

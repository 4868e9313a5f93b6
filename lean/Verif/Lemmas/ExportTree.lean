import Verif.Lemmas.Squeeze
import Verif.Lemmas.Graph
import Verif.Spec.RoundTrip
set_option linter.unusedSimpArgs false
set_option linter.unusedVariables false
/-!
# The exported tree of a complete diagram, without exceptions
-/
namespace Bpmn
open Spec

section keys
variable (a : NodeAttrs)
theorem mem_isExpanded : "isExpanded" ∈ presentKeys a ↔ a.isExpanded.isSome := by simp [presentKeys]
theorem mem_triggeredByEvent : "triggeredByEvent" ∈ presentKeys a ↔ a.triggeredByEvent.isSome := by simp [presentKeys]
theorem mem_parallelMultiple : "parallelMultiple" ∈ presentKeys a ↔ a.parallelMultiple.isSome := by simp [presentKeys]
theorem mem_isInterrupting : "isInterrupting" ∈ presentKeys a ↔ a.isInterrupting.isSome := by simp [presentKeys]
theorem mem_cancelActivity : "cancelActivity" ∈ presentKeys a ↔ a.cancelActivity.isSome := by simp [presentKeys]
theorem mem_attachedToRef : "attachedToRef" ∈ presentKeys a ↔ a.attachedToRef.isSome := by simp [presentKeys]
theorem mem_eventDefinitions : "eventDefinitions" ∈ presentKeys a ↔ a.eventDefinitions.isSome := by simp [presentKeys]
theorem mem_gatewayDirection : "gatewayDirection" ∈ presentKeys a ↔ a.gatewayDirection.isSome := by simp [presentKeys]
theorem mem_instantiate : "instantiate" ∈ presentKeys a ↔ a.instantiate.isSome := by simp [presentKeys]
theorem mem_eventGatewayType : "eventGatewayType" ∈ presentKeys a ↔ a.eventGatewayType.isSome := by simp [presentKeys]
theorem mem_isCollection : "isCollection" ∈ presentKeys a ↔ a.isCollection.isSome := by simp [presentKeys]
end keys

/-- What is known about the attributes of a node of a certain kind. -/
structure KindFacts (a : NodeAttrs) (ty : String) (ks : List String) (df : Bool) (defs : List String) : Prop where
  type : a.type = some ty
  isExpanded : if "isExpanded" ∈ ks then ∃ v, a.isExpanded = some v else a.isExpanded = none
  triggeredByEvent : if "triggeredByEvent" ∈ ks then ∃ v, a.triggeredByEvent = some v else a.triggeredByEvent = none
  parallelMultiple : if "parallelMultiple" ∈ ks then ∃ v, a.parallelMultiple = some v else a.parallelMultiple = none
  isInterrupting : if "isInterrupting" ∈ ks then ∃ v, a.isInterrupting = some v else a.isInterrupting = none
  cancelActivity : if "cancelActivity" ∈ ks then ∃ v, a.cancelActivity = some v else a.cancelActivity = none
  attachedToRef : if "attachedToRef" ∈ ks then ∃ v, a.attachedToRef = some v else a.attachedToRef = none
  eventDefinitions : if "eventDefinitions" ∈ ks then ∃ v, a.eventDefinitions = some v else a.eventDefinitions = none
  gatewayDirection : if "gatewayDirection" ∈ ks then ∃ v, a.gatewayDirection = some v else a.gatewayDirection = none
  instantiate : if "instantiate" ∈ ks then ∃ v, a.instantiate = some v else a.instantiate = none
  eventGatewayType : if "eventGatewayType" ∈ ks then ∃ v, a.eventGatewayType = some v else a.eventGatewayType = none
  isCollection : if "isCollection" ∈ ks then ∃ v, a.isCollection = some v else a.isCollection = none
  default : a.default.join.isSome → df = true
  defs : ∀ e ∈ a.eventDefinitions.getD [], e.defType ∈ defs

theorem ite_present {α : Type} {c : Prop} [Decidable c] {o : Option α} (h : c ↔ o.isSome) :
    if c then ∃ v, o = some v else o = none := by
  cases o <;> simp_all

theorem Spec.NodeReady.facts {n : Node} (h : NodeReady n) : ∃ k ∈ nodeKinds, KindFacts n.2 k.1 k.2.1 k.2.2.1 k.2.2.2 := by
  obtain ⟨k, hk, ht, hp, hd, he⟩ := h.kind
  refine ⟨k, hk, ⟨ht, ?_, ?_, ?_, ?_, ?_, ?_, ?_, ?_, ?_, ?_, ?_, hd, he⟩⟩ <;> rw [← hp]
  · exact ite_present (mem_isExpanded _)
  · exact ite_present (mem_triggeredByEvent _)
  · exact ite_present (mem_parallelMultiple _)
  · exact ite_present (mem_isInterrupting _)
  · exact ite_present (mem_cancelActivity _)
  · exact ite_present (mem_attachedToRef _)
  · exact ite_present (mem_eventDefinitions _)
  · exact ite_present (mem_gatewayDirection _)
  · exact ite_present (mem_instantiate _)
  · exact ite_present (mem_eventGatewayType _)
  · exact ite_present (mem_isCollection _)

namespace Export

/-- An attribute that is written if present. -/
def opt (k : String) : Option String → List (String × String)
  | some v => [(k, v)]
  | none => []

/-- The attributes of a node element after id and name. -/
def extra (a : NodeAttrs) : List (String × String) :=
  opt "triggeredByEvent" a.triggeredByEvent ++ opt "isCollection" a.isCollection ++ opt "gatewayDirection" a.gatewayDirection ++
  opt "instantiate" a.instantiate ++ opt "eventGatewayType" a.eventGatewayType ++ opt "parallelMultiple" a.parallelMultiple ++
  opt "isInterrupting" a.isInterrupting ++ opt "cancelActivity" a.cancelActivity ++ opt "attachedToRef" a.attachedToRef ++ defaultAttr a

/-- All attributes of a node element. -/
def nodeXmlAttrs (n : String) (a : NodeAttrs) : List (String × String) := ("id", n) :: ("name", a.nodeName.getD "") :: extra a

/-- The element of a flow. -/
def flowTree (a : EdgeAttrs) : ETree :=
  el "sequenceFlow" [("id", a.id.getD ""), ("name", a.name.getD ""), ("sourceRef", a.sourceRef.getD ""), ("targetRef", a.targetRef.getD "")]
    (match a.conditionExpression with
      | none => []
      | some c => [.node "conditionExpression" [("id", c.id)] (some c.expr) none []])

/-- The nodes of a process. -/
def nodesOf (d : Diagram) (p : String) : List Node := d.graph.nodes.filter fun n => n.2.process == some p

/-- The element of a node. -/
def nodeTree (d : Diagram) : Nat → Node → ETree
  | 0, _ => el "" [] []
  | f + 1, (n, a) =>
    el (a.type.getD "") (nodeXmlAttrs n a)
      ((a.incoming.getD []).map (leaf "incoming") ++ (a.outgoing.getD []).map (leaf "outgoing") ++
        if a.type = some "subProcess" then (nodesOf d n).map (nodeTree d f) ++ (d.getFlowsByProcess n).map (fun x => flowTree x.2.2)
        else exportDefs (a.eventDefinitions.getD []))

theorem forEach_ok {α : Type} {f : α → Py ETree} {g : α → ETree} {l : List α} (h : ∀ x ∈ l, f x = .ok (g x)) :
    forEach f l = .ok (l.map g) := by
  induction l with
  | nil => rfl
  | cons x r ih =>
    rw [List.forall_mem_cons] at h
    simp [forEach, h.1, ih h.2]

theorem exportFlow_ok {a : EdgeAttrs} (h : FlowReady a) : exportFlow a = .ok (flowTree a) := by
  obtain ⟨i, hi⟩ := Option.isSome_iff_exists.1 h.id
  obtain ⟨n, hn⟩ := Option.isSome_iff_exists.1 h.name
  obtain ⟨s, hs⟩ := Option.isSome_iff_exists.1 h.source
  obtain ⟨t, ht⟩ := Option.isSome_iff_exists.1 h.target
  cases hc : a.conditionExpression with
  | none => simp [exportFlow, flowTree, hi, hn, hs, ht, hc]
  | some c =>
    have := (h.condition c hc).2
    rw [hn] at this
    simp only [Option.some.injEq] at this
    simp [exportFlow, flowTree, hi, hn, hs, ht, hc, this]

theorem getNodesByProcess_ok {d : Diagram} (h : ∀ n ∈ d.graph.nodes, n.2.process.isSome) (p : String) :
    d.getNodesByProcess p = .ok (nodesOf d p) := by
  unfold Diagram.getNodesByProcess nodesOf
  apply pyFilter_eq_filter
  intro n hn
  obtain ⟨q, hq⟩ := Option.isSome_iff_exists.1 (h n hn)
  simp [hq]

theorem mem_getFlows {d : Diagram} (hs : Sane d) {f : Flow} (h : f ∈ d.getFlows) : ∃ e ∈ d.graph.edges, e.attrs = f.2.2 := by
  obtain ⟨a, b, c⟩ := f
  have := Graph.mem_flows h
  obtain ⟨e, he, h⟩ := this
  exact ⟨e, he, h.1⟩

/-- The element of a node with enough budget for its sub-processes. -/
theorem exportNode_ok {d : Diagram} (hs : Sane d) (hn : ∀ n ∈ d.graph.nodes, NodeReady n) (hf : ∀ e ∈ d.graph.edges, FlowReady e.attrs)
    {height : String → Nat}
    (hh : ∀ n ∈ d.graph.nodes, ∀ m ∈ d.graph.nodes, n.2.type = some "subProcess" → m.2.process = some n.1 → height m.1 < height n.1) :
    ∀ (f : Nat) (n : Node), n ∈ d.graph.nodes → height n.1 < f → exportNode d f n = .ok (nodeTree d f n)
  | 0, n, _, h => by omega
  | f + 1, (n, a), hm, h => by
    have hr := hn _ hm
    obtain ⟨k, hk, facts⟩ := hr.facts
    obtain ⟨name, hname⟩ := Option.isSome_iff_exists.1 hr.name
    obtain ⟨inc, hinc, -⟩ := hr.incoming
    obtain ⟨out, hout, -⟩ := hr.outgoing
    have hid := hr.id
    have hproc' : ∀ n ∈ d.graph.nodes, n.2.process.isSome := fun n h => (hn n h).process
    have hproc := getNodesByProcess_ok hproc'
    have hflow : ∀ p, forEach (fun f => exportFlow f.2.2) (d.getFlowsByProcess p)
        = .ok ((d.getFlowsByProcess p).map fun x => flowTree x.2.2) := by
      intro p
      apply forEach_ok
      intro x hx
      have hx' : x ∈ d.getFlows := (List.mem_filter.1 hx).1
      obtain ⟨e, he, hxe⟩ := mem_getFlows hs hx'
      exact exportFlow_ok (hxe ▸ hf e he)
    have hsub : a.type = some "subProcess" → forEach (exportNode d f) (nodesOf d n) = .ok ((nodesOf d n).map (nodeTree d f)) := by
      intro ht
      apply forEach_ok
      intro x hx
      obtain ⟨hx1, hx2⟩ := List.mem_filter.1 hx
      refine exportNode_ok hs hn hf hh f x hx1 ?_
      have := hh _ hm x hx1 ht (by simpa using hx2)
      simp only at h this
      omega
    obtain ⟨ty, ks, df, defs⟩ := k
    simp only at facts
    have htype := facts.type
    have f1 := facts.triggeredByEvent
    have f2 := facts.parallelMultiple
    have f3 := facts.isInterrupting
    have f4 := facts.cancelActivity
    have f5 := facts.attachedToRef
    have f6 := facts.eventDefinitions
    have f7 := facts.gatewayDirection
    have f8 := facts.instantiate
    have f9 := facts.eventGatewayType
    have f10 := facts.isCollection
    have f11 := facts.default
    simp only at hinc hout hname hid htype f1 f2 f3 f4 f5 f6 f7 f8 f9 f10 f11
    simp only [nodeKinds, List.mem_cons, List.not_mem_nil, or_false, Prod.mk.injEq] at hk
    clear facts hn hf hh hr hproc' hm h
    rcases hk with hk | hk | hk | hk | hk | hk | hk | hk | hk | hk | hk | hk | hk | hk | hk | hk <;>
      obtain ⟨rfl, rfl, rfl, rfl⟩ := hk <;>
      simp only [List.mem_cons, List.not_mem_nil, or_false, String.reduceEq, if_true, if_false, or_self, false_or, or_true, true_or]
        at f1 f2 f3 f4 f5 f6 f7 f8 f9 f10 f11
    all_goals first | obtain ⟨v1, f1⟩ := f1 | skip
    all_goals first | obtain ⟨v2, f2⟩ := f2 | skip
    all_goals first | obtain ⟨v3, f3⟩ := f3 | skip
    all_goals first | obtain ⟨v4, f4⟩ := f4 | skip
    all_goals first | obtain ⟨v5, f5⟩ := f5 | skip
    all_goals first | obtain ⟨v6, f6⟩ := f6 | skip
    all_goals first | obtain ⟨v7, f7⟩ := f7 | skip
    all_goals first | obtain ⟨v8, f8⟩ := f8 | skip
    all_goals first | obtain ⟨v9, f9⟩ := f9 | skip
    all_goals first | obtain ⟨v10, f10⟩ := f10 | skip
    all_goals
      simp [exportNode, nodeTree, htype, hname, hinc, hout, isTask, nodeXmlAttrs, extra, f1, f2, f3, f4, f5, f6, f7, f8, f9, f10, opt,
        getForAttr, exportDefs, hid, hproc, hflow]
    case inr.inr.inr.inr.inl => simp only [hsub htype, except_bind_ok]
    all_goals
      replace f11 : a.default = none ∨ a.default = some none := by
        cases hd : a.default with
        | none => exact .inl rfl
        | some o => cases o <;> simp_all
      rcases f11 with f11 | f11 <;> simp [defaultAttr, f11]

/-! ## From the written tree to the parsed one -/

mutual
/-- No text except in the elements whose text is data, these without children, no tails. -/
def clean : ETree → Bool
  | .node tag _ text tail kids =>
    tail.isNone && (if removeNamespace tag ∈ textualTags then kids.isEmpty else text.isNone) && cleanAll kids
/-- All trees of the list are clean. -/
def cleanAll : List ETree → Bool
  | [] => true
  | t :: r => clean t && cleanAll r
end

theorem cleanAll_iff (l : List ETree) : cleanAll l = true ↔ ∀ t ∈ l, clean t = true := by
  induction l with
  | nil => simp [cleanAll]
  | cons t r ih => simp [cleanAll, ih]

theorem cleanAll_append (l m : List ETree) : cleanAll (l ++ m) = (cleanAll l && cleanAll m) := by
  induction l with
  | nil => simp [cleanAll]
  | cons t r ih => simp [cleanAll, ih, Bool.and_assoc]

theorem toDomKids_clean : ∀ l : List ETree, cleanAll l = true → ETree.toDomKids l = l.map ETree.toDom
  | [], _ => by simp [ETree.toDomKids, ETree.tailOf]
  | .node tag attrs text tail kids :: r, h => by
    simp only [cleanAll, clean, Bool.and_eq_true, Option.isNone_iff_eq_none] at h
    obtain ⟨⟨⟨rfl, -⟩, -⟩, hr⟩ := h
    simp [ETree.toDomKids, ETree.tailOf, ETree.toDom, ETree.textNodes, toDomKids_clean r hr]

/-- Parsing the written element. -/
theorem toDom_el {tag : String} {attrs : List (String × String)} {kids : List ETree} (h : cleanAll kids = true) :
    (el tag attrs kids).toDom = .elem tag attrs (kids.map ETree.toDom) := by
  simp [el, ETree.toDom, ETree.textNodes, toDomKids_clean _ h]

theorem squeezeAll_append (l m : List Xml) : squeezeAll (l ++ m) = squeezeAll l ++ squeezeAll m := by
  induction l with
  | nil => simp [squeezeAll]
  | cons x r ih =>
    simp only [List.cons_append, squeezeAll]
    split <;> simp [ih]

theorem squeezeAll_textNodes (o : Option String) : squeezeAll (ETree.textNodes o) = [] := by
  cases o with
  | none => rfl
  | some s =>
    simp only [ETree.textNodes]
    split <;> simp [squeezeAll, Xml.isText]

mutual
/-- Indentation is invisible once the text between elements is dropped. -/
theorem squeeze_indent (level : Nat) : ∀ t : ETree, clean t = true → squeeze (indent level t).toDom = t.toDom
  | .node tag attrs text tail [], h => by
    simp only [clean, Bool.and_eq_true, Option.isNone_iff_eq_none] at h
    simp only [indent, ETree.toDom, ETree.toDomKids, ETree.tailOf, squeeze]
    split
    · rfl
    · rename_i ht
      simp only [ht, if_false, Option.isNone_iff_eq_none] at h
      simp [h.1.2, ETree.textNodes, squeezeAll]
  | .node tag attrs text tail (k :: ks), h => by
    simp only [clean, Bool.and_eq_true, Option.isNone_iff_eq_none] at h
    obtain ⟨⟨h1, h2⟩, h3⟩ := h
    have ht : removeNamespace tag ∉ textualTags := by
      intro c
      simp [c] at h2
    simp only [ht, if_false, Option.isNone_iff_eq_none] at h2
    subst h2
    simp only [indent, ETree.toDom, squeeze, ht, if_false, squeezeAll_append, squeezeAll_textNodes,
      squeezeAll_indentAll (level + 1) (k :: ks) h3]
    simp [ETree.textNodes, toDomKids_clean _ h3]
theorem squeezeAll_indentAll (level : Nat) : ∀ l : List ETree, cleanAll l = true →
    squeezeAll (ETree.toDomKids (indentAll level l)) = l.map ETree.toDom
  | [], _ => by simp [ETree.toDomKids, ETree.tailOf, indentAll, squeezeAll]
  | t :: r, h => by
    simp only [cleanAll, Bool.and_eq_true] at h
    have h1 := squeeze_indent level t h.1
    have h2 := squeezeAll_indentAll level r h.2
    simp only [indentAll]
    revert h1
    generalize hi : indent level t = t'
    obtain ⟨tag, attrs, text, tail, kids⟩ := t'
    intro h1
    conv at h1 => lhs; rw [ETree.toDom]
    simp only [ETree.toDomKids, ETree.tailOf, ETree.toDom, squeezeAll, Xml.isText, Bool.false_eq_true, if_false, h1, squeezeAll_append, squeezeAll_textNodes, h2,
      List.map_cons, List.nil_append]
end

end Export
end Bpmn

import Verif.Lemmas.ImportStep
set_option linter.unusedSimpArgs false
set_option linter.unusedVariables false
/-!
# Importing an exported node
-/
namespace Bpmn
open Spec Export Import

/-- Attributes without the recorded ids. -/
def noIds (a : NodeAttrs) : NodeAttrs := { a with nodeIds := none }
/-- Process entries without the recorded ids. -/
def noProcIds (l : Dict String ProcAttrs) : Dict String ProcAttrs := l.map fun p => (p.1, { p.2 with nodeIds := none })

/-- The second diagram differs from the first one in the attributes of node `n`, to which `f` was applied, and in recorded ids. -/
structure Upd (D D' : Diagram) (n : String) (f : NodeAttrs → NodeAttrs) : Prop where
  head : (D'.diagramId, D'.diagramName, D'.planeId, D'.planeElement, D'.collaboration) =
    (D.diagramId, D.diagramName, D.planeId, D.planeElement, D.collaboration)
  table : D'.sequenceFlows = D.sequenceFlows
  edges : D'.graph.edges = D.graph.edges
  procs : noProcIds D'.processElements = noProcIds D.processElements
  keys : D'.graph.nodes.keys = (D.graph.addNode n).nodes.keys
  self : (D'.graph.nodes.get? n).map noIds = some (noIds (f ((D.graph.nodes.get? n).getD {})))
  other : ∀ m, m ≠ n → (D'.graph.nodes.get? m).map noIds = (D.graph.nodes.get? m).map noIds

theorem noProcIds_modify (l : Dict String ProcAttrs) (p : String) (g : ProcAttrs → Option (List String)) :
    noProcIds (l.modify p fun a => { a with nodeIds := g a }) = noProcIds l := by
  induction l with
  | nil => rfl
  | cons x r ih =>
    obtain ⟨k, v⟩ := x
    simp only [Dict.modify]
    split
    · simp [noProcIds]
    · simpa [noProcIds] using ih

theorem get?_addNode_self (g : Graph) (n : String) : (g.addNode n).nodes.get? n = some ((g.nodes.get? n).getD {}) := by
  rw [Graph.get?_addNode]
  split
  · rename_i h
    obtain ⟨v, hv⟩ := Option.isSome_iff_exists.1 ((Dict.get?_isSome_iff _ _).2 h)
    simp [hv]
  · rename_i h
    simp [(Dict.get?_eq_none_iff _ _).2 h]

theorem get?_addNode_ne (g : Graph) {n m : String} (h : m ≠ n) : (g.addNode n).nodes.get? m = g.nodes.get? m := by
  rw [Graph.get?_addNode]
  split
  · rfl
  · rename_i h'
    simp [h, (Dict.get?_eq_none_iff _ _).2 h']

/-- Recording an id changes recorded ids only. -/
theorem record_get? (o : Owner) (i : String) (D : Diagram) (m : String) :
    ((record o i D).graph.nodes.get? m).map noIds = (D.graph.nodes.get? m).map noIds := by
  cases o with
  | process p => rfl
  | node k =>
    simp only [record, Diagram.updNode, Graph.modifyNode, Dict.get?_modify]
    split
    · cases D.graph.nodes.get? m <;> simp [noIds]
    · rfl

theorem record_rest (o : Owner) (i : String) (D : Diagram) :
    ((record o i D).diagramId, (record o i D).diagramName, (record o i D).planeId, (record o i D).planeElement, (record o i D).collaboration) =
      (D.diagramId, D.diagramName, D.planeId, D.planeElement, D.collaboration) ∧
    (record o i D).sequenceFlows = D.sequenceFlows ∧ (record o i D).graph.edges = D.graph.edges ∧
    noProcIds (record o i D).processElements = noProcIds D.processElements ∧
    (record o i D).graph.nodes.keys = D.graph.nodes.keys := by
  cases o with
  | process p => exact ⟨rfl, rfl, rfl, noProcIds_modify _ _ _, rfl⟩
  | node k => exact ⟨rfl, rfl, rfl, rfl, by simp [record, Diagram.updNode]⟩

/-- `f` does not look at recorded ids and does not produce them. -/
def Blind (f : NodeAttrs → NodeAttrs) : Prop := ∀ a b, noIds a = noIds b → noIds (f a) = noIds (f b)

theorem Upd.updNode {D D' : Diagram} {n : String} {f g : NodeAttrs → NodeAttrs} (h : Upd D D' n f) (hg : Blind g) :
    Upd D (D'.updNode n g) n (g ∘ f) where
  head := h.head
  table := h.table
  edges := h.edges
  procs := h.procs
  keys := by simpa [Diagram.updNode] using h.keys
  self := by
    have := h.self
    simp only [Diagram.updNode, Graph.modifyNode, Dict.get?_modify_self]
    cases hx : D'.graph.nodes.get? n with
    | none => simp [hx] at this
    | some b =>
      simp only [hx, Option.map_some, Option.some.injEq] at this ⊢
      exact hg _ _ this
  other := by
    intro m hm
    simp only [Diagram.updNode, Graph.modifyNode, Dict.get?_modify_ne _ _ (Ne.symm hm)]
    exact h.other m hm

theorem values_refs (tag t : String) (l : List String) (r : List Xml) (ht : removeNamespace t = t) :
    values tag (l.map (refXml t) ++ r) = (if t = tag then (fun v => l ++ v) <$> values tag r else values tag r) := by
  induction l with
  | nil => split <;> simp
  | cons x xs ih =>
    simp only [List.map_cons, List.cons_append, refXml, values, Xml.isText, Bool.false_eq_true, if_false, Xml.tagName, except_bind_ok, ht,
      Xml.firstValue, Xml.children]
    split
    · rename_i h
      rw [ih, if_pos h]
      cases values tag r <;> rfl
    · rename_i h
      rw [ih, if_neg h]

/-- Elements with other tags contribute nothing. -/
theorem values_none (tag : String) (r : List Xml)
    (h : ∀ x ∈ r, ∃ t as ks, x = .elem t as ks ∧ removeNamespace t ≠ tag) : values tag r = .ok [] := by
  induction r with
  | nil => rfl
  | cons x r ih =>
    obtain ⟨t, as, ks, rfl, ht⟩ := h _ (List.mem_cons_self)
    simp [values, Xml.isText, Xml.tagName, ht, ih fun y hy => h y (List.mem_cons_of_mem _ hy)]

/-- What the flow node part writes. -/
def baseWrite (n : String) (pid : String) (a b : NodeAttrs) : NodeAttrs :=
  { b with id := some n, type := a.type, nodeName := some (a.nodeName.getD ""), process := some pid,
           incoming := some (a.incoming.getD []), outgoing := some (a.outgoing.getD []) }

/-- The tags inside a node element. -/
theorem innerXml_tags {d : Diagram} (hn : ∀ n ∈ d.graph.nodes, NodeReady n) (hf : ∀ f ∈ d.getFlows, FlowReady f.2.2) (f : Nat)
    {n : String} {a : NodeAttrs} (hm : (n, a) ∈ d.graph.nodes) :
    ∀ x ∈ innerXml d (f + 1) n a, ∃ t as ks, x = .elem t as ks ∧ removeNamespace t = t ∧ t ∉ textualTags ∧ t ≠ "laneSet" ∧ t ≠ "process" ∧
      t ≠ "collaboration" ∧ t ≠ "BPMNDiagram" := by
  intro x hx
  simp only [innerXml] at hx
  split at hx
  · rcases List.mem_append.1 hx with hx | hx
    · obtain ⟨⟨m, b⟩, hm', rfl⟩ := List.mem_map.1 hx
      have hm'' := (List.mem_filter.1 hm').1
      obtain ⟨k, hk, facts⟩ := (hn _ hm'').facts
      obtain ⟨h1, h2, h3, h4, h5, h6, h7, -⟩ := kind_plain hk
      refine ⟨_, _, _, toDom_nodeTree hn f hm'', ?_⟩
      simp only [show b.type = some k.1 from facts.type, Option.getD_some]
      exact ⟨h1, h2, h4, h5, h6, h7⟩
    · obtain ⟨y, hy, rfl⟩ := List.mem_map.1 hx
      exact ⟨_, _, _, toDom_flowTree (hf y (List.mem_filter.1 hy).1), by decide, by decide, by decide, by decide, by decide, by decide⟩
  · obtain ⟨e, he, rfl⟩ := List.mem_map.1 hx
    obtain ⟨k, hk, facts⟩ := (hn _ hm).facts
    obtain ⟨-, -, -, -, -, -, -, -, h3⟩ := kind_plain hk
    obtain ⟨h1, h2, -, h4, h5, h6, h7⟩ := h3 _ (facts.defs e he)
    exact ⟨_, _, _, rfl, h1, h2, h4, h5, h6, h7⟩

/-- The element of a node (parsed). -/
def nodeElem (d : Diagram) (f : Nat) (n : String) (a : NodeAttrs) : Xml :=
  .elem (a.type.getD "") (nodeXmlAttrs n a)
    ((a.incoming.getD []).map (refXml "incoming") ++ (a.outgoing.getD []).map (refXml "outgoing") ++ innerXml d f n a)

theorem importFlowNode_elem {t : String} {n : String} {a : NodeAttrs} {inner : List Xml} (ht : a.type = some t) (ht' : removeNamespace t = t)
    (hi : ∀ x ∈ inner, ∃ t as ks, x = .elem t as ks ∧ removeNamespace t = t ∧ t ∉ textualTags) (pid : String) (o : Owner) (D : Diagram) :
    ∃ D', importFlowNode pid o (.elem (a.type.getD "") (nodeXmlAttrs n a)
      ((a.incoming.getD []).map (refXml "incoming") ++ (a.outgoing.getD []).map (refXml "outgoing") ++ inner)) D = .ok D' ∧
      Upd D D' n (baseWrite n pid a) := by
  have v1 : values "incoming" ((a.incoming.getD []).map (refXml "incoming") ++ (a.outgoing.getD []).map (refXml "outgoing") ++ inner)
      = .ok (a.incoming.getD []) := by
    rw [List.append_assoc, values_refs _ _ _ _ (by decide), if_pos rfl, values_refs _ _ _ _ (by decide), if_neg (by decide),
      values_none]
    · simp
    · intro x hx
      obtain ⟨t, as, ks, rfl, h1, h2⟩ := hi x hx
      exact ⟨t, as, ks, rfl, by rw [h1]; rintro rfl; exact h2 (by decide)⟩
  have v2 : values "outgoing" ((a.incoming.getD []).map (refXml "incoming") ++ (a.outgoing.getD []).map (refXml "outgoing") ++ inner)
      = .ok (a.outgoing.getD []) := by
    rw [List.append_assoc, values_refs _ _ _ _ (by decide), if_neg (by decide), values_refs _ _ _ _ (by decide), if_pos rfl,
      values_none]
    · simp
    · intro x hx
      obtain ⟨t, as, ks, rfl, h1, h2⟩ := hi x hx
      exact ⟨t, as, ks, rfl, by rw [h1]; rintro rfl; exact h2 (by decide)⟩
  refine ⟨_, by
    simp only [importFlowNode, Xml.tagName, except_bind_ok, Xml.children, v1, v2]
    rfl, ?_⟩
  simp only [ht, Option.getD_some, getAttr_elem, attrOr_elem, attr_id, attr_name, ht']
  have hself : ∀ (E : Diagram), E = Diagram.updNode { D with graph := D.graph.addNode n } n (fun b =>
      { b with id := some n, type := some t, nodeName := some (a.nodeName.getD ""), process := some pid }) →
      Upd D (record o n E) n (fun b => { b with id := some n, type := some t, nodeName := some (a.nodeName.getD ""), process := some pid }) := by
    rintro E rfl
    obtain ⟨r1, r2, r3, r4, r5⟩ := record_rest o n (Diagram.updNode { D with graph := D.graph.addNode n } n (fun b =>
      { b with id := some n, type := some t, nodeName := some (a.nodeName.getD ""), process := some pid }))
    refine ⟨r1, r2, ?_, r4, ?_, ?_, ?_⟩
    · rw [r3]; simp [Diagram.updNode]
    · rw [r5]; simp [Diagram.updNode]
    · rw [record_get?]
      simp [Diagram.updNode, Graph.modifyNode, get?_addNode_self]
    · intro m hm
      rw [record_get?]
      simp [Diagram.updNode, Graph.modifyNode, Dict.get?_modify_ne _ _ (Ne.symm hm), get?_addNode_ne _ hm]
  have := (hself _ rfl).updNode (g := fun b => { b with incoming := some (a.incoming.getD []), outgoing := some (a.outgoing.getD []) })
    (by intro x y hxy; cases x; cases y; simp_all [noIds])
  have hfun : (fun b : NodeAttrs => { b with incoming := some (a.incoming.getD []), outgoing := some (a.outgoing.getD []) }) ∘
      (fun b => { b with id := some n, type := some t, nodeName := some (a.nodeName.getD ""), process := some pid }) = baseWrite n pid a := by
    funext b
    simp [baseWrite, ht]
  rw [hfun] at this
  exact this

/-! ## Event definitions -/

theorem byNameIn_append (name : String) (l m : List Xml) : Xml.byNameIn name (l ++ m) = Xml.byNameIn name l ++ Xml.byNameIn name m := by
  induction l with
  | nil => simp [Xml.byNameIn]
  | cons x r ih => simp [Xml.byNameIn, ih]

theorem byNameIn_refs (name t : String) (l : List String) (h : removeNamespace t ≠ name) : Xml.byNameIn name (l.map (refXml t)) = [] := by
  induction l with
  | nil => simp [Xml.byNameIn]
  | cons x r ih => 
    rw [List.map_cons]
    simp [Xml.byNameIn, refXml, Xml.byName, Xml.localName, h, ih]

/-- The element of an event definition. -/
def defXml (e : EventDef) : Xml := .elem e.defType (if e.id ≠ "" then [("id", e.id)] else []) []

theorem byNameIn_defs (name : String) (l : List EventDef) (h : ∀ e ∈ l, removeNamespace e.defType = e.defType) :
    Xml.byNameIn name (l.map defXml) = (l.filter fun e => e.defType = name).map defXml := by
  induction l with
  | nil => simp [Xml.byNameIn]
  | cons e r ih =>
    rw [List.forall_mem_cons] at h
    simp only [List.map_cons, Xml.byNameIn, defXml, Xml.localName, h.1, Xml.byName, List.append_nil, List.filter_cons]
    simp only [ih h.2]
    by_cases hc : e.defType = name <;> simp [hc, defXml]

theorem flatMap_congr' {α β : Type} {l : List α} {f g : α → List β} (h : ∀ x ∈ l, f x = g x) : l.flatMap f = l.flatMap g := by
  induction l with
  | nil => rfl
  | cons x r ih =>
    rw [List.forall_mem_cons] at h
    simp [List.flatMap_cons, h.1, ih h.2]

theorem flatMap_filter_perm_import (types : List String) (hn : types.Nodup) (defs : List EventDef) (h : ∀ e ∈ defs, e.defType ∈ types) :
    (types.flatMap fun t => defs.filter fun e => e.defType = t).Perm defs := by
  induction types generalizing defs with
  | nil =>
    cases defs with
    | nil => simp
    | cons e r => exact absurd (h e (List.mem_cons_self)) (by simp)
  | cons t ts ih =>
    rw [List.nodup_cons] at hn
    have h1 := List.filter_append_perm (fun e : EventDef => decide (e.defType = t)) defs
    refine List.Perm.trans ?_ h1
    rw [List.flatMap_cons]
    refine List.Perm.append_left _ ?_
    have h2 := ih hn.2 (defs.filter fun e => !decide (e.defType = t)) (by
      intro e he
      simp only [List.mem_filter, Bool.not_eq_true', decide_eq_false_iff_not] at he
      have := h e he.1
      simp only [List.mem_cons] at this
      exact this.resolve_left he.2)
    refine List.Perm.trans (List.Perm.of_eq ?_) h2
    apply flatMap_congr'
    intro x hx
    rw [List.filter_filter]
    apply List.filter_congr
    intro e _
    have : x ≠ t := fun hxt => hn.1 (hxt ▸ hx)
    by_cases he : e.defType = x
    · simp [he, this]
    · simp [he]

/-- The imported event definitions. -/
theorem eventDefs_elem (t : String) (as : List (String × String)) (inc out : List String) (defs : List EventDef) (types : List String)
    (hp : ∀ e ∈ defs, removeNamespace e.defType = e.defType) (ht : ∀ t ∈ types, t ∉ textualTags) :
    eventDefs (.elem t as (inc.map (refXml "incoming") ++ out.map (refXml "outgoing") ++ defs.map defXml)) types =
      types.flatMap fun t => defs.filter fun e => e.defType = t := by
  simp only [eventDefs]
  apply flatMap_congr'
  intro x hx
  have hx' := ht x hx
  rw [Xml.byName, byNameIn_append, byNameIn_append, byNameIn_refs _ _ _ (by rintro rfl; exact hx' (by decide)),
    byNameIn_refs _ _ _ (by rintro rfl; exact hx' (by decide)), byNameIn_defs _ _ hp]
  simp only [List.nil_append, List.map_map]
  conv => rhs; rw [← List.map_id (defs.filter fun e => e.defType = x)]
  apply List.map_congr_left
  intro e he
  simp only [List.mem_filter, decide_eq_true_eq] at he
  obtain ⟨i, dt⟩ := e
  simp only at he
  by_cases hi : i = "" <;> simp [defXml, Xml.getAttr, hi, he.2, Dict.get?_cons]

/-! ## The imported node agrees with the exported one except for the graphics -/

/-- The imported attributes before the graphics are read. -/
structure Core (a b : NodeAttrs) : Prop where
  rest : { b with eventDefinitions := none, default := none, nodeIds := none } =
    { a with eventDefinitions := none, default := none, nodeIds := none, width := none, height := none, x := none, y := none,
             isExpanded := none }
  default : b.default.join = a.default.join
  defs : b.eventDefinitions.isSome = a.eventDefinitions.isSome ∧ (b.eventDefinitions.getD []).Perm (a.eventDefinitions.getD [])

/-- A node made by a flow that was imported before the node. -/
def Fresh (b : NodeAttrs) : Prop := { b with incoming := none, outgoing := none, nodeIds := none } = {}

theorem Core.noIds {a b c : NodeAttrs} (h : Core a b) (hc : noIds b = noIds c) : Core a c := by
  obtain ⟨h1, h2, h3⟩ := h
  cases b; cases c
  simp only [Bpmn.noIds, NodeAttrs.mk.injEq] at hc
  obtain ⟨rfl, rfl, rfl, rfl, rfl, rfl, rfl, rfl, rfl, rfl, rfl, rfl, rfl, rfl, rfl, rfl, rfl, rfl, rfl, rfl, rfl, rfl, -⟩ := hc
  exact ⟨h1, h2, h3⟩

theorem Fresh.noIds {b c : NodeAttrs} (h : Fresh b) (hc : Bpmn.noIds b = Bpmn.noIds c) : Fresh c := by
  cases b; cases c
  simp only [Bpmn.noIds, NodeAttrs.mk.injEq] at hc
  obtain ⟨rfl, rfl, rfl, rfl, rfl, rfl, rfl, rfl, rfl, rfl, rfl, rfl, rfl, rfl, rfl, rfl, rfl, rfl, rfl, rfl, rfl, rfl, -⟩ := hc
  exact h

/-- Writes after which the attributes agree, whatever the node had before. -/
theorem core_of_write {a b b' : NodeAttrs} (hb : Fresh b ∨ Core a b)
    (h : ∀ c : NodeAttrs, c = b →
      (c.width = none ∧ c.height = none ∧ c.x = none ∧ c.y = none ∧ c.isExpanded = none ∧
      (c.triggeredByEvent = none ∨ c.triggeredByEvent = a.triggeredByEvent) ∧
      (c.parallelMultiple = none ∨ c.parallelMultiple = a.parallelMultiple) ∧
      (c.isInterrupting = none ∨ c.isInterrupting = a.isInterrupting) ∧
      (c.cancelActivity = none ∨ c.cancelActivity = a.cancelActivity) ∧
      (c.attachedToRef = none ∨ c.attachedToRef = a.attachedToRef) ∧
      (c.gatewayDirection = none ∨ c.gatewayDirection = a.gatewayDirection) ∧
      (c.instantiate = none ∨ c.instantiate = a.instantiate) ∧
      (c.eventGatewayType = none ∨ c.eventGatewayType = a.eventGatewayType) ∧
      (c.isCollection = none ∨ c.isCollection = a.isCollection) ∧
      (a.default.join = none → c.default.join = none) ∧
      (a.eventDefinitions = none → c.eventDefinitions = none)) → Core a b') : Core a b' := by
  apply h b rfl
  rcases hb with hb | ⟨h1, h2, h3⟩
  · cases b
    simp only [Fresh, NodeAttrs.mk.injEq] at hb
    obtain ⟨rfl, rfl, rfl, -, -, rfl, rfl, rfl, rfl, rfl, rfl, rfl, rfl, rfl, rfl, rfl, rfl, rfl, rfl, rfl, rfl, rfl, -⟩ := hb
    simp
  · cases b; cases a
    simp only [NodeAttrs.mk.injEq] at h1
    simp only at h2 h3
    obtain ⟨rfl, rfl, rfl, rfl, rfl, rfl, rfl, rfl, rfl, rfl, rfl, rfl, rfl, rfl, rfl, rfl, -, rfl, -, rfl, rfl, rfl, -⟩ := h1
    refine ⟨rfl, rfl, rfl, rfl, rfl, .inr rfl, .inr rfl, .inr rfl, .inr rfl, .inr rfl, .inr rfl, .inr rfl, .inr rfl, .inr rfl, ?_, ?_⟩
    · intro h; simp only at h; exact h2.trans h
    · intro h; simp only at h; subst h; simpa using h3.1

/-- The ways in which the iteration order of a set may differ from the order in the source text. -/
def Shuffle (ord : List String → List String) : Prop := ∀ l, (ord l).Perm l

theorem importSimple_core {ord : List String → List String} (ho : Shuffle ord) {d : Diagram} (f : Nat) {n : String} {a : NodeAttrs}
    (hr : NodeReady (n, a)) (hs : a.type ≠ some "subProcess") {pid : String} (hp : a.process = some pid) (o : Owner) (D : Diagram) :
    ∃ D' G, importElement ord pid o (nodeElem d f n a) D = .ok D' ∧ Upd D D' n G ∧ ∀ b, (Fresh b ∨ Core a b) → Core a (G b) := by
  obtain ⟨k, hk, facts⟩ := hr.facts
  obtain ⟨p1, p2, -, -, -, -, -, -, p3⟩ := kind_plain hk
  have hinner : innerXml d f n a = (a.eventDefinitions.getD []).map defXml := by simp [innerXml, hs, defXml]
  have hplain : ∀ e ∈ a.eventDefinitions.getD [], removeNamespace e.defType = e.defType := fun e he => (p3 _ (facts.defs e he)).1
  obtain ⟨D1, h1, u1⟩ := importFlowNode_elem (n := n) (inner := innerXml d f n a) facts.type p1 (by
    intro x hx
    rw [hinner] at hx
    obtain ⟨e, he, rfl⟩ := List.mem_map.1 hx
    have := p3 _ (facts.defs e he)
    exact ⟨_, _, _, rfl, this.1, this.2.1⟩) pid o D
  obtain ⟨name, hname⟩ := Option.isSome_iff_exists.1 hr.name
  obtain ⟨inc, hinc, -⟩ := hr.incoming
  obtain ⟨out, hout, -⟩ := hr.outgoing
  have hid := hr.id
  have hty : a.type = some k.1 := facts.type
  simp only at hname hinc hout hid
  have hperm : ∀ types : List String, types.Nodup → (∀ t ∈ types, t ∉ textualTags) → (∀ t ∈ k.2.2.2, t ∈ types) →
      (eventDefs (nodeElem d f n a) (ord types)).Perm (a.eventDefinitions.getD []) := by
    intro types hnd htx hsub
    rw [nodeElem, hinner, eventDefs_elem _ _ _ _ _ _ hplain (fun t ht => htx t ((ho types).mem_iff.1 ht))]
    exact flatMap_filter_perm_import _ ((ho types).nodup_iff.2 hnd) _ fun e he => (ho types).mem_iff.2 (hsub _ (facts.defs e he))
  rw [show (Xml.elem (a.type.getD "") (nodeXmlAttrs n a) (List.map (refXml "incoming") (a.incoming.getD []) ++
    List.map (refXml "outgoing") (a.outgoing.getD []) ++ innerXml d f n a)) = nodeElem d f n a from rfl] at h1
  have himp : importElement ord pid o (nodeElem d f n a) D = importSimple ord pid o (nodeElem d f n a) k.1 D := by
    rw [hty, Ne, Option.some.injEq] at hs
    simp [nodeElem, importElement, hty, p1, hs]
  have g0 : (nodeElem d f n a).getAttr "id" = n := by simp [nodeElem, getAttr_elem, attr_id]
  have g1 : ∀ x, (nodeElem d f n a).attrOr "triggeredByEvent" x = a.triggeredByEvent.getD x := by
    intro x; simp [nodeElem, attrOr_elem, attr_extra, attr_triggeredByEvent]
  have g2 : ∀ x, (nodeElem d f n a).attrOr "parallelMultiple" x = a.parallelMultiple.getD x := by
    intro x; simp [nodeElem, attrOr_elem, attr_extra, attr_parallelMultiple]
  have g3 : ∀ x, (nodeElem d f n a).attrOr "isInterrupting" x = a.isInterrupting.getD x := by
    intro x; simp [nodeElem, attrOr_elem, attr_extra, attr_isInterrupting]
  have g4 : ∀ x, (nodeElem d f n a).attrOr "cancelActivity" x = a.cancelActivity.getD x := by
    intro x; simp [nodeElem, attrOr_elem, attr_extra, attr_cancelActivity]
  have g5 : (nodeElem d f n a).getAttr "attachedToRef" = a.attachedToRef.getD "" := by
    simp [nodeElem, getAttr_elem, attr_extra, attr_attachedToRef]
  have g7 : ∀ x, (nodeElem d f n a).attrOr "gatewayDirection" x = a.gatewayDirection.getD x := by
    intro x; simp [nodeElem, attrOr_elem, attr_extra, attr_gatewayDirection]
  have g8 : ∀ x, (nodeElem d f n a).attrOr "instantiate" x = a.instantiate.getD x := by
    intro x; simp [nodeElem, attrOr_elem, attr_extra, attr_instantiate]
  have g9 : ∀ x, (nodeElem d f n a).attrOr "eventGatewayType" x = a.eventGatewayType.getD x := by
    intro x; simp [nodeElem, attrOr_elem, attr_extra, attr_eventGatewayType]
  have g10 : ∀ x, (nodeElem d f n a).attrOr "isCollection" x = a.isCollection.getD x := by
    intro x; simp [nodeElem, attrOr_elem, attr_extra, attr_isCollection]
  have g11 : defaultOf (nodeElem d f n a) = a.default.join := by
    simp [nodeElem, defaultOf_elem, attr_extra, attr_default]
  rw [himp]
  obtain ⟨ty, ks, df, defs⟩ := k
  simp only at facts p1 p2 p3 hty hperm
  have f0 := facts.isExpanded
  have f1 := facts.triggeredByEvent
  have f2 := facts.parallelMultiple
  have f3 := facts.isInterrupting
  have f4 := facts.cancelActivity
  have f5 := facts.attachedToRef
  have f6 := facts.eventDefinitions
  have f7 := facts.gatewayDirection
  have f8 := facts.instantiate
  have f9 := facts.eventGatewayType
  have f10 := facts.isCollection
  have f11 := facts.default
  simp only [nodeKinds, List.mem_cons, List.not_mem_nil, or_false, Prod.mk.injEq] at hk
  clear facts hr himp p1 p2 p3 hplain hinner
  have blind : ∀ g : NodeAttrs → NodeAttrs, (∀ a b, Bpmn.noIds a = Bpmn.noIds b → Bpmn.noIds (g a) = Bpmn.noIds (g b)) → Blind g := fun _ h => h
  rcases hk with hk | hk | hk | hk | hk | hk | hk | hk | hk | hk | hk | hk | hk | hk | hk | hk <;>
    obtain ⟨rfl, rfl, rfl, rfl⟩ := hk <;>
    simp only [List.mem_cons, List.not_mem_nil, or_false, String.reduceEq, if_true, if_false, or_self, false_or, or_true, true_or]
      at f0 f1 f2 f3 f4 f5 f6 f7 f8 f9 f10 f11
  all_goals first | (exact absurd hty hs) | skip
  all_goals first | obtain ⟨v1, f1⟩ := f1 | skip
  all_goals first | obtain ⟨v2, f2⟩ := f2 | skip
  all_goals first | obtain ⟨v3, f3⟩ := f3 | skip
  all_goals first | obtain ⟨v4, f4⟩ := f4 | skip
  all_goals first | obtain ⟨v5, f5⟩ := f5 | skip
  all_goals first | obtain ⟨v6, f6⟩ := f6 | skip
  all_goals first | obtain ⟨v7, f7⟩ := f7 | skip
  all_goals first | obtain ⟨v8, f8⟩ := f8 | skip
  all_goals first | obtain ⟨v9, f9⟩ := f9 | skip
  all_goals first | obtain ⟨v10, f10⟩ := f10 | skip
  all_goals simp only [importSimple, Import.isTask, importActivity, importDataObject, importDefaultGateway, importGateway, importEventBasedGateway,
    importStartEvent, importCatchEvent, importThrowEvent, importBoundaryEvent, importEventDefs, h1, except_bind_ok, g0,
    g1, g2, g3, g4, g5, g7, g8, g9, g10, g11, f1, f2, f3, f4, f5, f7, f8, f9, f10, beq_self_eq_true, Bool.or_true, Bool.true_or, if_true,
    or_true, true_or, or_false, false_or, String.reduceBEq, Bool.or_false, Bool.false_or, Bool.or_self, Bool.false_eq_true, if_false, or_self,
    String.reduceEq, Option.getD_some]
  all_goals first
    | refine ⟨_, _, rfl, u1.updNode (blind _ ?_), ?_⟩
    | refine ⟨_, _, rfl, (u1.updNode (blind _ ?_)).updNode (blind _ ?_), ?_⟩
    | skip
  all_goals first
    | (intro x y hxy; cases x; cases y; simp only [Bpmn.noIds, NodeAttrs.mk.injEq] at hxy ⊢; simp_all only [and_self]; done)
    | skip
  all_goals intro b hb
  all_goals apply core_of_write hb
  all_goals rintro c rfl ⟨e1, e2, e3, e4, e5, e6, e7, e8, e9, e10, e11, e12, e13, e14, e15, e16⟩
  all_goals simp only [f1, f2, f3, f4, f5, f7, f8, f9, f10, or_self] at e6 e7 e8 e9 e10 e11 e12 e13 e14
  all_goals refine ⟨?_, ?_, ?_⟩
  all_goals simp only [baseWrite, Function.comp, hname, hinc, hout, hid, hty, hp, Option.getD_some, Option.join_some]
  all_goals first
    | (simp only [NodeAttrs.mk.injEq]
       simp only [e1, e2, e3, e4, e5, e6, e7, e8, e9, e10, e11, e12, e13, e14, f0, f1, f2, f3, f4, f5, f7, f8, f9, f10, hname, hinc, hout, hid, hty, hp, and_self]
       done)
    | (cases hd : a.default.join <;> simp_all; done)
    | skip
  all_goals first
    | (refine ⟨by simp [f6], ?_⟩
       apply hperm
       · decide
       · decide
       · decide)
    | (simp [f6, e16 f6]; done)
    | skip

/-- The first part of the import of a sub-process: its own attributes. -/
theorem importSub_core {ord : List String → List String} {d : Diagram} {f : Nat} {n : String} {a : NodeAttrs} (hr : NodeReady (n, a))
    (hs : a.type = some "subProcess") {pid : String} (hp : a.process = some pid) (hi : ∀ x ∈ innerXml d f n a, ∃ t as ks, x = .elem t as ks ∧
      removeNamespace t = t ∧ t ∉ textualTags) (o : Owner) (D : Diagram) :
    ∃ D1 G, importElement ord pid o (nodeElem d f n a) D = (do
        let E ← importElements ord n (.node n) (nodeElem d f n a).children D1
        importFlows n (nodeElem d f n a).children E) ∧
      Upd D D1 n G ∧ ∀ b, (Fresh b ∨ Core a b) → Core a (G b) := by
  obtain ⟨k, hk, facts⟩ := hr.facts
  obtain ⟨D1, h1, u1⟩ := importFlowNode_elem (n := n) (inner := innerXml d f n a) hs (by decide) hi pid o D
  obtain ⟨name, hname⟩ := Option.isSome_iff_exists.1 hr.name
  obtain ⟨inc, hinc, -⟩ := hr.incoming
  obtain ⟨out, hout, -⟩ := hr.outgoing
  have hid := hr.id
  simp only at hname hinc hout hid
  rw [show (Xml.elem (a.type.getD "") (nodeXmlAttrs n a) (List.map (refXml "incoming") (a.incoming.getD []) ++
    List.map (refXml "outgoing") (a.outgoing.getD []) ++ innerXml d f n a)) = nodeElem d f n a from rfl] at h1
  have g0 : (nodeElem d f n a).getAttr "id" = n := by simp [nodeElem, getAttr_elem, attr_id]
  have g1 : ∀ x, (nodeElem d f n a).attrOr "triggeredByEvent" x = a.triggeredByEvent.getD x := by
    intro x; simp [nodeElem, attrOr_elem, attr_extra, attr_triggeredByEvent]
  have g11 : defaultOf (nodeElem d f n a) = a.default.join := by
    simp [nodeElem, defaultOf_elem, attr_extra, attr_default]
  have hty : k.1 = "subProcess" := by
    have := facts.type
    rw [hs, Option.some.injEq] at this
    exact this.symm
  have hkey : k = ("subProcess", ["isExpanded", "triggeredByEvent"], true, []) := by
    revert hty hk; clear facts; revert k; decide
  subst hkey
  have f0 := facts.isExpanded
  have f1 := facts.triggeredByEvent
  have f2 := facts.parallelMultiple
  have f3 := facts.isInterrupting
  have f4 := facts.cancelActivity
  have f5 := facts.attachedToRef
  have f6 := facts.eventDefinitions
  have f7 := facts.gatewayDirection
  have f8 := facts.instantiate
  have f9 := facts.eventGatewayType
  have f10 := facts.isCollection
  simp only [List.mem_cons, List.not_mem_nil, or_false, String.reduceEq, if_true, if_false, or_self, false_or, or_true, true_or]
      at f0 f1 f2 f3 f4 f5 f6 f7 f8 f9 f10
  obtain ⟨v1, f1⟩ := f1
  have hR : importElement ord pid o (nodeElem d f n a) D = (do
      let d' ← importActivity pid o (nodeElem d f n a) D
      let d' := d'.updNode n fun a => { a with triggeredByEvent := some v1, nodeIds := some [] }
      let E ← importElements ord n (.node n) (nodeElem d f n a).children d'
      importFlows n (nodeElem d f n a).children E) := by
    have g0' := g0
    have g1' := g1
    revert g0' g1'
    unfold nodeElem
    intro g0' g1'
    simp only [importElement, hs, Option.getD_some] at g0' g1' ⊢
    rw [if_pos (by decide), g0', g1', f1]
    rfl
  rw [hR]
  simp only [importActivity, h1, except_bind_ok, except_pure, g0, g11]
  refine ⟨_, _, rfl, (u1.updNode ?_).updNode ?_, ?_⟩
  · intro x y hxy; cases x; cases y; simp only [Bpmn.noIds, NodeAttrs.mk.injEq] at hxy ⊢; simp_all only [and_self]
  · intro x y hxy; cases x; cases y; simp only [Bpmn.noIds, NodeAttrs.mk.injEq] at hxy ⊢; simp_all only [and_self]
  intro b hb
  apply core_of_write hb
  rintro c rfl ⟨e1, e2, e3, e4, e5, e6, e7, e8, e9, e10, e11, e12, e13, e14, e15, e16⟩
  simp only [f1, f2, f3, f4, f5, f7, f8, f9, f10, or_self] at e6 e7 e8 e9 e10 e11 e12 e13 e14
  simp only [baseWrite, Function.comp, hname, hinc, hout, hid, hs, hp, Option.getD_some]
  refine ⟨?_, rfl, ?_⟩
  · simp only [NodeAttrs.mk.injEq]
    simp only [e1, e2, e3, e4, e5, e6, e7, e8, e9, e10, e11, e12, e13, e14, f1, f2, f3, f4, f5, f7, f8, f9, f10, hname, hinc, hout, hid, hs, hp, and_self]
  · simp [f6, e16 f6]

end Bpmn

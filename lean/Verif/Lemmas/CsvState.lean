import Verif.Lemmas.CsvOrders
import Verif.Lemmas.Query
import Verif.Lemmas.NodeOps
import Verif.Spec.CsvImport
/-! Effect of the elementary operations of the CSV import on nodes, lists and flows. -/
set_option linter.unusedSimpArgs false
set_option linter.unusedVariables false

namespace Bpmn.Csv
open Bpmn.Spec Bpmn.Spec.Csv

/-- Node ids. -/
abbrev ids (d : Diagram) : List String := d.graph.nodes.keys
/-- The outgoing list of the node with an id. -/
def outOf (d : Diagram) (x : String) : List String := ((d.graph.nodes.get? x).bind (·.outgoing)).getD []
/-- The incoming list of the node with an id. -/
def inOf (d : Diagram) (x : String) : List String := ((d.graph.nodes.get? x).bind (·.incoming)).getD []
/-- The attributes apart from the two lists. -/
def bare (a : NodeAttrs) : NodeAttrs := { a with incoming := none, outgoing := none }
/-- The attributes of the node with an id, apart from the two lists. -/
def bareOf (d : Diagram) (x : String) : Option NodeAttrs := (d.graph.nodes.get? x).map bare

/-- The attributes apart from the two lists, with a list of event definitions. -/
def norm (a : NodeAttrs) : NodeAttrs := { a with incoming := none, outgoing := none, eventDefinitions := some (a.eventDefinitions.getD []) }

/-- Every node has both lists. -/
def Listed (d : Diagram) : Prop := ∀ x a, d.graph.nodes.get? x = some a → a.incoming.isSome = true ∧ a.outgoing.isSome = true

theorem Listed.updNode {d : Diagram} (h : Listed d) (n : String) (f : NodeAttrs → NodeAttrs)
    (hf : ∀ a, a.incoming.isSome = true ∧ a.outgoing.isSome = true → (f a).incoming.isSome = true ∧ (f a).outgoing.isSome = true) :
    Listed (d.updNode n f) := by
  intro x a ha
  simp only [Diagram.updNode, Graph.modifyNode, Dict.get?_modify] at ha
  split at ha
  · obtain ⟨b, hb, rfl⟩ := Option.map_eq_some_iff.1 ha
    exact hf b (h _ b hb)
  · exact h _ a ha

/-- The type of the node made for a type argument. -/
def kindOf (type : Option String) : String :=
  if type = some "startEvent" then "startEvent" else if type = some "subProcess" then "subProcess"
  else if type = some "endEvent" then "endEvent" else if type = some "inclusiveGateway" then "inclusiveGateway"
  else if type = some "exclusiveGateway" then "exclusiveGateway" else if type = some "parallelGateway" then "parallelGateway"
  else "task"

/-- The name of the node made for a type argument. -/
def nameFor (type : Option String) (activity : String) : String :=
  if kindOf type = "startEvent" ∨ kindOf type = "subProcess" ∨ kindOf type = "task" then activity else ""

/-- The attributes given to a new node. -/
structure Fresh (type : Option String) (activity : String) (a : NodeAttrs) : Prop where
  incoming : a.incoming = some []
  outgoing : a.outgoing = some []
  kind : a.type = some (kindOf type)
  name : a.nodeName = some (nameFor type activity)
  events : a.eventDefinitions.getD [] = []
  default : ∀ f, a.default ≠ some (some f)

theorem addNodeInfo_eq (o : String) (ty : Option String) (act : String) (d : Diagram) :
    ∃ f, addNodeInfo o ty act d = { d with graph := (d.graph.addNode o).modifyNode o f } ∧
      ∀ b : NodeAttrs, b.eventDefinitions.getD [] = [] → (∀ f, b.default ≠ some (some f)) → Fresh ty act (f b) ∧
        (b = {} → norm (f b) = csvNode o (kindOf ty) (nameFor ty act)) := by
  unfold addNodeInfo
  split
  · rename_i h
    refine ⟨_, by
      simp only [Diagram.addStartEvent, Diagram.updNode, Diagram.addFlowNode, Diagram.pickId, Option.getD_some, Graph.modifyNode,
        Dict.modify_modify]; rfl, ?_⟩
    intro b _ hd
    refine ⟨?_, ?_⟩
    · constructor <;> simp [hd, Diagram.flowNodeAttrs, kindOf, nameFor, h, Diagram.startEventDefs]
    · rintro rfl; simp [norm, csvNode, gatewayTypes, processId, boolStr, Diagram.flowNodeAttrs, kindOf, nameFor, hd, Diagram.flowNodeAttrs, kindOf, nameFor, h, Diagram.startEventDefs]
  split
  · rename_i h
    refine ⟨_, by
      simp only [Diagram.addSubprocess, Diagram.updNode, Diagram.addFlowNode, Diagram.pickId, Option.getD_some, Graph.modifyNode,
        Dict.modify_modify]; rfl, ?_⟩
    intro b hb hd
    refine ⟨?_, ?_⟩
    · constructor <;> simp [hd, Diagram.flowNodeAttrs, kindOf, nameFor, h, hb]
    · rintro rfl; simp [norm, csvNode, gatewayTypes, processId, boolStr, Diagram.flowNodeAttrs, kindOf, nameFor, hd, Diagram.flowNodeAttrs, kindOf, nameFor, h, hb]
  split
  · rename_i h
    refine ⟨_, by
      simp only [Diagram.addEndEvent, Diagram.updNode, Diagram.addFlowNode, Diagram.pickId, Option.getD_some, Graph.modifyNode,
        Dict.modify_modify]; rfl, ?_⟩
    intro b hb hd
    refine ⟨?_, ?_⟩
    · constructor <;> simp [hd, Diagram.flowNodeAttrs, kindOf, nameFor, h, hb, Diagram.endEventDefs]
    · rintro rfl; simp [norm, csvNode, gatewayTypes, processId, boolStr, Diagram.flowNodeAttrs, kindOf, nameFor, hd, Diagram.flowNodeAttrs, kindOf, nameFor, h, hb, Diagram.endEventDefs]
  split
  · rename_i h
    refine ⟨_, by
      simp only [Diagram.addInclusiveGateway, Diagram.addDefaultGateway, Diagram.addGateway, Diagram.updNode, Diagram.addFlowNode,
        Diagram.pickId, Option.getD_some, Graph.modifyNode, Dict.modify_modify, Diagram.validDirection, beq_self_eq_true, Bool.true_or, if_true]; rfl, ?_⟩
    intro b hb hd
    refine ⟨?_, ?_⟩
    · constructor <;> simp [hd, Diagram.flowNodeAttrs, kindOf, nameFor, h, hb]
    · rintro rfl; simp [norm, csvNode, gatewayTypes, processId, boolStr, Diagram.flowNodeAttrs, kindOf, nameFor, hd, Diagram.flowNodeAttrs, kindOf, nameFor, h, hb]
  split
  · rename_i h
    refine ⟨_, by
      simp only [Diagram.addExclusiveGateway, Diagram.addDefaultGateway, Diagram.addGateway, Diagram.updNode, Diagram.addFlowNode,
        Diagram.pickId, Option.getD_some, Graph.modifyNode, Dict.modify_modify, Diagram.validDirection, beq_self_eq_true, Bool.true_or, if_true]; rfl, ?_⟩
    intro b hb hd
    refine ⟨?_, ?_⟩
    · constructor <;> simp [hd, Diagram.flowNodeAttrs, kindOf, nameFor, h, hb]
    · rintro rfl; simp [norm, csvNode, gatewayTypes, processId, boolStr, Diagram.flowNodeAttrs, kindOf, nameFor, hd, Diagram.flowNodeAttrs, kindOf, nameFor, h, hb]
  split
  · rename_i h
    refine ⟨_, by
      simp only [Diagram.addParallelGateway, Diagram.addGateway, Diagram.updNode, Diagram.addFlowNode,
        Diagram.pickId, Option.getD_some, Graph.modifyNode, Dict.modify_modify, Diagram.validDirection, beq_self_eq_true, Bool.true_or, if_true]; rfl, ?_⟩
    intro b hb hd
    refine ⟨?_, ?_⟩
    · constructor <;> simp [hd, Diagram.flowNodeAttrs, kindOf, nameFor, h, hb]
    · rintro rfl; simp [norm, csvNode, gatewayTypes, processId, boolStr, Diagram.flowNodeAttrs, kindOf, nameFor, hd, Diagram.flowNodeAttrs, kindOf, nameFor, h, hb]
  · rename_i h1 h2 h3 h4 h5 h6
    refine ⟨_, by simp only [Diagram.addTask, Diagram.addFlowNode, Diagram.pickId, Option.getD_some, Graph.modifyNode]; rfl, ?_⟩
    intro b hb hd
    refine ⟨?_, ?_⟩
    · constructor <;> simp [hd, Diagram.flowNodeAttrs, kindOf, nameFor, h1, h2, h3, h4, h5, h6, hb]
    · rintro rfl; simp [norm, csvNode, gatewayTypes, processId, boolStr, Diagram.flowNodeAttrs, kindOf, nameFor, hd, Diagram.flowNodeAttrs, kindOf, nameFor, h1, h2, h3, h4, h5, h6, hb]

/-- A new node, nothing else. -/
structure Added (d d' : Diagram) (o : String) (ty : Option String) (act : String) : Prop where
  ids : ids d' = ids d ++ [o]
  node : ∃ a, d'.graph.nodes.get? o = some a ∧ Fresh ty act a ∧ norm a = csvNode o (kindOf ty) (nameFor ty act)
  other : ∀ x, x ≠ o → d'.graph.nodes.get? x = d.graph.nodes.get? x
  edges : d'.graph.edges = d.graph.edges
  flows : d'.sequenceFlows = d.sequenceFlows
  procs : d'.processElements = d.processElements
  plane : d'.planeElement = d.planeElement
  sane : Sane d → Sane d'
  listed : Listed d → Listed d'

theorem addNodeInfo_added {o : String} {d : Diagram} (ty : Option String) (act : String) (h : o ∉ ids d) : Added d (addNodeInfo o ty act d) o ty act := by
  obtain ⟨f, e, hf⟩ := addNodeInfo_eq o ty act d
  rw [e]
  have hg := Graph.addNode_of_not_mem h
  refine ⟨?_, ⟨f {}, ?_, (hf {} rfl (by simp)).1, (hf {} rfl (by simp)).2 rfl⟩, ?_, by simp, rfl, rfl, rfl, ?_, ?_⟩
  · simp [ids, hg]
  · simp only [Graph.modifyNode, hg, Dict.get?_modify, Dict.get?_append, (Dict.get?_eq_none_iff _ _).2 h]
    simp [Dict.get?_cons]
  · intro x hx
    simp only [Graph.modifyNode, Dict.get?_modify_ne _ _ (Ne.symm hx), hg, Dict.get?_append]
    cases d.graph.nodes.get? x <;> simp [Dict.get?_cons, Ne.symm hx, Dict.get?]
  · intro hs
    exact (hs.addNode o).updNode o f
  · intro hl x a ha
    simp only [Graph.modifyNode, Dict.get?_modify, hg, Dict.get?_append] at ha
    by_cases e : o = x
    · subst e
      simp [(Dict.get?_eq_none_iff _ _).2 h, Dict.get?_cons] at ha
      subst ha
      have := (hf {} rfl (by simp)).1
      simp [this.incoming, this.outgoing]
    · rw [if_neg e] at ha
      cases hx : d.graph.nodes.get? x with
      | none => simp [hx, Dict.get?_cons, e, Dict.get?] at ha
      | some b => simp [hx] at ha; subst ha; exact hl x b hx

theorem Added.out {d d' : Diagram} {o : String} {ty : Option String} {act : String} (h : Added d d' o ty act) (x : String) :
    outOf d' x = if x = o then [] else outOf d x := by
  obtain ⟨a, h1, h2, -⟩ := h.node
  by_cases e : x = o
  · subst e; simp [outOf, h1, h2.outgoing]
  · simp [outOf, h.other x e, e]

theorem Added.inn {d d' : Diagram} {o : String} {ty : Option String} {act : String} (h : Added d d' o ty act) (x : String) :
    inOf d' x = if x = o then [] else inOf d x := by
  obtain ⟨a, h1, h2, -⟩ := h.node
  by_cases e : x = o
  · subst e; simp [inOf, h1, h2.incoming]
  · simp [inOf, h.other x e, e]

theorem Added.bare {d d' : Diagram} {o : String} {ty : Option String} {act : String} (h : Added d d' o ty act) {x : String} (hx : x ≠ o) :
    bareOf d' x = bareOf d x := by simp [bareOf, h.other x hx]

theorem outOf_updNode_out (d : Diagram) (n : String) (l : List String) (h : n ∈ ids d) (x : String) :
    outOf (d.updNode n fun b => { b with outgoing := some l }) x = if x = n then l else outOf d x := by
  obtain ⟨a, ha⟩ := Option.isSome_iff_exists.1 ((Dict.get?_isSome_iff _ _).2 h)
  simp only [outOf, Diagram.updNode, Graph.modifyNode, Dict.get?_modify]
  by_cases e : x = n
  · subst e; simp [ha]
  · simp [e, Ne.symm e]

theorem inOf_updNode_in (d : Diagram) (n : String) (l : List String) (h : n ∈ ids d) (x : String) :
    inOf (d.updNode n fun b => { b with incoming := some l }) x = if x = n then l else inOf d x := by
  obtain ⟨a, ha⟩ := Option.isSome_iff_exists.1 ((Dict.get?_isSome_iff _ _).2 h)
  simp only [inOf, Diagram.updNode, Graph.modifyNode, Dict.get?_modify]
  by_cases e : x = n
  · subst e; simp [ha]
  · simp [e, Ne.symm e]

theorem inOf_updNode_out (d : Diagram) (n : String) (l : List String) (x : String) :
    inOf (d.updNode n fun b => { b with outgoing := some l }) x = inOf d x := by
  simp only [inOf, Diagram.updNode, Graph.modifyNode, Dict.get?_modify]
  by_cases e : n = x
  · subst e; cases h : d.graph.nodes.get? n <;> simp [h]
  · simp [e]

theorem outOf_updNode_in (d : Diagram) (n : String) (l : List String) (x : String) :
    outOf (d.updNode n fun b => { b with incoming := some l }) x = outOf d x := by
  simp only [outOf, Diagram.updNode, Graph.modifyNode, Dict.get?_modify]
  by_cases e : n = x
  · subst e; cases h : d.graph.nodes.get? n <;> simp [h]
  · simp [e]

theorem bareOf_updNode_out (d : Diagram) (n : String) (l : List String) (x : String) :
    bareOf (d.updNode n fun b => { b with outgoing := some l }) x = bareOf d x := by
  simp only [bareOf, Diagram.updNode, Graph.modifyNode, Dict.get?_modify]
  by_cases e : n = x
  · subst e; cases h : d.graph.nodes.get? n <;> simp [h, Csv.bare]
  · simp [e]

theorem bareOf_updNode_in (d : Diagram) (n : String) (l : List String) (x : String) :
    bareOf (d.updNode n fun b => { b with incoming := some l }) x = bareOf d x := by
  simp only [bareOf, Diagram.updNode, Graph.modifyNode, Dict.get?_modify]
  by_cases e : n = x
  · subst e; cases h : d.graph.nodes.get? n <;> simp [h, Csv.bare]
  · simp [e]

theorem ids_updNode (d : Diagram) (n : String) (f) : ids (d.updNode n f) = ids d := by simp [ids, Diagram.updNode]

/-- The condition of the row of a node. -/
def conditionOf (pd : Dict String Line) (x : String) : String := ((pd.get? x).map (·.condition)).getD ""

/-- The attributes of a new flow. -/
def newAttrs (pd : Dict String Line) (s t : String) (a : EdgeAttrs) : EdgeAttrs :=
  { a with
    id := some (flowId s t), process := some processId, name := some "", sourceRef := some s, targetRef := some t
    conditionExpression := if conditionOf pd t ≠ "" then some ⟨flowId s t ++ "_cond", conditionOf pd t⟩ else a.conditionExpression }

/-- A new flow, nothing else. -/
structure Connected (pd : Dict String Line) (d d' : Diagram) (s t : String) : Prop where
  src : s ∈ ids d
  tgt : t ∈ ids d
  ids : ids d' = ids d
  out : ∀ x, outOf d' x = if x = s then outOf d x ++ [flowId s t] else outOf d x
  inn : ∀ x, inOf d' x = if x = t then inOf d x ++ [flowId s t] else inOf d x
  bare : ∀ x, bareOf d' x = bareOf d x
  flows : d'.sequenceFlows = d.sequenceFlows.set (flowId s t) ⟨flowId s t, s, t⟩
  edges : d'.graph.edges = (d.graph.edges.map fun e => if e.joins s t then { e with attrs := newAttrs pd s t e.attrs } else e) ++
        (if d.graph.hasEdge s t then [] else [⟨s, t, newAttrs pd s t {}⟩])
  procs : d'.processElements = d.processElements
  plane : d'.planeElement = d.planeElement
  sane : Sane d → Sane d'
  listed : Listed d → Listed d'

theorem addNode_nodes_of_mem {g : Graph} {n : String} (h : n ∈ g.nodes.keys) : (g.addNode n).nodes = g.nodes := by
  rw [Graph.addNode_of_mem h]

theorem addConnection_connected {pd : Dict String Line} {s t : String} {d d' : Diagram} (h : addConnection pd s t d = .ok d') :
    Connected pd d d' s t := by
  obtain ⟨d1, h1, h⟩ := except_bind_eq_ok h
  obtain ⟨d2, h2, h⟩ := except_bind_eq_ok h
  cases h
  obtain ⟨a, ha, h1⟩ := except_bind_eq_ok h1
  cases h1
  obtain ⟨b, hb, h2⟩ := except_bind_eq_ok h2
  cases h2
  have ga : d.graph.nodes.get? s = some a := by
    simp only [Diagram.nodeAttrs] at ha
    cases hh : d.graph.nodes.get? s <;> simp [hh] at ha; rw [ha]
  have hs : s ∈ ids d := Dict.mem_keys_of_get? ga
  obtain ⟨b', gb, rfl⟩ : ∃ b', (d.updNode s fun b => { b with outgoing := some (a.outgoing.getD [] ++ [flowId s t]) }).graph.nodes.get? t = some b' ∧ b' = b := by
    simp only [Diagram.nodeAttrs] at hb
    cases hh : (d.updNode s fun b => { b with outgoing := some (a.outgoing.getD [] ++ [flowId s t]) }).graph.nodes.get? t <;> simp [hh] at hb
    exact ⟨_, rfl, hb⟩
  have ht1 := Dict.mem_keys_of_get? gb
  have ht : t ∈ ids d := by rw [← ids_updNode d s]; exact ht1
  have oa : a.outgoing.getD [] = outOf d s := by simp [outOf, ga]
  have ib : b'.incoming.getD [] = inOf d t := by
    rw [← inOf_updNode_out d s (a.outgoing.getD [] ++ [flowId s t]) t]
    simp only [inOf]; rw [gb]; rfl
  rw [oa] at *
  rw [ib] at *
  generalize hd2 : ((d.updNode s fun b => { b with outgoing := some (outOf d s ++ [flowId s t]) }).updNode t
      fun c => { c with incoming := some (inOf d t ++ [flowId s t]) }) = d2
  have i2 : ids d2 = ids d := by rw [← hd2, ids_updNode, ids_updNode]
  have hg : (addEdge pd s t d2).graph.nodes = d2.graph.nodes := by
    simp only [addEdge, Graph.modifyEdge_nodes, Graph.addEdge_nodes]
    rw [Graph.addNode_of_mem (by rw [addNode_nodes_of_mem (show s ∈ ids d2 from i2 ▸ hs)]; exact (show t ∈ ids d2 from i2 ▸ ht)),
      Graph.addNode_of_mem (show s ∈ ids d2 from i2 ▸ hs)]
  have e2 : d2.graph.edges = d.graph.edges := by rw [← hd2]; rfl
  refine ⟨hs, ht, ?_, ?_, ?_, ?_, ?_, ?_, ?_, ?_, ?_, ?_⟩
  · rw [ids, hg]; exact i2
  · intro x
    have : outOf (addEdge pd s t d2) x = outOf d2 x := by simp only [outOf, hg]
    rw [this, ← hd2, outOf_updNode_in, outOf_updNode_out _ _ _ hs]
    split
    · subst_vars; rfl
    · rfl
  · intro x
    have : inOf (addEdge pd s t d2) x = inOf d2 x := by simp only [inOf, hg]
    rw [this, ← hd2, inOf_updNode_in _ _ _ (by rw [ids_updNode]; exact ht), inOf_updNode_out]
    split
    · subst_vars; rfl
    · rfl
  · intro x
    have : bareOf (addEdge pd s t d2) x = bareOf d2 x := by simp only [bareOf, hg]
    rw [this, ← hd2, bareOf_updNode_in, bareOf_updNode_out]
  · simp only [addEdge, ← hd2]; rfl
  · have := edges_addEdge_modify d2.graph s t (newAttrs pd s t)
    rw [show d2.graph.hasEdge s t = d.graph.hasEdge s t from by simp only [Graph.hasEdge, e2], e2] at this
    exact this
  · simp only [addEdge, ← hd2]; rfl
  · simp only [addEdge, ← hd2]; rfl
  · intro hs
    have : Sane d2 := by rw [← hd2]; exact (hs.updNode _ _).updNode _ _
    exact (this.addEdge s t (newAttrs pd s t) (by intro a; simp [newAttrs])).of_graph rfl
  · intro hl
    have : Listed d2 := by
      rw [← hd2]
      exact (hl.updNode _ _ (by intro a h; simp [h])).updNode _ _ (by intro a h; simp [h])
    intro x a ha
    rw [hg] at ha
    exact this x a ha

theorem addConnection_ok {pd : Dict String Line} {s t : String} {d : Diagram} (hs : s ∈ ids d) (ht : t ∈ ids d) :
    ∃ d', addConnection pd s t d = .ok d' := by
  obtain ⟨a, ha⟩ := Option.isSome_iff_exists.1 ((Dict.get?_isSome_iff _ _).2 hs)
  unfold addConnection addOutgoing addIncoming
  simp only [Diagram.nodeAttrs, ha, need_some, except_bind_ok, except_pure]
  have : t ∈ ids (d.updNode s fun b => { b with outgoing := some (a.outgoing.getD [] ++ [flowId s t]) }) := by rw [ids_updNode]; exact ht
  obtain ⟨b, hb⟩ := Option.isSome_iff_exists.1 ((Dict.get?_isSome_iff _ _).2 this)
  rw [hb]
  simp only [need_some, except_bind_ok]
  exact ⟨_, rfl⟩

end Bpmn.Csv

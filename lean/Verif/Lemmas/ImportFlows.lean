import Verif.Lemmas.ImportContent
import Mathlib.Data.List.Nodup
import Mathlib.Data.List.Pairwise
/-!
# Flows and collaborations of loaded diagrams
-/
set_option linter.unusedSimpArgs false
set_option linter.unusedVariables false

namespace Bpmn.Import
open Bpmn Bpmn.Spec

/-! ## The steps -/

/-- A flow element with its container. -/
abbrev FlowEl := Option String × Xml

/-- The attributes written by the import of a flow on top of those of an existing edge. -/
def flowOver (f : FlowEl) (a : EdgeAttrs) : EdgeAttrs :=
  { a with
    id := some (f.2.getAttr "id"), name := some (f.2.attrOr "name" "")
    sourceRef := some (f.2.getAttr "sourceRef"), targetRef := some (f.2.getAttr "targetRef")
    process := f.1.or a.process
    conditionExpression := if f.1.isSome then (conditionOf f.2).or a.conditionExpression else a.conditionExpression }

/-- What the import of a flow does to the edges. -/
def addFlow (es : List Edge) (f : FlowEl) : List Edge :=
  (((⟨[], es⟩ : Graph).addEdge (f.2.getAttr "sourceRef") (f.2.getAttr "targetRef")).modifyEdge (f.2.getAttr "sourceRef") (f.2.getAttr "targetRef")
    (flowOver f)).edges

/-- What the import of a sequence flow does to the table of flows. -/
def addRow (S : Dict String SeqFlow) (f : FlowEl) : Dict String SeqFlow :=
  S.set (f.2.getAttr "id") ⟨f.2.attrOr "name" "", f.2.getAttr "sourceRef", f.2.getAttr "targetRef"⟩

theorem addFlow_graph (g : Graph) (f : FlowEl) : ((g.addEdge (f.2.getAttr "sourceRef") (f.2.getAttr "targetRef")).modifyEdge
    (f.2.getAttr "sourceRef") (f.2.getAttr "targetRef") (flowOver f)).edges = addFlow g.edges f := by
  unfold addFlow Graph.modifyEdge
  simp only [Graph.addEdge_edges, Graph.hasEdge]
  rfl

/-- The flows have been added. -/
def FlowsAdded (fs : List FlowEl) (D D' : Diagram) : Prop :=
  D'.graph.edges = fs.foldl addFlow D.graph.edges ∧ D'.sequenceFlows = fs.foldl addRow D.sequenceFlows

theorem FlowsAdded.trans {a b : List FlowEl} {D D' D'' : Diagram} (h : FlowsAdded a D D') (h' : FlowsAdded b D' D'') : FlowsAdded (a ++ b) D D'' :=
  ⟨by rw [List.foldl_append, ← h.1, h'.1], by rw [List.foldl_append, ← h.2, h'.2]⟩

theorem conditions_eq : ∀ {l : List Xml} {c c' : Option CondExpr}, conditions l c = .ok c' →
    c' = ((namedIn "conditionExpression" l).getLast?.map fun y => ⟨y.getAttr "id", valueOf y⟩).or c
  | [], c, c', h => by
    rw [conditions] at h
    rw [← Except.ok.inj h]
    rfl
  | .text s :: r, c, c', h => by
    rw [conditions, if_pos (by rfl)] at h
    rw [namedIn_cons, if_neg (by simp [localTag])]
    exact conditions_eq (l := r) h
  | .other s :: r, c, c', h => by
    rw [conditions, if_neg (by simp [Xml.isText])] at h
    cases h
  | .elem t as ks :: r, c, c', h => by
    rw [conditions, if_neg (by simp [Xml.isText])] at h
    obtain ⟨t', h1, k⟩ := except_bind_eq_ok h
    have : t' = t := (Except.ok.inj h1).symm
    subst this
    rw [namedIn_cons]
    split at k
    · rename_i ct
      obtain ⟨v, h2, m⟩ := except_bind_eq_ok k
      rw [conditions_eq (l := r) m, if_pos (by exact ct), List.getLast?_cons, firstValue_eq h2]
      cases (namedIn "conditionExpression" r).getLast? <;> rfl
    · rename_i ct
      rw [if_neg (by exact ct)]
      exact conditions_eq (l := r) k

theorem edges_linkEnds (i s t : String) (D : Diagram) : (linkEnds i s t D).graph.edges = D.graph.edges := rfl

theorem importSequenceFlow_added {pid : String} {x : Xml} {D D' : Diagram} (h : importSequenceFlow pid x D = .ok D') : FlowsAdded [(some pid, x)] D D' := by
  simp only [importSequenceFlow] at h
  obtain ⟨c, h1, k⟩ := except_bind_eq_ok h
  have e := conditions_eq h1
  rw [Option.or_none] at e
  rw [← Except.ok.inj k]
  refine ⟨?_, rfl⟩
  rw [List.foldl_cons, List.foldl_nil, ← addFlow_graph]
  rw [edges_linkEnds]
  unfold flowOver
  dsimp only
  rw [show conditionOf x = c from e.symm]
  cases c <;> rfl

theorem importFlows_added {pid : String} : ∀ {l : List Xml} {D D' : Diagram}, importFlows pid l D = .ok D' →
    FlowsAdded ((namedIn "sequenceFlow" l).map fun x => (some pid, x)) D D'
  | [], D, D', h => by
    rw [← Except.ok.inj h]
    exact ⟨rfl, rfl⟩
  | .text s :: r, D, D', h => by
    rw [importFlows, if_pos (by rfl)] at h
    rw [namedIn_cons, if_neg (by simp [localTag])]
    exact importFlows_added (l := r) h
  | .other s :: r, D, D', h => by
    rw [importFlows, if_neg (by simp [Xml.isText])] at h
    cases h
  | .elem t as ks :: r, D, D', h => by
    rw [importFlows, if_neg (by simp [Xml.isText])] at h
    obtain ⟨t', h1, k⟩ := except_bind_eq_ok h
    have : t' = t := (Except.ok.inj h1).symm
    subst this
    rw [namedIn_cons]
    split at k
    · rename_i ct
      obtain ⟨D1, h2, m⟩ := except_bind_eq_ok k
      rw [if_pos (by exact ct), List.map_cons]
      exact (importSequenceFlow_added h2).trans (importFlows_added (l := r) m)
    · rename_i ct
      rw [if_neg (by exact ct)]
      exact importFlows_added (l := r) k

theorem importFlowNode_rows {pid : String} {o : Owner} {e : Xml} {D D' : Diagram} (h : importFlowNode pid o e D = .ok D') :
    D'.sequenceFlows = D.sequenceFlows := by
  simp only [importFlowNode] at h
  obtain ⟨t, _, h⟩ := except_bind_eq_ok h
  obtain ⟨i, _, h⟩ := except_bind_eq_ok h
  obtain ⟨u, _, h⟩ := except_bind_eq_ok h
  rw [← Except.ok.inj h]
  cases o <;> rfl

theorem NodeForm.added {pid : String} {o : Owner} {e : Xml} {g : Diagram → Py Diagram} (h : NodeForm pid o e g) {D D' : Diagram}
    (hg : g D = .ok D') : FlowsAdded [] D D' := by
  obtain ⟨f, hf, h1⟩ := h
  rw [h1] at hg
  obtain ⟨D1, h2, h3⟩ := except_bind_eq_ok hg
  rw [← Except.ok.inj h3]
  have e1 := importFlowNode_edges h2
  have e2 := importFlowNode_rows h2
  exact ⟨e1, e2⟩

mutual
theorem importElement_added {ord : List String → List String} : ∀ {x : Xml} {pid : String} {o : Owner} {D D' : Diagram},
    importElement ord pid o x D = .ok D' → FlowsAdded (flowElements x) D D'
  | .text s, pid, o, D, D', h => by
    rw [importElement] at h
    rw [← Except.ok.inj h]
    exact ⟨rfl, rfl⟩
  | .other s, pid, o, D, D', h => by
    rw [importElement] at h
    cases h
  | .elem t as ks, pid, o, D, D', h => by
    rw [importElement] at h
    rw [flowElements]
    split at h
    · rename_i c
      rw [if_pos c]
      obtain ⟨D1, h1, h⟩ := except_bind_eq_ok h
      obtain ⟨D2, h2, h⟩ := except_bind_eq_ok h
      have e1 := NodeForm.added (form_activity pid o (.elem t as ks)) h1
      have e2 := importElements_added h2
      have e3 : FlowsAdded (flowElementsAll ks) D1 D2 := e2
      exact (e1.trans e3).trans (importFlows_added h)
    · rename_i c
      rw [if_neg c]
      by_cases hm : removeNamespace t ∈ simpleTags
      · exact NodeForm.added ((importSimple_form ord pid o (.elem t as ks) (removeNamespace t)).1 hm) h
      · rw [(importSimple_form ord pid o (.elem t as ks) (removeNamespace t)).2 hm] at h
        rw [← Except.ok.inj h]
        exact ⟨rfl, rfl⟩
theorem importElements_added {ord : List String → List String} : ∀ {l : List Xml} {pid : String} {o : Owner} {D D' : Diagram},
    importElements ord pid o l D = .ok D' → FlowsAdded (flowElementsAll l) D D'
  | [], pid, o, D, D', h => by
    rw [importElements] at h
    rw [← Except.ok.inj h]
    exact ⟨rfl, rfl⟩
  | x :: r, pid, o, D, D', h => by
    rw [importElements] at h
    obtain ⟨D1, h1, h⟩ := except_bind_eq_ok h
    rw [flowElementsAll]
    exact (importElement_added h1).trans (importElements_added (l := r) h)
end

theorem importProcess_added {ord : List String → List String} {plane p : Xml} {D D' : Diagram} (h : importProcess ord plane p D = .ok D') :
    FlowsAdded (flowElementsAll p.children ++ (namedIn "sequenceFlow" p.children).map fun x => (some (p.getAttr "id"), x)) D D' := by
  unfold importProcess at h
  dsimp only at h
  obtain ⟨D1, h1, h⟩ := except_bind_eq_ok h
  obtain ⟨D2, h2, h⟩ := except_bind_eq_ok h
  have e : FlowsAdded [] D D1 := by
    have : D1.graph = D.graph ∧ D1.sequenceFlows = D.sequenceFlows := by
      cases hb : p.byName "laneSet" with
      | nil =>
        rw [hb] at h1
        rw [← Except.ok.inj h1]
        exact ⟨rfl, rfl⟩
      | cons ls r =>
        rw [hb, importLaneSet] at h1
        obtain ⟨lanes, h3, h1⟩ := except_bind_eq_ok h1
        rw [← Except.ok.inj h1]
        exact ⟨rfl, rfl⟩
    exact ⟨by rw [this.1]; rfl, this.2⟩
  exact (e.trans (importElements_added h2)).trans (importFlows_added h)

theorem importProcesses_added {ord : List String → List String} {plane : Xml} : ∀ {l : List Xml} {D D' : Diagram},
    importProcesses ord plane l D = .ok D' → FlowsAdded (l.flatMap fun p => flowElementsAll p.children ++
      (namedIn "sequenceFlow" p.children).map fun x => (some (p.getAttr "id"), x)) D D'
  | [], D, D', h => by
    rw [← Except.ok.inj h]
    exact ⟨rfl, rfl⟩
  | p :: r, D, D', h => by
    unfold importProcesses at h
    obtain ⟨D1, h1, h⟩ := except_bind_eq_ok h
    rw [List.flatMap_cons]
    exact (importProcess_added h1).trans (importProcesses_added h)

/-- What the import of a pool does to the table of pools. -/
def addPool (P : Dict String Participant) (x : Xml) : Dict String Participant :=
  P.set (x.getAttr "id") { name := x.getAttr "name", processRef := x.getAttr "processRef" }

/-- What the import of a message flow does to the table of message flows. -/
def addMsg (M : Dict String MsgFlow) (x : Xml) : Dict String MsgFlow :=
  M.set (x.getAttr "id") ⟨x.getAttr "id", x.attrOr "name" "", x.getAttr "sourceRef", x.getAttr "targetRef"⟩

theorem importCollabKids_added : ∀ {l : List Xml} {D : Diagram} {c : Collab} {v : Diagram × Collab}, importCollabKids l D c = .ok v →
    v.1.graph.edges = ((namedIn "messageFlow" l).map fun x => (none, x)).foldl addFlow D.graph.edges ∧ v.1.sequenceFlows = D.sequenceFlows ∧
    v.2.id = c.id ∧ v.2.participants = (namedIn "participant" l).foldl addPool c.participants ∧
    v.2.messageFlows = (namedIn "messageFlow" l).foldl addMsg c.messageFlows
  | [], D, c, v, h => by
    rw [importCollabKids] at h
    rw [← Except.ok.inj h]
    exact ⟨rfl, rfl, rfl, rfl, rfl⟩
  | .text s :: r, D, c, v, h => by
    rw [importCollabKids, if_pos (by rfl)] at h
    rw [namedIn_cons, if_neg (by simp [localTag]), namedIn_cons, if_neg (by simp [localTag])]
    exact importCollabKids_added (l := r) h
  | .other s :: r, D, c, v, h => by
    rw [importCollabKids, if_neg (by simp [Xml.isText])] at h
    cases h
  | .elem t as ks :: r, D, c, v, h => by
    rw [importCollabKids, if_neg (by simp [Xml.isText])] at h
    obtain ⟨t', h1, k⟩ := except_bind_eq_ok h
    have : t' = t := (Except.ok.inj h1).symm
    subst this
    rw [namedIn_cons, namedIn_cons]
    split at k
    · rename_i ct
      have hn : ¬ localTag (.elem t' as ks) = "messageFlow" := by
        intro e
        rw [show localTag (.elem t' as ks) = _ from ct] at e
        exact absurd e (by decide)
      rw [if_neg hn, if_pos (by exact ct)]
      obtain ⟨h2, h3, h4, h5, h6⟩ := importCollabKids_added (l := r) k
      refine ⟨?_, ?_, h4, h5, h6⟩
      · rw [h2]
        congr 1
        split
        · exact Graph.addNode_edges _ _
        · rfl
      · rw [h3]
        split <;> rfl
    · rename_i cp
      split at k
      · rename_i ct
        rw [if_pos (by exact ct), if_neg (by exact cp)]
        obtain ⟨h2, h3, h4, h5, h6⟩ := importCollabKids_added (l := r) k
        refine ⟨?_, h3, h4, h5, h6⟩
        rw [h2, List.map_cons, List.foldl_cons, ← addFlow_graph]
        rfl
      · rename_i ct
        rw [if_neg (by exact ct), if_neg (by exact cp)]
        exact importCollabKids_added (l := r) k

/-! ## Different flows -/

/-- An edge for each flow, with the way points in the part of the plane that has been read. -/
def edgeAfter (kids : List Xml) (f : FlowEl) : Edge :=
  ⟨f.2.getAttr "sourceRef", f.2.getAttr "targetRef", flowSays (.elem "" [] kids) f.1 f.2⟩

theorem joins_iff (e : Edge) (a b : String) : e.joins a b = true ↔ (e.u = a ∧ e.v = b) ∨ (e.u = b ∧ e.v = a) := by
  simp [Edge.joins]

theorem addFlow_new {es : List Edge} {f : FlowEl} (h : ∀ e ∈ es, ¬ e.joins (f.2.getAttr "sourceRef") (f.2.getAttr "targetRef") = true) :
    addFlow es f = es ++ [edgeAfter [] f] := by
  have hn : ¬ (⟨[], es⟩ : Graph).hasEdge (f.2.getAttr "sourceRef") (f.2.getAttr "targetRef") = true := by
    simpa [Graph.hasEdge] using h
  unfold addFlow Graph.modifyEdge
  dsimp only
  rw [Graph.addEdge_edges, if_neg hn, List.map_append]
  congr 1
  · conv_rhs => rw [← List.map_id es]
    apply List.map_congr_left
    intro e he
    rw [if_neg (h e he)]
    rfl
  · rw [List.map_cons, List.map_nil, if_pos (by simp [Edge.joins])]
    unfold edgeAfter flowOver flowSays
    simp [namedIn, wayOf, Xml.children]

theorem foldl_addFlow : ∀ (fs : List FlowEl) (done : List FlowEl), (done ++ fs).Pairwise (fun f g => ¬ SameEnds f.2 g.2) →
    fs.foldl addFlow (done.map (edgeAfter [])) = (done ++ fs).map (edgeAfter [])
  | [], done, _ => by simp
  | f :: r, done, h => by
    rw [List.foldl_cons, addFlow_new]
    · have := foldl_addFlow r (done ++ [f]) (by simpa using h)
      rw [List.map_append] at this
      rw [List.map_cons, List.map_nil] at this
      rw [this]
      simp
    · intro e he hj
      obtain ⟨g, hg, rfl⟩ := List.mem_map.1 he
      rw [List.pairwise_append] at h
      refine h.2.2 g hg f (List.mem_cons_self ..) ?_
      rw [joins_iff] at hj
      exact hj

/-- The row of the table of flows. -/
def rowOf (f : FlowEl) : String × SeqFlow := (f.2.getAttr "id", ⟨f.2.attrOr "name" "", f.2.getAttr "sourceRef", f.2.getAttr "targetRef"⟩)

theorem foldl_set_new {α β : Type} (key : α → String) (val : α → β) : ∀ (l done : List α), ((done ++ l).map key).Nodup →
    l.foldl (fun S x => Dict.set S (key x) (val x)) (done.map fun x => (key x, val x)) = (done ++ l).map fun x => (key x, val x)
  | [], done, _ => by simp
  | x :: r, done, h => by
    have hn : key x ∉ Dict.keys (done.map fun x => (key x, val x)) := by
      simp only [Dict.keys, List.map_map, Function.comp_def]
      rw [List.map_append, List.nodup_append] at h
      intro hm
      exact h.2.2 _ hm _ (List.mem_cons_self ..) rfl
    rw [List.foldl_cons, Dict.set_of_not_mem _ _ hn]
    have := foldl_set_new key val r (done ++ [x]) (by simpa using h)
    rw [List.map_append, List.map_cons, List.map_nil] at this
    rw [this]
    simp

theorem get?_table {α β : Type} (key : α → String) (val : α → β) (i : String) : ∀ l : List α,
    Dict.get? (l.map fun x => (key x, val x)) i = (l.find? fun x => key x == i).map val
  | [] => rfl
  | x :: r => by
    rw [List.map_cons, List.find?_cons, Dict.get?]
    by_cases c : key x = i
    · simp [c]
    · have : (key x == i) = false := by simpa using c
      simp only [c, if_false, this]
      exact get?_table key val i r

/-! ## The plane -/

/-- The pool with its place in the part of the plane that has been read. -/
def poolAfter (kids : List Xml) (x : Xml) : String × Participant :=
  (x.getAttr "id", { name := x.getAttr "name", processRef := x.getAttr "processRef",
                     di := (kids.filter fun y => localTag y == "BPMNShape" && y.getAttr "bpmnElement" == x.getAttr "id").getLast?.map fun s =>
                       boxOf s ((s.byName "Bounds").head?.getD (.text "")) })

/-- The collaboration. -/
def collabAfter (kids : List Xml) (x : Xml) : Collab :=
  ⟨x.getAttr "id", (namedIn "participant" x.children).map (poolAfter kids), (namedIn "messageFlow" x.children).map fun y =>
    (y.getAttr "id", ⟨y.getAttr "id", y.attrOr "name" "", y.getAttr "sourceRef", y.getAttr "targetRef"⟩)⟩

/-- The children of the collaboration. -/
def kidsOf (co : Option Xml) : List Xml := (co.map Xml.children).getD []

/-- All flows. -/
def allOf (seqs : List FlowEl) (co : Option Xml) : List FlowEl := seqs ++ (namedIn "messageFlow" (kidsOf co)).map fun x => (none, x)

/-- The state while the plane is read. -/
structure PlaneState (seqs : List FlowEl) (co : Option Xml) (kids : List Xml) (D : Diagram) : Prop where
  edges : D.graph.edges = (allOf seqs co).map (edgeAfter kids)
  rows : D.sequenceFlows = seqs.map rowOf
  collab : D.collaboration = co.map (collabAfter kids)

theorem edgeAfter_append_other {kids : List Xml} {x : Xml} {f : FlowEl} (h : localTag x = "BPMNEdge" → x.getAttr "bpmnElement" ≠ f.2.getAttr "id") :
    edgeAfter (kids ++ [x]) f = edgeAfter kids f := by
  unfold edgeAfter flowSays wayOf namedIn
  simp only [Xml.children, List.filter_append]
  by_cases c : localTag x = "BPMNEdge"
  · have hh := h c
    have : (x.getAttr "bpmnElement" == f.2.getAttr "id") = false := by simpa using hh
    simp [c, this]
  · have : (localTag x == "BPMNEdge") = false := by simpa using c
    simp [this]

theorem edgeAfter_append_same {kids : List Xml} {x : Xml} {f : FlowEl} (h : localTag x = "BPMNEdge") (hx : x.getAttr "bpmnElement" = f.2.getAttr "id") :
    edgeAfter (kids ++ [x]) f = { edgeAfter kids f with attrs := { (edgeAfter kids f).attrs with
      waypoints := some ((x.byName "waypoint").map fun w => (w.getAttr "x", w.getAttr "y")), name := some (f.2.attrOr "name" "") } } := by
  unfold edgeAfter flowSays wayOf namedIn
  simp [Xml.children, h, hx]

theorem poolAfter_append_other {kids : List Xml} {x y : Xml} (h : localTag x = "BPMNShape" → x.getAttr "bpmnElement" ≠ y.getAttr "id") :
    poolAfter (kids ++ [x]) y = poolAfter kids y := by
  unfold poolAfter
  simp only [List.filter_append]
  by_cases c : localTag x = "BPMNShape"
  · have hh := h c
    have : (x.getAttr "bpmnElement" == y.getAttr "id") = false := by simpa using hh
    simp [c, this]
  · have : (localTag x == "BPMNShape") = false := by simpa using c
    simp [this]

theorem poolAfter_append_same {kids : List Xml} {x y b : Xml} (h : localTag x = "BPMNShape") (hx : x.getAttr "bpmnElement" = y.getAttr "id")
    (hb : boundsOf x = .ok b) : poolAfter (kids ++ [x]) y = ((poolAfter kids y).1, { (poolAfter kids y).2 with di := some (boxOf x b) }) := by
  unfold poolAfter
  simp [h, hx, boundsOf_eq hb]

theorem modify_pools {kids : List Xml} {x b : Xml} (h : localTag x = "BPMNShape") (hb : boundsOf x = .ok b) : ∀ l : List Xml, (l.map (·.getAttr "id")).Nodup →
    Dict.modify (l.map (poolAfter kids)) (x.getAttr "bpmnElement") (fun p => { p with di := some (boxOf x b) }) = l.map (poolAfter (kids ++ [x]))
  | [], _ => rfl
  | y :: r, nd => by
    rw [List.map_cons, List.nodup_cons] at nd
    rw [List.map_cons, List.map_cons, Dict.modify]
    by_cases c : (poolAfter kids y).1 = x.getAttr "bpmnElement"
    · rw [if_pos c, poolAfter_append_same h c.symm hb]
      congr 1
      apply List.map_congr_left
      intro z hz
      refine (poolAfter_append_other fun _ e => ?_).symm
      apply nd.1
      have : y.getAttr "id" = z.getAttr "id" := (show y.getAttr "id" = x.getAttr "bpmnElement" from c).trans e
      rw [this]
      exact List.mem_map_of_mem hz
    · rw [if_neg c, modify_pools h hb r nd.2, poolAfter_append_other fun _ e => c e.symm]

theorem PlaneState.skip {seqs : List FlowEl} {co : Option Xml} {kids : List Xml} {D : Diagram} (h : PlaneState seqs co kids D) {x : Xml}
    (h1 : localTag x ≠ "BPMNShape") (h2 : localTag x ≠ "BPMNEdge") : PlaneState seqs co (kids ++ [x]) D := by
  refine ⟨?_, h.rows, ?_⟩
  · rw [h.edges]
    exact List.map_congr_left fun f _ => (edgeAfter_append_other fun e => absurd e h2).symm
  · rw [h.collab]
    cases co with
    | none => rfl
    | some c =>
      simp only [Option.map_some, collabAfter, Option.some.injEq, Collab.mk.injEq, true_and, and_true]
      exact List.map_congr_left fun f _ => (poolAfter_append_other fun e => absurd e h1).symm

theorem PlaneState.shape {seqs : List FlowEl} {co : Option Xml} {kids : List Xml} {D D' : Diagram} (h : PlaneState seqs co kids D) {x : Xml}
    (h1 : localTag x = "BPMNShape") (hi : importShape x D = .ok D') (nd : ((namedIn "participant" (kidsOf co)).map (·.getAttr "id")).Nodup) :
    PlaneState seqs co (kids ++ [x]) D' := by
  simp only [importShape] at hi
  obtain ⟨b, hb, k⟩ := except_bind_eq_ok hi
  obtain ⟨D1, h2, m⟩ := except_bind_eq_ok k
  have e1 : D1.graph.edges = D.graph.edges ∧ D1.sequenceFlows = D.sequenceFlows ∧ D1.collaboration = D.collaboration := by
    unfold importNodeShape at h2
    split at h2
    · cases h2; exact ⟨rfl, rfl, rfl⟩
    · obtain ⟨ty, _, h2⟩ := except_bind_eq_ok h2
      cases h2; exact ⟨rfl, rfl, rfl⟩
  have hne : localTag x ≠ "BPMNEdge" := by rw [h1]; decide
  have he : ∀ D2 : Diagram, D2.graph.edges = D1.graph.edges → D2.graph.edges = (allOf seqs co).map (edgeAfter (kids ++ [x])) := by
    intro D2 h2
    rw [h2, e1.1, h.edges]
    exact List.map_congr_left fun f _ => (edgeAfter_append_other fun e => absurd e hne).symm
  rw [e1.2.2, h.collab] at m
  cases co with
  | none =>
    rw [← Except.ok.inj m]
    exact ⟨he D1 rfl, by rw [e1.2.1, h.rows], by rw [e1.2.2, h.collab]; rfl⟩
  | some c =>
    rw [← Except.ok.inj m]
    refine ⟨he _ rfl, by rw [← h.rows, ← e1.2.1], ?_⟩
    simp only [Option.map_some, collabAfter, Option.some.injEq, Collab.mk.injEq, true_and, and_true]
    exact modify_pools h1 hb _ nd

/-- What the tables say about the flow with the given id. -/
def dataOf (D : Diagram) (i : String) : Option (String × String × String) :=
  match D.sequenceFlows.get? i with
  | some f => some (f.name, f.sourceRef, f.targetRef)
  | none => match D.collaboration with
    | none => none
    | some c => (c.messageFlows.get? i).map fun m => (m.name, m.sourceRef, m.targetRef)

theorem importFlowDi_eq (x : Xml) (D : Diagram) : importFlowDi x D = match dataOf D (x.getAttr "bpmnElement") with
    | none => .ok D
    | some f => if D.graph.hasEdge f.2.1 f.2.2 then
        .ok { D with graph := D.graph.modifyEdge f.2.1 f.2.2 fun a => { a with waypoints := some ((x.byName "waypoint").map fun w => (w.getAttr "x", w.getAttr "y")), name := some f.1 } }
      else .error .keyError := by
  show ((match dataOf D (x.getAttr "bpmnElement") with
    | none => pure D
    | some (name, src, tgt) => if D.graph.hasEdge src tgt then
        pure { D with graph := D.graph.modifyEdge src tgt fun a => { a with waypoints := some ((x.byName "waypoint").map fun w => (w.getAttr "x", w.getAttr "y")), name := some name } }
      else .error .keyError) : Py Diagram) = _
  cases dataOf D (x.getAttr "bpmnElement") <;> rfl

theorem PlaneState.edge {seqs : List FlowEl} {co : Option Xml} {kids : List Xml} {D D' : Diagram} (h : PlaneState seqs co kids D) {x : Xml}
    (h1 : localTag x = "BPMNEdge") (hi : importFlowDi x D = .ok D')
    (hp : (allOf seqs co).Pairwise (fun f g => ¬ SameEnds f.2 g.2))
    (nd : ((allOf seqs co).map (·.2.getAttr "id")).Nodup) :
    PlaneState seqs co (kids ++ [x]) D' := by
  have hne : localTag x ≠ "BPMNShape" := by rw [h1]; decide
  have hc : co.map (collabAfter (kids ++ [x])) = co.map (collabAfter kids) := by
    cases co with
    | none => rfl
    | some c =>
      simp only [Option.map_some, collabAfter, Option.some.injEq, Collab.mk.injEq, true_and, and_true]
      exact List.map_congr_left fun f _ => poolAfter_append_other fun e => absurd e hne
  generalize hfs : (allOf seqs co) = fs at hp nd
  have hedges := h.edges
  rw [hfs] at hedges
  have hdata : dataOf D (x.getAttr "bpmnElement") =
      (fs.find? fun f => f.2.getAttr "id" == x.getAttr "bpmnElement").map fun f => (f.2.attrOr "name" "", f.2.getAttr "sourceRef", f.2.getAttr "targetRef") := by
    rw [dataOf, h.rows, h.collab, ← hfs, allOf, List.find?_append]
    have e1 : Dict.get? (seqs.map rowOf) (x.getAttr "bpmnElement") = (seqs.find? fun f => f.2.getAttr "id" == x.getAttr "bpmnElement").map fun f => ⟨f.2.attrOr "name" "", f.2.getAttr "sourceRef", f.2.getAttr "targetRef"⟩ :=
      get?_table (fun f : FlowEl => f.2.getAttr "id") _ _ seqs
    rw [e1]
    cases hf : seqs.find? fun f => f.2.getAttr "id" == x.getAttr "bpmnElement" with
    | some f => rfl
    | none =>
      cases co with
      | none => rfl
      | some c =>
        have e2 : Dict.get? (collabAfter kids c).messageFlows (x.getAttr "bpmnElement") = _ :=
          get?_table (fun y : Xml => y.getAttr "id") (fun y => (⟨y.getAttr "id", y.attrOr "name" "", y.getAttr "sourceRef", y.getAttr "targetRef"⟩ : MsgFlow)) _ _
        simp only [Option.map_none, Option.map_some, e2, Option.none_or, Option.getD_some, List.find?_map, Function.comp_def, Option.map_map, kidsOf]
  rw [importFlowDi_eq, hdata] at hi
  cases hf : fs.find? fun f => f.2.getAttr "id" == x.getAttr "bpmnElement" with
  | none =>
    rw [hf] at hi
    rw [← Except.ok.inj hi]
    refine ⟨?_, h.rows, by rw [hc, h.collab]⟩
    rw [hfs, hedges]
    apply List.map_congr_left
    intro g hg
    refine (edgeAfter_append_other fun _ e => ?_).symm
    have := List.find?_eq_none.1 hf g hg
    simp only [beq_iff_eq] at this
    exact this e.symm
  | some f =>
    rw [hf] at hi
    dsimp only [Option.map_some] at hi
    split at hi
    · rw [← Except.ok.inj hi]
      refine ⟨?_, h.rows, by rw [hc, ← h.collab]⟩
      rw [hfs]
      have hm := List.mem_of_find?_eq_some hf
      have hid : f.2.getAttr "id" = x.getAttr "bpmnElement" := by simpa using List.find?_some hf
      show D.graph.edges.map _ = _
      rw [hedges, List.map_map]
      apply List.map_congr_left
      intro g hg
      show (if (edgeAfter kids g).joins _ _ = true then _ else _) = _
      by_cases e : g = f
      · subst e
        rw [if_pos (by simp [edgeAfter, Edge.joins]), edgeAfter_append_same h1 hid.symm]
      · have n1 : ¬ g.2.getAttr "id" = f.2.getAttr "id" := by
          intro e'
          exact e (List.inj_on_of_nodup_map nd hg hm e')
        rw [edgeAfter_append_other fun _ e' => n1 (by rw [hid, e'])]
        rw [if_neg]
        intro hj
        have hs : Std.Symm fun a b : FlowEl => ¬ SameEnds a.2 b.2 := by
          refine ⟨fun a b hab hba => ?_⟩
          apply hab
          rcases hba with ⟨p, q⟩ | ⟨p, q⟩
          · exact .inl ⟨p.symm, q.symm⟩
          · exact .inr ⟨q.symm, p.symm⟩
        rw [joins_iff] at hj
        exact hp.forall hg hm e hj
    · cases hi

theorem importPlane_state {seqs : List FlowEl} {co : Option Xml}
    (hp : (allOf seqs co).Pairwise (fun f g => ¬ SameEnds f.2 g.2))
    (nd : ((allOf seqs co).map (·.2.getAttr "id")).Nodup)
    (ndp : ((namedIn "participant" (kidsOf co)).map (·.getAttr "id")).Nodup) :
    ∀ {l kids : List Xml} {D D' : Diagram}, importPlane l D = .ok D' → PlaneState seqs co kids D → PlaneState seqs co (kids ++ l) D'
  | [], kids, D, D', h, hs => by
    rw [importPlane] at h
    rw [← Except.ok.inj h, List.append_nil]
    exact hs
  | .text s :: r, kids, D, D', h, hs => by
    rw [importPlane, if_pos (by rfl)] at h
    have := importPlane_state hp nd ndp (l := r) h (hs.skip (x := .text s) (by simp [localTag]) (by simp [localTag]))
    simpa using this
  | .other s :: r, kids, D, D', h, hs => by
    rw [importPlane, if_neg (by simp [Xml.isText])] at h
    cases h
  | .elem t as ks :: r, kids, D, D', h, hs => by
    rw [importPlane, if_neg (by simp [Xml.isText])] at h
    obtain ⟨t', h1, k⟩ := except_bind_eq_ok h
    have : t' = t := (Except.ok.inj h1).symm
    subst this
    have hc : kids ++ .elem t' as ks :: r = (kids ++ [.elem t' as ks]) ++ r := by simp
    rw [hc]
    split at k
    · rename_i ct
      obtain ⟨D1, h2, m⟩ := except_bind_eq_ok k
      exact importPlane_state hp nd ndp (l := r) m (hs.shape ct h2 ndp)
    · rename_i cs
      split at k
      · rename_i ct
        obtain ⟨D1, h2, m⟩ := except_bind_eq_ok k
        exact importPlane_state hp nd ndp (l := r) m (hs.edge ct h2 hp nd)
      · rename_i ct
        exact importPlane_state hp nd ndp (l := r) k (hs.skip (x := .elem t' as ks) cs ct)

/-! ## The attributes of the diagram and of the plane -/

/-- The attributes of the diagram and of the plane. -/
def headOf (D : Diagram) : Option String × Option String × Option String × Option String := (D.diagramId, D.diagramName, D.planeId, D.planeElement)

theorem NodeForm.head {pid : String} {o : Owner} {e : Xml} {g : Diagram → Py Diagram} (h : NodeForm pid o e g) {D D' : Diagram}
    (hg : g D = .ok D') : headOf D' = headOf D := by
  obtain ⟨f, _, h1⟩ := h
  rw [h1] at hg
  obtain ⟨D1, h2, h3⟩ := except_bind_eq_ok hg
  rw [← Except.ok.inj h3]
  simp only [importFlowNode] at h2
  obtain ⟨t, _, h2⟩ := except_bind_eq_ok h2
  obtain ⟨i, _, h2⟩ := except_bind_eq_ok h2
  obtain ⟨u, _, h2⟩ := except_bind_eq_ok h2
  rw [← Except.ok.inj h2]
  cases o <;> rfl

theorem importFlows_head {pid : String} : ∀ {l : List Xml} {D D' : Diagram}, importFlows pid l D = .ok D' → headOf D' = headOf D
  | [], D, D', h => by rw [← Except.ok.inj h]
  | x :: r, D, D', h => by
    rw [importFlows] at h
    split at h
    · exact importFlows_head h
    · obtain ⟨t, _, h⟩ := except_bind_eq_ok h
      split at h
      · obtain ⟨D1, h1, h⟩ := except_bind_eq_ok h
        rw [importFlows_head h]
        simp only [importSequenceFlow] at h1
        obtain ⟨c, _, h1⟩ := except_bind_eq_ok h1
        rw [← Except.ok.inj h1]
        rfl
      · exact importFlows_head h

mutual
theorem importElement_head {ord : List String → List String} : ∀ {x : Xml} {pid : String} {o : Owner} {D D' : Diagram},
    importElement ord pid o x D = .ok D' → headOf D' = headOf D
  | .elem t as ks, pid, o, D, D', h => by
    rw [importElement] at h
    split at h
    · obtain ⟨D1, h1, h⟩ := except_bind_eq_ok h
      obtain ⟨D2, h2, h⟩ := except_bind_eq_ok h
      rw [importFlows_head h, importElements_head h2]
      have := NodeForm.head (form_activity pid o (.elem t as ks)) h1
      exact this
    · by_cases c : removeNamespace t ∈ simpleTags
      · exact NodeForm.head ((importSimple_form ord pid o (.elem t as ks) _).1 c) h
      · rw [(importSimple_form ord pid o (.elem t as ks) _).2 c D] at h
        rw [← Except.ok.inj h]
  | .text _, pid, o, D, D', h => by rw [importElement] at h; rw [← Except.ok.inj h]
  | .other _, pid, o, D, D', h => by rw [importElement] at h; cases h
theorem importElements_head {ord : List String → List String} : ∀ {l : List Xml} {pid : String} {o : Owner} {D D' : Diagram},
    importElements ord pid o l D = .ok D' → headOf D' = headOf D
  | [], pid, o, D, D', h => by rw [importElements] at h; rw [← Except.ok.inj h]
  | x :: r, pid, o, D, D', h => by
    rw [importElements] at h
    obtain ⟨D1, h1, h⟩ := except_bind_eq_ok h
    rw [importElements_head h, importElement_head h1]
end

theorem importProcesses_head {ord : List String → List String} {plane : Xml} : ∀ {l : List Xml} {D D' : Diagram},
    importProcesses ord plane l D = .ok D' → headOf D' = headOf D
  | [], D, D', h => by rw [importProcesses] at h; rw [← Except.ok.inj h]
  | e :: r, D, D', h => by
    rw [importProcesses] at h
    obtain ⟨D1, h1, h⟩ := except_bind_eq_ok h
    rw [importProcesses_head h]
    simp only [importProcess] at h1
    obtain ⟨D2, h2, h1⟩ := except_bind_eq_ok h1
    obtain ⟨D3, h3, h1⟩ := except_bind_eq_ok h1
    rw [importFlows_head h1, importElements_head h3]
    cases hb : e.byName "laneSet" with
    | nil => rw [hb, importLaneSet] at h2; rw [← Except.ok.inj h2]; rfl
    | cons ls r =>
      rw [hb, importLaneSet] at h2
      obtain ⟨lanes, _, h2⟩ := except_bind_eq_ok h2
      rw [← Except.ok.inj h2]
      rfl

theorem importCollabKids_head : ∀ {l : List Xml} {D : Diagram} {c : Collab} {v : Diagram × Collab}, importCollabKids l D c = .ok v → headOf v.1 = headOf D
  | [], D, c, v, h => by rw [importCollabKids] at h; rw [← Except.ok.inj h]
  | x :: r, D, c, v, h => by
    rw [importCollabKids] at h
    split at h
    · exact importCollabKids_head h
    · obtain ⟨t, _, h⟩ := except_bind_eq_ok h
      split at h
      · rw [importCollabKids_head h]
        split <;> rfl
      · split at h
        · rw [importCollabKids_head h]
          rfl
        · exact importCollabKids_head h

theorem importPlane_head : ∀ {l : List Xml} {D D' : Diagram}, importPlane l D = .ok D' → headOf D' = headOf D
  | [], D, D', h => by rw [importPlane] at h; rw [← Except.ok.inj h]
  | x :: r, D, D', h => by
    rw [importPlane] at h
    split at h
    · exact importPlane_head h
    · obtain ⟨t, _, h⟩ := except_bind_eq_ok h
      split at h
      · obtain ⟨D1, h1, h⟩ := except_bind_eq_ok h
        rw [importPlane_head h]
        simp only [importShape] at h1
        obtain ⟨b, _, h1⟩ := except_bind_eq_ok h1
        obtain ⟨D2, h2, h1⟩ := except_bind_eq_ok h1
        have e2 : headOf D2 = headOf D := by
          unfold importNodeShape at h2
          split at h2
          · cases h2; rfl
          · obtain ⟨ty, _, h2⟩ := except_bind_eq_ok h2
            cases h2; rfl
        rw [← e2]
        split at h1
        · cases h1; rfl
        · cases h1; rfl
      · split at h
        · obtain ⟨D1, h1, h⟩ := except_bind_eq_ok h
          rw [importPlane_head h]
          rw [importFlowDi_eq] at h1
          split at h1
          · cases h1; rfl
          · split at h1
            · cases h1; rfl
            · cases h1
        · exact importPlane_head h

/-! ## Loading -/

theorem load_head {ord : List String → List String} {root diagram plane : Xml} {E : Diagram} (h : load ord root {} = .ok E)
    (hd : (Xml.byNameIn "BPMNDiagram" [root]).head? = some diagram) (hp : (diagram.byName "BPMNPlane").head? = some plane) :
    headOf E = (some (diagram.getAttr "id"), some (diagram.attrOr "name" ""), some (plane.getAttr "id"), some (plane.getAttr "bpmnElement")) := by
  simp only [load] at h
  obtain ⟨diagram', h1, g⟩ := except_bind_eq_ok h
  obtain ⟨plane', h2, k⟩ := except_bind_eq_ok g
  obtain ⟨D1, h3, l⟩ := except_bind_eq_ok k
  obtain ⟨D2, h4, m⟩ := except_bind_eq_ok l
  rw [pyIndex_zero_ok, hd, Option.some.injEq] at h1
  subst h1
  rw [pyIndex_zero_ok, hp, Option.some.injEq] at h2
  subst h2
  rw [importPlane_head m]
  have e : headOf D2 = headOf D1 := by
    cases hx : Xml.byNameIn "collaboration" [root] with
    | nil => rw [hx, importFirstCollaboration] at h4; cases h4; rfl
    | cons c r =>
      rw [hx, importFirstCollaboration, importCollaboration] at h4
      obtain ⟨⟨D3, c1⟩, h5, h6⟩ := except_bind_eq_ok h4
      cases h6
      have := importCollabKids_head h5
      exact this
  rw [e, importProcesses_head h3]
  rfl

/-- The tables and edges of a loaded diagram. -/
theorem load_state {ord : List String → List String} {root diagram plane : Xml} {E : Diagram} (h : load ord root {} = .ok E)
    (hd : (Xml.byNameIn "BPMNDiagram" [root]).head? = some diagram) (hp : (diagram.byName "BPMNPlane").head? = some plane)
    (he : (flowElementsOf root).Pairwise fun f g => ¬ SameEnds f.2 g.2) (nd : ((flowElementsOf root).map (·.2.getAttr "id")).Nodup)
    (ndp : ((namedIn "participant" (collabKids root)).map (·.getAttr "id")).Nodup) :
    PlaneState (sequenceFlowElements root) (Xml.byNameIn "collaboration" [root]).head? plane.children E := by
  simp only [load] at h
  obtain ⟨diagram', h1, g⟩ := except_bind_eq_ok h
  obtain ⟨plane', h2, k⟩ := except_bind_eq_ok g
  obtain ⟨D1, h3, l⟩ := except_bind_eq_ok k
  obtain ⟨D2, h4, m⟩ := except_bind_eq_ok l
  rw [pyIndex_zero_ok, hd, Option.some.injEq] at h1
  subst h1
  rw [pyIndex_zero_ok, hp, Option.some.injEq] at h2
  subst h2
  have hall : allOf (sequenceFlowElements root) (Xml.byNameIn "collaboration" [root]).head? = flowElementsOf root := rfl
  obtain ⟨a1, a2⟩ := importProcesses_added h3
  have hseq : (sequenceFlowElements root).Pairwise fun f g => ¬ SameEnds f.2 g.2 := (List.pairwise_append.1 he).1
  have hids : ((sequenceFlowElements root).map (·.2.getAttr "id")).Nodup := by
    unfold flowElementsOf at nd
    rw [List.map_append, List.nodup_append] at nd
    exact nd.1
  have b1 : D1.graph.edges = (sequenceFlowElements root).map (edgeAfter []) := by
    rw [a1]
    exact foldl_addFlow (sequenceFlowElements root) [] hseq
  have b2 : D1.sequenceFlows = (sequenceFlowElements root).map rowOf := by
    rw [a2]
    exact foldl_set_new (fun f : FlowEl => f.2.getAttr "id") (fun f => (⟨f.2.attrOr "name" "", f.2.getAttr "sourceRef", f.2.getAttr "targetRef"⟩ : SeqFlow))
      (sequenceFlowElements root) [] hids
  have s0 : PlaneState (sequenceFlowElements root) (Xml.byNameIn "collaboration" [root]).head? [] D2 := by
    cases hx : Xml.byNameIn "collaboration" [root] with
    | nil =>
      rw [hx, importFirstCollaboration] at h4
      cases h4
      refine ⟨?_, b2, ?_⟩
      · rw [b1]
        simp [allOf, kidsOf, namedIn]
      · rw [importProcesses_collab h3]
        rfl
    | cons c r =>
      rw [hx, importFirstCollaboration, importCollaboration] at h4
      obtain ⟨⟨D3, c1⟩, h5, h6⟩ := except_bind_eq_ok h4
      cases h6
      obtain ⟨c2, c3, c4, c5, c6⟩ := importCollabKids_added h5
      have hk : collabKids root = c.children := by unfold collabKids; rw [hx]; rfl
      have hm : flowElementsOf root = sequenceFlowElements root ++ (namedIn "messageFlow" c.children).map fun x => (none, x) := by
        unfold flowElementsOf
        rw [hk]
      rw [hm] at he nd
      rw [hk] at ndp
      refine ⟨?_, ?_, ?_⟩
      · have : D3.graph.edges = _ := c2
        show D3.graph.edges = _
        rw [this, b1]
        exact foldl_addFlow _ _ he
      · show D3.sequenceFlows = _
        have : D3.sequenceFlows = D1.sequenceFlows := c3
        rw [this, b2]
      · show some c1 = _
        simp only [List.head?_cons, Option.map_some, Option.some.injEq]
        obtain ⟨ci, cp, cm⟩ := c1
        have d4 : ci = _ := c4
        have d5 : cp = _ := c5
        have d6 : cm = _ := c6
        unfold collabAfter
        rw [Collab.mk.injEq]
        refine ⟨d4, ?_, ?_⟩
        · rw [d5]
          exact foldl_set_new (fun x : Xml => x.getAttr "id") (fun x => ({ name := x.getAttr "name", processRef := x.getAttr "processRef" } : Participant)) _ [] ndp
        · rw [d6]
          refine foldl_set_new (fun x : Xml => x.getAttr "id") (fun y => (⟨y.getAttr "id", y.attrOr "name" "", y.getAttr "sourceRef", y.getAttr "targetRef"⟩ : MsgFlow)) _ [] ?_
          rw [List.map_append, List.nodup_append, List.map_map] at nd
          exact nd.2.1
  have := importPlane_state (by rw [hall]; exact he) (by rw [hall]; exact nd) ndp m s0
  simpa using this

end Bpmn.Import

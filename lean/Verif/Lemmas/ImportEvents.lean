import Verif.Lemmas.ImportAccept
import Verif.Spec.Loaded
/-!
# What the steps of the import do to one node
-/
set_option linter.unusedSimpArgs false
set_option linter.unusedVariables false

namespace Bpmn.Import
open Bpmn Bpmn.Spec

/-- A row of the table of node kinds. -/
abbrev Kind := String × List String × Bool × List String

/-- The attributes of a node; none if there is no node. -/
def view (D : Diagram) (n : String) : NodeAttrs := (D.graph.nodes.get? n).getD {}

theorem view_addNode (D : Diagram) (n m : String) : view { D with graph := D.graph.addNode n } m = view D m := by
  unfold view
  simp only [Graph.get?_addNode]
  split
  · rfl
  · rename_i h
    have := (Dict.get?_eq_none_iff D.graph.nodes m).2 h
    split <;> simp [this]

theorem view_updNode (D : Diagram) (n m : String) (f : NodeAttrs → NodeAttrs) (h : n ∈ D.graph.nodes.keys) :
    view (D.updNode n f) m = if n = m then f (view D m) else view D m := by
  unfold view
  simp only [Diagram.updNode, Graph.modifyNode, Dict.get?_modify]
  by_cases e : n = m
  · subst e
    obtain ⟨a, ha⟩ := Option.isSome_iff_exists.1 ((Dict.get?_isSome_iff D.graph.nodes n).2 h)
    simp [ha]
  · simp [e]

theorem keys_updNode (D : Diagram) (n : String) (f : NodeAttrs → NodeAttrs) : (D.updNode n f).graph.nodes.keys = D.graph.nodes.keys := by
  simp [Diagram.updNode]

/-! ## Steps -/

/-- The attributes that depend on the kind of node. -/
def extra (ord : List String → List String) (x : Xml) (k : Kind) (a : NodeAttrs) : NodeAttrs :=
  { a with
    triggeredByEvent := if "triggeredByEvent" ∈ k.2.1 then some (x.attrOr "triggeredByEvent" "false") else a.triggeredByEvent
    parallelMultiple := if "parallelMultiple" ∈ k.2.1 then some (x.attrOr "parallelMultiple" "false") else a.parallelMultiple
    isInterrupting := if "isInterrupting" ∈ k.2.1 then some (x.attrOr "isInterrupting" "true") else a.isInterrupting
    cancelActivity := if "cancelActivity" ∈ k.2.1 then some (x.attrOr "cancelActivity" "true") else a.cancelActivity
    attachedToRef := if "attachedToRef" ∈ k.2.1 then some (x.getAttr "attachedToRef") else a.attachedToRef
    gatewayDirection := if "gatewayDirection" ∈ k.2.1 then some (x.attrOr "gatewayDirection" "Unspecified") else a.gatewayDirection
    instantiate := if "instantiate" ∈ k.2.1 then some (x.attrOr "instantiate" "false") else a.instantiate
    eventGatewayType := if "eventGatewayType" ∈ k.2.1 then some (x.attrOr "eventGatewayType" "Exclusive") else a.eventGatewayType
    isCollection := if "isCollection" ∈ k.2.1 then some (x.attrOr "isCollection" "false") else a.isCollection
    default := if k.2.2.1 then some (defaultOf x) else a.default
    eventDefinitions := if "eventDefinitions" ∈ k.2.1 then some (eventDefs x (ord k.2.2.2)) else a.eventDefinitions
    nodeIds := if k.1 = "subProcess" then some [] else a.nodeIds }

/-- The attributes that every node has. -/
def base (pid : String) (x : Xml) (a : NodeAttrs) : NodeAttrs :=
  { a with
    id := some (x.getAttr "id"), type := some (localTag x), nodeName := some (x.attrOr "name" ""), process := some pid
    incoming := some (textsOf "incoming" x.children), outgoing := some (textsOf "outgoing" x.children) }

/-- The id `i` is recorded in the node `n` if it is the owner. -/
def noted (o : Owner) (i n : String) (a : NodeAttrs) : NodeAttrs :=
  if o = .node n then { a with nodeIds := some (a.nodeIds.getD [] ++ [i]) } else a

/-- The steps of an import. -/
inductive Ev where
  | node (o : Owner) (pid : String) (x : Xml) (k : Kind)
  | flow (i s t : String)
  | pool (i : String)

/-- What a step does to the node `n`. -/
def Ev.apply (ord : List String → List String) (n : String) (a : NodeAttrs) : Ev → NodeAttrs
  | .node o pid x k => if x.getAttr "id" = n then extra ord x k (base pid x (noted o (x.getAttr "id") n a)) else noted o (x.getAttr "id") n a
  | .flow i s t =>
    let a := if s = n then { a with outgoing := some (addOnce a.outgoing i) } else a
    if t = n then { a with incoming := some (addOnce a.incoming i) } else a
  | .pool i => if i = n then { a with type := some "participant", process := some i } else a

/-- The row for a tag. -/
def kindOf (tag : String) : Option Kind := nodeKinds.find? (·.1 == tag)

/-- The steps for the flows with the given name. -/
def flowEvs (name : String) (l : List Xml) : List Ev := (endsWithId name l).map fun f => .flow f.1 f.2.1 f.2.2

mutual
/-- The steps for an element. -/
def evsIn (o : Owner) (pid : String) : Xml → List Ev
  | .elem t as ks =>
    match kindOf (removeNamespace t) with
    | none => []
    | some k => .node o pid (.elem t as ks) k :: (if removeNamespace t = "subProcess" then
        evsAll (.node ((Xml.elem t as ks).getAttr "id")) ((Xml.elem t as ks).getAttr "id") ks ++ flowEvs "sequenceFlow" ks else [])
  | _ => []
/-- The steps for a list of elements. -/
def evsAll (o : Owner) (pid : String) : List Xml → List Ev
  | [] => []
  | x :: r => evsIn o pid x ++ evsAll o pid r
end

/-- The diagram after the steps. -/
def Applied (ord : List String → List String) (evs : List Ev) (D D' : Diagram) : Prop :=
  (∀ n, view D' n = evs.foldl (Ev.apply ord n) (view D n)) ∧ ∀ n ∈ D.graph.nodes.keys, n ∈ D'.graph.nodes.keys

theorem Applied.refl (ord : List String → List String) (D : Diagram) : Applied ord [] D D := ⟨fun _ => rfl, fun _ h => h⟩

theorem Applied.trans {ord : List String → List String} {a b : List Ev} {D D' D'' : Diagram} (h : Applied ord a D D') (h' : Applied ord b D' D'') :
    Applied ord (a ++ b) D D'' :=
  ⟨fun n => by rw [List.foldl_append, ← h.1, h'.1], fun n hn => h'.2 n (h.2 n hn)⟩

theorem values_eq (tag : String) : ∀ {l : List Xml} {v : List String}, values tag l = .ok v → v = textsOf tag l
  | [], v, h => by simpa [values, textsOf] using h.symm
  | x :: r, v, h => by
    unfold values at h
    cases x with
    | text s => simpa [textsOf] using values_eq tag (l := r) (by simpa [Xml.isText] using h)
    | other s => simp [Xml.isText, Xml.tagName] at h
    | elem t as ks =>
      simp only [Xml.isText, Bool.false_eq_true, ↓reduceIte, Xml.tagName, except_bind_ok] at h
      split at h
      · rename_i c
        obtain ⟨w, h1, h⟩ := except_bind_eq_ok h
        obtain ⟨ws, h2, h⟩ := except_bind_eq_ok h
        have := values_eq tag h2
        subst this
        have hw : w = valueOf (.elem t as ks) := by
          unfold Xml.firstValue at h1
          unfold valueOf
          split at h1 <;> simp_all
        rw [hw] at h
        simpa [textsOf, c] using h.symm
      · rename_i c
        simpa [textsOf, c] using values_eq tag h

theorem view_record (o : Owner) (i : String) (D : Diagram) (m : String) (h : ∀ n, o = .node n → n ∈ D.graph.nodes.keys) :
    view (record o i D) m = noted o i m (view D m) := by
  cases o with
  | process p => simp [record, noted, view]
  | node n =>
    simp only [record, noted]
    rw [view_updNode _ _ _ _ (h n rfl)]
    by_cases e : n = m <;> simp [e]

theorem keys_record (o : Owner) (i : String) (D : Diagram) : (record o i D).graph.nodes.keys = D.graph.nodes.keys := by
  cases o with
  | process p => rfl
  | node n => exact keys_updNode ..

theorem importFlowNode_view {pid : String} {o : Owner} {t : String} {as : List (String × String)} {ks : List Xml} {D D' : Diagram}
    (h : importFlowNode pid o (.elem t as ks) D = .ok D') (ho : ∀ n, o = .node n → n ∈ D.graph.nodes.keys) :
    (∀ n, view D' n = if (Xml.elem t as ks).getAttr "id" = n then base pid (.elem t as ks) (noted o ((Xml.elem t as ks).getAttr "id") n (view D n))
      else noted o ((Xml.elem t as ks).getAttr "id") n (view D n)) ∧
    ∀ n, n ∈ D'.graph.nodes.keys ↔ n = (Xml.elem t as ks).getAttr "id" ∨ n ∈ D.graph.nodes.keys := by
  simp only [importFlowNode, Xml.tagName, except_bind_ok] at h
  obtain ⟨i, h1, h⟩ := except_bind_eq_ok h
  obtain ⟨u, h2, h⟩ := except_bind_eq_ok h
  have e1 := values_eq _ h1
  have e2 := values_eq _ h2
  subst e1 e2
  rw [← Except.ok.inj h]
  generalize hid : (Xml.elem t as ks).getAttr "id" = id
  have k1 : id ∈ ({ D with graph := D.graph.addNode id } : Diagram).graph.nodes.keys := (Graph.mem_keys_addNode ..).2 (.inl rfl)
  constructor
  · intro n
    rw [view_updNode]
    · rw [view_record]
      · rw [view_updNode _ _ _ _ k1, view_addNode]
        by_cases e : id = n
        · subst e
          simp only [↓reduceIte, noted, base, localTag, hid]
          split <;> rfl
        · simp [e]
      · intro m hm
        rw [keys_updNode]
        exact (Graph.mem_keys_addNode ..).2 (.inr (ho m hm))
    · rw [keys_record, keys_updNode]
      exact k1
  · intro n
    rw [keys_updNode, keys_record, keys_updNode]
    exact Graph.mem_keys_addNode ..

/-! ## Elements -/

/-- An importer that adds the node and then the attributes of its kind. -/
def KindForm (ord : List String → List String) (pid : String) (o : Owner) (e : Xml) (k : Kind) (g : Diagram → Py Diagram) : Prop :=
  ∀ D, g D = (do
    let D1 ← importFlowNode pid o e D
    pure (D1.updNode (e.getAttr "id") (extra ord e k)))

theorem kindForm_of {ord : List String → List String} {pid : String} {o : Owner} {e : Xml} {k : Kind} {g : Diagram → Py Diagram} {f : NodeAttrs → NodeAttrs}
    (hg : ∀ D, g D = (do
      let D1 ← importFlowNode pid o e D
      pure (D1.updNode (e.getAttr "id") f))) (hf : f = extra ord e k) : KindForm ord pid o e k g := by
  subst hf
  exact hg

theorem importSimple_kind (ord : List String → List String) (pid : String) (o : Owner) (e : Xml) : ∀ k ∈ nodeKinds, k.1 ≠ "subProcess" →
    KindForm ord pid o e k (importSimple ord pid o e k.1) := by
  intro k hk hs
  have hact : ∀ t, isTask t = true → KindForm ord pid o e (t, [], true, []) (importSimple ord pid o e t) := by
    intro t ht
    refine kindForm_of (f := fun a => { a with default := some (defaultOf e) }) (fun D => ?_) ?_
    · simp [importSimple, ht, importActivity]
    · funext a
      have : t ≠ "subProcess" := by rintro rfl; revert ht; decide
      simp [extra, this]
  have hdg : ∀ t, t = "inclusiveGateway" ∨ t = "exclusiveGateway" ∨ t = "complexGateway" →
      KindForm ord pid o e (t, ["gatewayDirection"], true, []) (importSimple ord pid o e t) := by
    intro t ht
    refine kindForm_of (f := (fun a => { a with default := some (defaultOf e) }) ∘
      (fun a => { a with gatewayDirection := some (e.attrOr "gatewayDirection" "Unspecified") })) (fun D => ?_) ?_
    · have : importSimple ord pid o e t D = importDefaultGateway pid o e D := by
        obtain rfl | rfl | rfl := ht <;> simp [importSimple, isTask]
      rw [this, importDefaultGateway, importGateway]
      cases importFlowNode pid o e D with
      | error x => rfl
      | ok D1 => simp only [except_bind_ok, except_pure, updNode_updNode]
    · funext a
      have : t ≠ "subProcess" := by rintro rfl; revert ht; decide
      simp [extra, this]
  simp only [nodeKinds, List.mem_cons, List.not_mem_nil, or_false] at hk
  rcases hk with rfl | rfl | rfl | rfl | rfl | rfl | rfl | rfl | rfl | rfl | rfl | rfl | rfl | rfl | rfl | rfl
  · exact hact "task" (by decide)
  · exact hact "userTask" (by decide)
  · exact hact "serviceTask" (by decide)
  · exact hact "manualTask" (by decide)
  · exact absurd rfl hs
  · refine kindForm_of (f := fun a => { a with isCollection := some (e.attrOr "isCollection" "false") }) (fun D => ?_) ?_
    · simp [importSimple, isTask, importDataObject]
    · funext a
      simp [extra]
  · exact hdg "inclusiveGateway" (by decide)
  · exact hdg "exclusiveGateway" (by decide)
  · exact hdg "complexGateway" (by decide)
  · refine kindForm_of (f := fun a => { a with gatewayDirection := some (e.attrOr "gatewayDirection" "Unspecified") }) (fun D => ?_) ?_
    · simp [importSimple, isTask, importGateway]
    · funext a
      simp [extra]
  · refine kindForm_of (f := (fun a => { a with instantiate := some (e.attrOr "instantiate" "false"), eventGatewayType := some (e.attrOr "eventGatewayType" "Exclusive") }) ∘
      (fun a => { a with gatewayDirection := some (e.attrOr "gatewayDirection" "Unspecified") })) (fun D => ?_) ?_
    · have : importSimple ord pid o e "eventBasedGateway" D = importEventBasedGateway pid o e D := by simp [importSimple, isTask]
      rw [this, importEventBasedGateway, importGateway]
      cases importFlowNode pid o e D with
      | error x => rfl
      | ok D1 => simp only [except_bind_ok, except_pure, updNode_updNode]
    · funext a
      simp [extra]
  · refine kindForm_of (f := (fun a => { a with eventDefinitions := some (eventDefs e (ord startDefs)) }) ∘
      (fun a => { a with parallelMultiple := some (e.attrOr "parallelMultiple" "false"), isInterrupting := some (e.attrOr "isInterrupting" "true") })) (fun D => ?_) ?_
    · have : importSimple ord pid o e "startEvent" D = importStartEvent ord pid o e D := by simp [importSimple, isTask]
      rw [this]
      simp only [importStartEvent, importEventDefs, updNode_updNode]
    · funext a
      simp [extra, startDefs]
  · refine kindForm_of (f := (fun a => { a with eventDefinitions := some (eventDefs e (ord catchDefs)) }) ∘
      (fun a => { a with parallelMultiple := some (e.attrOr "parallelMultiple" "false") })) (fun D => ?_) ?_
    · have : importSimple ord pid o e "intermediateCatchEvent" D = importCatchEvent ord pid o e D := by simp [importSimple, isTask]
      rw [this]
      simp only [importCatchEvent, importEventDefs, updNode_updNode]
    · funext a
      simp [extra, catchDefs]
  · refine kindForm_of (f := fun a => { a with eventDefinitions := some (eventDefs e (ord endDefs)) }) (fun D => ?_) ?_
    · have : importSimple ord pid o e "endEvent" D = importThrowEvent ord endDefs pid o e D := by simp [importSimple, isTask]
      rw [this]
      simp only [importThrowEvent, importEventDefs]
    · funext a
      simp [extra, endDefs]
  · refine kindForm_of (f := fun a => { a with eventDefinitions := some (eventDefs e (ord throwDefs)) }) (fun D => ?_) ?_
    · have : importSimple ord pid o e "intermediateThrowEvent" D = importThrowEvent ord throwDefs pid o e D := by simp [importSimple, isTask]
      rw [this]
      simp only [importThrowEvent, importEventDefs]
    · funext a
      simp [extra, throwDefs]
  · refine kindForm_of (f := (fun a => { a with eventDefinitions := some (eventDefs e (ord boundaryDefs)) }) ∘
      (fun a => { a with parallelMultiple := some (e.attrOr "parallelMultiple" "false"), cancelActivity := some (e.attrOr "cancelActivity" "true"), attachedToRef := some (e.getAttr "attachedToRef") })) (fun D => ?_) ?_
    · have : importSimple ord pid o e "boundaryEvent" D = importBoundaryEvent ord pid o e D := by simp [importSimple, isTask]
      rw [this]
      simp only [importBoundaryEvent, importEventDefs, updNode_updNode]
    · funext a
      simp [extra, boundaryDefs]

theorem kindOf_some {tag : String} {k : Kind} (h : kindOf tag = some k) : k ∈ nodeKinds ∧ k.1 = tag := by
  unfold kindOf at h
  exact ⟨List.mem_of_find?_eq_some h, by simpa using List.find?_some h⟩

theorem kindOf_none {tag : String} (h : kindOf tag = none) : tag ∉ nodeTags := by
  unfold kindOf at h
  rw [List.find?_eq_none] at h
  intro hm
  simp only [nodeTags, List.mem_cons, List.not_mem_nil, or_false] at hm
  simp only [nodeKinds, List.forall_mem_cons, beq_iff_eq] at h
  rcases hm with rfl | rfl | rfl | rfl | rfl | rfl | rfl | rfl | rfl | rfl | rfl | rfl | rfl | rfl | rfl | rfl <;> simp at h

theorem KindForm.view {ord : List String → List String} {pid : String} {o : Owner} {t : String} {as : List (String × String)} {ks : List Xml} {k : Kind}
    {g : Diagram → Py Diagram} (hg : KindForm ord pid o (.elem t as ks) k g) {D D' : Diagram} (h : g D = .ok D')
    (ho : ∀ n, o = .node n → n ∈ D.graph.nodes.keys) :
    Applied ord [.node o pid (.elem t as ks) k] D D' ∧ (Xml.elem t as ks).getAttr "id" ∈ D'.graph.nodes.keys := by
  rw [hg] at h
  obtain ⟨D1, h1, h⟩ := except_bind_eq_ok h
  obtain ⟨v1, k1⟩ := importFlowNode_view h1 ho
  rw [← Except.ok.inj h]
  refine ⟨⟨fun n => ?_, fun n hn => ?_⟩, ?_⟩
  · rw [view_updNode _ _ _ _ ((k1 _).2 (.inl rfl)), v1]
    simp only [List.foldl_cons, List.foldl_nil, Ev.apply]
    split <;> rfl
  · rw [keys_updNode]
    exact (k1 n).2 (.inr hn)
  · rw [keys_updNode]
    exact (k1 _).2 (.inl rfl)

theorem view_addEdge (D : Diagram) (s t m : String) (f : EdgeAttrs → EdgeAttrs) (S : Dict String SeqFlow) :
    view { D with sequenceFlows := S, graph := (D.graph.addEdge s t).modifyEdge s t f } m = view D m ∧
    ∀ n, n ∈ ((D.graph.addEdge s t).modifyEdge s t f).nodes.keys ↔ n = s ∨ n = t ∨ n ∈ D.graph.nodes.keys := by
  have e : ((D.graph.addEdge s t).modifyEdge s t f).nodes = ((D.graph.addNode s).addNode t).nodes := by
    unfold Graph.modifyEdge Graph.addEdge
    dsimp only
    split <;> rfl
  constructor
  · unfold view
    rw [e]
    exact (view_addNode { D with graph := D.graph.addNode s } t m).trans (view_addNode D s m)
  · intro n
    rw [e, Graph.mem_keys_addNode, Graph.mem_keys_addNode]
    tauto

theorem applied_flow (ord : List String → List String) (D : Diagram) (i s t : String) (f : EdgeAttrs → EdgeAttrs) (S : Dict String SeqFlow) :
    Applied ord [.flow i s t] D (linkEnds i s t { D with sequenceFlows := S, graph := (D.graph.addEdge s t).modifyEdge s t f }) := by
  constructor
  · intro n
    unfold linkEnds
    rw [view_updNode, view_updNode, (view_addEdge D s t n f S).1]
    · rfl
    · exact ((view_addEdge D s t n f S).2 s).2 (.inl rfl)
    · rw [keys_updNode]
      exact ((view_addEdge D s t n f S).2 t).2 (.inr (.inl rfl))
  · intro n hn
    rw [keys_linkEnds]
    exact ((view_addEdge D s t n f S).2 n).2 (.inr (.inr hn))

theorem importSequenceFlow_view {ord : List String → List String} {pid : String} {e : Xml} {D D' : Diagram} (h : importSequenceFlow pid e D = .ok D') :
    Applied ord [.flow (e.getAttr "id") (e.getAttr "sourceRef") (e.getAttr "targetRef")] D D' := by
  unfold importSequenceFlow at h
  obtain ⟨c, h1, h⟩ := except_bind_eq_ok h
  rw [← Except.ok.inj h]
  exact applied_flow ord D _ _ _ _ _

theorem importFlows_view {ord : List String → List String} {pid : String} : ∀ {l : List Xml} {D D' : Diagram}, importFlows pid l D = .ok D' →
    Applied ord (flowEvs "sequenceFlow" l) D D'
  | [], D, D', h => by
    rw [← Except.ok.inj h]
    exact .refl ord D
  | x :: r, D, D', h => by
    unfold importFlows at h
    cases x with
    | text s => simpa [flowEvs, endsWithId] using importFlows_view (l := r) (ord := ord) (by simpa [Xml.isText] using h)
    | other s => simp [Xml.isText, Xml.tagName] at h
    | elem t as ks =>
      simp only [Xml.isText, Bool.false_eq_true, ↓reduceIte, Xml.tagName, except_bind_ok] at h
      split at h
      · rename_i c
        obtain ⟨D1, h1, h⟩ := except_bind_eq_ok h
        have := (importSequenceFlow_view (ord := ord) h1).trans (importFlows_view h)
        simpa [flowEvs, endsWithId, c] using this
      · rename_i c
        have := importFlows_view (ord := ord) h
        simpa [flowEvs, endsWithId, c] using this

mutual
theorem importElement_view {ord : List String → List String} : ∀ {x : Xml} {pid : String} {o : Owner} {D D' : Diagram},
    importElement ord pid o x D = .ok D' → (∀ n, o = .node n → n ∈ D.graph.nodes.keys) → Applied ord (evsIn o pid x) D D'
  | .text s, pid, o, D, D', h, ho => by
    rw [importElement] at h
    rw [← Except.ok.inj h]
    exact .refl ord D
  | .other s, pid, o, D, D', h, ho => by
    rw [importElement] at h
    cases h
  | .elem t as ks, pid, o, D, D', h, ho => by
    rw [importElement] at h
    rw [evsIn]
    split at h
    · rename_i c
      have hk : kindOf (removeNamespace t) = some ("subProcess", ["isExpanded", "triggeredByEvent"], true, []) := by rw [c]; rfl
      rw [hk]
      simp only [c, ↓reduceIte]
      obtain ⟨D1, h1, h⟩ := except_bind_eq_ok h
      obtain ⟨D2, h2, h⟩ := except_bind_eq_ok h
      have hform : KindForm ord pid o (.elem t as ks) ("subProcess", ["isExpanded", "triggeredByEvent"], true, []) (fun D => do
          let d ← importActivity pid o (.elem t as ks) D
          pure (d.updNode ((Xml.elem t as ks).getAttr "id") fun a =>
            { a with triggeredByEvent := some ((Xml.elem t as ks).attrOr "triggeredByEvent" "false"), nodeIds := some [] })) := by
        refine kindForm_of (f := (fun a => { a with triggeredByEvent := some ((Xml.elem t as ks).attrOr "triggeredByEvent" "false"), nodeIds := some [] }) ∘
          (fun a => { a with default := some (defaultOf (.elem t as ks)) })) (fun D => ?_) ?_
        · rw [importActivity]
          cases importFlowNode pid o (.elem t as ks) D with
          | error x => rfl
          | ok D1 => simp only [except_bind_ok, except_pure, updNode_updNode]
        · funext a
          simp [extra]
      obtain ⟨v1, m1⟩ := hform.view (D := D) (by rw [h1]; rfl) ho
      have v2 := importElements_view h2 (by intro n hn; cases hn; exact m1)
      have := v1.trans (v2.trans (importFlows_view h))
      simpa using this
    · rename_i c
      cases hk : kindOf (removeNamespace t) with
      | none =>
        have hn := kindOf_none hk
        have hs : removeNamespace t ∉ simpleTags := fun hm => hn ((simpleTags_iff _ c).1 hm)
        rw [(importSimple_form ord pid o (.elem t as ks) (removeNamespace t)).2 hs] at h
        rw [← Except.ok.inj h]
        exact .refl ord D
      | some k =>
        obtain ⟨k1, k2⟩ := kindOf_some hk
        have hform := importSimple_kind ord pid o (.elem t as ks) k k1 (by rw [k2]; exact c)
        rw [k2] at hform
        obtain ⟨v1, m1⟩ := hform.view h ho
        simp only [c, ↓reduceIte]
        exact v1
theorem importElements_view {ord : List String → List String} : ∀ {l : List Xml} {pid : String} {o : Owner} {D D' : Diagram},
    importElements ord pid o l D = .ok D' → (∀ n, o = .node n → n ∈ D.graph.nodes.keys) → Applied ord (evsAll o pid l) D D'
  | [], pid, o, D, D', h, ho => by
    rw [importElements] at h
    rw [← Except.ok.inj h]
    exact .refl ord D
  | x :: r, pid, o, D, D', h, ho => by
    rw [importElements] at h
    obtain ⟨D1, h1, h⟩ := except_bind_eq_ok h
    have v1 := importElement_view h1 ho
    have v2 := importElements_view (l := r) h fun n hn => v1.2 n (ho n hn)
    rw [evsAll]
    exact v1.trans v2
end

/-! ## The whole document -/

/-- The steps for a process. -/
def procEvs (p : Xml) : List Ev := evsAll (.process (p.getAttr "id")) (p.getAttr "id") p.children ++ flowEvs "sequenceFlow" p.children

/-- The steps for the children of a collaboration. -/
def collabEvs : List Xml → List Ev
  | [] => []
  | x :: r =>
    (match x with
      | .elem t as ks =>
        if removeNamespace t = "participant" then (if x.getAttr "processRef" = "" then [.pool (x.getAttr "id")] else [])
        else if removeNamespace t = "messageFlow" then [.flow (x.getAttr "id") (x.getAttr "sourceRef") (x.getAttr "targetRef")]
        else []
      | _ => []) ++ collabEvs r

/-- The steps for a document. -/
def allEvs (root : Xml) : List Ev := (Xml.byNameIn "process" [root]).flatMap procEvs ++ collabEvs (collabKids root)

theorem Applied.congr {ord : List String → List String} {D D' E : Diagram} {evs : List Ev} (h : Applied ord evs D E) (e : D'.graph = D.graph) :
    Applied ord evs D' E := by
  unfold Applied view at *
  rw [e]
  exact h

theorem Applied.congr_right {ord : List String → List String} {D D' E : Diagram} {evs : List Ev} (h : Applied ord evs E D) (e : D'.graph = D.graph) :
    Applied ord evs E D' := by
  unfold Applied view at *
  rw [e]
  exact h

theorem importProcess_view {ord : List String → List String} {plane p : Xml} {D D' : Diagram} (h : importProcess ord plane p D = .ok D') :
    Applied ord (procEvs p) D D' := by
  unfold importProcess at h
  obtain ⟨D1, h1, h⟩ := except_bind_eq_ok h
  obtain ⟨D2, h2, h⟩ := except_bind_eq_ok h
  have g1 : D.graph = D1.graph := (importLaneSet_same h1).1.symm
  exact Applied.congr ((importElements_view h2 (by intro n hn; cases hn)).trans (importFlows_view h)) g1

theorem importProcesses_view {ord : List String → List String} {plane : Xml} : ∀ {l : List Xml} {D D' : Diagram},
    importProcesses ord plane l D = .ok D' → Applied ord (l.flatMap procEvs) D D'
  | [], D, D', h => by
    rw [← Except.ok.inj h]
    exact .refl ord D
  | p :: r, D, D', h => by
    unfold importProcesses at h
    obtain ⟨D1, h1, h⟩ := except_bind_eq_ok h
    exact (importProcess_view h1).trans (importProcesses_view h)

theorem importParticipant_view (ord : List String → List String) (e : Xml) (D : Diagram) (c : Collab) :
    Applied ord (if e.getAttr "processRef" = "" then [.pool (e.getAttr "id")] else []) D (importParticipant e D c).1 := by
  unfold importParticipant
  dsimp only
  split
  · have k1 : e.getAttr "id" ∈ ({ D with graph := D.graph.addNode (e.getAttr "id") } : Diagram).graph.nodes.keys := (Graph.mem_keys_addNode ..).2 (.inl rfl)
    constructor
    · intro n
      rw [view_updNode _ _ _ _ k1, view_addNode]
      rfl
    · intro n hn
      rw [keys_updNode]
      exact (Graph.mem_keys_addNode ..).2 (.inr hn)
  · exact .refl ord D

theorem importMessageFlow_view (ord : List String → List String) (e : Xml) (D : Diagram) (c : Collab) :
    Applied ord [.flow (e.getAttr "id") (e.getAttr "sourceRef") (e.getAttr "targetRef")] D (importMessageFlow e D c).1 :=
  applied_flow ord D _ _ _ _ _

theorem importCollabKids_view {ord : List String → List String} : ∀ {l : List Xml} {D : Diagram} {c : Collab} {v : Diagram × Collab},
    importCollabKids l D c = .ok v → Applied ord (collabEvs l) D v.1
  | [], D, c, v, h => by
    rw [← Except.ok.inj h]
    exact .refl ord D
  | x :: r, D, c, v, h => by
    unfold importCollabKids at h
    cases x with
    | text s => simpa [collabEvs] using importCollabKids_view (l := r) (ord := ord) (by simpa [Xml.isText] using h)
    | other s => simp [Xml.isText, Xml.tagName] at h
    | elem t as ks =>
      simp only [Xml.isText, Bool.false_eq_true, ↓reduceIte, Xml.tagName, except_bind_ok] at h
      simp only [collabEvs]
      split at h
      · rename_i e
        simp only [e, ↓reduceIte]
        exact (importParticipant_view ord (.elem t as ks) D c).trans (importCollabKids_view h)
      · rename_i e
        simp only [e, ↓reduceIte]
        split at h
        · rename_i e
          simp only [e, ↓reduceIte]
          exact (importMessageFlow_view ord (.elem t as ks) D c).trans (importCollabKids_view h)
        · rename_i e
          simp only [e, ↓reduceIte]
          exact (Applied.refl ord D).trans (importCollabKids_view h)

theorem importFirstCollaboration_view {ord : List String → List String} {root : Xml} {D D' : Diagram}
    (h : importFirstCollaboration (Xml.byNameIn "collaboration" [root]) D = .ok D') : Applied ord (collabEvs (collabKids root)) D D' := by
  unfold collabKids
  cases hc : Xml.byNameIn "collaboration" [root] with
  | nil =>
    rw [hc] at h
    rw [← Except.ok.inj h]
    exact .refl ord D
  | cons c r =>
    rw [hc] at h
    unfold importFirstCollaboration importCollaboration at h
    obtain ⟨v, h1, h⟩ := except_bind_eq_ok h
    rw [← Except.ok.inj h]
    exact (importCollabKids_view h1).congr_right rfl

theorem load_view {ord : List String → List String} {root : Xml} {E : Diagram} (h : load ord root {} = .ok E) :
    ∃ diagram plane D, (Xml.byNameIn "BPMNDiagram" [root]).head? = some diagram ∧ (diagram.byName "BPMNPlane").head? = some plane ∧
      Applied ord (allEvs root) {} D ∧ importPlane plane.children D = .ok E := by
  unfold load at h
  obtain ⟨diagram, h1, h⟩ := except_bind_eq_ok h
  obtain ⟨plane, h2, h⟩ := except_bind_eq_ok h
  obtain ⟨D1, h3, h⟩ := except_bind_eq_ok h
  obtain ⟨D2, h4, h⟩ := except_bind_eq_ok h
  exact ⟨diagram, plane, D2, (pyIndex_zero_ok _ _).1 h1, (pyIndex_zero_ok _ _).1 h2,
    Applied.congr ((importProcesses_view h3).trans (importFirstCollaboration_view h4)) rfl, h⟩

/-! ## The plane -/

/-- What a shape does to its node. -/
def drawn (s : Xml) (a : NodeAttrs) : NodeAttrs :=
  let b := ((s.byName "Bounds").head?).getD (.text "")
  { a with
    width := some (b.getAttr "width"), height := some (b.getAttr "height"), x := some (b.getAttr "x"), y := some (b.getAttr "y")
    isExpanded := if a.type = some "subProcess" then some (s.attrOr "isExpanded" "false") else a.isExpanded }

/-- What an element of the plane does to the node `n`. -/
def draw (n : String) (a : NodeAttrs) (s : Xml) : NodeAttrs :=
  if localTag s == "BPMNShape" && s.getAttr "bpmnElement" == n then drawn s a else a

theorem importNodeShape_view {e b : Xml} {id : String} {D D' : Diagram} (h : importNodeShape e b id D = .ok D') (hb : boundsOf e = .ok b) :
    (∀ n ∈ D.graph.nodes.keys, view D' n = if id = n then drawn e (view D n) else view D n) ∧ D'.graph.nodes.keys = D.graph.nodes.keys := by
  unfold importNodeShape at h
  split at h
  · rename_i hg
    rw [← Except.ok.inj h]
    refine ⟨fun n hn => ?_, rfl⟩
    have : id ≠ n := by
      rintro rfl
      exact (Dict.get?_eq_none_iff _ _).1 hg hn
    simp [this]
  · rename_i a hg
    obtain ⟨ty, h1, h⟩ := except_bind_eq_ok h
    have hty : a.type = some ty := by
      cases ht : a.type with
      | none => rw [ht] at h1; simp at h1
      | some u => rw [ht] at h1; simpa using h1
    have hh : (e.byName "Bounds").head? = some b := (pyIndex_zero_ok _ _).1 hb
    rw [← Except.ok.inj h]
    refine ⟨fun n hn => ?_, keys_updNode ..⟩
    have hk : id ∈ D.graph.nodes.keys := Dict.mem_keys_of_get? hg
    rw [view_updNode _ _ _ _ hk]
    by_cases e : id = n
    · subst e
      have : view D id = a := by simp [view, hg]
      simp only [↓reduceIte, drawn, hh, Option.getD_some, this, hty, Option.some.injEq]
    · simp [e]

theorem importShape_view {e : Xml} {D D' : Diagram} (h : importShape e D = .ok D') :
    (∀ n ∈ D.graph.nodes.keys, view D' n = if e.getAttr "bpmnElement" = n then drawn e (view D n) else view D n) ∧
      D'.graph.nodes.keys = D.graph.nodes.keys := by
  unfold importShape at h
  obtain ⟨b, h1, h⟩ := except_bind_eq_ok h
  obtain ⟨D1, h2, h⟩ := except_bind_eq_ok h
  have := importNodeShape_view h2 h1
  split at h
  · rw [← Except.ok.inj h]
    exact this
  · rw [← Except.ok.inj h]
    exact this

theorem importFlowDi_nodes {e : Xml} {D D' : Diagram} (h : importFlowDi e D = .ok D') : D'.graph.nodes = D.graph.nodes := by
  unfold importFlowDi at h
  dsimp only at h
  split at h
  · rw [← Except.ok.inj h]
  · split at h
    · rw [← Except.ok.inj h]
      rfl
    · cases h

theorem importPlane_view : ∀ {l : List Xml} {D D' : Diagram}, importPlane l D = .ok D' →
    (∀ n ∈ D.graph.nodes.keys, view D' n = l.foldl (draw n) (view D n)) ∧ D'.graph.nodes.keys = D.graph.nodes.keys
  | [], D, D', h => by
    rw [← Except.ok.inj h]
    exact ⟨fun _ _ => rfl, rfl⟩
  | x :: r, D, D', h => by
    unfold importPlane at h
    cases x with
    | text s =>
      have := importPlane_view (l := r) (D := D) (D' := D') (by simpa [Xml.isText] using h)
      simpa [draw, localTag] using this
    | other s => simp [Xml.isText, Xml.tagName] at h
    | elem t as ks =>
      simp only [Xml.isText, Bool.false_eq_true, ↓reduceIte, Xml.tagName, except_bind_ok] at h
      split at h
      · rename_i c
        obtain ⟨D1, h1, h⟩ := except_bind_eq_ok h
        obtain ⟨v1, k1⟩ := importShape_view h1
        obtain ⟨v2, k2⟩ := importPlane_view h
        refine ⟨fun n hn => ?_, k2.trans k1⟩
        rw [v2 n (by rw [k1]; exact hn), v1 n hn, List.foldl_cons]
        congr 1
        simp [draw, localTag, c]
      · rename_i c
        split at h
        · obtain ⟨D1, h1, h⟩ := except_bind_eq_ok h
          obtain ⟨v2, k2⟩ := importPlane_view h
          have e1 := importFlowDi_nodes h1
          refine ⟨fun n hn => ?_, k2.trans (by rw [e1])⟩
          rw [v2 n (by rw [e1]; exact hn), List.foldl_cons]
          congr 1
          simp [draw, localTag, c, view, e1]
        · obtain ⟨v2, k2⟩ := importPlane_view h
          refine ⟨fun n hn => ?_, k2⟩
          rw [v2 n hn, List.foldl_cons]
          congr 1
          simp [draw, localTag, c]

theorem drawn_drawn (s s' : Xml) (a : NodeAttrs) : drawn s (drawn s' a) = drawn s a := by
  unfold drawn
  dsimp only
  split <;> simp_all

theorem foldl_draw (n : String) : ∀ (l : List Xml) (a : NodeAttrs), l.foldl (draw n) a =
    match (l.filter fun x => localTag x == "BPMNShape" && x.getAttr "bpmnElement" == n).getLast? with
    | none => a
    | some s => drawn s a := by
  intro l
  induction l with
  | nil => intro a; rfl
  | cons x l ih =>
    intro a
    rw [List.foldl_cons, ih, List.filter_cons]
    by_cases c : (localTag x == "BPMNShape" && x.getAttr "bpmnElement" == n) = true
    · simp only [c, ↓reduceIte, List.getLast?_cons]
      unfold draw
      rw [if_pos c]
      generalize (l.filter fun x => localTag x == "BPMNShape" && x.getAttr "bpmnElement" == n).getLast? = o
      cases o with
      | none => rfl
      | some s => exact drawn_drawn ..
    · simp only [c, Bool.false_eq_true, ↓reduceIte]
      unfold draw
      rw [if_neg c]

end Bpmn.Import

import Verif.Lemmas.ImportLists
import Verif.Lemmas.ImportInv
import Verif.Spec.Accept
set_option linter.unusedSimpArgs false
set_option linter.unusedVariables false
/-!
# Exactly which documents are imported
-/
namespace Bpmn
open Spec Import

/-- The ends of the flows with the given local name. -/
def endsOf (name : String) : List Xml → List String
  | [] => []
  | x :: r =>
    (match x with
      | .elem t _ _ => if removeNamespace t = name then [x.getAttr "sourceRef", x.getAttr "targetRef"] else []
      | _ => []) ++ endsOf name r

mutual
/-- The ends of the sequence flows in a sub-process, and in the sub-processes inside. -/
def innerEnds : Xml → List String
  | .elem t _ ks => if removeNamespace t = "subProcess" then innerEndsAll ks ++ endsOf "sequenceFlow" ks else []
  | _ => []
/-- The same for a list of elements. -/
def innerEndsAll : List Xml → List String
  | [] => []
  | x :: r => innerEnds x ++ innerEndsAll r
end

/-- The ends of pairs. -/
def bothEnds (l : List (String × String)) : List String := l.flatMap fun p => [p.1, p.2]

theorem bothEnds_append (a b : List (String × String)) : bothEnds (a ++ b) = bothEnds a ++ bothEnds b := by simp [bothEnds]

theorem endsOf_eq (name : String) : ∀ l : List Xml, endsOf name l = bothEnds (pairsOf name l)
  | [] => rfl
  | .elem t as ks :: r => by
    simp only [endsOf, pairsOf]
    rw [bothEnds_append, ← endsOf_eq name r]
    split <;> simp [bothEnds]
  | .text s :: r => by simp only [endsOf, pairsOf, List.nil_append]; exact endsOf_eq name r
  | .other s :: r => by simp only [endsOf, pairsOf, List.nil_append]; exact endsOf_eq name r

mutual
theorem innerEnds_eq : ∀ x : Xml, innerEnds x = bothEnds (innerPairs x)
  | .elem t as ks => by
    rw [innerEnds, innerPairs]
    split
    · rw [bothEnds_append, innerEndsAll_eq ks, endsOf_eq]
    · rfl
  | .text _ => by simp [innerEnds, innerPairs, bothEnds]
  | .other _ => by simp [innerEnds, innerPairs, bothEnds]
theorem innerEndsAll_eq : ∀ l : List Xml, innerEndsAll l = bothEnds (innerPairsAll l)
  | [] => by simp [innerEndsAll, innerPairsAll, bothEnds]
  | x :: r => by rw [innerEndsAll, innerPairsAll, bothEnds_append, innerEnds_eq x, innerEndsAll_eq r]
end

theorem flowEnds_eq (root : Xml) : flowEnds root =
    (Xml.byNameIn "process" [root]).flatMap (fun p => innerEndsAll p.children ++ endsOf "sequenceFlow" p.children) ++
      endsOf "messageFlow" (collabKids root) := by
  have h : ∀ l : List Xml, bothEnds (l.flatMap fun p => innerPairsAll p.children ++ pairsOf "sequenceFlow" p.children) =
      l.flatMap (fun p => innerEndsAll p.children ++ endsOf "sequenceFlow" p.children) := by
    intro l
    induction l with
    | nil => rfl
    | cons x r ih => rw [List.flatMap_cons, List.flatMap_cons, bothEnds_append, ih, bothEnds_append, innerEndsAll_eq, endsOf_eq]
  show bothEnds (flowPairs root) = _
  rw [flowPairs, bothEnds_append, h, endsOf_eq]

theorem firstValue_ok (x : Xml) : (∃ v, x.firstValue = .ok v) ↔ HasValue x := by
  unfold Xml.firstValue HasValue
  cases x.children with
  | nil => simp
  | cons y r => cases y <;> simp

theorem values_ok (tag : String) : ∀ l : List Xml, (∃ v, values tag l = .ok v) ↔
    NoComments l ∧ ∀ y ∈ l, IsNamed tag y → HasValue y
  | [] => by simp [values, NoComments]
  | x :: r => by
    have ih := values_ok tag r
    rw [values]
    cases x with
    | text s =>
      simp only [Xml.isText, if_true, ih, NoComments, List.mem_cons, reduceCtorEq, false_or, forall_eq_or_imp]
      simp [IsNamed]
    | other s =>
      simp [Xml.isText, Xml.tagName, NoComments, IsNamed]
      intro h
      exact absurd rfl (h s).1
    | elem t as ks =>
      simp only [Xml.isText, Bool.false_eq_true, if_false, Xml.tagName, except_bind_ok, NoComments, List.mem_cons, reduceCtorEq, false_or, forall_eq_or_imp]
      have hn : IsNamed tag (.elem t as ks) ↔ removeNamespace t = tag := by simp [IsNamed]
      rw [hn]
      split
      · rename_i c
        simp only [c, forall_const]
        rw [← firstValue_ok]
        simp only [NoComments] at ih
        constructor
        · rintro ⟨v, h⟩
          obtain ⟨w, h1, h⟩ := except_bind_eq_ok h
          obtain ⟨ws, h2, h⟩ := except_bind_eq_ok h
          obtain ⟨h3, h4⟩ := ih.1 ⟨ws, h2⟩
          exact ⟨h3, ⟨w, h1⟩, h4⟩
        · rintro ⟨h3, ⟨w, h1⟩, h4⟩
          obtain ⟨ws, h2⟩ := ih.2 ⟨h3, h4⟩
          exact ⟨w :: ws, by simp [h1, h2]⟩
      · rename_i c
        simp only [c, false_implies, true_and]
        exact ih

theorem conditions_ok : ∀ (l : List Xml) (c : Option CondExpr), (∃ v, conditions l c = .ok v) ↔
    NoComments l ∧ ∀ y ∈ l, IsNamed "conditionExpression" y → HasValue y
  | [], c => by simp [conditions, NoComments]
  | x :: r, c => by
    rw [conditions]
    cases x with
    | text s =>
      simp only [Xml.isText, if_true, conditions_ok r, NoComments, List.mem_cons, reduceCtorEq, false_or, forall_eq_or_imp]
      simp [IsNamed]
    | other s =>
      simp [Xml.isText, Xml.tagName, NoComments, IsNamed]
      intro h
      exact absurd rfl (h s).1
    | elem t as ks =>
      simp only [Xml.isText, Bool.false_eq_true, if_false, Xml.tagName, except_bind_ok, NoComments, List.mem_cons, reduceCtorEq, false_or, forall_eq_or_imp]
      have hn : IsNamed "conditionExpression" (.elem t as ks) ↔ removeNamespace t = "conditionExpression" := by simp [IsNamed]
      rw [hn]
      split
      · rename_i c
        simp only [c, forall_const]
        rw [← firstValue_ok]
        have ih := conditions_ok r
        simp only [NoComments] at ih
        constructor
        · rintro ⟨v, h⟩
          obtain ⟨w, h1, h⟩ := except_bind_eq_ok h
          obtain ⟨h3, h4⟩ := (ih _).1 ⟨v, h⟩
          exact ⟨h3, ⟨w, h1⟩, h4⟩
        · rintro ⟨h3, ⟨w, h1⟩, h4⟩
          obtain ⟨ws, h2⟩ := (ih (some ⟨_, w⟩)).2 ⟨h3, h4⟩
          exact ⟨ws, by rw [h1]; exact h2⟩
      · rename_i c
        simp only [c, false_implies, true_and]
        exact conditions_ok r _

theorem importFlowNode_ok (pid : String) (o : Owner) (t : String) (as : List (String × String)) (ks : List Xml) (D : Diagram) :
    (∃ D', importFlowNode pid o (.elem t as ks) D = .ok D') ↔ NodeLegal ks := by
  unfold NodeLegal
  constructor
  · rintro ⟨D', h⟩
    simp only [importFlowNode] at h
    obtain ⟨_, _, h⟩ := except_bind_eq_ok h
    obtain ⟨i, h1, h⟩ := except_bind_eq_ok h
    obtain ⟨u, h2, h⟩ := except_bind_eq_ok h
    obtain ⟨a, b⟩ := (values_ok "incoming" ks).1 ⟨i, h1⟩
    obtain ⟨_, c⟩ := (values_ok "outgoing" ks).1 ⟨u, h2⟩
    exact ⟨a, fun y hy h => h.elim (b y hy) (c y hy)⟩
  · rintro ⟨a, b⟩
    obtain ⟨i, h1⟩ := (values_ok "incoming" ks).2 ⟨a, fun y hy h => b y hy (.inl h)⟩
    obtain ⟨u, h2⟩ := (values_ok "outgoing" ks).2 ⟨a, fun y hy h => b y hy (.inr h)⟩
    simp [importFlowNode, Xml.tagName, Xml.children, h1, h2]

/-! ## Types of nodes -/

/-- The type of a node. -/
def typeOf (D : Diagram) (m : String) : Option (Option String) := (D.graph.nodes.get? m).map (·.type)

/-- `N` are the nodes with a type, `F` those that may have none. -/
structure Known (D : Diagram) (N F : List String) : Prop where
  nodup : D.graph.nodes.keys.Nodup
  keys : ∀ k, k ∈ D.graph.nodes.keys ↔ k ∈ N ∨ k ∈ F
  typed : ∀ k a, D.graph.nodes.get? k = some a → (a.type.isSome = true ↔ k ∈ N)
  joined : ∀ i f, D.sequenceFlows.get? i = some f → D.graph.hasEdge f.sourceRef f.targetRef = true

theorem Known.upd {D : Diagram} {N F : List String} (h : Known D N F) (n : String) {f : NodeAttrs → NodeAttrs} (hf : ∀ a, (f a).type = a.type) :
    Known (D.updNode n f) N F where
  nodup := by simpa [Diagram.updNode] using h.nodup
  keys := by intro k; rw [← h.keys]; simp [Diagram.updNode]
  typed := by
    intro k a ha
    simp only [Diagram.updNode, Graph.modifyNode, Dict.get?_modify] at ha
    split at ha
    · obtain ⟨b, hb, rfl⟩ := Option.map_eq_some_iff.1 ha
      rw [hf, ← h.typed k b hb]
    · exact h.typed k a ha
  joined := h.joined

theorem Known.congr {D D' : Diagram} {N F : List String} (h : Known D N F) (e : D'.graph = D.graph) (e' : D'.sequenceFlows = D.sequenceFlows) :
    Known D' N F where
  nodup := by rw [e]; exact h.nodup
  keys := by rw [e]; exact h.keys
  typed := by rw [e]; exact h.typed
  joined := by rw [e, e']; exact h.joined

theorem Known.congrSets {D : Diagram} {N F N' F' : List String} (h : Known D N F) (hN : ∀ k, k ∈ N' ↔ k ∈ N) (hF : ∀ k, k ∈ N' ∨ k ∈ F' ↔ k ∈ N ∨ k ∈ F) :
    Known D N' F' where
  nodup := h.nodup
  keys := by intro k; rw [h.keys, hF]
  typed := by intro k a ha; rw [h.typed k a ha, hN]
  joined := h.joined

/-- A node that gets a type. -/
theorem Known.described {D : Diagram} {N F : List String} (h : Known D N F) (n : String) {f : NodeAttrs → NodeAttrs} (hf : ∀ a, (f a).type.isSome = true) :
    Known (Diagram.updNode { D with graph := D.graph.addNode n } n f) (n :: N) F where
  nodup := by simpa [Diagram.updNode] using nodup_addNode h.nodup n
  keys := by
    intro k
    simp only [Diagram.updNode, Graph.modifyNode, Dict.keys_modify, Graph.mem_keys_addNode, h.keys, List.mem_cons, or_assoc]
  typed := by
    intro k a ha
    simp only [Diagram.updNode, Graph.modifyNode, Dict.get?_modify] at ha
    split at ha
    · rename_i e
      obtain ⟨b, hb, rfl⟩ := Option.map_eq_some_iff.1 ha
      simp [hf, e]
    · rename_i e
      rw [get?_addNode_ne _ (Ne.symm e)] at ha
      rw [h.typed k a ha]
      simp [Ne.symm e]
  joined := by
    intro i g hi
    exact (Grows.addNode D n).edge _ _ (h.joined i g hi)

/-- A node that is mentioned. -/
theorem Known.mentioned {D : Diagram} {N F : List String} (h : Known D N F) (n : String) : Known { D with graph := D.graph.addNode n } N (n :: F) where
  nodup := nodup_addNode h.nodup n
  keys := by
    intro k
    simp only [Graph.mem_keys_addNode, h.keys, List.mem_cons]
    tauto
  typed := by
    intro k a ha
    simp only [Graph.get?_addNode] at ha
    split at ha
    · exact h.typed k a ha
    · split at ha
      · rename_i c e
        cases ha
        simp only [Option.isSome_none, Bool.false_eq_true, false_iff]
        intro hk
        exact c ((h.keys k).2 (.inl hk))
      · cases ha
  joined := by
    intro i g hi
    exact (Grows.addNode D n).edge _ _ (h.joined i g hi)

theorem Known.record {D : Diagram} {N F : List String} (h : Known D N F) (o : Owner) (i : String) : Known (record o i D) N F := by
  cases o with
  | process p => exact h.congr rfl rfl
  | node n => exact h.upd n fun _ => rfl

theorem importFlowNode_known {pid : String} {o : Owner} {e : Xml} {D D' : Diagram} {N F : List String} (h : importFlowNode pid o e D = .ok D')
    (hk : Known D N F) : Known D' (e.getAttr "id" :: N) F := by
  simp only [importFlowNode] at h
  obtain ⟨t, _, h⟩ := except_bind_eq_ok h
  obtain ⟨i, _, h⟩ := except_bind_eq_ok h
  obtain ⟨u, _, h⟩ := except_bind_eq_ok h
  rw [← Except.ok.inj h]
  exact ((hk.described _ (by intro a; rfl)).record _ _).upd _ fun _ => rfl

theorem updNode_updNode (D : Diagram) (n : String) (f g : NodeAttrs → NodeAttrs) : (D.updNode n f).updNode n g = D.updNode n (g ∘ f) := by
  simp [Diagram.updNode, Graph.modifyNode, Dict.modify_modify]

/-- An importer that adds the node and then attributes other than its type. -/
def NodeForm (pid : String) (o : Owner) (e : Xml) (g : Diagram → Py Diagram) : Prop :=
  ∃ f : NodeAttrs → NodeAttrs, (∀ a, (f a).type = a.type) ∧ ∀ D, g D = (do
    let D1 ← importFlowNode pid o e D
    pure (D1.updNode (e.getAttr "id") f))

theorem nodeForm_mk {pid : String} {o : Owner} {e : Xml} {g : Diagram → Py Diagram} (f : NodeAttrs → NodeAttrs) (hf : ∀ a, (f a).type = a.type)
    (h : ∀ D, g D = (do
      let D1 ← importFlowNode pid o e D
      pure (D1.updNode (e.getAttr "id") f))) : NodeForm pid o e g := ⟨f, hf, h⟩

theorem NodeForm.after {pid : String} {o : Owner} {e : Xml} {g g' : Diagram → Py Diagram} (h : NodeForm pid o e g) (f : NodeAttrs → NodeAttrs)
    (hf : ∀ a, (f a).type = a.type) (hg : ∀ D, g' D = (do
      let D1 ← g D
      pure (D1.updNode (e.getAttr "id") f))) : NodeForm pid o e g' := by
  obtain ⟨f0, h0, h1⟩ := h
  refine ⟨f ∘ f0, fun a => by simp [hf, h0], fun D => ?_⟩
  rw [hg, h1]
  cases importFlowNode pid o e D with
  | error x => rfl
  | ok D1 => simp only [except_bind_ok, except_pure, updNode_updNode]

theorem form_activity (pid : String) (o : Owner) (e : Xml) : NodeForm pid o e (importActivity pid o e) :=
  nodeForm_mk _ (by intro a; rfl) fun _ => rfl
theorem form_dataObject (pid : String) (o : Owner) (e : Xml) : NodeForm pid o e (importDataObject pid o e) :=
  nodeForm_mk _ (by intro a; rfl) fun _ => rfl
theorem form_gateway (pid : String) (o : Owner) (e : Xml) : NodeForm pid o e (importGateway pid o e) :=
  nodeForm_mk _ (by intro a; rfl) fun _ => rfl
theorem form_defaultGateway (pid : String) (o : Owner) (e : Xml) : NodeForm pid o e (importDefaultGateway pid o e) :=
  (form_gateway pid o e).after _ (by intro a; rfl) fun _ => rfl
theorem form_eventGateway (pid : String) (o : Owner) (e : Xml) : NodeForm pid o e (importEventBasedGateway pid o e) :=
  (form_gateway pid o e).after _ (by intro a; rfl) fun _ => rfl
theorem form_throwEvent (ord : List String → List String) (types : List String) (pid : String) (o : Owner) (e : Xml) :
    NodeForm pid o e (importThrowEvent ord types pid o e) := nodeForm_mk _ (by intro a; rfl) fun _ => rfl
theorem form_startEvent (ord : List String → List String) (pid : String) (o : Owner) (e : Xml) : NodeForm pid o e (importStartEvent ord pid o e) := by
  refine nodeForm_mk (((fun a => { a with eventDefinitions := some (eventDefs e (ord startDefs)) }) ∘
      (fun a => { a with parallelMultiple := some (e.attrOr "parallelMultiple" "false"), isInterrupting := some (e.attrOr "isInterrupting" "true") }))) ?_ fun D => ?_
  · intro a; rfl
  · simp only [importStartEvent, importEventDefs, updNode_updNode]
theorem form_catchEvent (ord : List String → List String) (pid : String) (o : Owner) (e : Xml) : NodeForm pid o e (importCatchEvent ord pid o e) := by
  refine nodeForm_mk (((fun a => { a with eventDefinitions := some (eventDefs e (ord catchDefs)) }) ∘
      (fun a => { a with parallelMultiple := some (e.attrOr "parallelMultiple" "false") }))) ?_ fun D => ?_
  · intro a; rfl
  · simp only [importCatchEvent, importEventDefs, updNode_updNode]
theorem form_boundaryEvent (ord : List String → List String) (pid : String) (o : Owner) (e : Xml) :
    NodeForm pid o e (importBoundaryEvent ord pid o e) := by
  refine nodeForm_mk (((fun a => { a with eventDefinitions := some (eventDefs e (ord boundaryDefs)) }) ∘
      (fun a => { a with parallelMultiple := some (e.attrOr "parallelMultiple" "false"), cancelActivity := some (e.attrOr "cancelActivity" "true"), attachedToRef := some (e.getAttr "attachedToRef") }))) ?_ fun D => ?_
  · intro a; rfl
  · simp only [importBoundaryEvent, importEventDefs, updNode_updNode]

/-- Importing an element without nested elements. -/
theorem importSimple_form (ord : List String → List String) (pid : String) (o : Owner) (e : Xml) (tag : String) :
    (tag ∈ simpleTags → NodeForm pid o e (importSimple ord pid o e tag)) ∧ (tag ∉ simpleTags → ∀ D, importSimple ord pid o e tag D = .ok D) := by
  have key : ∀ (c : Prop) [Decidable c] (g h : Diagram → Py Diagram), (c → NodeForm pid o e g) → (¬ c → NodeForm pid o e h) →
      NodeForm pid o e (fun D => if c then g D else h D) := by
    intro c _ g h h1 h2
    by_cases hc : c
    · simpa [hc] using h1 hc
    · simpa [hc] using h2 hc
  constructor
  · intro hs
    have e0 : importSimple ord pid o e tag = fun D => importSimple ord pid o e tag D := rfl
    rw [e0]
    unfold importSimple
    refine key _ _ _ (fun _ => form_activity ..) fun c1 => ?_
    refine key _ _ _ (fun _ => form_dataObject ..) fun c2 => ?_
    refine key _ _ _ (fun _ => form_defaultGateway ..) fun c3 => ?_
    refine key _ _ _ (fun _ => form_gateway ..) fun c4 => ?_
    refine key _ _ _ (fun _ => form_eventGateway ..) fun c5 => ?_
    refine key _ _ _ (fun _ => form_defaultGateway ..) fun c6 => ?_
    refine key _ _ _ (fun _ => form_startEvent ..) fun c7 => ?_
    refine key _ _ _ (fun _ => form_throwEvent ..) fun c8 => ?_
    refine key _ _ _ (fun _ => form_catchEvent ..) fun c9 => ?_
    refine key _ _ _ (fun _ => form_throwEvent ..) fun c10 => ?_
    refine key _ _ _ (fun _ => form_boundaryEvent ..) fun c11 => ?_
    exfalso
    simp only [Import.isTask, Bool.or_eq_true, beq_iff_eq, not_or] at c1
    simp only [simpleTags, List.mem_cons, List.not_mem_nil, or_false] at hs
    simp only [not_or] at c3
    obtain ⟨⟨⟨c12, c13⟩, c14⟩, c15⟩ := c1
    obtain ⟨c16, c17⟩ := c3
    tauto
  · intro hs D
    simp only [simpleTags, List.mem_cons, List.not_mem_nil, or_false, not_or] at hs
    simp [importSimple, Import.isTask, hs]

theorem isNamed_elem (name t : String) (as : List (String × String)) (ks : List Xml) : IsNamed name (.elem t as ks) ↔ removeNamespace t = name := by
  simp [IsNamed]

theorem NodeForm.ok {pid : String} {o : Owner} {t : String} {as : List (String × String)} {ks : List Xml} {g : Diagram → Py Diagram}
    (h : NodeForm pid o (.elem t as ks) g) (D : Diagram) : (∃ D', g D = .ok D') ↔ NodeLegal ks := by
  obtain ⟨f, _, h1⟩ := h
  rw [← importFlowNode_ok pid o t as ks D, h1]
  cases importFlowNode pid o (.elem t as ks) D <;> simp

theorem NodeForm.known {pid : String} {o : Owner} {e : Xml} {g : Diagram → Py Diagram} (h : NodeForm pid o e g) {D D' : Diagram} {N F : List String}
    (hg : g D = .ok D') (hk : Known D N F) : Known D' (e.getAttr "id" :: N) F := by
  obtain ⟨f, hf, h1⟩ := h
  rw [h1] at hg
  obtain ⟨D1, h2, h3⟩ := except_bind_eq_ok hg
  rw [← Except.ok.inj h3]
  exact (importFlowNode_known h2 hk).upd _ hf

/-! ## Sequence flows -/

theorem known_edge {D : Diagram} {N F : List String} (hk : Known D N F) (s t : String) (f : EdgeAttrs → EdgeAttrs) :
    Known { D with graph := (D.graph.addEdge s t).modifyEdge s t f } N (s :: t :: F) := by
  have h1 := ((hk.mentioned t).mentioned s)
  have hn : ((D.graph.addEdge s t).modifyEdge s t f).nodes = ((D.graph.addNode s).addNode t).nodes := by
    rw [Graph.modifyEdge_nodes, Graph.addEdge_nodes]
  have h2 := (hk.mentioned s).mentioned t
  constructor
  · simp only [hn]; exact h2.nodup
  · intro k
    simp only [hn]
    rw [h2.keys]
    simp only [List.mem_cons]
    tauto
  · intro k a ha
    simp only [hn] at ha
    exact h2.typed k a ha
  · intro i g hi
    exact (Grows.edgeMade D s t f).edge _ _ (hk.joined i g hi)

theorem known_linkEnds {D : Diagram} {N F : List String} (hk : Known D N F) (id s t : String) : Known (linkEnds id s t D) N F := by
  unfold linkEnds
  exact (hk.upd s fun _ => by rfl).upd t fun _ => by rfl

theorem importSequenceFlow_known {pid : String} {e : Xml} {D D' : Diagram} {N F : List String} (h : importSequenceFlow pid e D = .ok D')
    (hk : Known D N F) : Known D' N (e.getAttr "sourceRef" :: e.getAttr "targetRef" :: F) := by
  simp only [importSequenceFlow] at h
  obtain ⟨c, _, h⟩ := except_bind_eq_ok h
  rw [← Except.ok.inj h]
  have key : ∀ F' : EdgeAttrs → EdgeAttrs, Known (linkEnds (e.getAttr "id") (e.getAttr "sourceRef") (e.getAttr "targetRef")
      { D with sequenceFlows := D.sequenceFlows.set (e.getAttr "id") ⟨e.attrOr "name" "", e.getAttr "sourceRef", e.getAttr "targetRef"⟩, graph := (D.graph.addEdge (e.getAttr "sourceRef") (e.getAttr "targetRef")).modifyEdge (e.getAttr "sourceRef") (e.getAttr "targetRef") F' })
      N (e.getAttr "sourceRef" :: e.getAttr "targetRef" :: F) := by
    intro F'
    have h1 := known_linkEnds (known_edge hk (e.getAttr "sourceRef") (e.getAttr "targetRef") F') (e.getAttr "id") (e.getAttr "sourceRef") (e.getAttr "targetRef")
    refine ⟨h1.nodup, h1.keys, h1.typed, ?_⟩
    intro i f hi
    have hi' : (D.sequenceFlows.set (e.getAttr "id") ⟨e.attrOr "name" "", e.getAttr "sourceRef", e.getAttr "targetRef"⟩).get? i = some f := hi
    rw [Dict.get?_set] at hi'
    split at hi'
    · cases hi'
      exact (Grows.linkEnds _ _ _ _).edge _ _ (hasEdge_edgeMade D.graph _ _ _)
    · exact h1.joined i f hi'
  exact key _

theorem importSequenceFlow_okIff (pid t : String) (as : List (String × String)) (ks : List Xml) (D : Diagram) :
    (∃ D', importSequenceFlow pid (.elem t as ks) D = .ok D') ↔ NoComments ks ∧ ∀ y ∈ ks, IsNamed "conditionExpression" y → HasValue y := by
  rw [← conditions_ok ks none]
  simp only [importSequenceFlow, Xml.children]
  cases conditions ks none <;> simp

theorem importFlows_okIff (pid : String) : ∀ (l : List Xml) (D : Diagram), NoComments l → ((∃ D', importFlows pid l D = .ok D') ↔ FlowsLegal l)
  | [], D, _ => by simp [importFlows, FlowsLegal]
  | x :: r, D, hc => by
    have hr : NoComments r := fun s h => hc s (List.mem_cons_of_mem _ h)
    rw [importFlows]
    cases x with
    | text s =>
      simp only [Xml.isText, if_true]
      rw [importFlows_okIff pid r D hr]
      simp [FlowsLegal, IsNamed]
    | other s => exact absurd (List.mem_cons_self ..) (hc s)
    | elem t as ks =>
      simp only [Xml.isText, Bool.false_eq_true, if_false, Xml.tagName, except_bind_ok]
      have hx : FlowsLegal (.elem t as ks :: r) ↔ (removeNamespace t = "sequenceFlow" →
          NoComments ks ∧ ∀ y ∈ ks, IsNamed "conditionExpression" y → HasValue y) ∧ FlowsLegal r := by
        simp only [FlowsLegal, List.mem_cons, forall_eq_or_imp, isNamed_elem, Xml.children]
      rw [hx]
      split
      · rename_i c
        simp only [c, forall_const]
        rw [← importSequenceFlow_okIff pid t as ks D]
        constructor
        · rintro ⟨D', h⟩
          obtain ⟨D1, h1, h⟩ := except_bind_eq_ok h
          exact ⟨⟨D1, h1⟩, (importFlows_okIff pid r D1 hr).1 ⟨D', h⟩⟩
        · rintro ⟨⟨D1, h1⟩, h⟩
          obtain ⟨D', h'⟩ := (importFlows_okIff pid r D1 hr).2 h
          exact ⟨D', by rw [h1]; exact h'⟩
      · rename_i c
        simp only [c, false_implies, true_and]
        exact importFlows_okIff pid r D hr

theorem importFlows_known {pid : String} : ∀ {l : List Xml} {D D' : Diagram} {N F : List String}, importFlows pid l D = .ok D' → Known D N F →
    Known D' N (endsOf "sequenceFlow" l ++ F)
  | [], D, D', N, F, h, hk => by rw [← Except.ok.inj h]; exact hk
  | x :: r, D, D', N, F, h, hk => by
    rw [importFlows] at h
    cases x with
    | text s =>
      simp only [Xml.isText, if_true] at h
      have := importFlows_known (l := r) h hk
      exact this
    | other s => simp [Xml.isText, Xml.tagName] at h
    | elem t as ks =>
      simp only [Xml.isText, Bool.false_eq_true, if_false, Xml.tagName, except_bind_ok] at h
      rw [endsOf]
      split at h
      · rename_i c
        obtain ⟨D1, h1, h⟩ := except_bind_eq_ok h
        simp only [c, if_true]
        refine (importFlows_known (l := r) h (importSequenceFlow_known h1 hk)).congrSets (fun _ => Iff.rfl) ?_
        intro k
        simp only [List.mem_append, List.mem_cons, List.not_mem_nil, or_false, false_or, or_assoc, or_comm, or_left_comm]
      · rename_i c
        simp only [c, if_false, List.nil_append]
        exact importFlows_known (l := r) h hk

/-! ## Elements -/

theorem nodeTags_of_simple {t : String} (h : t ≠ "subProcess") : t ∈ simpleTags ↔ t ∈ nodeTags := simpleTags_iff t h

theorem noComments_of_legal : ∀ {l : List Xml}, LegalAll l → NoComments l
  | [], _ => by simp [NoComments]
  | x :: r, h => by
    rw [LegalAll] at h
    intro s hs
    rcases List.mem_cons.1 hs with e | hs
    · rw [← e, LegalIn] at h; exact h.1
    · exact noComments_of_legal h.2 s hs

mutual
theorem importElement_okIff (ord : List String → List String) : ∀ (x : Xml) (pid : String) (o : Owner) (D : Diagram),
    (∃ D', importElement ord pid o x D = .ok D') ↔ LegalIn x
  | .elem t as ks, pid, o, D => by
    rw [importElement, LegalIn]
    split
    · rename_i ct
      have hm : removeNamespace t ∈ nodeTags := by rw [ct]; decide
      rw [imp_iff_right hm, imp_iff_right ct]
      rw [← (form_activity pid o (.elem t as ks)).ok D]
      constructor
      · rintro ⟨D', h⟩
        obtain ⟨D1, h1, h⟩ := except_bind_eq_ok h
        obtain ⟨D2, h2, h⟩ := except_bind_eq_ok h
        have hl := (importElements_okIff ord ks _ _ _).1 ⟨D2, h2⟩
        exact ⟨⟨D1, h1⟩, hl, (importFlows_okIff _ ks D2 (noComments_of_legal hl)).1 ⟨D', h⟩⟩
      · rintro ⟨⟨D1, h1⟩, hl, hf⟩
        obtain ⟨D2, h2⟩ := (importElements_okIff ord ks ((Xml.elem t as ks).getAttr "id") (.node ((Xml.elem t as ks).getAttr "id"))
          (D1.updNode ((Xml.elem t as ks).getAttr "id") fun a =>
            { a with triggeredByEvent := some ((Xml.elem t as ks).attrOr "triggeredByEvent" "false"), nodeIds := some [] })).2 hl
        obtain ⟨D3, h3⟩ := (importFlows_okIff ((Xml.elem t as ks).getAttr "id") ks D2 (noComments_of_legal hl)).2 hf
        exact ⟨D3, by simp only [h1, h2, except_bind_ok]; exact h3⟩
    · rename_i ct
      by_cases c : removeNamespace t ∈ nodeTags
      · simp only [c, ct, forall_const, false_implies, and_true]
        exact ((importSimple_form ord pid o (.elem t as ks) _).1 ((simpleTags_iff _ ct).2 c)).ok D
      · simp only [c, false_implies, iff_true]
        exact ⟨D, (importSimple_form ord pid o (.elem t as ks) _).2 (fun h => c ((simpleTags_iff _ ct).1 h)) D⟩
  | .text _, pid, o, D => by simp [importElement, LegalIn]
  | .other _, pid, o, D => by simp [importElement, LegalIn]
theorem importElements_okIff (ord : List String → List String) : ∀ (l : List Xml) (pid : String) (o : Owner) (D : Diagram),
    (∃ D', importElements ord pid o l D = .ok D') ↔ LegalAll l
  | [], pid, o, D => by simp [importElements, LegalAll]
  | x :: r, pid, o, D => by
    rw [importElements, LegalAll, ← importElement_okIff ord x pid o D]
    constructor
    · rintro ⟨D', h⟩
      obtain ⟨D1, h1, h⟩ := except_bind_eq_ok h
      exact ⟨⟨D1, h1⟩, (importElements_okIff ord r _ _ _).1 ⟨D', h⟩⟩
    · rintro ⟨⟨D1, h1⟩, hl⟩
      obtain ⟨D2, h2⟩ := (importElements_okIff ord r pid o D1).2 hl
      exact ⟨D2, by rw [h1]; exact h2⟩
end

mutual
theorem importElement_known {ord : List String → List String} : ∀ {x : Xml} {pid : String} {o : Owner} {D D' : Diagram} {N F : List String},
    importElement ord pid o x D = .ok D' → Known D N F → Known D' (nodeIdsIn x ++ N) (innerEnds x ++ F)
  | .elem t as ks, pid, o, D, D', N, F, h, hk => by
    rw [importElement] at h
    rw [innerEnds, nodeIdsIn]
    split at h
    · rename_i ct
      have hm : removeNamespace t ∈ nodeTags := by rw [ct]; decide
      rw [if_pos hm, if_pos ct, if_pos ct]
      obtain ⟨D1, h1, h⟩ := except_bind_eq_ok h
      obtain ⟨D2, h2, h⟩ := except_bind_eq_ok h
      have k1 := ((form_activity pid o (.elem t as ks)).known h1 hk).upd ((Xml.elem t as ks).getAttr "id") (f := fun a =>
        { a with triggeredByEvent := some ((Xml.elem t as ks).attrOr "triggeredByEvent" "false"), nodeIds := some [] }) fun _ => rfl
      have k2 := importElements_known h2 k1
      refine (importFlows_known h k2).congrSets ?_ ?_
      · intro k
        simp only [List.mem_append, List.mem_cons, or_assoc, or_comm, or_left_comm]
      · intro k
        simp only [List.mem_append, List.mem_cons, or_assoc, or_comm, or_left_comm]
    · rename_i ct
      rw [if_neg ct, if_neg ct]
      by_cases c : removeNamespace t ∈ nodeTags
      · rw [if_pos c]
        have := ((importSimple_form ord pid o (.elem t as ks) _).1 ((simpleTags_iff _ ct).2 c)).known h hk
        exact this
      · rw [(importSimple_form ord pid o (.elem t as ks) _).2 (fun h => c ((simpleTags_iff _ ct).1 h)) D] at h
        rw [if_neg c, ← Except.ok.inj h]
        exact hk
  | .text _, pid, o, D, D', N, F, h, hk => by rw [importElement] at h; rw [← Except.ok.inj h]; exact hk
  | .other _, pid, o, D, D', N, F, h, hk => by rw [importElement] at h; cases h
theorem importElements_known {ord : List String → List String} : ∀ {l : List Xml} {pid : String} {o : Owner} {D D' : Diagram} {N F : List String},
    importElements ord pid o l D = .ok D' → Known D N F → Known D' (nodeIdsAll l ++ N) (innerEndsAll l ++ F)
  | [], pid, o, D, D', N, F, h, hk => by rw [importElements] at h; rw [← Except.ok.inj h]; exact hk
  | x :: r, pid, o, D, D', N, F, h, hk => by
    rw [importElements] at h
    obtain ⟨D1, h1, h⟩ := except_bind_eq_ok h
    rw [nodeIdsAll, innerEndsAll]
    refine (importElements_known h (importElement_known h1 hk)).congrSets ?_ ?_
    · intro k; simp only [List.mem_append, or_assoc, or_comm, or_left_comm]
    · intro k; simp only [List.mem_append, or_assoc, or_comm, or_left_comm]
end

/-! ## Lanes -/

theorem laneShape_spec (i : String) : ∀ (l : List Xml) (s : Option Xml), NoComments l → ∃ s', laneShape i l s = .ok s' ∧ ∀ x, s' = some x ↔
    (∃ a b, l = a ++ x :: b ∧ x.getAttr "bpmnElement" = i ∧ x.isText = false ∧ ∀ y ∈ b, y.isText = false → y.getAttr "bpmnElement" ≠ i) ∨
    ((∀ y ∈ l, y.isText = false → y.getAttr "bpmnElement" ≠ i) ∧ s = some x)
  | [], s, _ => ⟨s, rfl, fun x => by simp⟩
  | y :: r, s, hc => by
    have hr : NoComments r := fun s h => hc s (List.mem_cons_of_mem _ h)
    have split : ∀ x, (∃ a b, y :: r = a ++ x :: b ∧ x.getAttr "bpmnElement" = i ∧ x.isText = false ∧
          ∀ z ∈ b, z.isText = false → z.getAttr "bpmnElement" ≠ i) ↔
        (∃ a b, r = a ++ x :: b ∧ x.getAttr "bpmnElement" = i ∧ x.isText = false ∧ ∀ z ∈ b, z.isText = false → z.getAttr "bpmnElement" ≠ i) ∨
        (y = x ∧ x.getAttr "bpmnElement" = i ∧ x.isText = false ∧ ∀ z ∈ r, z.isText = false → z.getAttr "bpmnElement" ≠ i) := by
      intro x
      constructor
      · rintro ⟨a, b, e, h⟩
        cases a with
        | nil => simp only [List.nil_append, List.cons.injEq] at e; obtain ⟨e1, e2⟩ := e; subst e1; subst e2; exact .inr ⟨rfl, h⟩
        | cons z a => simp only [List.cons_append, List.cons.injEq] at e; exact .inl ⟨a, b, e.2, h⟩
      · rintro (⟨a, b, e, h⟩ | ⟨e, h⟩)
        · exact ⟨y :: a, b, by rw [e]; rfl, h⟩
        · exact ⟨[], r, by rw [e]; rfl, h⟩
    cases y with
    | other v => exact absurd (List.mem_cons_self ..) (hc v)
    | text v =>
      obtain ⟨s', h1, h2⟩ := laneShape_spec i r s hr
      refine ⟨s', by rw [laneShape]; exact h1, fun x => ?_⟩
      rw [h2, split]
      have hx : ¬ (Xml.text v = x ∧ x.getAttr "bpmnElement" = i ∧ x.isText = false ∧
          ∀ z ∈ r, z.isText = false → z.getAttr "bpmnElement" ≠ i) := by
        rintro ⟨e, _, h, _⟩
        rw [← e] at h
        cases h
      constructor
      · rintro (h | ⟨h, e⟩)
        · exact .inl (.inl h)
        · refine .inr ⟨?_, e⟩
          intro z hz
          rcases List.mem_cons.1 hz with rfl | hz
          · exact fun h => nomatch h
          · exact h z hz
      · rintro ((h | h) | ⟨h, e⟩)
        · exact .inl h
        · exact absurd h hx
        · exact .inr ⟨fun z hz => h z (List.mem_cons_of_mem _ hz), e⟩
    | elem t as ks =>
      by_cases c : (Xml.elem t as ks).getAttr "bpmnElement" = i
      · obtain ⟨s', h1, h2⟩ := laneShape_spec i r (some (.elem t as ks)) hr
        refine ⟨s', by rw [laneShape]; simp only [c, if_true]; exact h1, fun x => ?_⟩
        rw [h2, split]
        constructor
        · rintro (h | ⟨h, e⟩)
          · exact .inl (.inl h)
          · cases e
            exact .inl (.inr ⟨rfl, c, rfl, h⟩)
        · rintro ((h | ⟨e, h⟩) | ⟨h, e⟩)
          · exact .inl h
          · exact .inr ⟨h.2.2, by rw [e]⟩
          · exact absurd c (h _ (List.mem_cons_self ..) rfl)
      · obtain ⟨s', h1, h2⟩ := laneShape_spec i r s hr
        refine ⟨s', by rw [laneShape]; simp only [c, if_false]; exact h1, fun x => ?_⟩
        rw [h2, split]
        constructor
        · rintro (h | ⟨h, e⟩)
          · exact .inl (.inl h)
          · refine .inr ⟨?_, e⟩
            intro z hz
            rcases List.mem_cons.1 hz with rfl | hz
            · exact fun _ => c
            · exact h z hz
        · rintro ((h | ⟨e, h⟩) | ⟨h, e⟩)
          · exact .inl h
          · rw [← e] at h; exact absurd h.1 c
          · exact .inr ⟨fun z hz => h z (List.mem_cons_of_mem _ hz), e⟩

theorem boundsOf_ok (x : Xml) : (∃ b, boundsOf x = .ok b) ↔ HasBounds x := by
  unfold boundsOf HasBounds
  cases x.byName "Bounds" <;> simp [pyIndex]

theorem drawable_iff {plane : Xml} (hp : NoComments plane.children) (i : String) :
    ∃ s', laneShape i plane.children none = .ok s' ∧ (Drawable plane i ↔ ∀ x, s' = some x → HasBounds x) := by
  obtain ⟨s', h1, h2⟩ := laneShape_spec i plane.children none hp
  refine ⟨s', h1, ?_⟩
  constructor
  · intro h x hx
    rcases (h2 x).1 hx with ⟨a, b, e, h3, h4, h5⟩ | ⟨_, h⟩
    · exact h a x b e h3 h4 h5
    · cases h
  · intro h a x b e h3 h4 h5
    exact h x ((h2 x).2 (.inl ⟨a, b, e, h3, h4, h5⟩))

mutual
theorem importLane_okIff {plane : Xml} (hp : NoComments plane.children) : ∀ x : Xml, removeNamespace (match x with | .elem t _ _ => t | _ => "") = "lane" →
    ((∃ l, importLane plane x = .ok l) ↔ LaneLegal plane x)
  | .elem t as ks, ht => by
    rw [LaneLegal, imp_iff_right ht, ← importLaneKids_okIff hp ks (none, [], [])]
    obtain ⟨s', h1, h2⟩ := drawable_iff hp ((Xml.elem t as ks).getAttr "id")
    rw [importLane, h2]
    constructor
    · rintro ⟨l, h⟩
      obtain ⟨⟨ci, c, refs⟩, h3, h⟩ := except_bind_eq_ok h
      refine ⟨⟨_, h3⟩, ?_⟩
      intro x hx
      subst hx
      simp only [h1, except_bind_ok] at h
      obtain ⟨b, h4, h⟩ := except_bind_eq_ok h
      exact (boundsOf_ok x).1 ⟨b, h4⟩
    · rintro ⟨⟨⟨ci, c, refs⟩, h3⟩, h4⟩
      rw [h3]
      simp only [h1, except_bind_ok]
      cases s' with
      | none => exact ⟨_, rfl⟩
      | some x =>
        obtain ⟨b, h5⟩ := (boundsOf_ok x).2 (h4 x rfl)
        simp only [h5, except_bind_ok]
        exact ⟨_, rfl⟩
  | .text _, ht => absurd ht (by show ¬ removeNamespace "" = "lane"; decide)
  | .other _, ht => absurd ht (by show ¬ removeNamespace "" = "lane"; decide)
theorem importLaneKids_okIff {plane : Xml} (hp : NoComments plane.children) : ∀ (l : List Xml) (acc : Option String × List Lane × List String),
    (∃ v, importLaneKids plane l acc = .ok v) ↔ LaneKidsLegal plane l
  | [], acc => by simp [importLaneKids, LaneKidsLegal]
  | .text _ :: r, acc => by rw [importLaneKids, LaneKidsLegal]; exact importLaneKids_okIff hp r acc
  | .other _ :: _, acc => by simp [importLaneKids, LaneKidsLegal]
  | .elem t as ks :: r, (ci, c, refs) => by
    rw [importLaneKids, LaneKidsLegal]
    split
    · rename_i ct
      rw [imp_iff_right ct, ← importLanes_okIff hp ks []]
      have hn : ¬ removeNamespace t = "flowNodeRef" := by rw [ct]; decide
      constructor
      · rintro ⟨v, h⟩
        obtain ⟨ls, h1, h⟩ := except_bind_eq_ok h
        exact ⟨⟨ls, h1⟩, fun h => absurd h hn, (importLaneKids_okIff hp r _).1 ⟨v, h⟩⟩
      · rintro ⟨⟨ls, h1⟩, _, h⟩
        obtain ⟨v, h2⟩ := (importLaneKids_okIff hp r (some ((Xml.elem t as ks).getAttr "id"), ls, refs)).2 h
        exact ⟨v, by rw [h1]; exact h2⟩
    · rename_i ct
      split
      · rename_i cf
        rw [imp_iff_right cf, ← firstValue_ok]
        constructor
        · rintro ⟨v, h⟩
          obtain ⟨w, h1, h⟩ := except_bind_eq_ok h
          exact ⟨fun h => absurd h ct, ⟨w, h1⟩, (importLaneKids_okIff hp r _).1 ⟨v, h⟩⟩
        · rintro ⟨_, ⟨w, h1⟩, h⟩
          obtain ⟨v, h2⟩ := (importLaneKids_okIff hp r (ci, c, refs ++ [w])).2 h
          exact ⟨v, by rw [h1]; exact h2⟩
      · rename_i cf
        rw [importLaneKids_okIff hp r (ci, c, refs)]
        exact ⟨fun h => ⟨fun h => absurd h ct, fun h => absurd h cf, h⟩, fun h => h.2.2⟩
theorem importLanes_okIff {plane : Xml} (hp : NoComments plane.children) : ∀ (l : List Xml) (acc : List Lane),
    (∃ v, importLanes plane l acc = .ok v) ↔ LanesLegal plane l
  | [], acc => by simp [importLanes, LanesLegal]
  | .text _ :: r, acc => by
    rw [importLanes, LanesLegal, LaneLegal, true_and]; exact importLanes_okIff hp r acc
  | .other _ :: _, acc => by simp [importLanes, LanesLegal, LaneLegal]
  | .elem t as ks :: r, acc => by
    rw [importLanes, LanesLegal]
    split
    · rename_i ct
      rw [← importLane_okIff hp (.elem t as ks) ct]
      constructor
      · rintro ⟨v, h⟩
        obtain ⟨l, h1, h⟩ := except_bind_eq_ok h
        exact ⟨⟨l, h1⟩, (importLanes_okIff hp r _).1 ⟨v, h⟩⟩
      · rintro ⟨⟨l, h1⟩, h⟩
        obtain ⟨v, h2⟩ := (importLanes_okIff hp r (setLane acc l)).2 h
        exact ⟨v, by rw [h1]; exact h2⟩
    · rename_i ct
      rw [importLanes_okIff hp r acc, LaneLegal]
      exact ⟨fun h => ⟨fun h => absurd h ct, h⟩, fun h => h.2⟩
end

/-! ## Processes -/

theorem importLaneSet_okIff {plane : Xml} (hp : NoComments plane.children) (pid : String) (l : List Xml) (D : Diagram) :
    (∃ D', importLaneSet plane pid l D = .ok D') ↔ ∀ ls r, l = ls :: r → LanesLegal plane ls.children := by
  cases l with
  | nil => simp [importLaneSet]
  | cons ls r =>
    rw [importLaneSet]
    constructor
    · rintro ⟨D', h⟩ ls' r' e
      cases e
      obtain ⟨v, h1, _⟩ := except_bind_eq_ok h
      exact (importLanes_okIff hp _ _).1 ⟨v, h1⟩
    · intro h
      obtain ⟨v, h1⟩ := (importLanes_okIff hp _ []).2 (h ls r rfl)
      exact ⟨_, by rw [h1]; rfl⟩

theorem importLaneSet_same {plane : Xml} {pid : String} {l : List Xml} {D D' : Diagram} (h : importLaneSet plane pid l D = .ok D') :
    D'.graph = D.graph ∧ D'.sequenceFlows = D.sequenceFlows := by
  cases l with
  | nil => rw [importLaneSet] at h; rw [← Except.ok.inj h]; exact ⟨rfl, rfl⟩
  | cons ls r =>
    rw [importLaneSet] at h
    obtain ⟨lanes, _, h⟩ := except_bind_eq_ok h
    rw [← Except.ok.inj h]; exact ⟨rfl, rfl⟩

theorem importProcess_okIff (ord : List String → List String) {plane : Xml} (hp : NoComments plane.children) (e : Xml) (D : Diagram) :
    (∃ D', importProcess ord plane e D = .ok D') ↔ ProcessLegal plane e := by
  unfold ProcessLegal
  simp only [importProcess]
  constructor
  · rintro ⟨D', h⟩
    obtain ⟨D1, h1, h⟩ := except_bind_eq_ok h
    obtain ⟨D2, h2, h⟩ := except_bind_eq_ok h
    have hl := (importElements_okIff ord _ _ _ _).1 ⟨D2, h2⟩
    exact ⟨hl, (importFlows_okIff _ _ D2 (noComments_of_legal hl)).1 ⟨D', h⟩, (importLaneSet_okIff hp _ _ _).1 ⟨D1, h1⟩⟩
  · rintro ⟨hl, hf, hs⟩
    obtain ⟨D1, h1⟩ := (importLaneSet_okIff hp (e.getAttr "id") (e.byName "laneSet")
      { D with processElements := D.processElements.set (e.getAttr "id") (processEntry e) }).2 hs
    obtain ⟨D2, h2⟩ := (importElements_okIff ord e.children (e.getAttr "id") (.process (e.getAttr "id")) D1).2 hl
    obtain ⟨D3, h3⟩ := (importFlows_okIff (e.getAttr "id") e.children D2 (noComments_of_legal hl)).2 hf
    exact ⟨D3, by rw [h1, except_bind_ok, h2]; exact h3⟩

theorem importProcess_known {ord : List String → List String} {plane e : Xml} {D D' : Diagram} {N F : List String}
    (h : importProcess ord plane e D = .ok D') (hk : Known D N F) :
    Known D' (nodeIdsAll e.children ++ N) ((innerEndsAll e.children ++ endsOf "sequenceFlow" e.children) ++ F) := by
  simp only [importProcess] at h
  obtain ⟨D1, h1, h⟩ := except_bind_eq_ok h
  obtain ⟨D2, h2, h⟩ := except_bind_eq_ok h
  have hs := importLaneSet_same h1
  have k1 : Known D1 N F := hk.congr hs.1 hs.2
  refine (importFlows_known h (importElements_known h2 k1)).congrSets (fun _ => Iff.rfl) ?_
  intro k
  simp only [List.mem_append, or_assoc, or_comm, or_left_comm]

theorem importProcesses_okIff (ord : List String → List String) {plane : Xml} (hp : NoComments plane.children) : ∀ (l : List Xml) (D : Diagram),
    (∃ D', importProcesses ord plane l D = .ok D') ↔ ∀ p ∈ l, ProcessLegal plane p
  | [], D => by simp [importProcesses]
  | e :: r, D => by
    rw [importProcesses, List.forall_mem_cons, ← importProcess_okIff ord hp e D]
    constructor
    · rintro ⟨D', h⟩
      obtain ⟨D1, h1, h⟩ := except_bind_eq_ok h
      exact ⟨⟨D1, h1⟩, (importProcesses_okIff ord hp r D1).1 ⟨D', h⟩⟩
    · rintro ⟨⟨D1, h1⟩, h⟩
      obtain ⟨D2, h2⟩ := (importProcesses_okIff ord hp r D1).2 h
      exact ⟨D2, by rw [h1]; exact h2⟩

theorem importProcesses_known {ord : List String → List String} {plane : Xml} : ∀ {l : List Xml} {D D' : Diagram} {N F : List String},
    importProcesses ord plane l D = .ok D' → Known D N F → Known D' (l.flatMap (fun p => nodeIdsAll p.children) ++ N)
      (l.flatMap (fun p => innerEndsAll p.children ++ endsOf "sequenceFlow" p.children) ++ F)
  | [], D, D', N, F, h, hk => by rw [importProcesses] at h; rw [← Except.ok.inj h]; exact hk
  | e :: r, D, D', N, F, h, hk => by
    rw [importProcesses] at h
    obtain ⟨D1, h1, h⟩ := except_bind_eq_ok h
    have := importProcesses_known (l := r) h (importProcess_known h1 hk)
    refine this.congrSets ?_ ?_
    · intro k
      simp only [List.flatMap_cons, List.mem_append, or_assoc, or_comm, or_left_comm]
    · intro k
      simp only [List.flatMap_cons, List.mem_append, or_assoc, or_comm, or_left_comm]

/-! ## Pools and message flows -/

theorem importParticipant_known {e : Xml} {D : Diagram} {N F : List String} (c : Collab) (hk : Known D N F) :
    Known (importParticipant e D c).1 ((if e.getAttr "processRef" = "" then [e.getAttr "id"] else []) ++ N) F := by
  by_cases h : e.getAttr "processRef" = ""
  · simp only [importParticipant, h, if_true]
    exact hk.described _ (by intro a; rfl)
  · simp only [importParticipant, h, if_false]
    exact hk

theorem importMessageFlow_known {e : Xml} {D : Diagram} {N F : List String} (c : Collab) (hk : Known D N F) :
    Known (importMessageFlow e D c).1 N (e.getAttr "sourceRef" :: e.getAttr "targetRef" :: F) :=
  known_linkEnds (known_edge hk _ _ _) _ _ _

/-- Every message flow has an edge. -/
def MessagesJoined (D : Diagram) (c : Collab) : Prop :=
  ∀ i m, c.messageFlows.get? i = some m → D.graph.hasEdge m.sourceRef m.targetRef = true

theorem importMessageFlow_joined {e : Xml} {D : Diagram} {c : Collab} (h : MessagesJoined D c) :
    MessagesJoined (importMessageFlow e D c).1 (importMessageFlow e D c).2 := by
  intro i m hi
  have hi' : (c.messageFlows.set (e.getAttr "id") ⟨e.getAttr "id", e.attrOr "name" "", e.getAttr "sourceRef", e.getAttr "targetRef"⟩).get? i = some m := hi
  rw [Dict.get?_set] at hi'
  split at hi'
  · cases hi'
    exact (Grows.linkEnds _ _ _ _).edge _ _ (hasEdge_edgeMade D.graph _ _ _)
  · exact (Grows.linkEnds _ _ _ _).edge _ _ ((Grows.edgeMade D _ _ _).edge _ _ (h i m hi'))

theorem importParticipant_joined {e : Xml} {D : Diagram} {c : Collab} (h : MessagesJoined D c) :
    MessagesJoined (importParticipant e D c).1 (importParticipant e D c).2 := by
  intro i m hi
  have := h i m hi
  by_cases hr : e.getAttr "processRef" = ""
  · simp only [importParticipant, hr, if_true]
    exact (Grows.addNode D _).edge _ _ this
  · simp only [importParticipant, hr, if_false]
    exact this

theorem importCollabKids_okIff : ∀ (l : List Xml) (D : Diagram) (c : Collab), (∃ v, importCollabKids l D c = .ok v) ↔ NoComments l
  | [], D, c => by simp [importCollabKids, NoComments]
  | x :: r, D, c => by
    rw [importCollabKids]
    cases x with
    | text s =>
      simp only [Xml.isText, if_true]
      rw [importCollabKids_okIff r D c]
      simp [NoComments]
    | other s =>
      simp only [Xml.isText, Bool.false_eq_true, if_false, Xml.tagName, except_bind_error]
      constructor
      · rintro ⟨v, h⟩; cases h
      · intro h; exact absurd (List.mem_cons_self ..) (h s)
    | elem t as ks =>
      have hx : NoComments (.elem t as ks :: r) ↔ NoComments r := by simp [NoComments]
      simp only [Xml.isText, Bool.false_eq_true, if_false, Xml.tagName, except_bind_ok]
      rw [hx]
      split
      · exact importCollabKids_okIff r _ _
      · split
        · exact importCollabKids_okIff r _ _
        · exact importCollabKids_okIff r _ _

theorem importCollabKids_known : ∀ {l : List Xml} {D : Diagram} {c : Collab} {v : Diagram × Collab} {N F : List String},
    importCollabKids l D c = .ok v → Known D N F → MessagesJoined D c →
    Known v.1 (blackBoxes l ++ N) (endsOf "messageFlow" l ++ F) ∧ MessagesJoined v.1 v.2
  | [], D, c, v, N, F, h, hk, hj => by rw [importCollabKids] at h; rw [← Except.ok.inj h]; exact ⟨hk, hj⟩
  | x :: r, D, c, v, N, F, h, hk, hj => by
    rw [importCollabKids] at h
    cases x with
    | text s =>
      simp only [Xml.isText, if_true] at h
      have := importCollabKids_known (l := r) h hk hj
      exact this
    | other s => simp [Xml.isText, Xml.tagName] at h
    | elem t as ks =>
      simp only [Xml.isText, Bool.false_eq_true, if_false, Xml.tagName, except_bind_ok] at h
      rw [blackBoxes, endsOf]
      split at h
      · rename_i ct
        have hm : ¬ removeNamespace t = "messageFlow" := by rw [ct]; decide
        obtain ⟨k1, j1⟩ := importCollabKids_known (l := r) h (importParticipant_known c hk) (importParticipant_joined hj)
        refine ⟨?_, j1⟩
        simp only [ct, hm, if_false, List.nil_append, true_and]
        refine k1.congrSets ?_ ?_
        · intro k; simp only [List.mem_append, or_assoc, or_comm, or_left_comm]
        · intro k; simp only [List.mem_append, show ("participant" = "messageFlow") = False by decide, if_false, List.not_mem_nil, false_or, or_assoc, or_comm, or_left_comm]
      · rename_i ct
        split at h
        · rename_i cm
          obtain ⟨k1, j1⟩ := importCollabKids_known (l := r) h (importMessageFlow_known c hk) (importMessageFlow_joined hj)
          refine ⟨?_, j1⟩
          simp only [ct, cm, if_true, false_and, if_false, List.nil_append]
          refine k1.congrSets ?_ ?_
          · intro k; simp [show ¬ "messageFlow" = "participant" by decide]
          · intro k; simp [show ¬ "messageFlow" = "participant" by decide, or_assoc, or_comm, or_left_comm]
        · rename_i cm
          have := importCollabKids_known (l := r) h hk hj
          simp only [ct, cm, false_and, if_false, List.nil_append]
          exact this

/-! ## The plane -/

/-- What is needed to import the elements of the plane. -/
structure ReadyToDraw (D : Diagram) (N F : List String) : Prop where
  known : Known D N F
  messages : ∀ c, D.collaboration = some c → MessagesJoined D c

theorem modifyEdge_known {D : Diagram} {N F : List String} (s t : String) (f : EdgeAttrs → EdgeAttrs) (h : Known D N F) :
    Known { D with graph := D.graph.modifyEdge s t f } N F where
  nodup := h.nodup
  keys := h.keys
  typed := h.typed
  joined := by intro i g hi; rw [hasEdge_modifyEdge]; exact h.joined i g hi

theorem importNodeShape_okIff {D : Diagram} {N F : List String} (h : Known D N F) (e b : Xml) (id : String) :
    (∃ D', importNodeShape e b id D = .ok D') ↔ (id ∈ F → id ∈ N) := by
  unfold importNodeShape
  cases hg : D.graph.nodes.get? id with
  | none =>
    have hn : id ∉ D.graph.nodes.keys := (Dict.get?_eq_none_iff _ _).1 hg
    rw [h.keys] at hn
    simp only [not_or] at hn
    simp [hn]
  | some a =>
    have hk : id ∈ D.graph.nodes.keys := (Dict.get?_isSome_iff _ _).1 (by rw [hg]; rfl)
    rw [h.keys] at hk
    have ht := h.typed id a hg
    cases hty : a.type with
    | none =>
      rw [hty] at ht
      simp only [Option.isSome_none, Bool.false_eq_true, false_iff] at ht
      simp only [hty, need_none, except_bind_error, ht, imp_false]
      constructor
      · rintro ⟨D', h⟩; cases h
      · intro hf; exact absurd (hk.resolve_left ht) hf
    | some ty =>
      rw [hty] at ht
      have hN : id ∈ N := ht.1 rfl
      simp only [hty, need_some, except_bind_ok]
      exact ⟨fun _ _ => hN, fun _ => ⟨_, rfl⟩⟩

theorem importNodeShape_ready {D D' : Diagram} {N F : List String} (h : ReadyToDraw D N F) {e b : Xml} {id : String}
    (hi : importNodeShape e b id D = .ok D') : ReadyToDraw D' N F := by
  unfold importNodeShape at hi
  split at hi
  · cases hi; exact h
  · obtain ⟨ty, _, hi⟩ := except_bind_eq_ok hi
    cases hi
    exact ⟨h.known.upd id fun _ => by rfl, h.messages⟩

theorem importShape_okIff {D : Diagram} {N F : List String} (h : ReadyToDraw D N F) (e : Xml) :
    (∃ D', importShape e D = .ok D') ↔ HasBounds e ∧ (e.getAttr "bpmnElement" ∈ F → e.getAttr "bpmnElement" ∈ N) := by
  rw [← boundsOf_ok]
  simp only [importShape]
  constructor
  · rintro ⟨D', hi⟩
    obtain ⟨b, h1, hi⟩ := except_bind_eq_ok hi
    obtain ⟨D1, h2, hi⟩ := except_bind_eq_ok hi
    exact ⟨⟨b, h1⟩, (importNodeShape_okIff h.known e b _).1 ⟨D1, h2⟩⟩
  · rintro ⟨⟨b, h1⟩, h2⟩
    obtain ⟨D1, h3⟩ := (importNodeShape_okIff h.known e b _).2 h2
    simp only [h1, h3, except_bind_ok]
    cases D1.collaboration <;> exact ⟨_, rfl⟩

theorem importShape_ready {D D' : Diagram} {N F : List String} (h : ReadyToDraw D N F) {e : Xml} (hi : importShape e D = .ok D') :
    ReadyToDraw D' N F := by
  simp only [importShape] at hi
  obtain ⟨b, h1, hi⟩ := except_bind_eq_ok hi
  obtain ⟨D1, h2, hi⟩ := except_bind_eq_ok hi
  have r := importNodeShape_ready h h2
  split at hi
  · cases hi; exact r
  · rename_i c hc
    cases hi
    refine ⟨r.known.congr rfl rfl, ?_⟩
    intro c' hc' i m hm
    cases hc'
    exact r.messages c hc i m hm

theorem importFlowDi_ready {D : Diagram} {N F : List String} (h : ReadyToDraw D N F) (e : Xml) :
    ∃ D', importFlowDi e D = .ok D' ∧ ReadyToDraw D' N F := by
  have done : ∀ (s t : String) (f : EdgeAttrs → EdgeAttrs), ReadyToDraw { D with graph := D.graph.modifyEdge s t f } N F := by
    intro s t f
    refine ⟨modifyEdge_known s t f h.known, ?_⟩
    intro c hc i m hm
    show (D.graph.modifyEdge s t f).hasEdge _ _ = true
    rw [hasEdge_modifyEdge]
    exact h.messages c hc i m hm
  simp only [importFlowDi]
  cases hs : D.sequenceFlows.get? (e.getAttr "bpmnElement") with
  | some f =>
    simp only [h.known.joined _ f hs, if_true]
    exact ⟨_, rfl, done _ _ _⟩
  | none =>
    cases hc : D.collaboration with
    | none => exact ⟨D, rfl, h⟩
    | some c =>
      cases hm : c.messageFlows.get? (e.getAttr "bpmnElement") with
      | none => simp only [hm, Option.map_none]; exact ⟨D, rfl, h⟩
      | some m =>
        simp only [hm, Option.map_some, h.messages c hc _ m hm, if_true]
        refine ⟨_, rfl, ?_⟩
        rw [← hc]
        exact done _ _ _

theorem importPlane_okIff {N F : List String} : ∀ (l : List Xml) (D : Diagram), ReadyToDraw D N F → ((∃ D', importPlane l D = .ok D') ↔
    NoComments l ∧ ∀ x ∈ l, IsNamed "BPMNShape" x → HasBounds x ∧ (x.getAttr "bpmnElement" ∈ F → x.getAttr "bpmnElement" ∈ N))
  | [], D, h => by simp [importPlane, NoComments]
  | x :: r, D, h => by
    rw [importPlane]
    cases x with
    | text s =>
      simp only [Xml.isText, if_true]
      rw [importPlane_okIff r D h]
      simp [NoComments, IsNamed]
    | other s =>
      simp only [Xml.isText, Bool.false_eq_true, if_false, Xml.tagName, except_bind_error]
      constructor
      · rintro ⟨v, h⟩; cases h
      · intro h; exact absurd (List.mem_cons_self ..) (h.1 s)
    | elem t as ks =>
      have hx : NoComments (.elem t as ks :: r) ↔ NoComments r := by simp [NoComments]
      simp only [Xml.isText, Bool.false_eq_true, if_false, Xml.tagName, except_bind_ok]
      rw [hx, List.forall_mem_cons, isNamed_elem]
      split
      · rename_i ct
        rw [imp_iff_right ct, ← importShape_okIff h (.elem t as ks)]
        constructor
        · rintro ⟨D', hi⟩
          obtain ⟨D1, h1, hi⟩ := except_bind_eq_ok hi
          obtain ⟨a, b⟩ := (importPlane_okIff r D1 (importShape_ready h h1)).1 ⟨D', hi⟩
          exact ⟨a, ⟨D1, h1⟩, b⟩
        · rintro ⟨a, ⟨D1, h1⟩, b⟩
          obtain ⟨D', hi⟩ := (importPlane_okIff r D1 (importShape_ready h h1)).2 ⟨a, b⟩
          exact ⟨D', by rw [h1]; exact hi⟩
      · rename_i ct
        have hc : (removeNamespace t = "BPMNShape" → HasBounds (.elem t as ks) ∧
          ((Xml.elem t as ks).getAttr "bpmnElement" ∈ F → (Xml.elem t as ks).getAttr "bpmnElement" ∈ N)) ↔ True :=
            iff_true_intro fun h => absurd h ct
        rw [hc, true_and]
        split
        · obtain ⟨D1, h1, h2⟩ := importFlowDi_ready h (.elem t as ks)
          rw [← importPlane_okIff r D1 h2, h1]
          rfl
        · exact importPlane_okIff r D h

/-! ## The document -/

theorem pyIndex_zero_ok {α} (l : List α) (x : α) : pyIndex l 0 = .ok x ↔ l.head? = some x := by
  cases l <;> simp [pyIndex]

theorem importFirstCollaboration_okIff (root : Xml) (D : Diagram) :
    (∃ D', importFirstCollaboration (Xml.byNameIn "collaboration" [root]) D = .ok D') ↔ NoComments (collabKids root) := by
  unfold collabKids
  cases Xml.byNameIn "collaboration" [root] with
  | nil => simp [importFirstCollaboration, NoComments]
  | cons c r =>
    simp only [List.head?_cons, Option.map_some, Option.getD_some, importFirstCollaboration, importCollaboration]
    rw [← importCollabKids_okIff c.children D ⟨c.getAttr "id", [], []⟩]
    constructor
    · rintro ⟨D', h⟩
      obtain ⟨v, h1, _⟩ := except_bind_eq_ok h
      exact ⟨v, h1⟩
    · rintro ⟨v, h1⟩
      exact ⟨_, by rw [h1]; rfl⟩

theorem importFirstCollaboration_ready {root : Xml} {D D' : Diagram} {N F : List String}
    (h : importFirstCollaboration (Xml.byNameIn "collaboration" [root]) D = .ok D') (hk : Known D N F) (hc : D.collaboration = none) :
    ReadyToDraw D' (blackBoxes (collabKids root) ++ N) (endsOf "messageFlow" (collabKids root) ++ F) := by
  unfold collabKids
  cases hx : Xml.byNameIn "collaboration" [root] with
  | nil =>
    rw [hx] at h
    rw [importFirstCollaboration] at h
    cases h
    exact ⟨hk, by intro c hc'; rw [hc] at hc'; cases hc'⟩
  | cons c r =>
    rw [hx, importFirstCollaboration, importCollaboration] at h
    obtain ⟨⟨D1, c1⟩, h1, h⟩ := except_bind_eq_ok h
    cases h
    obtain ⟨k1, j1⟩ := importCollabKids_known h1 hk (by intro i m hm; cases hm)
    refine ⟨k1.congr rfl rfl, ?_⟩
    intro c' hc' i m hm
    cases hc'
    exact j1 i m hm

theorem known_nil (D : Diagram) (h : D.graph = {}) (hs : D.sequenceFlows = []) : Known D [] [] := by
  constructor
  · rw [h]; exact List.nodup_nil
  · intro k; rw [h]; simp [Dict.keys]
  · intro k a ha; rw [h] at ha; cases ha
  · intro i f hi; rw [hs] at hi; cases hi

theorem record_collab (o : Owner) (i : String) (D : Diagram) : (record o i D).collaboration = D.collaboration := by cases o <;> rfl

theorem importFlowNode_collab {pid : String} {o : Owner} {e : Xml} {D D' : Diagram} (h : importFlowNode pid o e D = .ok D') :
    D'.collaboration = D.collaboration := by
  simp only [importFlowNode] at h
  obtain ⟨t, _, h⟩ := except_bind_eq_ok h
  obtain ⟨i, _, h⟩ := except_bind_eq_ok h
  obtain ⟨u, _, h⟩ := except_bind_eq_ok h
  rw [← Except.ok.inj h]
  exact record_collab _ _ _

theorem NodeForm.collab {pid : String} {o : Owner} {e : Xml} {g : Diagram → Py Diagram} (h : NodeForm pid o e g) {D D' : Diagram}
    (hg : g D = .ok D') : D'.collaboration = D.collaboration := by
  obtain ⟨f, _, h1⟩ := h
  rw [h1] at hg
  obtain ⟨D1, h2, h3⟩ := except_bind_eq_ok hg
  rw [← Except.ok.inj h3]
  have := importFlowNode_collab h2
  exact this

theorem importFlows_collab {pid : String} : ∀ {l : List Xml} {D D' : Diagram}, importFlows pid l D = .ok D' → D'.collaboration = D.collaboration
  | [], D, D', h => by rw [← Except.ok.inj h]
  | x :: r, D, D', h => by
    rw [importFlows] at h
    split at h
    · exact importFlows_collab h
    · obtain ⟨t, _, h⟩ := except_bind_eq_ok h
      split at h
      · obtain ⟨D1, h1, h⟩ := except_bind_eq_ok h
        rw [importFlows_collab h]
        simp only [importSequenceFlow] at h1
        obtain ⟨c, _, h1⟩ := except_bind_eq_ok h1
        rw [← Except.ok.inj h1]
        rfl
      · exact importFlows_collab h

mutual
theorem importElement_collab {ord : List String → List String} : ∀ {x : Xml} {pid : String} {o : Owner} {D D' : Diagram},
    importElement ord pid o x D = .ok D' → D'.collaboration = D.collaboration
  | .elem t as ks, pid, o, D, D', h => by
    rw [importElement] at h
    split at h
    · obtain ⟨D1, h1, h⟩ := except_bind_eq_ok h
      obtain ⟨D2, h2, h⟩ := except_bind_eq_ok h
      rw [importFlows_collab h, importElements_collab h2]
      have := (form_activity pid o (.elem t as ks)).collab h1
      exact this
    · by_cases c : removeNamespace t ∈ simpleTags
      · exact ((importSimple_form ord pid o (.elem t as ks) _).1 c).collab h
      · rw [(importSimple_form ord pid o (.elem t as ks) _).2 c D] at h
        rw [← Except.ok.inj h]
  | .text _, pid, o, D, D', h => by rw [importElement] at h; rw [← Except.ok.inj h]
  | .other _, pid, o, D, D', h => by rw [importElement] at h; cases h
theorem importElements_collab {ord : List String → List String} : ∀ {l : List Xml} {pid : String} {o : Owner} {D D' : Diagram},
    importElements ord pid o l D = .ok D' → D'.collaboration = D.collaboration
  | [], pid, o, D, D', h => by rw [importElements] at h; rw [← Except.ok.inj h]
  | x :: r, pid, o, D, D', h => by
    rw [importElements] at h
    obtain ⟨D1, h1, h⟩ := except_bind_eq_ok h
    rw [importElements_collab h, importElement_collab h1]
end

theorem importProcesses_collab {ord : List String → List String} {plane : Xml} : ∀ {l : List Xml} {D D' : Diagram},
    importProcesses ord plane l D = .ok D' → D'.collaboration = D.collaboration
  | [], D, D', h => by rw [importProcesses] at h; rw [← Except.ok.inj h]
  | e :: r, D, D', h => by
    rw [importProcesses] at h
    obtain ⟨D1, h1, h⟩ := except_bind_eq_ok h
    rw [importProcesses_collab h]
    simp only [importProcess] at h1
    obtain ⟨D2, h2, h1⟩ := except_bind_eq_ok h1
    obtain ⟨D3, h3, h1⟩ := except_bind_eq_ok h1
    rw [importFlows_collab h1, importElements_collab h3]
    cases hb : e.byName "laneSet" with
    | nil => rw [hb, importLaneSet] at h2; rw [← Except.ok.inj h2]
    | cons ls r =>
      rw [hb, importLaneSet] at h2
      obtain ⟨lanes, _, h2⟩ := except_bind_eq_ok h2
      rw [← Except.ok.inj h2]

/-- A document is imported into a new object exactly if it is acceptable. -/
theorem load_okIff (ord : List String → List String) (root : Xml) :
    (∃ D, load ord root {} = .ok D) ↔ ∃ diagram plane, Acceptable root diagram plane := by
  constructor
  · rintro ⟨D, h⟩
    simp only [load] at h
    obtain ⟨diagram, h1, h⟩ := except_bind_eq_ok h
    obtain ⟨plane, h2, h⟩ := except_bind_eq_ok h
    obtain ⟨D1, h3, h⟩ := except_bind_eq_ok h
    obtain ⟨D2, h4, h⟩ := except_bind_eq_ok h
    have k1 := importProcesses_known h3 (known_nil _ rfl rfl)
    have r1 := importFirstCollaboration_ready h4 k1 (importProcesses_collab h3)
    obtain ⟨n1, s1⟩ := (importPlane_okIff _ _ r1).1 ⟨D, h⟩
    refine ⟨diagram, plane, (pyIndex_zero_ok _ _).1 h1, (pyIndex_zero_ok _ _).1 h2, (importProcesses_okIff ord n1 _ _).1 ⟨D1, h3⟩,
      (importFirstCollaboration_okIff root D1).1 ⟨D2, h4⟩, n1, ?_⟩
    intro x hx hn
    obtain ⟨a, b⟩ := s1 x hx hn
    refine ⟨a, fun hf => ?_⟩
    simp only [flowEnds_eq, describedNodes, List.mem_append, List.not_mem_nil, or_false] at hf b ⊢
    exact (b hf.symm).symm
  · rintro ⟨diagram, plane, h⟩
    have h1 := (pyIndex_zero_ok _ _).2 h.firstDiagram
    have h2 := (pyIndex_zero_ok _ _).2 h.firstPlane
    obtain ⟨D1, h3⟩ := (importProcesses_okIff ord h.planeElements _ (({
      diagramId := some (diagram.getAttr "id"), diagramName := some (diagram.attrOr "name" ""), planeId := some (plane.getAttr "id"), planeElement := some (plane.getAttr "bpmnElement") } : Diagram))).2 h.processes
    obtain ⟨D2, h4⟩ := (importFirstCollaboration_okIff root D1).2 h.collaboration
    have k1 := importProcesses_known h3 (known_nil _ rfl rfl)
    have r1 := importFirstCollaboration_ready h4 k1 (importProcesses_collab h3)
    obtain ⟨D3, h5⟩ := (importPlane_okIff plane.children D2 r1).2 ⟨h.planeElements, by
      intro x hx hn
      obtain ⟨a, b⟩ := h.shapes x hx hn
      refine ⟨a, fun hf => ?_⟩
      simp only [flowEnds_eq, describedNodes, List.mem_append, List.not_mem_nil, or_false] at hf b ⊢
      exact (b hf.symm).symm⟩
    refine ⟨D3, ?_⟩
    simp only [load, h1, h2, except_bind_ok]
    rw [h3, except_bind_ok, h4, except_bind_ok]
    exact h5

theorem importPlane_ready {N F : List String} : ∀ {l : List Xml} {D D' : Diagram}, importPlane l D = .ok D' → ReadyToDraw D N F → ReadyToDraw D' N F
  | [], D, D', h, hr => by rw [importPlane] at h; rw [← Except.ok.inj h]; exact hr
  | x :: r, D, D', h, hr => by
    rw [importPlane] at h
    split at h
    · exact importPlane_ready h hr
    · obtain ⟨t, _, h⟩ := except_bind_eq_ok h
      split at h
      · obtain ⟨D1, h1, h⟩ := except_bind_eq_ok h
        exact importPlane_ready h (importShape_ready hr h1)
      · split at h
        · obtain ⟨D1, h1, h⟩ := except_bind_eq_ok h
          obtain ⟨D2, h2, h3⟩ := importFlowDi_ready hr x
          rw [h1] at h2
          cases h2
          exact importPlane_ready h h3
        · exact importPlane_ready h hr

/-- The nodes of a loaded diagram. -/
theorem load_known {ord : List String → List String} {root : Xml} {D : Diagram} (h : load ord root {} = .ok D) :
    Known D (describedNodes root) (flowEnds root) := by
  simp only [load] at h
  obtain ⟨diagram, h1, h⟩ := except_bind_eq_ok h
  obtain ⟨plane, h2, h⟩ := except_bind_eq_ok h
  obtain ⟨D1, h3, h⟩ := except_bind_eq_ok h
  obtain ⟨D2, h4, h⟩ := except_bind_eq_ok h
  have k1 := importProcesses_known h3 (known_nil _ rfl rfl)
  have r1 := importFirstCollaboration_ready h4 k1 (importProcesses_collab h3)
  refine (importPlane_ready h r1).known.congrSets ?_ ?_
  · intro k
    simp only [describedNodes, List.mem_append, List.not_mem_nil, or_false]
    exact or_comm
  · intro k
    simp only [flowEnds_eq, describedNodes, List.mem_append, List.not_mem_nil, or_false]
    rw [or_comm (a := k ∈ List.flatMap _ _), or_comm (b := k ∈ endsOf _ _)]

/-! ## Arcs -/

/-- The arcs of the graph are exactly these. -/
def Arcs (D : Diagram) (P : List (String × String)) : Prop := ∀ u v, D.graph.hasEdge u v = true ↔ (u, v) ∈ P ∨ (v, u) ∈ P

theorem arcs_congr {D D' : Diagram} {P P' : List (String × String)} (h : Arcs D P) (e : D'.graph.edges = D.graph.edges) (hp : ∀ p, p ∈ P' ↔ p ∈ P) : Arcs D' P' := by
  intro u v
  rw [hp, hp, ← h, Graph.hasEdge, Graph.hasEdge, e]

theorem arcs_edge {D : Diagram} {P : List (String × String)} (h : Arcs D P) (s t : String) (f : EdgeAttrs → EdgeAttrs) {D' : Diagram}
    (e : D'.graph.edges = ((D.graph.addEdge s t).modifyEdge s t f).edges) : Arcs D' ((s, t) :: P) := by
  intro u v
  have h1 : D'.graph.hasEdge u v = (D.graph.addEdge s t).hasEdge u v := by
    rw [Graph.hasEdge, e, ← Graph.hasEdge, hasEdge_modifyEdge]
  rw [h1]
  have h2 : (D.graph.addEdge s t).hasEdge u v = true ↔ D.graph.hasEdge u v = true ∨ (u = s ∧ v = t ∨ v = s ∧ u = t) := by
    by_cases c : D.graph.hasEdge s t = true
    · have hs := (h s t).1 c
      rw [Graph.hasEdge, Graph.addEdge_edges, if_pos c, ← Graph.hasEdge]
      constructor
      · exact .inl
      · rintro (h3 | ⟨rfl, rfl⟩ | ⟨rfl, rfl⟩)
        · exact h3
        · exact c
        · rw [h]; exact hs.symm
    · rw [Graph.hasEdge_iff, Graph.hasEdge_iff, Graph.addEdge_edges, if_neg c]
      simp only [List.mem_append, List.mem_singleton, or_and_right, exists_or, exists_eq_left, Edge.joins]
      simp only [Bool.or_eq_true, Bool.and_eq_true, beq_iff_eq]
      rw [eq_comm (a := s) (b := u), eq_comm (a := t) (b := v), eq_comm (a := s) (b := v), eq_comm (a := t) (b := u)]
  rw [h2, h]
  simp only [List.mem_cons, Prod.mk.injEq]
  tauto

theorem arcs_link {D : Diagram} {P : List (String × String)} (h : Arcs D P) (id s t : String) (f : EdgeAttrs → EdgeAttrs) (S : Dict String SeqFlow) :
    Arcs (linkEnds id s t { D with sequenceFlows := S, graph := (D.graph.addEdge s t).modifyEdge s t f }) ((s, t) :: P) :=
  arcs_edge h s t f rfl

theorem importFlowNode_edges {pid : String} {o : Owner} {e : Xml} {D D' : Diagram} (h : importFlowNode pid o e D = .ok D') :
    D'.graph.edges = D.graph.edges := by
  simp only [importFlowNode] at h
  obtain ⟨t, _, h⟩ := except_bind_eq_ok h
  obtain ⟨i, _, h⟩ := except_bind_eq_ok h
  obtain ⟨u, _, h⟩ := except_bind_eq_ok h
  rw [← Except.ok.inj h]
  cases o <;> exact Graph.addNode_edges _ _

theorem NodeForm.edges {pid : String} {o : Owner} {e : Xml} {g : Diagram → Py Diagram} (h : NodeForm pid o e g) {D D' : Diagram}
    (hg : g D = .ok D') : D'.graph.edges = D.graph.edges := by
  obtain ⟨f, _, h1⟩ := h
  rw [h1] at hg
  obtain ⟨D1, h2, h3⟩ := except_bind_eq_ok hg
  rw [← Except.ok.inj h3]
  have := importFlowNode_edges h2
  exact this

theorem importFlows_arcs {pid : String} : ∀ {l : List Xml} {D D' : Diagram} {P : List (String × String)}, importFlows pid l D = .ok D' → Arcs D P →
    Arcs D' (pairsOf "sequenceFlow" l ++ P)
  | [], D, D', P, h, hk => by rw [← Except.ok.inj h]; exact hk
  | x :: r, D, D', P, h, hk => by
    rw [importFlows] at h
    cases x with
    | text s =>
      simp only [Xml.isText, if_true] at h
      have := importFlows_arcs (l := r) h hk
      exact this
    | other s => simp [Xml.isText, Xml.tagName] at h
    | elem t as ks =>
      simp only [Xml.isText, Bool.false_eq_true, if_false, Xml.tagName, except_bind_ok] at h
      rw [pairsOf]
      split at h
      · rename_i c
        obtain ⟨D1, h1, h⟩ := except_bind_eq_ok h
        simp only [c, if_true]
        simp only [importSequenceFlow] at h1
        obtain ⟨cond, _, h1⟩ := except_bind_eq_ok h1
        have a1 : Arcs D1 (((Xml.elem t as ks).getAttr "sourceRef", (Xml.elem t as ks).getAttr "targetRef") :: P) := by
          rw [← Except.ok.inj h1]
          exact arcs_link hk _ _ _ _ _
        refine arcs_congr (importFlows_arcs (l := r) h a1) rfl ?_
        intro p
        simp only [List.mem_append, List.mem_cons, List.not_mem_nil, or_false, false_or, or_assoc, or_comm, or_left_comm]
      · rename_i c
        simp only [c, if_false, List.nil_append]
        exact importFlows_arcs (l := r) h hk

mutual
theorem importElement_arcs {ord : List String → List String} : ∀ {x : Xml} {pid : String} {o : Owner} {D D' : Diagram} {P : List (String × String)},
    importElement ord pid o x D = .ok D' → Arcs D P → Arcs D' (innerPairs x ++ P)
  | .elem t as ks, pid, o, D, D', P, h, hk => by
    rw [importElement] at h
    rw [innerPairs]
    split at h
    · rename_i ct
      rw [if_pos ct]
      obtain ⟨D1, h1, h⟩ := except_bind_eq_ok h
      obtain ⟨D2, h2, h⟩ := except_bind_eq_ok h
      have a1 : Arcs D1 P := arcs_congr hk ((form_activity pid o (.elem t as ks)).edges h1) fun _ => Iff.rfl
      have a2 := importElements_arcs h2 (arcs_congr a1 rfl fun _ => Iff.rfl)
      refine arcs_congr (importFlows_arcs h a2) rfl ?_
      intro p
      simp only [List.mem_append, or_assoc, or_comm, or_left_comm]
    · rename_i ct
      rw [if_neg ct]
      by_cases c : removeNamespace t ∈ simpleTags
      · have := ((importSimple_form ord pid o (.elem t as ks) _).1 c).edges h
        exact arcs_congr hk this fun _ => Iff.rfl
      · rw [(importSimple_form ord pid o (.elem t as ks) _).2 c D] at h
        rw [← Except.ok.inj h]
        exact hk
  | .text _, pid, o, D, D', P, h, hk => by rw [importElement] at h; rw [← Except.ok.inj h]; exact hk
  | .other _, pid, o, D, D', P, h, hk => by rw [importElement] at h; cases h
theorem importElements_arcs {ord : List String → List String} : ∀ {l : List Xml} {pid : String} {o : Owner} {D D' : Diagram} {P : List (String × String)},
    importElements ord pid o l D = .ok D' → Arcs D P → Arcs D' (innerPairsAll l ++ P)
  | [], pid, o, D, D', P, h, hk => by rw [importElements] at h; rw [← Except.ok.inj h]; exact hk
  | x :: r, pid, o, D, D', P, h, hk => by
    rw [importElements] at h
    obtain ⟨D1, h1, h⟩ := except_bind_eq_ok h
    rw [innerPairsAll]
    refine arcs_congr (importElements_arcs h (importElement_arcs h1 hk)) rfl ?_
    intro p
    simp only [List.mem_append, or_assoc, or_comm, or_left_comm]
end

theorem importProcesses_arcs {ord : List String → List String} {plane : Xml} : ∀ {l : List Xml} {D D' : Diagram} {P : List (String × String)},
    importProcesses ord plane l D = .ok D' → Arcs D P →
    Arcs D' (l.flatMap (fun p => innerPairsAll p.children ++ pairsOf "sequenceFlow" p.children) ++ P)
  | [], D, D', P, h, hk => by rw [importProcesses] at h; rw [← Except.ok.inj h]; exact hk
  | e :: r, D, D', P, h, hk => by
    rw [importProcesses] at h
    obtain ⟨D1, h1, h⟩ := except_bind_eq_ok h
    simp only [importProcess] at h1
    obtain ⟨D2, h2, h1⟩ := except_bind_eq_ok h1
    obtain ⟨D3, h3, h1⟩ := except_bind_eq_ok h1
    have a2 : Arcs D2 P := arcs_congr hk (by rw [(importLaneSet_same h2).1]) fun _ => Iff.rfl
    have := importProcesses_arcs (l := r) h (importFlows_arcs h1 (importElements_arcs h3 a2))
    refine arcs_congr this rfl ?_
    intro p
    simp only [List.flatMap_cons, List.mem_append, or_assoc, or_comm, or_left_comm]

theorem importParticipant_edges (e : Xml) (D : Diagram) (c : Collab) : (importParticipant e D c).1.graph.edges = D.graph.edges := by
  by_cases h : e.getAttr "processRef" = ""
  · simp only [importParticipant, h, if_true]
    exact Graph.addNode_edges _ _
  · simp only [importParticipant, h, if_false]

theorem importCollabKids_arcs : ∀ {l : List Xml} {D : Diagram} {c : Collab} {v : Diagram × Collab} {P : List (String × String)},
    importCollabKids l D c = .ok v → Arcs D P → Arcs v.1 (pairsOf "messageFlow" l ++ P)
  | [], D, c, v, P, h, hk => by rw [importCollabKids] at h; rw [← Except.ok.inj h]; exact hk
  | x :: r, D, c, v, P, h, hk => by
    rw [importCollabKids] at h
    cases x with
    | text s =>
      simp only [Xml.isText, if_true] at h
      have := importCollabKids_arcs (l := r) h hk
      exact this
    | other s => simp [Xml.isText, Xml.tagName] at h
    | elem t as ks =>
      simp only [Xml.isText, Bool.false_eq_true, if_false, Xml.tagName, except_bind_ok] at h
      rw [pairsOf]
      split at h
      · rename_i ct
        have hm : ¬ removeNamespace t = "messageFlow" := by rw [ct]; decide
        have := importCollabKids_arcs (l := r) h (arcs_congr hk (importParticipant_edges _ _ _) fun _ => Iff.rfl)
        simp only [hm, if_false, List.nil_append]
        exact this
      · split at h
        · rename_i cm
          have := importCollabKids_arcs (l := r) h (arcs_link hk _ _ _ _ _)
          simp only [cm, if_true]
          refine arcs_congr this rfl ?_
          intro p
          simp only [List.mem_append, List.mem_cons, List.not_mem_nil, or_false, false_or, or_assoc, or_comm, or_left_comm]
        · rename_i cm
          have := importCollabKids_arcs (l := r) h hk
          simp only [cm, if_false, List.nil_append]
          exact this

theorem importPlane_arcs {P : List (String × String)} : ∀ {l : List Xml} {D D' : Diagram}, importPlane l D = .ok D' → Arcs D P → Arcs D' P
  | [], D, D', h, hr => by rw [importPlane] at h; rw [← Except.ok.inj h]; exact hr
  | x :: r, D, D', h, hr => by
    rw [importPlane] at h
    split at h
    · exact importPlane_arcs h hr
    · obtain ⟨t, _, h⟩ := except_bind_eq_ok h
      split at h
      · obtain ⟨D1, h1, h⟩ := except_bind_eq_ok h
        refine importPlane_arcs h ?_
        simp only [importShape] at h1
        obtain ⟨b, _, h1⟩ := except_bind_eq_ok h1
        obtain ⟨D2, h2, h1⟩ := except_bind_eq_ok h1
        have e2 : D2.graph.edges = D.graph.edges := by
          unfold importNodeShape at h2
          split at h2
          · cases h2; rfl
          · obtain ⟨ty, _, h2⟩ := except_bind_eq_ok h2
            cases h2; rfl
        split at h1
        · cases h1; exact arcs_congr hr e2 fun _ => Iff.rfl
        · cases h1; exact arcs_congr hr e2 fun _ => Iff.rfl
      · split at h
        · obtain ⟨D1, h1, h⟩ := except_bind_eq_ok h
          refine importPlane_arcs h ?_
          simp only [importFlowDi] at h1
          split at h1
          · cases h1; exact hr
          · split at h1
            · cases h1
              intro u v
              show (D.graph.modifyEdge _ _ _).hasEdge u v = true ↔ _
              rw [hasEdge_modifyEdge]
              exact hr u v
            · cases h1
        · exact importPlane_arcs h hr

/-- The arcs of a loaded diagram. -/
theorem load_arcs {ord : List String → List String} {root : Xml} {D : Diagram} (h : load ord root {} = .ok D) : Arcs D (flowPairs root) := by
  simp only [load] at h
  obtain ⟨diagram, h1, h⟩ := except_bind_eq_ok h
  obtain ⟨plane, h2, h⟩ := except_bind_eq_ok h
  obtain ⟨D1, h3, h⟩ := except_bind_eq_ok h
  obtain ⟨D2, h4, h⟩ := except_bind_eq_ok h
  have a1 := importProcesses_arcs h3 (P := []) (by intro u v; simp [Graph.hasEdge])
  refine importPlane_arcs h ?_
  unfold flowPairs collabKids
  cases hx : Xml.byNameIn "collaboration" [root] with
  | nil =>
    rw [hx, importFirstCollaboration] at h4
    cases h4
    exact arcs_congr a1 rfl (by intro p; simp [pairsOf])
  | cons c r =>
    rw [hx, importFirstCollaboration, importCollaboration] at h4
    obtain ⟨⟨D3, c1⟩, h5, h4⟩ := except_bind_eq_ok h4
    cases h4
    exact arcs_congr (importCollabKids_arcs h5 a1) rfl (by intro p; simp [or_comm])

end Bpmn

import Verif.Lemmas.ImportNode
import Verif.Lemmas.AllTrees
set_option linter.unusedSimpArgs false
set_option linter.unusedVariables false
/-!
# What importing an element can change
-/
namespace Bpmn
open Spec Export Import

/-- The flow lists of a node. -/
def lists (D : Diagram) (m : String) : Option (Option (List String) × Option (List String)) :=
  (D.graph.nodes.get? m).map fun a => (a.incoming, a.outgoing)

/-- The second diagram differs from the first one at most by node `n` and by recorded ids. -/
structure NodeStep (D D' : Diagram) (n : String) : Prop where
  procs : noProcIds D'.processElements = noProcIds D.processElements
  table : D'.sequenceFlows = D.sequenceFlows
  edges : D'.graph.edges = D.graph.edges
  keys : ∀ k, k ∈ D'.graph.nodes.keys ↔ k = n ∨ k ∈ D.graph.nodes.keys
  other : ∀ m, m ≠ n → lists D' m = lists D m

theorem NodeStep.updNode {D D' : Diagram} {n : String} (h : NodeStep D D' n) (f : NodeAttrs → NodeAttrs) : NodeStep D (D'.updNode n f) n where
  procs := h.procs
  table := h.table
  edges := h.edges
  keys := by intro k; rw [← h.keys]; simp [Diagram.updNode]
  other := by
    intro m hm
    rw [← h.other m hm]
    simp only [lists, Diagram.updNode, Graph.modifyNode, Dict.get?_modify_ne _ _ (Ne.symm hm)]

theorem lists_record (o : Owner) (i : String) (D : Diagram) (m : String) : lists (record o i D) m = lists D m := by
  cases o with
  | process p => rfl
  | node k =>
    simp only [lists, record, Diagram.updNode, Graph.modifyNode, Dict.get?_modify]
    split
    · cases D.graph.nodes.get? m <;> simp
    · rfl

theorem NodeStep.record {D D' : Diagram} {n : String} (h : NodeStep D D' n) (o : Owner) (i : String) : NodeStep D (record o i D') n := by
  obtain ⟨_, h2, h3, h4, h5⟩ := record_rest o i D'
  exact ⟨h4.trans h.procs, h2.trans h.table, h3.trans h.edges, fun k => by rw [h5]; exact h.keys k,
    fun m hm => (lists_record o i D' m).trans (h.other m hm)⟩

theorem NodeStep.add (D : Diagram) (n : String) : NodeStep D { D with graph := D.graph.addNode n } n where
  procs := rfl
  table := rfl
  edges := by simp
  keys := by intro k; exact Graph.mem_keys_addNode _ _ _
  other := by intro m hm; simp only [lists, get?_addNode_ne _ hm]

theorem importFlowNode_step {pid : String} {o : Owner} {e : Xml} {D D' : Diagram} (h : importFlowNode pid o e D = .ok D') :
    NodeStep D D' (e.getAttr "id") := by
  simp only [importFlowNode] at h
  obtain ⟨t, _, h⟩ := except_bind_eq_ok h
  obtain ⟨i, _, h⟩ := except_bind_eq_ok h
  obtain ⟨u, _, h⟩ := except_bind_eq_ok h
  rw [← Except.ok.inj h]
  exact (((NodeStep.add D _).updNode _).record _ _).updNode _

theorem importActivity_step {pid : String} {o : Owner} {e : Xml} {D D' : Diagram} (h : importActivity pid o e D = .ok D') :
    NodeStep D D' (e.getAttr "id") := by
  simp only [importActivity] at h
  obtain ⟨D1, h1, h⟩ := except_bind_eq_ok h
  rw [← Except.ok.inj h]
  exact (importFlowNode_step h1).updNode _

theorem importGateway_step {pid : String} {o : Owner} {e : Xml} {D D' : Diagram} (h : importGateway pid o e D = .ok D') :
    NodeStep D D' (e.getAttr "id") := by
  simp only [importGateway] at h
  obtain ⟨D1, h1, h⟩ := except_bind_eq_ok h
  rw [← Except.ok.inj h]
  exact (importFlowNode_step h1).updNode _

theorem importDefaultGateway_step {pid : String} {o : Owner} {e : Xml} {D D' : Diagram} (h : importDefaultGateway pid o e D = .ok D') :
    NodeStep D D' (e.getAttr "id") := by
  simp only [importDefaultGateway] at h
  obtain ⟨D1, h1, h⟩ := except_bind_eq_ok h
  rw [← Except.ok.inj h]
  exact (importGateway_step h1).updNode _

/-- The tags of elements without nested elements that the import turns into nodes. -/
def simpleTags : List String :=
  ["task", "userTask", "serviceTask", "manualTask", "dataObject", "inclusiveGateway", "exclusiveGateway", "parallelGateway",
   "eventBasedGateway", "complexGateway", "startEvent", "endEvent", "intermediateCatchEvent", "intermediateThrowEvent", "boundaryEvent"]

theorem importSimple_step {ord : List String → List String} {pid : String} {o : Owner} {e : Xml} {tag : String} {D D' : Diagram}
    (h : importSimple ord pid o e tag D = .ok D') :
    if tag ∈ simpleTags then NodeStep D D' (e.getAttr "id") else D' = D := by
  unfold importSimple at h
  by_cases c : Import.isTask tag = true
  · rw [if_pos c] at h
    rw [if_pos (by simp [Import.isTask] at c; simp [simpleTags]; tauto)]
    exact importActivity_step h
  rw [if_neg c] at h
  by_cases c1 : tag = "dataObject"
  · subst c1
    rw [if_pos rfl] at h
    rw [if_pos (by decide)]
    simp only [importDataObject] at h
    obtain ⟨D1, h1, h⟩ := except_bind_eq_ok h
    rw [← Except.ok.inj h]
    exact (importFlowNode_step h1).updNode _
  rw [if_neg c1] at h
  by_cases c2 : tag = "inclusiveGateway" ∨ tag = "exclusiveGateway"
  · rw [if_pos c2] at h
    rw [if_pos (by rcases c2 with rfl | rfl <;> decide)]
    exact importDefaultGateway_step h
  rw [if_neg c2] at h
  by_cases c3 : tag = "parallelGateway"
  · subst c3
    rw [if_pos rfl] at h
    rw [if_pos (by decide)]
    exact importGateway_step h
  rw [if_neg c3] at h
  by_cases c4 : tag = "eventBasedGateway"
  · subst c4
    rw [if_pos rfl] at h
    rw [if_pos (by decide)]
    simp only [importEventBasedGateway] at h
    obtain ⟨D1, h1, h⟩ := except_bind_eq_ok h
    rw [← Except.ok.inj h]
    exact (importGateway_step h1).updNode _
  rw [if_neg c4] at h
  by_cases c5 : tag = "complexGateway"
  · subst c5
    rw [if_pos rfl] at h
    rw [if_pos (by decide)]
    exact importDefaultGateway_step h
  rw [if_neg c5] at h
  by_cases c6 : tag = "startEvent"
  · subst c6
    rw [if_pos rfl] at h
    rw [if_pos (by decide)]
    simp only [importStartEvent] at h
    obtain ⟨D1, h1, h⟩ := except_bind_eq_ok h
    rw [← Except.ok.inj h]
    exact ((importFlowNode_step h1).updNode _).updNode _
  rw [if_neg c6] at h
  by_cases c7 : tag = "endEvent"
  · subst c7
    rw [if_pos rfl] at h
    rw [if_pos (by decide)]
    simp only [importThrowEvent] at h
    obtain ⟨D1, h1, h⟩ := except_bind_eq_ok h
    rw [← Except.ok.inj h]
    exact (importFlowNode_step h1).updNode _
  rw [if_neg c7] at h
  by_cases c8 : tag = "intermediateCatchEvent"
  · subst c8
    rw [if_pos rfl] at h
    rw [if_pos (by decide)]
    simp only [importCatchEvent] at h
    obtain ⟨D1, h1, h⟩ := except_bind_eq_ok h
    rw [← Except.ok.inj h]
    exact ((importFlowNode_step h1).updNode _).updNode _
  rw [if_neg c8] at h
  by_cases c9 : tag = "intermediateThrowEvent"
  · subst c9
    rw [if_pos rfl] at h
    rw [if_pos (by decide)]
    simp only [importThrowEvent] at h
    obtain ⟨D1, h1, h⟩ := except_bind_eq_ok h
    rw [← Except.ok.inj h]
    exact (importFlowNode_step h1).updNode _
  rw [if_neg c9] at h
  by_cases c10 : tag = "boundaryEvent"
  · subst c10
    rw [if_pos rfl] at h
    rw [if_pos (by decide)]
    simp only [importBoundaryEvent] at h
    obtain ⟨D1, h1, h⟩ := except_bind_eq_ok h
    rw [← Except.ok.inj h]
    exact ((importFlowNode_step h1).updNode _).updNode _
  rw [if_neg c10] at h
  rw [if_neg (by simp only [Import.isTask] at c; simp [simpleTags] at c ⊢; push_neg at c2; tauto)]
  exact (Except.ok.inj h).symm

/-! ## Process entries -/

theorem importSequenceFlow_procs {pid : String} {e : Xml} {D D' : Diagram} (h : importSequenceFlow pid e D = .ok D') :
    D'.processElements = D.processElements := by
  simp only [importSequenceFlow] at h
  obtain ⟨c, _, h⟩ := except_bind_eq_ok h
  rw [← Except.ok.inj h]
  rfl

theorem importFlows_procs {pid : String} : ∀ {l : List Xml} {D D' : Diagram}, importFlows pid l D = .ok D' → D'.processElements = D.processElements
  | [], D, D', h => by rw [← Except.ok.inj h]
  | x :: r, D, D', h => by
    rw [importFlows] at h
    split at h
    · exact importFlows_procs h
    · obtain ⟨t, _, h⟩ := except_bind_eq_ok h
      split at h
      · obtain ⟨D1, h1, h⟩ := except_bind_eq_ok h
        exact (importFlows_procs h).trans (importSequenceFlow_procs h1)
      · exact importFlows_procs h

mutual
theorem importElement_procs {ord : List String → List String} : ∀ {x : Xml} {pid : String} {o : Owner} {D D' : Diagram},
    importElement ord pid o x D = .ok D' → noProcIds D'.processElements = noProcIds D.processElements
  | .elem t as ks, pid, o, D, D', h => by
    rw [importElement] at h
    split at h
    · obtain ⟨D1, h1, h⟩ := except_bind_eq_ok h
      obtain ⟨D2, h2, h⟩ := except_bind_eq_ok h
      rw [importFlows_procs h, importElements_procs h2]
      exact (importActivity_step h1).procs
    · have := importSimple_step h
      split at this
      · exact this.procs
      · rw [this]
  | .text _, pid, o, D, D', h => by rw [importElement] at h; rw [← Except.ok.inj h]
  | .other _, pid, o, D, D', h => by rw [importElement] at h; cases h
theorem importElements_procs {ord : List String → List String} : ∀ {l : List Xml} {pid : String} {o : Owner} {D D' : Diagram},
    importElements ord pid o l D = .ok D' → noProcIds D'.processElements = noProcIds D.processElements
  | [], pid, o, D, D', h => by rw [importElements] at h; rw [← Except.ok.inj h]
  | x :: r, pid, o, D, D', h => by
    rw [importElements] at h
    obtain ⟨D1, h1, h⟩ := except_bind_eq_ok h
    exact (importElements_procs h).trans (importElement_procs h1)
end

theorem importCollabKids_procs : ∀ {l : List Xml} {D : Diagram} {c : Collab} {r : Diagram × Collab}, importCollabKids l D c = .ok r →
    r.1.processElements = D.processElements
  | [], D, c, r, h => by rw [importCollabKids] at h; rw [← Except.ok.inj h]
  | x :: l, D, c, r, h => by
    rw [importCollabKids] at h
    split at h
    · exact importCollabKids_procs h
    · obtain ⟨t, _, h⟩ := except_bind_eq_ok h
      split at h
      · rw [importCollabKids_procs h]
        split <;> rfl
      · split at h
        · rw [importCollabKids_procs h]
          rfl
        · exact importCollabKids_procs h

theorem importFirstCollaboration_procs {l : List Xml} {D D' : Diagram} (h : importFirstCollaboration l D = .ok D') :
    D'.processElements = D.processElements := by
  cases l with
  | nil => rw [importFirstCollaboration] at h; rw [← Except.ok.inj h]
  | cons c r =>
    simp only [importFirstCollaboration, importCollaboration] at h
    obtain ⟨⟨D1, c1⟩, h1, h⟩ := except_bind_eq_ok h
    have := importCollabKids_procs h1
    rw [← Except.ok.inj h]
    exact this

theorem importShape_procs {e : Xml} {D D' : Diagram} (h : importShape e D = .ok D') : D'.processElements = D.processElements := by
  simp only [importShape] at h
  obtain ⟨b, _, h⟩ := except_bind_eq_ok h
  obtain ⟨D1, h1, h⟩ := except_bind_eq_ok h
  have h2 : D1.processElements = D.processElements := by
    simp only [importNodeShape] at h1
    split at h1
    · rw [← Except.ok.inj h1]
    · obtain ⟨ty, _, h1⟩ := except_bind_eq_ok h1
      rw [← Except.ok.inj h1]
      rfl
  split at h
  · rw [← Except.ok.inj h, h2]
  · rw [← Except.ok.inj h]
    exact h2

theorem importFlowDi_procs {e : Xml} {D D' : Diagram} (h : importFlowDi e D = .ok D') : D'.processElements = D.processElements := by
  simp only [importFlowDi] at h
  split at h
  · rw [← Except.ok.inj h]
  · split at h
    · rw [← Except.ok.inj h]
    · cases h

theorem importPlane_procs : ∀ {l : List Xml} {D D' : Diagram}, importPlane l D = .ok D' → D'.processElements = D.processElements
  | [], D, D', h => by rw [importPlane] at h; rw [← Except.ok.inj h]
  | x :: l, D, D', h => by
    rw [importPlane] at h
    split at h
    · exact importPlane_procs h
    · obtain ⟨t, _, h⟩ := except_bind_eq_ok h
      split at h
      · obtain ⟨D1, h1, h⟩ := except_bind_eq_ok h
        exact (importPlane_procs h).trans (importShape_procs h1)
      · split at h
        · obtain ⟨D1, h1, h⟩ := except_bind_eq_ok h
          exact (importPlane_procs h).trans (importFlowDi_procs h1)
        · exact importPlane_procs h

/-! ## Lanes -/

/-- No lane has child lanes. -/
def Flat (l : List Lane) : Prop := ∀ x ∈ l, ∀ i n ci c r di, x = .mk i n ci c r di → c = []

/-- Every process of the table has an empty name and no nested lanes. -/
def Plainly (l : Dict String ProcAttrs) : Prop := ∀ p ∈ l, p.2.name = some "" ∧ ∀ s, p.2.laneSet = some s → Flat s.2

theorem plainly_noProcIds (l : Dict String ProcAttrs) : Plainly (noProcIds l) ↔ Plainly l := by
  simp only [Plainly, noProcIds, List.mem_map]
  constructor
  · intro h p hp
    exact h (p.1, { p.2 with nodeIds := none }) ⟨p, hp, rfl⟩
  · rintro h _ ⟨p, hp, rfl⟩
    exact h p hp

/-- No process element has a name, no lane element has a child lane set. -/
def Plain : ElemPred := fun t as kids =>
  (removeNamespace t = "process" → Dict.get? as "name" = none) ∧
  (removeNamespace t = "lane" → ∀ k ∈ kids, removeNamespace k ≠ "childLaneSet")

theorem flat_setLane {l : List Lane} {x : Lane} (h : Flat l) (hx : ∀ i n ci c r di, x = .mk i n ci c r di → c = []) : Flat (setLane l x) := by
  induction l with
  | nil =>
    obtain ⟨i, n, ci, c, r, di⟩ := x
    simp only [setLane, Flat, List.mem_singleton]
    rintro _ rfl
    exact hx
  | cons y r ih =>
    obtain ⟨i, n, ci, c, rf, di⟩ := x
    obtain ⟨i', n', ci', c', rf', di'⟩ := y
    have hr : Flat r := fun z hz => h z (List.mem_cons_of_mem _ hz)
    simp only [setLane]
    split
    · intro z hz
      rcases List.mem_cons.1 hz with rfl | hz
      · exact hx
      · exact hr z hz
    · intro z hz
      rcases List.mem_cons.1 hz with rfl | hz
      · exact h _ (List.mem_cons_self ..)
      · exact ih hr z hz

theorem importLaneKids_flat {plane : Xml} : ∀ {l : List Xml} {acc r : Option String × List Lane × List String},
    (∀ k ∈ xmlTags l, removeNamespace k ≠ "childLaneSet") → acc.2.1 = [] → importLaneKids plane l acc = .ok r → r.2.1 = []
  | [], acc, r, _, ha, h => by rw [importLaneKids] at h; rw [← Except.ok.inj h]; exact ha
  | .text _ :: l, acc, r, hk, ha, h => by rw [importLaneKids] at h; exact importLaneKids_flat (by simpa [xmlTags] using hk) ha h
  | .other _ :: l, acc, r, hk, ha, h => by rw [importLaneKids] at h; cases h
  | .elem t as ks :: l, (ci, c, refs), r, hk, ha, h => by
    simp only [xmlTags, List.mem_cons, forall_eq_or_imp] at hk
    rw [importLaneKids, if_neg hk.1] at h
    split at h
    · obtain ⟨v, _, h⟩ := except_bind_eq_ok h
      exact importLaneKids_flat (acc := (ci, c, refs ++ [v])) hk.2 ha h
    · exact importLaneKids_flat hk.2 ha h

theorem importLane_flat {plane x : Xml} {l : Lane} (hx : AllX Plain x) (ht : ∀ t as ks, x = .elem t as ks → removeNamespace t = "lane")
    (h : importLane plane x = .ok l) : ∀ i n ci c r di, l = .mk i n ci c r di → c = [] := by
  cases x with
  | text s => rw [importLane] at h; cases h; intro t as ks h'; cases h'
  | other s => rw [importLane] at h; cases h; intro t as ks h'; cases h'
  | elem t as ks =>
    rw [importLane] at h
    obtain ⟨⟨ci, c, rf⟩, h1, h⟩ := except_bind_eq_ok h
    have hc := importLaneKids_flat (hx.1.2 (ht t as ks rfl)) rfl h1
    simp only at hc h
    obtain ⟨s, h2, h⟩ := except_bind_eq_ok h
    intro i n ci' c' r' di' he
    cases s with
    | none =>
      simp only at h
      rw [← Except.ok.inj h] at he
      cases he; exact hc
    | some s =>
      simp only at h
      obtain ⟨b, h3, h⟩ := except_bind_eq_ok h
      rw [← Except.ok.inj h] at he
      cases he; exact hc

theorem importLanes_flat {plane : Xml} : ∀ {l : List Xml} {acc r : List Lane}, AllXs Plain l → Flat acc → importLanes plane l acc = .ok r → Flat r
  | [], acc, r, _, ha, h => by rw [importLanes] at h; rw [← Except.ok.inj h]; exact ha
  | .text _ :: l, acc, r, hk, ha, h => by rw [importLanes] at h; exact importLanes_flat hk.2 ha h
  | .other _ :: l, acc, r, hk, ha, h => by rw [importLanes] at h; cases h
  | .elem t as ks :: l, acc, r, hk, ha, h => by
    rw [importLanes] at h
    split at h
    · rename_i hl
      obtain ⟨x, h1, h⟩ := except_bind_eq_ok h
      exact importLanes_flat hk.2 (flat_setLane ha (importLane_flat hk.1 (by intro t' as' ks' e; cases e; exact hl) h1)) h
    · exact importLanes_flat hk.2 ha h

theorem allX_children {P : ElemPred} {x : Xml} (h : AllX P x) : AllXs P x.children := by
  cases x with
  | elem t as ks => exact h.2
  | text s => simp [Xml.children, AllXs]
  | other s => simp [Xml.children, AllXs]

theorem mem_set {κ α : Type} [DecidableEq κ] {d : Dict κ α} {k : κ} {v : α} {p : κ × α} (h : p ∈ d.set k v) : p = (k, v) ∨ p ∈ d := by
  induction d with
  | nil => simp [Dict.set] at h; exact Or.inl h
  | cons q r ih =>
    obtain ⟨a, b⟩ := q
    simp only [Dict.set] at h
    split at h
    · rename_i e
      rcases List.mem_cons.1 h with h | h
      · subst e; exact Or.inl h
      · exact Or.inr (List.mem_cons_of_mem _ h)
    · rcases List.mem_cons.1 h with h | h
      · exact Or.inr (by rw [h]; exact List.mem_cons_self ..)
      · rcases ih h with h | h
        · exact Or.inl h
        · exact Or.inr (List.mem_cons_of_mem _ h)

theorem mem_modify {κ α : Type} [DecidableEq κ] {d : Dict κ α} {k : κ} {f : α → α} {p : κ × α} (h : p ∈ d.modify k f) :
    p ∈ d ∨ ∃ v, (p.1, v) ∈ d ∧ p.2 = f v := by
  induction d with
  | nil => simp [Dict.modify] at h
  | cons q r ih =>
    obtain ⟨a, b⟩ := q
    simp only [Dict.modify] at h
    split at h
    · rename_i e
      rcases List.mem_cons.1 h with h | h
      · exact Or.inr ⟨b, by rw [h]; simp, by rw [h]⟩
      · exact Or.inl (List.mem_cons_of_mem _ h)
    · rcases List.mem_cons.1 h with h | h
      · exact Or.inl (by rw [h]; exact List.mem_cons_self ..)
      · rcases ih h with h | ⟨v, hv, e⟩
        · exact Or.inl (List.mem_cons_of_mem _ h)
        · exact Or.inr ⟨v, List.mem_cons_of_mem _ hv, e⟩

theorem importProcess_plainly {ord : List String → List String} {plane e : Xml} {D D' : Diagram} (he : AllX Plain e)
    (ht : ∃ t as ks, e = .elem t as ks ∧ removeNamespace t = "process") (hD : Plainly D.processElements)
    (h : importProcess ord plane e D = .ok D') : Plainly D'.processElements := by
  obtain ⟨t, as, ks, rfl, ht⟩ := ht
  simp only [importProcess] at h
  obtain ⟨D1, h1, h⟩ := except_bind_eq_ok h
  obtain ⟨D2, h2, h⟩ := except_bind_eq_ok h
  rw [importFlows_procs h, ← plainly_noProcIds, importElements_procs h2, plainly_noProcIds]
  have h0 : Plainly (D.processElements.set ((Xml.elem t as ks).getAttr "id") (processEntry (.elem t as ks))) := by
    intro p hp
    rcases mem_set hp with rfl | hp
    · constructor
      · simp [processEntry, attrOr_elem, he.1.1 ht]
      · intro s hs; cases hs
    · exact hD p hp
  cases hl : (Xml.elem t as ks).byName "laneSet" with
  | nil =>
    rw [hl, importLaneSet] at h1
    rw [← Except.ok.inj h1]
    exact h0
  | cons ls r =>
    rw [hl, importLaneSet] at h1
    obtain ⟨lanes, h3, h1⟩ := except_bind_eq_ok h1
    have hf : Flat lanes := by
      refine importLanes_flat (allX_children (allX_byName "laneSet" he ls ?_).1) ?_ h3
      · rw [hl]; exact List.mem_cons_self ..
      · intro x hx; cases hx
    rw [← Except.ok.inj h1]
    intro p hp
    rcases mem_modify hp with hp | ⟨v, hv, e⟩
    · exact h0 p hp
    · rw [e]
      refine ⟨(h0 _ hv).1, ?_⟩
      intro s hs
      simp only [Option.some.injEq] at hs
      rw [← hs]
      exact hf

theorem importProcesses_plainly {ord : List String → List String} {plane : Xml} : ∀ {l : List Xml} {D D' : Diagram},
    (∀ e ∈ l, AllX Plain e ∧ ∃ t as ks, e = .elem t as ks ∧ removeNamespace t = "process") → Plainly D.processElements →
    importProcesses ord plane l D = .ok D' → Plainly D'.processElements
  | [], D, D', _, hD, h => by rw [importProcesses] at h; rw [← Except.ok.inj h]; exact hD
  | e :: r, D, D', hl, hD, h => by
    rw [importProcesses] at h
    obtain ⟨D1, h1, h⟩ := except_bind_eq_ok h
    have he := hl e (List.mem_cons_self ..)
    exact importProcesses_plainly (fun x hx => hl x (List.mem_cons_of_mem _ hx)) (importProcess_plainly he.1 he.2 hD h1) h

/-- Loading a document without process names and child lane sets. -/
theorem load_plainly {ord : List String → List String} {root : Xml} {D D' : Diagram} (hr : AllX Plain root) (hD : Plainly D.processElements)
    (h : load ord root D = .ok D') : Plainly D'.processElements := by
  simp only [load] at h
  obtain ⟨dg, _, h⟩ := except_bind_eq_ok h
  obtain ⟨pl, _, h⟩ := except_bind_eq_ok h
  obtain ⟨D1, h1, h⟩ := except_bind_eq_ok h
  obtain ⟨D2, h2, h⟩ := except_bind_eq_ok h
  rw [importPlane_procs h, importFirstCollaboration_procs h2]
  exact importProcesses_plainly (D := _) (allXs_byNameIn "process" (show AllXs Plain [root] from ⟨hr, trivial⟩)) (by exact hD) h1

end Bpmn

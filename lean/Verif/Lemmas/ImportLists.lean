import Verif.Lemmas.ImportView
import Verif.Spec.Document
set_option linter.unusedSimpArgs false
set_option linter.unusedVariables false
/-!
# Importing keeps the flow table and the lists of the nodes in step
-/
namespace Bpmn
open Spec Import

theorem outgoingOf_eq (D : Diagram) (m : String) : outgoingOf D m = ((lists D m).bind (·.2)).getD [] := by
  simp only [outgoingOf, lists]
  cases D.graph.nodes.get? m <;> simp

theorem incomingOf_eq (D : Diagram) (m : String) : incomingOf D m = ((lists D m).bind (·.1)).getD [] := by
  simp only [incomingOf, lists]
  cases D.graph.nodes.get? m <;> simp

theorem mem_keys_of_outgoing {D : Diagram} {m i : String} (h : i ∈ outgoingOf D m) : m ∈ D.graph.nodes.keys := by
  by_contra c
  rw [outgoingOf, (Dict.get?_eq_none_iff _ _).2 c] at h
  simp at h

theorem mem_keys_of_incoming {D : Diagram} {m i : String} (h : i ∈ incomingOf D m) : m ∈ D.graph.nodes.keys := by
  by_contra c
  rw [incomingOf, (Dict.get?_eq_none_iff _ _).2 c] at h
  simp at h

/-- A step that adds one new node. -/
theorem NodeStep.inStep {D D' : Diagram} {n : String} (h : NodeStep D D' n) (hn : n ∉ D.graph.nodes.keys) (hD : InStep D) : InStep D' := by
  intro i f hi
  rw [h.table] at hi
  obtain ⟨h1, h2, h3⟩ := hD i f hi
  refine ⟨?_, ?_, ?_⟩
  · rw [outgoingOf_eq, h.other _ (fun e => hn (by rw [← e]; exact mem_keys_of_outgoing h1)), ← outgoingOf_eq]; exact h1
  · rw [incomingOf_eq, h.other _ (fun e => hn (by rw [← e]; exact mem_keys_of_incoming h2)), ← incomingOf_eq]; exact h2
  · rw [Graph.hasEdge, h.edges]; exact h3

/-- The second diagram has the table of the first one, and its lists and edges, possibly with additions. -/
structure Grows (D D' : Diagram) : Prop where
  out : ∀ m i, i ∈ outgoingOf D m → i ∈ outgoingOf D' m
  inc : ∀ m i, i ∈ incomingOf D m → i ∈ incomingOf D' m
  edge : ∀ u v, D.graph.hasEdge u v = true → D'.graph.hasEdge u v = true

theorem Grows.refl (D : Diagram) : Grows D D := ⟨fun _ _ h => h, fun _ _ h => h, fun _ _ h => h⟩

theorem Grows.trans {A B C : Diagram} (h : Grows A B) (k : Grows B C) : Grows A C :=
  ⟨fun m i x => k.out m i (h.out m i x), fun m i x => k.inc m i (h.inc m i x), fun u v x => k.edge u v (h.edge u v x)⟩

theorem Grows.inStep {D D' : Diagram} (h : Grows D D') (ht : D'.sequenceFlows = D.sequenceFlows) (hD : InStep D) : InStep D' := by
  intro i f hi
  rw [ht] at hi
  obtain ⟨h1, h2, h3⟩ := hD i f hi
  exact ⟨h.out _ _ h1, h.inc _ _ h2, h.edge _ _ h3⟩

/-- Changing a node without shortening its lists. -/
theorem Grows.updNode (D : Diagram) (n : String) {f : NodeAttrs → NodeAttrs} (ho : ∀ a, ∀ i ∈ a.outgoing.getD [], i ∈ (f a).outgoing.getD [])
    (hi : ∀ a, ∀ i ∈ a.incoming.getD [], i ∈ (f a).incoming.getD []) : Grows D (D.updNode n f) where
  out := by
    intro m i h
    simp only [outgoingOf, Diagram.updNode, Graph.modifyNode, Dict.get?_modify] at h ⊢
    split
    · cases hx : D.graph.nodes.get? m with
      | none => simp [hx] at h
      | some a => simp only [hx, Option.map_some, Option.bind_some] at h ⊢; exact ho a i h
    · exact h
  inc := by
    intro m i h
    simp only [incomingOf, Diagram.updNode, Graph.modifyNode, Dict.get?_modify] at h ⊢
    split
    · cases hx : D.graph.nodes.get? m with
      | none => simp [hx] at h
      | some a => simp only [hx, Option.map_some, Option.bind_some] at h ⊢; exact hi a i h
    · exact h
  edge := fun _ _ h => h

theorem outgoingOf_addNode (D : Diagram) (n m : String) : outgoingOf { D with graph := D.graph.addNode n } m = outgoingOf D m := by
  simp only [outgoingOf]
  by_cases c : m = n
  · subst c
    rw [get?_addNode_self]
    cases D.graph.nodes.get? m <;> simp
  · rw [get?_addNode_ne _ c]

theorem incomingOf_addNode (D : Diagram) (n m : String) : incomingOf { D with graph := D.graph.addNode n } m = incomingOf D m := by
  simp only [incomingOf]
  by_cases c : m = n
  · subst c
    rw [get?_addNode_self]
    cases D.graph.nodes.get? m <;> simp
  · rw [get?_addNode_ne _ c]

theorem Grows.addNode (D : Diagram) (n : String) : Grows D { D with graph := D.graph.addNode n } where
  out := by intro m i h; rwa [outgoingOf_addNode]
  inc := by intro m i h; rwa [incomingOf_addNode]
  edge := by intro u v h; rw [Graph.hasEdge, Graph.addNode_edges]; exact h

/-- Making an edge between two nodes and describing it. -/
theorem Grows.edgeMade (D : Diagram) (s t : String) (f : EdgeAttrs → EdgeAttrs) :
    Grows D { D with graph := (D.graph.addEdge s t).modifyEdge s t f } := by
  have h1 := (Grows.addNode D s).trans (Grows.addNode { D with graph := D.graph.addNode s } t)
  have hn : ((D.graph.addEdge s t).modifyEdge s t f).nodes = ((D.graph.addNode s).addNode t).nodes := by
    rw [Graph.modifyEdge_nodes, Graph.addEdge_nodes]
  refine ⟨?_, ?_, ?_⟩
  · intro m i h
    have := h1.out m i h
    simp only [outgoingOf] at this ⊢
    rw [hn]; exact this
  · intro m i h
    have := h1.inc m i h
    simp only [incomingOf] at this ⊢
    rw [hn]; exact this
  · intro u v h
    obtain ⟨e, he, hj⟩ := (Graph.hasEdge_iff _ _ _).1 h
    have h2 : e ∈ (D.graph.addEdge s t).edges := by
      rw [Graph.addEdge_edges]
      split
      · exact he
      · exact List.mem_append_left _ he
    rw [Graph.hasEdge_iff]
    simp only [Graph.modifyEdge, List.mem_map]
    refine ⟨_, ⟨e, h2, rfl⟩, ?_⟩
    split
    · exact hj
    · exact hj

theorem hasEdge_edgeMade (g : Graph) (s t : String) (f : EdgeAttrs → EdgeAttrs) : ((g.addEdge s t).modifyEdge s t f).hasEdge s t = true := by
  have : (g.addEdge s t).hasEdge s t = true := by
    rw [Graph.hasEdge_iff, Graph.addEdge_edges]
    split
    · rename_i h
      exact (Graph.hasEdge_iff _ _ _).1 h
    · exact ⟨_, List.mem_append_right _ (List.mem_singleton.2 rfl), by simp [Edge.joins]⟩
  obtain ⟨e, he, hj⟩ := (Graph.hasEdge_iff _ _ _).1 this
  rw [Graph.hasEdge_iff]
  simp only [Graph.modifyEdge, List.mem_map]
  refine ⟨_, ⟨e, he, rfl⟩, ?_⟩
  split <;> exact hj

theorem mem_addOnce (l : Option (List String)) (i j : String) : j ∈ addOnce l i ↔ j = i ∨ j ∈ l.getD [] := by
  simp only [addOnce]
  split
  · rename_i h
    constructor
    · exact Or.inr
    · rintro (rfl | h') <;> assumption
  · simp [or_comm]

theorem Grows.linkEnds (id src tgt : String) (D : Diagram) : Grows D (linkEnds id src tgt D) := by
  refine (Grows.updNode D src ?_ ?_).trans (Grows.updNode _ tgt ?_ ?_)
  · intro a i h; simp only [Option.getD_some]; exact (mem_addOnce _ _ _).2 (Or.inr h)
  · intro a i h; exact h
  · intro a i h; exact h
  · intro a i h; simp only [Option.getD_some]; exact (mem_addOnce _ _ _).2 (Or.inr h)

theorem keys_linkEnds (id src tgt : String) (D : Diagram) : (linkEnds id src tgt D).graph.nodes.keys = D.graph.nodes.keys := by
  simp [linkEnds, Diagram.updNode]

theorem linkEnds_listed (id src tgt : String) (D : Diagram) (hs : src ∈ D.graph.nodes.keys) (ht : tgt ∈ D.graph.nodes.keys) :
    id ∈ outgoingOf (linkEnds id src tgt D) src ∧ id ∈ incomingOf (linkEnds id src tgt D) tgt := by
  obtain ⟨a, ha⟩ := Option.isSome_iff_exists.1 ((Dict.get?_isSome_iff _ _).2 hs)
  obtain ⟨b, hb⟩ := Option.isSome_iff_exists.1 ((Dict.get?_isSome_iff _ _).2 ht)
  constructor
  · simp only [outgoingOf, linkEnds, Diagram.updNode, Graph.modifyNode, Dict.get?_modify, ha]
    split <;> simp [mem_addOnce]
  · simp only [incomingOf, linkEnds, Diagram.updNode, Graph.modifyNode, Dict.get?_modify, hb]
    by_cases c : src = tgt <;> simp [c, mem_addOnce]

theorem importSequenceFlow_inStep {pid : String} {e : Xml} {D D' : Diagram} (h : importSequenceFlow pid e D = .ok D')
    (hs : e.getAttr "sourceRef" ∈ D.graph.nodes.keys) (ht : e.getAttr "targetRef" ∈ D.graph.nodes.keys) (hD : InStep D) :
    InStep D' ∧ D'.graph.nodes.keys = D.graph.nodes.keys := by
  simp only [importSequenceFlow] at h
  obtain ⟨c, _, h⟩ := except_bind_eq_ok h
  rw [← Except.ok.inj h]
  generalize e.getAttr "id" = id at *
  generalize e.getAttr "sourceRef" = src at *
  generalize e.getAttr "targetRef" = tgt at *
  generalize e.attrOr "name" "" = name at *
  have hn : ∀ f, ((D.graph.addEdge src tgt).modifyEdge src tgt f).nodes = D.graph.nodes := by
    intro f
    rw [Graph.modifyEdge_nodes, Graph.addEdge_nodes, Graph.addNode_of_mem hs, Graph.addNode_of_mem ht]
  have key : ∀ F : EdgeAttrs → EdgeAttrs, InStep (linkEnds id src tgt
      { D with sequenceFlows := D.sequenceFlows.set id ⟨name, src, tgt⟩, graph := (D.graph.addEdge src tgt).modifyEdge src tgt F }) := by
    intro F i f hi
    have hi' : (D.sequenceFlows.set id ⟨name, src, tgt⟩).get? i = some f := hi
    rw [Dict.get?_set] at hi'
    split at hi'
    · rename_i e
      subst e
      cases hi'
      have hl := linkEnds_listed id src tgt
        { D with sequenceFlows := D.sequenceFlows.set id ⟨name, src, tgt⟩, graph := (D.graph.addEdge src tgt).modifyEdge src tgt F }
        (by simp only [hn]; exact hs) (by simp only [hn]; exact ht)
      exact ⟨hl.1, hl.2, (Grows.linkEnds id src tgt _).edge _ _ (hasEdge_edgeMade D.graph src tgt F)⟩
    · obtain ⟨h1, h2, h3⟩ := hD i f hi'
      have g := (Grows.edgeMade { D with sequenceFlows := D.sequenceFlows.set id ⟨name, src, tgt⟩ } src tgt F).trans
        (Grows.linkEnds id src tgt _)
      exact ⟨g.out _ _ h1, g.inc _ _ h2, g.edge _ _ h3⟩
  constructor
  · exact key _
  · rw [keys_linkEnds]
    simp only [hn]

theorem importFlows_inStep {pid : String} : ∀ {l : List Xml} {D D' : Diagram}, importFlows pid l D = .ok D' →
    (∀ x ∈ l, IsNamed "sequenceFlow" x → x.getAttr "sourceRef" ∈ D.graph.nodes.keys ∧ x.getAttr "targetRef" ∈ D.graph.nodes.keys) → InStep D →
    InStep D' ∧ D'.graph.nodes.keys = D.graph.nodes.keys
  | [], D, D', h, _, hD => by rw [← Except.ok.inj h]; exact ⟨hD, rfl⟩
  | x :: r, D, D', h, hl, hD => by
    have hr := fun y hy => hl y (List.mem_cons_of_mem _ hy)
    rw [importFlows] at h
    split at h
    · exact importFlows_inStep h hr hD
    · obtain ⟨t, htag, h⟩ := except_bind_eq_ok h
      split at h
      · rename_i c
        obtain ⟨D1, h1, h⟩ := except_bind_eq_ok h
        have hx : IsNamed "sequenceFlow" x := by
          cases x with
          | elem t' as ks => simp only [Xml.tagName] at htag; cases htag; exact ⟨_, _, _, rfl, c⟩
          | text s => cases htag
          | other s => cases htag
        have := hl x (List.mem_cons_self ..) hx
        obtain ⟨i1, k1⟩ := importSequenceFlow_inStep h1 this.1 this.2 hD
        obtain ⟨i2, k2⟩ := importFlows_inStep h (by rw [k1]; exact hr) i1
        exact ⟨i2, k2.trans k1⟩
      · exact importFlows_inStep h hr hD

theorem simpleTags_iff (t : String) (h : t ≠ "subProcess") : t ∈ simpleTags ↔ t ∈ nodeTags := by
  simp [simpleTags, nodeTags, h]

mutual
theorem importElement_inStep {ord : List String → List String} : ∀ {x : Xml} {pid : String} {o : Owner} {D D' : Diagram},
    importElement ord pid o x D = .ok D' → LocalIn x → (nodeIdsIn x).Nodup → (∀ i ∈ nodeIdsIn x, i ∉ D.graph.nodes.keys) → InStep D →
    InStep D' ∧ ∀ k, k ∈ D'.graph.nodes.keys ↔ k ∈ nodeIdsIn x ∨ k ∈ D.graph.nodes.keys
  | .elem t as ks, pid, o, D, D', h, hl, hn, hf, hD => by
    rw [importElement] at h
    split at h
    · rename_i ct
      have hi : nodeIdsIn (.elem t as ks) = (Xml.elem t as ks).getAttr "id" :: nodeIdsAll ks := by
        rw [nodeIdsIn, if_pos (by rw [ct]; decide), if_pos ct]
      rw [hi] at hn hf ⊢
      rw [LocalIn] at hl
      obtain ⟨D1, h1, h⟩ := except_bind_eq_ok h
      obtain ⟨D2, h2, h⟩ := except_bind_eq_ok h
      have s1 := (importActivity_step h1).updNode fun a =>
        { a with triggeredByEvent := some ((Xml.elem t as ks).attrOr "triggeredByEvent" "false"), nodeIds := some [] }
      have i1 := s1.inStep (hf _ (List.mem_cons_self ..)) hD
      obtain ⟨i2, k2⟩ := importElements_inStep h2 (hl ct).2 (List.nodup_cons.1 hn).2 (by
        intro i hi
        rw [s1.keys]
        rintro (rfl | hk)
        · exact (List.nodup_cons.1 hn).1 hi
        · exact hf i (List.mem_cons_of_mem _ hi) hk) i1
      obtain ⟨i3, k3⟩ := importFlows_inStep h (by
        intro x hx hn
        have := (hl ct).1 x hx hn
        exact ⟨(k2 _).2 (Or.inl this.1), (k2 _).2 (Or.inl this.2)⟩) i2
      refine ⟨i3, ?_⟩
      intro k
      rw [k3, k2, s1.keys, List.mem_cons]
      tauto
    · rename_i ct
      have hs := importSimple_step h
      by_cases c : removeNamespace t ∈ nodeTags
      · rw [if_pos ((simpleTags_iff _ ct).2 c)] at hs
        have hi : nodeIdsIn (.elem t as ks) = [(Xml.elem t as ks).getAttr "id"] := by rw [nodeIdsIn, if_pos c, if_neg ct]
        rw [hi] at hf ⊢
        refine ⟨hs.inStep (hf _ (List.mem_singleton.2 rfl)) hD, ?_⟩
        intro k
        rw [hs.keys, List.mem_singleton]
      · rw [if_neg (fun h => c ((simpleTags_iff _ ct).1 h))] at hs
        subst hs
        rw [nodeIdsIn, if_neg c]
        exact ⟨hD, by simp⟩
  | .text _, pid, o, D, D', h, _, _, _, hD => by rw [importElement] at h; rw [← Except.ok.inj h]; exact ⟨hD, by simp [nodeIdsIn]⟩
  | .other _, pid, o, D, D', h, _, _, _, hD => by rw [importElement] at h; cases h
theorem importElements_inStep {ord : List String → List String} : ∀ {l : List Xml} {pid : String} {o : Owner} {D D' : Diagram},
    importElements ord pid o l D = .ok D' → LocalAll l → (nodeIdsAll l).Nodup → (∀ i ∈ nodeIdsAll l, i ∉ D.graph.nodes.keys) → InStep D →
    InStep D' ∧ ∀ k, k ∈ D'.graph.nodes.keys ↔ k ∈ nodeIdsAll l ∨ k ∈ D.graph.nodes.keys
  | [], pid, o, D, D', h, _, _, _, hD => by rw [importElements] at h; rw [← Except.ok.inj h]; exact ⟨hD, by simp [nodeIdsAll]⟩
  | x :: r, pid, o, D, D', h, hl, hn, hf, hD => by
    rw [importElements] at h
    obtain ⟨D1, h1, h⟩ := except_bind_eq_ok h
    rw [nodeIdsAll] at hn hf ⊢
    rw [LocalAll] at hl
    obtain ⟨n1, n2, n3⟩ := List.nodup_append.1 hn
    obtain ⟨i1, k1⟩ := importElement_inStep h1 hl.1 n1 (fun i hi => hf i (List.mem_append_left _ hi)) hD
    obtain ⟨i2, k2⟩ := importElements_inStep h hl.2 n2 (by
      intro i hi
      rw [k1]
      rintro (h' | h')
      · exact n3 _ h' _ hi rfl
      · exact hf i (List.mem_append_right _ hi) h') i1
    refine ⟨i2, ?_⟩
    intro k
    rw [k2, k1, List.mem_append]
    tauto
end

theorem importProcess_inStep {ord : List String → List String} {plane e : Xml} {D D' : Diagram} (h : importProcess ord plane e D = .ok D')
    (hl : FlowsLocal e.children ∧ LocalAll e.children) (hn : (nodeIdsAll e.children).Nodup)
    (hf : ∀ i ∈ nodeIdsAll e.children, i ∉ D.graph.nodes.keys) (hD : InStep D) :
    InStep D' ∧ ∀ k, k ∈ D'.graph.nodes.keys ↔ k ∈ nodeIdsAll e.children ∨ k ∈ D.graph.nodes.keys := by
  simp only [importProcess] at h
  obtain ⟨D1, h1, h⟩ := except_bind_eq_ok h
  obtain ⟨D2, h2, h⟩ := except_bind_eq_ok h
  have hs : D1.graph = D.graph ∧ D1.sequenceFlows = D.sequenceFlows := by
    cases hb : e.byName "laneSet" with
    | nil => rw [hb, importLaneSet] at h1; rw [← Except.ok.inj h1]; exact ⟨rfl, rfl⟩
    | cons ls r =>
      rw [hb, importLaneSet] at h1
      obtain ⟨lanes, _, h1⟩ := except_bind_eq_ok h1
      rw [← Except.ok.inj h1]; exact ⟨rfl, rfl⟩
  have i0 : InStep D1 := by
    intro i f hi
    rw [hs.2] at hi
    simp only [outgoingOf, incomingOf, hs.1]
    exact hD i f hi
  obtain ⟨i1, k1⟩ := importElements_inStep h2 hl.2 hn (by rw [hs.1]; exact hf) i0
  obtain ⟨i2, k2⟩ := importFlows_inStep h (by
    intro x hx hn
    have := hl.1 x hx hn
    exact ⟨(k1 _).2 (Or.inl this.1), (k1 _).2 (Or.inl this.2)⟩) i1
  refine ⟨i2, ?_⟩
  intro k
  rw [k2, k1, hs.1]

theorem importProcesses_inStep {ord : List String → List String} {plane : Xml} : ∀ {l : List Xml} {D D' : Diagram},
    importProcesses ord plane l D = .ok D' → (∀ p ∈ l, FlowsLocal p.children ∧ LocalAll p.children) →
    (l.flatMap fun p => nodeIdsAll p.children).Nodup → (∀ i ∈ l.flatMap fun p => nodeIdsAll p.children, i ∉ D.graph.nodes.keys) → InStep D → InStep D'
  | [], D, D', h, _, _, _, hD => by rw [importProcesses] at h; rw [← Except.ok.inj h]; exact hD
  | e :: r, D, D', h, hl, hn, hf, hD => by
    rw [importProcesses] at h
    obtain ⟨D1, h1, h⟩ := except_bind_eq_ok h
    rw [List.flatMap_cons] at hn hf
    obtain ⟨n1, n2, n3⟩ := List.nodup_append.1 hn
    obtain ⟨i1, k1⟩ := importProcess_inStep h1 (hl e (List.mem_cons_self ..)) n1 (fun i hi => hf i (List.mem_append_left _ hi)) hD
    refine importProcesses_inStep h (fun p hp => hl p (List.mem_cons_of_mem _ hp)) n2 ?_ i1
    intro i hi
    rw [k1]
    rintro (h' | h')
    · exact n3 _ h' _ hi rfl
    · exact hf i (List.mem_append_right _ hi) h'

theorem importCollabKids_grows : ∀ {l : List Xml} {D : Diagram} {c : Collab} {r : Diagram × Collab}, importCollabKids l D c = .ok r →
    Grows D r.1 ∧ r.1.sequenceFlows = D.sequenceFlows
  | [], D, c, r, h => by rw [importCollabKids] at h; rw [← Except.ok.inj h]; exact ⟨Grows.refl _, rfl⟩
  | x :: l, D, c, r, h => by
    rw [importCollabKids] at h
    split at h
    · exact importCollabKids_grows h
    · obtain ⟨t, _, h⟩ := except_bind_eq_ok h
      split at h
      · obtain ⟨g, ht⟩ := importCollabKids_grows h
        by_cases c : x.getAttr "processRef" = ""
        · rw [if_pos c] at g ht
          refine ⟨((Grows.addNode D _).trans (Grows.updNode _ _ ?_ ?_)).trans g, ht⟩ <;> exact fun _ _ h => h
        · rw [if_neg c] at g ht
          exact ⟨g, ht⟩
      · split at h
        · obtain ⟨g, ht⟩ := importCollabKids_grows h
          exact ⟨((Grows.edgeMade D _ _ _).trans (Grows.linkEnds _ _ _ _)).trans g, ht⟩
        · exact importCollabKids_grows h

theorem importFirstCollaboration_grows {l : List Xml} {D D' : Diagram} (h : importFirstCollaboration l D = .ok D') :
    Grows D D' ∧ D'.sequenceFlows = D.sequenceFlows := by
  cases l with
  | nil => rw [importFirstCollaboration] at h; rw [← Except.ok.inj h]; exact ⟨Grows.refl _, rfl⟩
  | cons c r =>
    simp only [importFirstCollaboration, importCollaboration] at h
    obtain ⟨⟨D1, c1⟩, h1, h⟩ := except_bind_eq_ok h
    obtain ⟨g, ht⟩ := importCollabKids_grows h1
    rw [← Except.ok.inj h]
    exact ⟨⟨g.out, g.inc, g.edge⟩, ht⟩

theorem importShape_grows {e : Xml} {D D' : Diagram} (h : importShape e D = .ok D') : Grows D D' ∧ D'.sequenceFlows = D.sequenceFlows := by
  simp only [importShape] at h
  obtain ⟨b, _, h⟩ := except_bind_eq_ok h
  obtain ⟨D1, h1, h⟩ := except_bind_eq_ok h
  have h2 : Grows D D1 ∧ D1.sequenceFlows = D.sequenceFlows := by
    simp only [importNodeShape] at h1
    split at h1
    · rw [← Except.ok.inj h1]; exact ⟨Grows.refl _, rfl⟩
    · obtain ⟨ty, _, h1⟩ := except_bind_eq_ok h1
      rw [← Except.ok.inj h1]
      exact ⟨Grows.updNode _ _ (fun _ _ h => h) (fun _ _ h => h), rfl⟩
  split at h
  · rw [← Except.ok.inj h]; exact h2
  · rw [← Except.ok.inj h]
    exact ⟨⟨h2.1.out, h2.1.inc, h2.1.edge⟩, h2.2⟩

theorem hasEdge_modifyEdge (g : Graph) (s t u v : String) (f : EdgeAttrs → EdgeAttrs) : (g.modifyEdge s t f).hasEdge u v = g.hasEdge u v := by
  simp only [Graph.hasEdge, Graph.modifyEdge, List.any_map]
  congr 1
  funext e
  simp only [Function.comp]
  split <;> rfl

theorem importFlowDi_grows {e : Xml} {D D' : Diagram} (h : importFlowDi e D = .ok D') : Grows D D' ∧ D'.sequenceFlows = D.sequenceFlows := by
  simp only [importFlowDi] at h
  split at h
  · rw [← Except.ok.inj h]; exact ⟨Grows.refl _, rfl⟩
  · split at h
    · rw [← Except.ok.inj h]
      exact ⟨⟨fun _ _ h => h, fun _ _ h => h, fun u v h => by rw [hasEdge_modifyEdge]; exact h⟩, rfl⟩
    · cases h

theorem importPlane_grows : ∀ {l : List Xml} {D D' : Diagram}, importPlane l D = .ok D' → Grows D D' ∧ D'.sequenceFlows = D.sequenceFlows
  | [], D, D', h => by rw [importPlane] at h; rw [← Except.ok.inj h]; exact ⟨Grows.refl _, rfl⟩
  | x :: l, D, D', h => by
    rw [importPlane] at h
    split at h
    · exact importPlane_grows h
    · obtain ⟨t, _, h⟩ := except_bind_eq_ok h
      split at h
      · obtain ⟨D1, h1, h⟩ := except_bind_eq_ok h
        obtain ⟨g1, t1⟩ := importShape_grows h1
        obtain ⟨g2, t2⟩ := importPlane_grows h
        exact ⟨g1.trans g2, t2.trans t1⟩
      · split at h
        · obtain ⟨D1, h1, h⟩ := except_bind_eq_ok h
          obtain ⟨g1, t1⟩ := importFlowDi_grows h1
          obtain ⟨g2, t2⟩ := importPlane_grows h
          exact ⟨g1.trans g2, t2.trans t1⟩
        · exact importPlane_grows h

theorem load_inStep {ord : List String → List String} {root : Xml} {D D' : Diagram} (h : load ord root D = .ok D') (hw : WellPlaced root)
    (hf : ∀ p ∈ Xml.byNameIn "process" [root], ∀ i ∈ nodeIdsAll p.children, i ∉ D.graph.nodes.keys) (hD : InStep D) : InStep D' := by
  simp only [load] at h
  obtain ⟨dg, _, h⟩ := except_bind_eq_ok h
  obtain ⟨pl, _, h⟩ := except_bind_eq_ok h
  obtain ⟨D1, h1, h⟩ := except_bind_eq_ok h
  obtain ⟨D2, h2, h⟩ := except_bind_eq_ok h
  have i1 : InStep D1 := by
    refine importProcesses_inStep h1 hw.flows hw.distinct ?_ ?_
    · intro i hi
      obtain ⟨p, hp, hi⟩ := List.mem_flatMap.1 hi
      exact hf p hp i hi
    · exact hD
  obtain ⟨g2, t2⟩ := importFirstCollaboration_grows h2
  obtain ⟨g3, t3⟩ := importPlane_grows h
  exact (g2.trans g3).inStep (t3.trans t2) i1

end Bpmn

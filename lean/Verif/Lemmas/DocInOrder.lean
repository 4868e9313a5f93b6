import Verif.Spec.DocInOrder
import Verif.Props.SavedAgain
/-!
# Documents in order: what is loaded from them is complete
-/
set_option linter.unusedSimpArgs false
set_option linter.unusedVariables false
namespace Bpmn.Import
open Bpmn Spec Props

/-! ## Flows and their containers -/

mutual
theorem flowElements_inside {c : String} : ∀ {x : Xml} {f : FlowEl}, f ∈ flowElements x →
    ∃ r ∈ nodeElements c x, localTag r.2 = "subProcess" ∧ f.1 = some (r.2.getAttr "id")
  | .text _, f, h => by simp [flowElements] at h
  | .other _, f, h => by simp [flowElements] at h
  | .elem t as ks, f, h => by
    rw [flowElements] at h
    by_cases hs : removeNamespace t = "subProcess"
    · rw [if_pos hs] at h
      have ht : removeNamespace t ∈ nodeTags := by rw [hs]; decide
      rw [nodeElements, if_pos ht, if_pos hs]
      rcases List.mem_append.1 h with h | h
      · obtain ⟨r, hr, h1⟩ := flowElementsAll_inside (c := (Xml.elem t as ks).getAttr "id") h
        exact ⟨r, List.mem_cons_of_mem _ hr, h1⟩
      · obtain ⟨x, -, rfl⟩ := List.mem_map.1 h
        exact ⟨_, List.mem_cons_self, hs, rfl⟩
    · rw [if_neg hs] at h
      simp at h
theorem flowElementsAll_inside {c : String} : ∀ {l : List Xml} {f : FlowEl}, f ∈ flowElementsAll l →
    ∃ r ∈ nodeElementsAll c l, localTag r.2 = "subProcess" ∧ f.1 = some (r.2.getAttr "id")
  | [], f, h => by simp [flowElementsAll] at h
  | x :: l, f, h => by
    rw [flowElementsAll, List.mem_append] at h
    rw [nodeElementsAll]
    rcases h with h | h
    · obtain ⟨r, hr, h1⟩ := flowElements_inside (c := c) h
      exact ⟨r, List.mem_append_left _ hr, h1⟩
    · obtain ⟨r, hr, h1⟩ := flowElementsAll_inside (c := c) h
      exact ⟨r, List.mem_append_right _ hr, h1⟩
end

theorem sequence_inside {root : Xml} {f : FlowEl} (h : f ∈ sequenceFlowElements root) :
    (∃ p ∈ Xml.byNameIn "process" [root], f.1 = some (p.getAttr "id")) ∨
    ∃ r ∈ allNodeElements root, localTag r.2 = "subProcess" ∧ f.1 = some (r.2.getAttr "id") := by
  obtain ⟨p, hp, h⟩ := List.mem_flatMap.1 h
  rcases List.mem_append.1 h with h | h
  · obtain ⟨r, hr, h1⟩ := flowElementsAll_inside (c := p.getAttr "id") h
    exact .inr ⟨r, List.mem_flatMap.2 ⟨p, hp, hr⟩, h1⟩
  · obtain ⟨x, -, rfl⟩ := List.mem_map.1 h
    exact .inl ⟨p, hp, rfl⟩

theorem sequence_some {root : Xml} {f : FlowEl} (h : f ∈ sequenceFlowElements root) : f.1.isSome := by
  rcases sequence_inside h with ⟨p, -, e⟩ | ⟨p, -, -, e⟩ <;> rw [e] <;> rfl

/-! ## Message flows are listed -/

theorem mem_addOnce (l : Option (List String)) (i : String) : i ∈ addOnce l i := by
  unfold addOnce
  by_cases h : i ∈ l.getD []
  · simp [h]
  · simp [h]

theorem split_message {j s t : String} : ∀ {l : List Xml}, (j, s, t) ∈ endsWithId "messageFlow" l → ∃ pre post, collabEvs l = pre ++ .flow j s t :: post
  | [], h => by simp [endsWithId] at h
  | .text _ :: r, h => by
    obtain ⟨pre, post, e⟩ := split_message (l := r) (by simpa [endsWithId] using h)
    exact ⟨pre, post, by simpa [collabEvs] using e⟩
  | .other _ :: r, h => by
    obtain ⟨pre, post, e⟩ := split_message (l := r) (by simpa [endsWithId] using h)
    exact ⟨pre, post, by simpa [collabEvs] using e⟩
  | .elem tg as ks :: r, h => by
    rw [endsWithId, List.mem_append] at h
    by_cases hr : (j, s, t) ∈ endsWithId "messageFlow" r
    · obtain ⟨pre, post, e⟩ := split_message hr
      rw [collabEvs, e, ← List.append_assoc]
      exact ⟨_, _, rfl⟩
    · have h := h.resolve_right hr
      split at h
      · rename_i c
        rw [List.mem_singleton] at h
        cases h
        refine ⟨[], collabEvs r, ?_⟩
        rw [collabEvs]
        simp [c]
      · simp at h

/-- A flow is listed at its ends, unless they are described after it. -/
theorem load_listed {ord : List String → List String} {root : Xml} {E : Diagram} (h : load ord root {} = .ok E) {pre post : List Ev} {j s t : String}
    (e : allEvs root = pre ++ .flow j s t :: post) (hs : s ∈ E.graph.nodes.keys) (ht : t ∈ E.graph.nodes.keys) :
    (s ∉ evIds post → ∃ a l, E.graph.nodes.get? s = some a ∧ a.outgoing = some l ∧ j ∈ l) ∧
    (t ∉ evIds post → ∃ a l, E.graph.nodes.get? t = some a ∧ a.incoming = some l ∧ j ∈ l) := by
  obtain ⟨diagram, plane, D, h1, h2, ⟨h3, -⟩, h4⟩ := load_view h
  obtain ⟨v, kk⟩ := importPlane_view h4
  have main : ∀ n, n ∈ E.graph.nodes.keys → n ∉ evIds post → ∃ a, E.graph.nodes.get? n = some a ∧
      (n = s → ∃ l, a.outgoing = some l ∧ j ∈ l) ∧ (n = t → ∃ l, a.incoming = some l ∧ j ∈ l) := by
    intro n hn hp
    obtain ⟨a, ha⟩ := Option.isSome_iff_exists.1 ((Dict.get?_isSome_iff E.graph.nodes _).2 hn)
    refine ⟨a, ha, ?_⟩
    have e3 : view E n = a := by simp [view, ha]
    rw [v _ (by rw [← kk]; exact hn), h3, e, List.foldl_append, List.foldl_cons] at e3
    generalize List.foldl (Ev.apply ord n) (view {} n) pre = b at e3
    obtain ⟨i, o, h5, h6, h7⟩ := fold_rest ord n post (Ev.apply ord n b (.flow j s t)) hp
    rw [h5, foldl_draw] at e3
    have hio : a.incoming = i ∧ a.outgoing = o := by
      rw [← e3]
      generalize (plane.children.filter fun x => localTag x == "BPMNShape" && x.getAttr "bpmnElement" == n).getLast? = w
      cases w <;> exact ⟨rfl, rfl⟩
    rw [hio.1, hio.2]
    constructor
    · rintro rfl
      obtain ⟨m, hm, -⟩ := h7 (addOnce b.outgoing j) (by simp only [Ev.apply, if_pos]; split <;> rfl)
      exact ⟨_, hm, List.mem_append_left _ (mem_addOnce _ _)⟩
    · rintro rfl
      obtain ⟨m, hm, -⟩ := h6 (addOnce b.incoming j) (by
        simp only [Ev.apply, if_pos]
        split <;> rfl)
      exact ⟨_, hm, List.mem_append_left _ (mem_addOnce _ _)⟩
  constructor
  · intro hp
    obtain ⟨a, h8, h9, -⟩ := main s hs hp
    obtain ⟨l, h9⟩ := h9 rfl
    exact ⟨a, l, h8, h9⟩
  · intro hp
    obtain ⟨a, h8, -, h9⟩ := main t ht hp
    obtain ⟨l, h9⟩ := h9 rfl
    exact ⟨a, l, h8, h9⟩

/-- Id and ends of a flow element. -/
abbrev triple (x : Xml) : String × String × String := (x.getAttr "id", x.getAttr "sourceRef", x.getAttr "targetRef")

theorem endsWithId_named {name : String} (hn : name ≠ "") : ∀ l : List Xml, endsWithId name l = (namedIn name l).map triple
  | [] => rfl
  | .text _ :: r => by
    have : ("" == name) = false := by simpa using hn.symm
    simp [endsWithId, namedIn, localTag, this, endsWithId_named hn r]
  | .other _ :: r => by
    have : ("" == name) = false := by simpa using hn.symm
    simp [endsWithId, namedIn, localTag, this, endsWithId_named hn r]
  | .elem t as ks :: r => by
    by_cases c : removeNamespace t = name
    · simp [endsWithId, namedIn, localTag, c, endsWithId_named hn r]
    · have : (removeNamespace t == name) = false := by simpa using c
      simp [endsWithId, namedIn, localTag, c, this, endsWithId_named hn r]

mutual
theorem innerFlows_map : ∀ x : Xml, innerFlows x = (flowElements x).map fun f => triple f.2
  | .text _ => by simp [innerFlows, flowElements]
  | .other _ => by simp [innerFlows, flowElements]
  | .elem t as ks => by
    rw [innerFlows, flowElements]
    split
    · rw [innerFlowsAll_map ks, endsWithId_named (by decide), List.map_append, List.map_map]
      rfl
    · rfl
theorem innerFlowsAll_map : ∀ l : List Xml, innerFlowsAll l = (flowElementsAll l).map fun f => triple f.2
  | [] => by simp [innerFlowsAll, flowElementsAll]
  | x :: r => by rw [innerFlowsAll, flowElementsAll, List.map_append, innerFlows_map x, innerFlowsAll_map r]
end

/-- The flows of a document, once with and once without their elements. -/
theorem allFlows_map (root : Xml) : allFlows root = (flowElementsOf root).map fun f => triple f.2 := by
  unfold allFlows flowElementsOf sequenceFlowElements
  rw [List.map_append, List.map_flatMap, endsWithId_named (by decide), List.map_map]
  congr 1
  congr 1
  funext p
  rw [List.map_append, innerFlowsAll_map, endsWithId_named (by decide), List.map_map]
  rfl

theorem pools_no_black : ∀ {l : List Xml}, (∀ x ∈ namedIn "participant" l, x.getAttr "processRef" ≠ "") → blackBoxes l = [] := by
  intro l h
  rcases hb : blackBoxes l with _ | ⟨i, r⟩
  · rfl
  · exfalso
    have : ∀ {l : List Xml} {i}, i ∈ blackBoxes l → ∃ x ∈ namedIn "participant" l, x.getAttr "processRef" = "" := by
      intro l
      induction l with
      | nil => intro i h; simp [blackBoxes] at h
      | cons x r ih =>
        intro i h
        rw [blackBoxes.eq_def] at h
        simp only [List.mem_append] at h
        rcases h with h | h
        · cases x with
          | text _ => simp at h
          | other _ => simp at h
          | elem t as ks =>
            simp only at h
            split at h
            · rename_i c
              exact ⟨.elem t as ks, by simp [namedIn, localTag, c.1], c.2⟩
            · simp at h
        · obtain ⟨y, hy, e⟩ := ih h
          refine ⟨y, ?_, e⟩
          simp only [namedIn, List.mem_filter, List.mem_cons] at hy ⊢
          exact ⟨.inr hy.1, hy.2⟩
    obtain ⟨x, hx, e⟩ := this (show i ∈ blackBoxes l by rw [hb]; simp)
    exact h x hx e

theorem eraseDups_nodup : ∀ {l : List String}, l.Nodup → l.eraseDups = l
  | [], _ => rfl
  | a :: l, h => by
    rw [List.eraseDups_cons]
    rw [List.nodup_cons] at h
    have : l.filter (fun b => !b == a) = l := by
      rw [List.filter_eq_self]
      intro b hb
      simp only [Bool.not_eq_true', beq_eq_false_iff_ne, ne_eq]
      rintro rfl
      exact h.1 hb
    rw [this, eraseDups_nodup h.2]

theorem le_sum_sizes {α : Type} (f : α → Nat) : ∀ {l : List α} {x : α}, x ∈ l → f x ≤ (l.map f).sum
  | [], x, h => by simp at h
  | y :: r, x, h => by
    rcases List.mem_cons.1 h with rfl | h
    · simp
    · have := le_sum_sizes f h
      simp only [List.map_cons, List.sum_cons]
      omega

/-! ## Nodes -/

theorem says_ready {root plane : Xml} {c i : String} {x : Xml} {a : NodeAttrs} (h : NodeSays root plane c x a) (hi : x.getAttr "id" = i)
    (hs : (shapeFor plane i).isSome) (h1 : "" ∉ textsOf "incoming" x.children) (h2 : "" ∉ textsOf "outgoing" x.children)
    (hf : ∀ f ∈ allFlows root, f.1 ≠ "") : NodeReady (i, a) := by
  subst hi
  have hd := h.drawn
  obtain ⟨s, hs⟩ := Option.isSome_iff_exists.1 hs
  rw [hs] at hd
  obtain ⟨b, -, w1, w2, w3, w4, w5⟩ := hd
  have list : ∀ {l : Option (List String)} {texts : List String} {flow : String → Prop}, ListSays l texts flow → "" ∉ texts →
      (∀ i, flow i → i ≠ "") → ∃ m, l = some m ∧ "" ∉ m := by
    rintro l texts flow ⟨m, e, hm, -⟩ ht hfl
    refine ⟨_, e, fun hc => ?_⟩
    rcases List.mem_append.1 hc with hc | hc
    · exact ht hc
    · exact hfl _ (hm _ hc).2 rfl
  refine ⟨h.id, by rw [h.name]; rfl, by rw [h.process]; rfl, by rw [w1]; rfl, by rw [w2]; rfl, by rw [w3]; rfl, by rw [w4]; rfl, ?_,
    list h.incoming h1 ?_, list h.outgoing h2 ?_⟩
  · obtain ⟨k, hk, ht, a1, a2, a3, a4, a5, a6, a7, a8, a9, a10, a11⟩ := h.attributes
    have hev : (∃ l, a.eventDefinitions = some l) ↔ "eventDefinitions" ∈ k.2.1 := by
      constructor
      · rintro ⟨l, e⟩
        by_cases c : "eventDefinitions" ∈ k.2.1
        · exact c
        · rw [if_neg c, e] at a11
          cases a11
      · intro c
        rw [if_pos c] at a11
        obtain ⟨l, e, -⟩ := a11
        exact ⟨l, e⟩
    refine ⟨k, hk, by rw [h.type, ht], ?_, ?_, ?_⟩
    · have e0 : a.eventDefinitions.isSome = decide ("eventDefinitions" ∈ k.2.1) := by
        rw [Bool.eq_iff_iff, decide_eq_true_iff, ← hev, Option.isSome_iff_exists]
      have e1 : a.isExpanded.isSome = decide ("isExpanded" ∈ k.2.1) := by
        rw [w5, ← ht]
        have : ∀ k ∈ nodeKinds, ∀ v : String, (if k.1 = "subProcess" then some v else none).isSome = decide ("isExpanded" ∈ k.2.1) := by
          intro k hk v
          have : ∀ k ∈ nodeKinds, (k.1 = "subProcess") ↔ "isExpanded" ∈ k.2.1 := by decide
          by_cases c : k.1 = "subProcess"
          · rw [if_pos c]; simp [(this k hk).1 c]
          · rw [if_neg c]
            exact (decide_eq_false fun h => c ((this k hk).2 h)).symm
        exact this k hk _
      have g : ∀ key v, (given k key v).isSome = decide (key ∈ k.2.1) := by
        intro key v
        unfold given
        by_cases c : key ∈ k.2.1 <;> simp [c]
      unfold presentKeys
      rw [e0, e1, a1, a2, a3, a4, a5, a6, a7, a8, a9]
      simp only [g, decide_eq_true_eq]
      revert hk
      clear * -
      revert k
      decide
    · intro hj
      rw [a10] at hj
      by_cases c : k.2.2.1 = true
      · exact c
      · rw [if_neg c] at hj
        simp at hj
    · intro ev hev'
      by_cases c : "eventDefinitions" ∈ k.2.1
      · rw [if_pos c] at a11
        obtain ⟨l, e, hp⟩ := a11
        rw [e] at hev'
        have := hp.subset hev'
        obtain ⟨t, ht, hm⟩ := List.mem_flatMap.1 this
        obtain ⟨y, -, rfl⟩ := List.mem_map.1 hm
        exact ht
      · rw [if_neg c] at a11
        rw [a11] at hev'
        simp at hev'
  · rintro i ⟨s, hm⟩
    exact hf _ hm
  · rintro i ⟨s, hm⟩
    exact hf _ hm

/-! ## The diagram -/

theorem exportable_of_doc {ord : List String → List String} (hord : ∀ l, (ord l).Perm l) {root diagram plane : Xml} {d : Diagram}
    (h : load ord root {} = .ok d) (hd : (Xml.byNameIn "BPMNDiagram" [root]).head? = some diagram)
    (hp : (diagram.byName "BPMNPlane").head? = some plane) (o : DocInOrder root plane) : Exportable d := by
  have D := o.distinct
  have st := load_state h hd hp D.ends D.flows D.pools
  have he : d.graph.edges = (flowElementsOf root).map (edgeAfter plane.children) := st.edges
  have k := load_known h
  have hsay : ∀ x c, flowSays (.elem "" [] plane.children) c x = flowSays plane c x := fun _ _ => rfl
  obtain ⟨c1, c2, c3, c4, c5⟩ := C81_what_collaborations_say ord root diagram plane d h hd hp (DistinctDoc.distinctFlows D)
  have ps := C79_what_processes_say ord root diagram plane d h hd hp D.procs
  obtain ⟨t, N, hsave⟩ := (C99_saved_again ord hord root diagram plane d h hd hp D).2 o.drawn
  have sv := (C98_exactly_which d).1 ⟨t, N, hsave⟩
  have hflow : ∀ e ∈ d.graph.edges, ∃ f ∈ flowElementsOf root, e = edgeAfter plane.children f := by
    intro e hm
    rw [he] at hm
    obtain ⟨f, hf, rfl⟩ := List.mem_map.1 hm
    exact ⟨f, hf, rfl⟩
  have hends : ∀ f ∈ flowElementsOf root, f.2.getAttr "sourceRef" ∈ d.graph.nodes.keys ∧ f.2.getAttr "targetRef" ∈ d.graph.nodes.keys := by
    intro f hf
    have hm : edgeAfter plane.children f ∈ d.graph.edges := by rw [he]; exact List.mem_map_of_mem hf
    have hj : d.graph.hasEdge (f.2.getAttr "sourceRef") (f.2.getAttr "targetRef") = true := by
      rw [Graph.hasEdge_iff]
      exact ⟨_, hm, by simp [Edge.joins, edgeAfter]⟩
    have hends : ∀ a b, (a, b) ∈ flowPairs root → a ∈ flowEnds root ∧ b ∈ flowEnds root := by
      intro a b hab
      exact ⟨List.mem_flatMap.2 ⟨_, hab, by simp⟩, List.mem_flatMap.2 ⟨_, hab, by simp⟩⟩
    rcases (load_arcs h _ _).1 hj with hh | hh
    · exact ⟨(k.keys _).2 (.inr (hends _ _ hh).1), (k.keys _).2 (.inr (hends _ _ hh).2)⟩
    · exact ⟨(k.keys _).2 (.inr (hends _ _ hh).2), (k.keys _).2 (.inr (hends _ _ hh).1)⟩
  have hbb : blackBoxes (collabKids root) = [] := pools_no_black o.pools
  have hnode : ∀ n ∈ d.graph.nodes, ∃ q ∈ allNodeElements root, q.2.getAttr "id" = n.1 ∧ NodeSays root plane q.1 q.2 n.2 := by
    intro n hn
    rcases node_cases hord h hd hp D.nodes (show n ∈ d.getNodes from hn) with hh | ⟨hb, -⟩ | ⟨h1, h2, -⟩
    · exact hh
    · rw [hbb] at hb; simp at hb
    · exact absurd (o.drawn.ends _ h2) h1
  have hnode' : ∀ q ∈ allNodeElements root, ∃ n ∈ d.graph.nodes, q.2.getAttr "id" = n.1 ∧ n.2.type = some (localTag q.2) := by
    intro q hq
    obtain ⟨a, h1, h2⟩ := load_nodes hord h hd hp D.nodes q hq
    exact ⟨_, Dict.mem_of_get? h1, rfl, h2.type⟩
  have hprocs : d.processElements.map (·.1) = (Xml.byNameIn "process" [root]).map fun p => p.getAttr "id" := by
    have : ∀ {l : List Xml} {m : List (String × ProcAttrs)}, List.Forall₂ (fun p q => q.1 = p.getAttr "id" ∧ ProcSays plane p q.2) l m →
        m.map (·.1) = l.map fun p => p.getAttr "id" := by
      intro l m hm
      induction hm with
      | nil => rfl
      | cons h1 _ ih => rw [List.map_cons, List.map_cons, ih, h1.1]
    exact this ps
  have hcont : ∀ q ∈ allNodeElements root, Container d q.1 := by
    intro q hq
    rcases allNodeElements_inside hq with ⟨p, hp', e⟩ | ⟨r, hr, h1, h2, -⟩
    · left
      rw [hprocs]
      exact List.mem_map.2 ⟨p, hp', e⟩
    · right
      obtain ⟨n, hn, e, ht⟩ := hnode' r hr
      exact ⟨n, hn, by rw [← e, h2], by rw [ht, h1]⟩
  have hcont' : ∀ f ∈ sequenceFlowElements root, ∃ p, f.1 = some p ∧ Container d p := by
    intro f hf
    rcases sequence_inside hf with ⟨p, hp', e⟩ | ⟨r, hr, h1, e⟩
    · refine ⟨_, e, .inl ?_⟩
      rw [hprocs]
      exact List.mem_map.2 ⟨p, hp', rfl⟩
    · obtain ⟨n, hn, e', ht⟩ := hnode' r hr
      exact ⟨_, e, .inr ⟨n, hn, e'.symm, by rw [ht, h1]⟩⟩
  have hone : ∀ p ∈ Xml.byNameIn "process" [root], ∀ q : String × ProcAttrs, q ∈ d.processElements → ProcSays plane p q.2 →
      (lanesOf q.2).map laneId = (((p.byName "laneSet").head?.map fun y => (namedIn "lane" y.children).map (·.getAttr "id")).getD []) ∧
      ∀ l ∈ lanesOf q.2, LaneReady l := by
    intro p hp' q hq hs
    have hl := hs.lanes
    have hdrawn := (sv.processes q hq).2
    cases hy : (p.byName "laneSet").head? with
    | none =>
      rw [hy] at hl
      simp [lanesOf, show q.2.laneSet = none from hl]
    | some y =>
      rw [hy] at hl
      obtain ⟨ls, e, h1, h2⟩ := hl
      have e : lanesOf q.2 = ls := by simp [lanesOf, e]
      rw [e] at hdrawn ⊢
      have nd : ((namedIn "lane" y.children).map (·.getAttr "id")).Nodup := by
        have := o.shapes
        rw [List.nodup_append, List.nodup_append] at this
        have := this.1.2.1
        unfold lanesInDoc at this
        have := (List.nodup_flatMap.1 this).1 p hp'
        rwa [hy] at this
      rw [eraseDups_nodup nd] at h1
      refine ⟨by rw [show ls.map laneId = ls.map idOfLane from List.map_congr_left fun l _ => by cases l; rfl, h1]; rfl, ?_⟩
      intro l hm
      obtain ⟨z, h3, h4⟩ := lanesSay_mem h2 l hm
      obtain ⟨hz, -⟩ := lastWithId_some h3
      obtain ⟨hc, hr⟩ := o.lanes p hp' y hy z hz
      have hdl := hdrawn l hm
      cases l with
      | mk i n ci cs refs di =>
        rw [LaneSays, hc] at h4
        obtain ⟨-, -, h5, -, h6, h7⟩ := h4
        cases hdl with
        | mk _ => exact ⟨i, n, refs, _, by rw [h6, h7], by rw [h5]; exact hr⟩
  have hlaneIds : laneIds d = lanesInDoc root ∧ ∀ p ∈ d.processElements, ∀ l ∈ lanesOf p.2, LaneReady l := by
    have : ∀ {l : List Xml} {m : List (String × ProcAttrs)}, List.Forall₂ (fun p q => q.1 = p.getAttr "id" ∧ ProcSays plane p q.2) l m →
        (∀ p ∈ l, p ∈ Xml.byNameIn "process" [root]) → (∀ q ∈ m, q ∈ d.processElements) →
        (m.flatMap fun q => (lanesOf q.2).map laneId) =
          (l.flatMap fun p => (((p.byName "laneSet").head?.map fun y => (namedIn "lane" y.children).map (·.getAttr "id")).getD [])) ∧
        ∀ q ∈ m, ∀ l ∈ lanesOf q.2, LaneReady l := by
      intro l m hm
      induction hm with
      | nil => intro _ _; simp
      | cons h1 _ ih =>
        intro k1 k2
        obtain ⟨i1, i2⟩ := ih (fun p hp' => k1 p (by simp [hp'])) (fun q hq => k2 q (by simp [hq]))
        obtain ⟨j1, j2⟩ := hone _ (k1 _ List.mem_cons_self) _ (k2 _ List.mem_cons_self) h1.2
        rw [List.flatMap_cons, List.flatMap_cons, i1, j1]
        exact ⟨rfl, List.forall_mem_cons.2 ⟨j2, i2⟩⟩
    exact this ps (fun _ h => h) fun _ h => h
  have hcollab : ∀ c, d.collaboration = some c → ∃ x, (Xml.byNameIn "collaboration" [root]).head? = some x ∧ CollabSays plane x c := by
    intro c hc
    cases hx : (Xml.byNameIn "collaboration" [root]).head? with
    | none =>
      rw [hx] at c5
      rw [show d.collaboration = none from c5] at hc
      cases hc
    | some x =>
      rw [hx] at c5
      obtain ⟨c', hc', cs⟩ := c5
      rw [hc] at hc'
      cases hc'
      exact ⟨x, rfl, cs⟩
  have hids : ∀ f ∈ flowElementsOf root, ∀ g ∈ flowElementsOf root, f.2.getAttr "id" = g.2.getAttr "id" → f = g := fun f hf g hg e =>
    List.inj_on_of_nodup_map D.flows hf hg e
  have hmess : ∀ x, (Xml.byNameIn "collaboration" [root]).head? = some x → ∀ y ∈ namedIn "messageFlow" x.children, (none, y) ∈ flowElementsOf root := by
    intro x hx y hy
    rw [flowElementsOf, List.mem_append]
    refine .inr (List.mem_map.2 ⟨y, ?_, rfl⟩)
    simpa [collabKids, hx] using hy
  refine {
    header := sv.header
    pools := ?_
    lanes := hlaneIds.2
    sane := ?_
    nodes := ?_
    flows := ?_
    procIds := by rw [hprocs]; exact D.procs
    procs := fun p hp' => (sv.processes p hp').1
    apart := ?_
    noCircles := ?_
    flowIds := ?_
    placed := ?_
    flowProcess := ?_
    messages := ?_
    owners := ?_
    shapeIds := ?_
    laneNames := ?_
    listed := ?_
    table := ?_ }
  · -- pools
    intro c hc
    refine ⟨(sv.pools c hc).1, fun m hm => ?_⟩
    obtain ⟨x, hx, cs⟩ := hcollab c hc
    rw [cs.flows] at hm
    obtain ⟨y, hy, rfl⟩ := List.mem_map.1 hm
    exact ⟨edgeAfter plane.children (none, y), by rw [he]; exact List.mem_map_of_mem (hmess x hx y hy), rfl⟩
  · -- sane
    refine ⟨k.nodup, ?_, ?_, ?_⟩
    · intro e hm
      obtain ⟨f, hf, rfl⟩ := hflow e hm
      exact hends f hf
    · rw [he, List.pairwise_map]
      exact D.ends.imp fun hh hs => hh hs
    · intro e hm
      obtain ⟨f, hf, rfl⟩ := hflow e hm
      exact ⟨rfl, rfl, _, _, rfl, rfl, .inl ⟨rfl, rfl⟩⟩
  · -- nodes
    intro n hn
    obtain ⟨q, hq, e, hs⟩ := hnode n hn
    obtain ⟨r1, r2⟩ := o.references q hq
    refine says_ready hs e ?_ r1 r2 ?_
    · rw [← e]
      exact o.drawn.nodes _ (described_element hq)
    · intro f hf
      rw [allFlows_map] at hf
      obtain ⟨g, hg, rfl⟩ := List.mem_map.1 hf
      exact o.flowIds g hg
  · -- flows
    intro e hm
    obtain ⟨f, hf, rfl⟩ := hflow e hm
    refine ⟨rfl, rfl, rfl, rfl, o.drawn.flows f hf, fun c hc => ?_⟩
    rw [flowElementsOf, List.mem_append] at hf
    rcases hf with hf | hf
    · have hs := sequence_some hf
      have hc : (if f.1.isSome then conditionOf f.2 else none) = some c := hc
      rw [if_pos hs] at hc
      obtain ⟨h1, h2⟩ := o.conditions f hf c hc
      exact ⟨h1, congrArg some h2⟩
    · obtain ⟨x, -, rfl⟩ := List.mem_map.1 hf
      cases hc
  · -- apart
    intro p hp' n hn e
    have : p.1 ∈ d.processElements.map (·.1) := List.mem_map.2 ⟨p, hp', rfl⟩
    rw [hprocs] at this
    obtain ⟨x, hx, ex⟩ := List.mem_map.1 this
    obtain ⟨q, hq, eq, -⟩ := hnode n hn
    exact D.apart x hx (by rw [ex, e, ← eq]; exact described_element hq)
  · -- noCircles
    refine ⟨fun i => ((allNodeElements root).map fun q => sizeOf q.2).sum -
      (((allNodeElements root).find? fun q => q.2.getAttr "id" == i).map fun q => sizeOf q.2).getD 0, ?_⟩
    intro n hn m hm hpr ht
    obtain ⟨q, hq, eq, hs⟩ := hnode n hn
    obtain ⟨r, hr, er, hs'⟩ := hnode m hm
    have hfind : ∀ {x : String × Xml} {i : String}, x ∈ allNodeElements root → x.2.getAttr "id" = i →
        ((allNodeElements root).find? fun q => q.2.getAttr "id" == i) = some x := by
      intro x i hx ex
      cases hf : (allNodeElements root).find? fun q => q.2.getAttr "id" == i with
      | none => exact absurd ex (by simpa using List.find?_eq_none.1 hf x hx)
      | some z =>
        have h1 := List.mem_of_find?_eq_some hf
        have h2 := List.find?_some hf
        rw [same_element D.nodes h1 hx (by simp only [beq_iff_eq] at h2; rw [h2, ex])]
    dsimp only
    rw [hfind hq eq, hfind hr er]
    have hlt : sizeOf q.2 < sizeOf r.2 := by
      rw [hs.process] at hpr
      have hpr := Option.some.inj hpr
      rcases allNodeElements_inside hq with ⟨p, hp', e⟩ | ⟨z, hz, -, h2, h3⟩
      · exact absurd (by rw [e, hpr, ← er]; exact described_element hr) (D.apart p hp')
      · have : z = r := same_element D.nodes hz hr (by rw [h2, hpr, er])
        subst this
        exact size_child h3
    have hle := le_sum_sizes (fun q : String × Xml => sizeOf q.2) hr
    simp only [Option.map_some, Option.getD_some]
    omega
  · -- flowIds
    rw [he, List.map_map]
    have : (fun f : FlowEl => some (f.2.getAttr "id")) = some ∘ fun f : FlowEl => f.2.getAttr "id" := rfl
    show ((flowElementsOf root).map fun f : FlowEl => some (f.2.getAttr "id")).Nodup
    rw [this, ← List.map_map]
    exact D.flows.map fun _ _ h => Option.some.inj h
  · -- placed
    intro n hn p e
    obtain ⟨q, hq, -, hs⟩ := hnode n hn
    rw [hs.process] at e
    cases e
    exact hcont q hq
  · -- flowProcess
    intro e hm
    obtain ⟨f, hf, rfl⟩ := hflow e hm
    rw [flowElementsOf, List.mem_append] at hf
    rcases hf with hf | hf
    · obtain ⟨p, e, hc⟩ := hcont' f hf
      exact .inl ⟨p, e, hc⟩
    · right
      obtain ⟨y, hy, rfl⟩ := List.mem_map.1 hf
      cases hx : (Xml.byNameIn "collaboration" [root]).head? with
      | none => simp [collabKids, hx, namedIn] at hy
      | some x =>
        have hy : y ∈ namedIn "messageFlow" x.children := by simpa [collabKids, hx] using hy
        rw [hx] at c5
        obtain ⟨c, hc, cs⟩ := c5
        refine ⟨y.getAttr "id", ?_, rfl⟩
        simp only [messageIds, hc, Option.map_some, Option.getD_some, cs.flows, List.map_map]
        exact List.mem_map.2 ⟨y, hy, rfl⟩
  · -- messages
    intro c hc
    obtain ⟨x, hx, cs⟩ := hcollab c hc
    constructor
    · have := D.flows
      rw [flowElementsOf, List.map_append, List.nodup_append] at this
      have := this.2.1
      rw [List.map_map] at this
      rw [cs.flows, List.map_map]
      have e : collabKids root = x.children := by simp [collabKids, hx]
      rw [e] at this
      exact this
    · intro m hm
      rw [cs.flows] at hm
      obtain ⟨y, hy, rfl⟩ := List.mem_map.1 hm
      refine ⟨rfl, fun e hm' hid => ?_⟩
      obtain ⟨f, hf, rfl⟩ := hflow e hm'
      have : f = (none, y) := hids f hf _ (hmess x hx y hy) (Option.some.inj hid)
      subst this
      exact ⟨rfl, rfl, rfl, rfl, rfl⟩
  · -- owners
    intro c hc p hp'
    obtain ⟨x, hx, cs⟩ := hcollab c hc
    have key : ∀ {l : List Xml} {m : List (String × Participant)}, List.Forall₂ (fun y q => q.1 = y.getAttr "id" ∧ q.2.name = y.getAttr "name" ∧
        q.2.processRef = y.getAttr "processRef" ∧ BoxSays (shapeFor plane (y.getAttr "id")) q.2.di) l m →
        ∀ q ∈ m, ∃ y ∈ l, q.2.processRef = y.getAttr "processRef" := by
      intro l m hm
      induction hm with
      | nil => simp
      | cons h1 _ ih =>
        intro q hq
        rcases List.mem_cons.1 hq with rfl | hq
        · exact ⟨_, List.mem_cons_self, h1.2.2.1⟩
        · obtain ⟨y, hy, e⟩ := ih q hq
          exact ⟨y, List.mem_cons_of_mem _ hy, e⟩
    obtain ⟨y, hy, e⟩ := key cs.pools p hp'
    rw [e]
    exact o.pools y (by simpa [collabKids, hx] using hy)
  · -- shapeIds
    have hpool : poolIds d = (namedIn "participant" (collabKids root)).map (·.getAttr "id") := by
      cases hx : (Xml.byNameIn "collaboration" [root]).head? with
      | none =>
        rw [hx] at c5
        simp [poolIds, show d.collaboration = none from c5, collabKids, hx, namedIn]
      | some x =>
        rw [hx] at c5
        obtain ⟨c, hc, cs⟩ := c5
        have key : ∀ {l : List Xml} {m : List (String × Participant)}, List.Forall₂ (fun y q => q.1 = y.getAttr "id" ∧ q.2.name = y.getAttr "name" ∧
            q.2.processRef = y.getAttr "processRef" ∧ BoxSays (shapeFor plane (y.getAttr "id")) q.2.di) l m →
            m.map (·.1) = l.map (·.getAttr "id") := by
          intro l m hm
          induction hm with
          | nil => rfl
          | cons h1 _ ih => rw [List.map_cons, List.map_cons, ih, h1.1]
        simp only [poolIds, hc, Option.map_some, Option.getD_some, key cs.pools, collabKids, hx]
    rw [hpool, hlaneIds.1]
    have hs := o.shapes
    rw [List.nodup_append] at hs ⊢
    refine ⟨hs.1, k.nodup, ?_⟩
    intro i hi j hj
    obtain ⟨n, hn, rfl⟩ := List.mem_map.1 hj
    obtain ⟨q, hq, e, -⟩ := hnode n hn
    exact hs.2.2 i hi _ (e ▸ described_element hq)
  · -- laneNames
    intro e hm i hi
    obtain ⟨f, hf, rfl⟩ := hflow e hm
    rw [hlaneIds.1] at hi
    intro hc
    have hc : f.2.getAttr "id" = i := Option.some.inj hc
    exact o.laneFlows f hf (hc ▸ hi)
  · -- listed
    intro e hm i s t h1 h2 h3
    obtain ⟨f, hf, rfl⟩ := hflow e hm
    cases h1
    cases h2
    cases h3
    obtain ⟨hs, ht⟩ := hends f hf
    have hf' := hf
    rw [flowElementsOf, List.mem_append] at hf'
    rcases hf' with hf' | hf'
    · have nd : ((Xml.byNameIn "process" [root]).flatMap fun p => nodeIdsAll p.children).Nodup := by
        have := D.nodes
        rw [describedNodes, List.nodup_append] at this
        exact this.1
      have hin := C37_new_object ord root ⟨nd, o.placed⟩ d h
      have hrows : d.sequenceFlows = (sequenceFlowElements root).map rowOf := st.rows
      have hg : d.sequenceFlows.get? (f.2.getAttr "id") = some (rowOf f).2 := by
        refine Dict.get?_of_mem ?_ ?_
        · rw [hrows]
          have := D.flows
          rw [flowElementsOf, List.map_append, List.nodup_append] at this
          have := this.1
          show ((((sequenceFlowElements root).map rowOf)).map (·.1)).Nodup
          rw [List.map_map]
          exact this
        · rw [hrows]
          exact List.mem_map.2 ⟨f, hf', rfl⟩
      obtain ⟨h1, h2, -⟩ := hin _ _ hg
      have lift : ∀ {n i : String} {g : NodeAttrs → Option (List String)}, i ∈ ((d.graph.nodes.get? n).bind g).getD [] →
          ∃ a l, d.graph.nodes.get? n = some a ∧ g a = some l ∧ i ∈ l := by
        intro n i g hi
        cases ha : d.graph.nodes.get? n with
        | none => rw [ha] at hi; simp at hi
        | some a =>
          rw [ha] at hi
          simp only [Option.bind_some] at hi
          cases hl : g a with
          | none => rw [hl] at hi; simp at hi
          | some l => rw [hl] at hi; exact ⟨a, l, rfl, hl, hi⟩
      exact ⟨lift h1, lift h2⟩
    · obtain ⟨y, hy, rfl⟩ := List.mem_map.1 hf'
      have : triple y ∈ endsWithId "messageFlow" (collabKids root) := by
        rw [endsWithId_named (by decide)]
        exact List.mem_map.2 ⟨y, hy, rfl⟩
      obtain ⟨pre, post, e⟩ := split_message this
      have hpost : ∀ n, n ∉ evIds post := by
        intro n hn
        have : n ∈ evIds (collabEvs (collabKids root)) := by
          rw [e, evIds_append]
          exact List.mem_append_right _ hn
        rw [evIds_collab, hbb] at this
        simp at this
      have hl := load_listed h (pre := (Xml.byNameIn "process" [root]).flatMap procEvs ++ pre) (post := post) (by rw [allEvs, e, List.append_assoc]) hs ht
      exact ⟨hl.1 (hpost _), hl.2 (hpost _)⟩
  · -- table
    intro i v
    have hrows : d.sequenceFlows = (sequenceFlowElements root).map rowOf := st.rows
    have nd : (d.sequenceFlows.keys).Nodup := by
      rw [hrows]
      have := D.flows
      rw [flowElementsOf, List.map_append, List.nodup_append] at this
      have := this.1
      show ((((sequenceFlowElements root).map rowOf)).map (·.1)).Nodup
      rw [List.map_map]
      exact this
    constructor
    · intro hg
      have := Dict.mem_of_get? hg
      rw [hrows] at this
      obtain ⟨f, hf, e⟩ := List.mem_map.1 this
      cases e
      refine ⟨edgeAfter plane.children f, ?_, sequence_some hf, rfl, rfl, rfl, rfl⟩
      rw [he]
      exact List.mem_map_of_mem (by rw [flowElementsOf, List.mem_append]; exact .inl hf)
    · rintro ⟨e, hm, h1, h2, h3, h4, h5⟩
      obtain ⟨f, hf, rfl⟩ := hflow e hm
      rw [flowElementsOf, List.mem_append] at hf
      rcases hf with hf | hf
      · refine Dict.get?_of_mem nd ?_
        rw [hrows]
        refine List.mem_map.2 ⟨f, hf, ?_⟩
        cases v
        cases h2
        cases h3
        cases h4
        cases h5
        rfl
      · obtain ⟨y, -, rfl⟩ := List.mem_map.1 hf
        cases h1

end Bpmn.Import

import Verif.Props.XmlPools
/-!
# Properties C73 - C75: message flows and pools in exported and imported documents
-/
set_option linter.unusedSimpArgs false
set_option linter.unusedVariables false

namespace Bpmn.Props
open Bpmn Bpmn.Spec Bpmn.Export

/-- The form of every exported document. -/
theorem definitions_form {fuel : Nat} {d : Diagram} {t : ETree} (h : definitions fuel d = .ok t) :
    ∃ did dname pid pel coll s1 procs s2 s3 s4, exportCollaboration d = .ok (coll, s1) ∧ exportProcesses d fuel d.processElements = .ok (procs, s2) ∧
      forEach exportNodeDi d.getNodes = .ok s3 ∧ forEach (fun f => exportFlowDi f.2.2) d.getFlows = .ok s4 ∧
      t = el "definitions" definitionsAttrs (el "bpmndi:BPMNDiagram" [("id", did), ("name", dname)]
        [el "bpmndi:BPMNPlane" [("id", pid), ("bpmnElement", pel)] (s1 ++ s2 ++ s3 ++ s4)] :: (coll ++ procs)) := by
  unfold definitions at h
  obtain ⟨did, -, h⟩ := except_bind_eq_ok h
  obtain ⟨dname, -, h⟩ := except_bind_eq_ok h
  obtain ⟨pid, -, h⟩ := except_bind_eq_ok h
  obtain ⟨pel, -, h⟩ := except_bind_eq_ok h
  obtain ⟨⟨coll, s1⟩, h1, h⟩ := except_bind_eq_ok h
  obtain ⟨⟨procs, s2⟩, h2, h⟩ := except_bind_eq_ok h
  obtain ⟨s3, h3, h⟩ := except_bind_eq_ok h
  obtain ⟨s4, h4, h⟩ := except_bind_eq_ok h
  simp only [except_pure, Except.ok.injEq] at h
  exact ⟨did, dname, pid, pel, coll, s1, procs, s2, s3, s4, h1, h2, h3, h4, h.symm⟩

theorem pyFind_true {α : Type} {p : α → Py Bool} {l : List α} {x : α} (h : pyFind p l = .ok (some x)) : p x = .ok true := by
  induction l with
  | nil => simp [pyFind] at h
  | cons y l ih =>
    simp only [pyFind] at h
    obtain ⟨b, h1, h⟩ := except_bind_eq_ok h
    cases b with
    | false => exact ih (by simpa using h)
    | true =>
      simp at h
      exact h ▸ h1

theorem getFlowById_mem {d : Diagram} {i : String} {f : Flow} (h : d.getFlowById i = .ok (some f)) : f ∈ d.getFlows ∧ f.2.2.id = some i := by
  refine ⟨pyFind_mem h, ?_⟩
  have := pyFind_true h
  obtain ⟨j, h1, h2⟩ := except_bind_eq_ok this
  simp only [except_pure, Except.ok.injEq, beq_iff_eq] at h2
  subst h2
  cases hi : f.2.2.id with
  | none => rw [hi] at h1; simp at h1
  | some k => rw [hi] at h1; simpa using h1

theorem exportMessageFlows_edges {d : Diagram} : ∀ (l : List (String × MsgFlow)) {ts ss : List ETree}, exportMessageFlows d l = .ok (ts, ss) →
    ∀ m ∈ l, (∃ ws, edgeDi m.1 ws ∈ ss) ∧ ∃ f ∈ d.getFlows, f.2.2.id = some m.1
  | [], _, _, _, m, hm => by simp at hm
  | (id, m) :: r, ts, ss, h, x, hx => by
    unfold exportMessageFlows at h
    obtain ⟨o, h1, h⟩ := except_bind_eq_ok h
    cases o with
    | none => simp at h
    | some f =>
      simp only at h
      obtain ⟨ws, h2, h⟩ := except_bind_eq_ok h
      obtain ⟨⟨ts', ss'⟩, h3, h⟩ := except_bind_eq_ok h
      simp only [except_pure, Except.ok.injEq, Prod.mk.injEq] at h
      obtain ⟨-, rfl⟩ := h
      rcases List.mem_cons.1 hx with rfl | hx
      · exact ⟨⟨ws, List.mem_cons_self ..⟩, f, getFlowById_mem h1⟩
      · obtain ⟨⟨ws', h4⟩, h5⟩ := exportMessageFlows_edges r h3 x hx
        exact ⟨⟨ws', List.mem_cons_of_mem _ h4⟩, h5⟩

theorem exportCollaboration_edges {d : Diagram} {coll s1 : List ETree} (h : exportCollaboration d = .ok (coll, s1)) {i : String}
    (hi : i ∈ messageIds d) : (∃ ws, edgeDi i ws ∈ s1) ∧ ∃ f ∈ d.getFlows, f.2.2.id = some i := by
  unfold exportCollaboration at h
  unfold messageIds at hi
  cases hc : d.collaboration with
  | none => rw [hc] at hi; simp at hi
  | some c =>
    rw [hc] at h hi
    simp only at h
    obtain ⟨⟨ms, es⟩, h1, h⟩ := except_bind_eq_ok h
    obtain ⟨⟨ps, ss⟩, h2, h⟩ := except_bind_eq_ok h
    simp only [except_pure, Except.ok.injEq, Prod.mk.injEq] at h
    obtain ⟨-, rfl⟩ := h
    obtain ⟨m, hm, rfl⟩ := List.mem_map.1 hi
    obtain ⟨⟨ws, h3⟩, h4⟩ := exportMessageFlows_edges _ h1 m hm
    exact ⟨⟨ws, List.mem_append_left _ h3⟩, h4⟩

theorem forall₂_mem_left {α β : Type} {R : α → β → Prop} : ∀ {l : List α} {m : List β}, List.Forall₂ R l m → ∀ x ∈ l, ∃ y ∈ m, R x y
  | _, _, .nil, x, hx => by simp at hx
  | _, _, .cons h r, x, hx => by
    rcases List.mem_cons.1 hx with rfl | hx
    · exact ⟨_, List.mem_cons_self .., h⟩
    · obtain ⟨y, hy, hr⟩ := forall₂_mem_left r x hx
      exact ⟨y, List.mem_cons_of_mem _ hy, hr⟩

theorem forall₂_mem_right {α β : Type} {R : α → β → Prop} : ∀ {l : List α} {m : List β}, List.Forall₂ R l m → ∀ y ∈ m, ∃ x ∈ l, R x y
  | _, _, .nil, x, hx => by simp at hx
  | _, _, .cons h r, x, hx => by
    rcases List.mem_cons.1 hx with rfl | hx
    · exact ⟨_, List.mem_cons_self .., h⟩
    · obtain ⟨y, hy, hr⟩ := forall₂_mem_right r x hx
      exact ⟨y, List.mem_cons_of_mem _ hy, hr⟩

/-! ## C73 -/

/-- The edges of the plane of a written document. -/
def planeEdges (t : ETree) : List ETree :=
  ((kidsTagged "bpmndi:BPMNDiagram" t).flatMap (kidsTagged "bpmndi:BPMNPlane")).flatMap (kidsTagged "bpmndi:BPMNEdge")

/-- **C73.** In every successful export, whatever the diagram, each message flow is drawn by two edge elements with the same id. -/
theorem C73_two_edges (d : Diagram) (fuel : Nat) (t : ETree) (h : Export.exportXmlFile fuel d = .ok t) (i : String) (hi : i ∈ messageIds d) :
    2 ≤ ((planeEdges t).map (attrOf "id")).count (i ++ "_gui") ∧ 2 ≤ ((planeEdges t).map (attrOf "bpmnElement")).count i := by
  unfold Export.exportXmlFile at h
  obtain ⟨t', h0, h⟩ := except_bind_eq_ok h
  simp only [except_pure, Except.ok.injEq] at h
  subst h
  obtain ⟨did, dname, pid, pel, coll, s1, procs, s2, s3, s4, h1, h2, h3, h4, rfl⟩ := definitions_form h0
  obtain ⟨⟨ws, h5⟩, f, hf, hfi⟩ := exportCollaboration_edges h1 hi
  obtain ⟨e, he, h6⟩ := forall₂_mem_left (forEach_eq_ok h4) f hf
  have h6' : ∃ ws, e = edgeDi i ws := by
    unfold exportFlowDi at h6
    obtain ⟨j, h7, h6⟩ := except_bind_eq_ok h6
    obtain ⟨ws, h8, h6⟩ := except_bind_eq_ok h6
    rw [hfi] at h7
    simp only [need_some, Except.ok.injEq] at h7
    simp only [except_pure, Except.ok.injEq] at h6
    exact ⟨ws, by rw [← h6, h7]⟩
  obtain ⟨ws', rfl⟩ := h6'
  have key : ∀ g : ETree → String, (∀ t l, g (indent l t) = g t) → ∀ v, (∀ ws, g (edgeDi i ws) = v) →
      2 ≤ ((planeEdges (indent 0 (el "definitions" definitionsAttrs (el "bpmndi:BPMNDiagram" [("id", did), ("name", dname)]
        [el "bpmndi:BPMNPlane" [("id", pid), ("bpmnElement", pel)] (s1 ++ s2 ++ s3 ++ s4)] :: (coll ++ procs))))).map g).count v := by
    intro g hg v hv
    have a1 : ∀ l : List ETree, ∀ ws, edgeDi i ws ∈ l → 1 ≤ ((l.filter fun k => tagOf k == "bpmndi:BPMNEdge").map g).count v := by
      intro l ws hl
      apply List.count_pos_iff.2
      exact List.mem_map.2 ⟨_, List.mem_filter.2 ⟨hl, by simp [edgeDi, el, tagOf]⟩, hv ws⟩
    have b1 := a1 s1 ws h5
    have b2 := a1 s4 ws' he
    have c : (planeEdges (indent 0 (el "definitions" definitionsAttrs (el "bpmndi:BPMNDiagram" [("id", did), ("name", dname)]
        [el "bpmndi:BPMNPlane" [("id", pid), ("bpmnElement", pel)] (s1 ++ s2 ++ s3 ++ s4)] :: (coll ++ procs))))).map g =
      (planeEdges (el "definitions" definitionsAttrs (el "bpmndi:BPMNDiagram" [("id", did), ("name", dname)]
        [el "bpmndi:BPMNPlane" [("id", pid), ("bpmnElement", pel)] (s1 ++ s2 ++ s3 ++ s4)] :: (coll ++ procs)))).map g := by
      simp only [planeEdges, kidsTagged_indent, List.flatMap_map, ← List.map_flatMap, List.map_map]
      apply List.map_congr_left
      intro x _
      exact hg x _
    rw [c]
    have e1 : ∀ l, kidsTagged "bpmndi:BPMNDiagram" (el "definitions" definitionsAttrs (el "bpmndi:BPMNDiagram" [("id", did), ("name", dname)]
        [el "bpmndi:BPMNPlane" [("id", pid), ("bpmnElement", pel)] (s1 ++ s2 ++ s3 ++ s4)] :: l)) =
      el "bpmndi:BPMNDiagram" [("id", did), ("name", dname)] [el "bpmndi:BPMNPlane" [("id", pid), ("bpmnElement", pel)] (s1 ++ s2 ++ s3 ++ s4)] ::
        l.filter fun k => tagOf k == "bpmndi:BPMNDiagram" := by
      intro l
      simp [kidsTagged, kidsOf, el, tagOf]
    have e2 : ∀ as l, kidsTagged "bpmndi:BPMNPlane" (el "bpmndi:BPMNDiagram" as [el "bpmndi:BPMNPlane" [("id", pid), ("bpmnElement", pel)] l]) =
        [el "bpmndi:BPMNPlane" [("id", pid), ("bpmnElement", pel)] l] := by
      intro as l
      simp [kidsTagged, kidsOf, el, tagOf]
    have e3 : ∀ as l, kidsTagged "bpmndi:BPMNEdge" (el "bpmndi:BPMNPlane" as l) = l.filter fun k => tagOf k == "bpmndi:BPMNEdge" := by
      intro as l
      simp [kidsTagged, kidsOf, el]
    rw [planeEdges, e1, List.flatMap_cons, List.flatMap_append, e2, List.flatMap_cons, e3]
    simp only [List.filter_append, List.map_append, List.count_append]
    omega
  exact ⟨key (attrOf "id") (by simp) _ (by intro ws; simp [edgeDi, el, attrOf, Dict.get?_cons]),
    key (attrOf "bpmnElement") (by simp) _ (by intro ws; simp [edgeDi, el, attrOf, Dict.get?_cons])⟩

example : ∃ t, Export.exportXmlFile 2 poolDiagram = .ok t ∧ "m" ∈ messageIds poolDiagram ∧
    (planeEdges t).map (attrOf "id") = ["m_gui", "f_gui", "m_gui", "g_gui"] := by
  refine ⟨_, rfl, by decide, by decide⟩

/-! ## C74 -/

theorem squeezeAll_toDomKids : ∀ l : List ETree, squeezeAll (ETree.toDomKids l) = l.map fun t => squeeze t.toDom
  | [] => by simp [ETree.toDomKids, squeezeAll]
  | t :: r => by
    have : (ETree.toDom t).isText = false := by cases t; simp [ETree.toDom, Xml.isText]
    simp [ETree.toDomKids, squeezeAll, this, squeezeAll_append, squeezeAll_textNodes, squeezeAll_toDomKids r]

/-- The squeezed document of an element whose text does not matter. -/
theorem squeeze_toDom_el {tag : String} (ht : removeNamespace tag ∉ textualTags) (l : Nat) (as : List (String × String)) (ks : List ETree) :
    squeeze (indent l (el tag as ks)).toDom = .elem tag as (ks.map fun k => squeeze (indent (l + 1) k).toDom) := by
  cases ks with
  | nil => simp [el, indent, ETree.toDom, squeeze, ht, ETree.textNodes, ETree.toDomKids, squeezeAll]
  | cons k ks =>
    simp only [el, indent, ETree.toDom, squeeze, if_neg ht, squeezeAll_append, squeezeAll_textNodes, squeezeAll_toDomKids, List.nil_append]
    rw [indentAll_eq_map]
    simp

/-- Pools drawn without orientation. -/
def Flat (ids : List String) (d : Diagram) : Prop :=
  ∀ c, d.collaboration = some c → ∀ i p, Dict.get? c.participants i = some p → i ∈ ids → ∃ b, p.di = some b ∧ b.isHorizontal = ""

theorem importNodeShape_collab {e b : Xml} {i : String} {d d' : Diagram} (h : Import.importNodeShape e b i d = .ok d') :
    d'.collaboration = d.collaboration := by
  unfold Import.importNodeShape at h
  split at h
  · cases h; rfl
  · obtain ⟨ty, -, h⟩ := except_bind_eq_ok h
    cases h; rfl

theorem flat_shape {ids : List String} {x : Xml} {d d' : Diagram} (hx : x.getAttr "isHorizontal" = "") (h : Import.importShape x d = .ok d')
    (hf : Flat ids d) : Flat (x.getAttr "bpmnElement" :: ids) d' := by
  unfold Import.importShape at h
  obtain ⟨b, -, h⟩ := except_bind_eq_ok h
  obtain ⟨d1, h1, h⟩ := except_bind_eq_ok h
  have hc := importNodeShape_collab h1
  intro c hcc i p hp hi
  cases h2 : d.collaboration with
  | none =>
    rw [hc, h2] at h
    cases h
    rw [hc, h2] at hcc
    simp at hcc
  | some c0 =>
    rw [hc, h2] at h
    cases h
    simp only [Option.some.injEq] at hcc
    subst hcc
    simp only [Dict.get?_modify] at hp
    by_cases e : x.getAttr "bpmnElement" = i
    · rw [if_pos e, Option.map_eq_some_iff] at hp
      obtain ⟨q, -, rfl⟩ := hp
      exact ⟨_, rfl, hx⟩
    · rw [if_neg e] at hp
      rcases List.mem_cons.1 hi with rfl | hi
      · exact absurd rfl e
      · exact hf c0 h2 i p hp hi

theorem flat_flow {ids : List String} {x : Xml} {d d' : Diagram} (h : Import.importFlowDi x d = .ok d') (hf : Flat ids d) : Flat ids d' := by
  unfold Import.importFlowDi at h
  dsimp only at h
  have : d'.collaboration = d.collaboration := by
    split at h
    · cases h; rfl
    · split at h
      · cases h; rfl
      · cases h
  intro c hc
  exact hf c (this ▸ hc)

theorem flat_plane : ∀ (l : List Xml) {ids : List String} {d d' : Diagram}, (∀ x ∈ l, x.getAttr "isHorizontal" = "") →
    Import.importPlane l d = .ok d' → Flat ids d →
    Flat ((l.filter fun x => match x with | .elem t _ _ => removeNamespace t == "BPMNShape" | _ => false).map (fun x => x.getAttr "bpmnElement") ++ ids) d'
  | [], ids, d, d', _, h, hf => by
    cases h
    simpa using hf
  | x :: r, ids, d, d', hl, h, hf => by
    rw [List.forall_mem_cons] at hl
    cases x with
    | text s =>
      simp only [Import.importPlane, Xml.isText, if_true] at h
      simpa using flat_plane r hl.2 h hf
    | other s => simp [Import.importPlane, Xml.isText, Xml.tagName] at h
    | elem t as ks =>
      simp only [Import.importPlane, Xml.isText, Bool.false_eq_true, if_false, Xml.tagName, except_bind_ok] at h
      by_cases e : removeNamespace t = "BPMNShape"
      · rw [if_pos e] at h
        obtain ⟨d1, h1, h⟩ := except_bind_eq_ok h
        have := flat_plane r hl.2 h (flat_shape hl.1 h1 hf)
        rw [List.filter_cons_of_pos (by simp [e])]
        intro c hc i p hp hi
        refine this c hc i p hp ?_
        simp only [List.map_cons, List.cons_append, List.mem_cons, List.mem_append] at hi ⊢
        rcases hi with h | h | h
        · exact .inr (.inl h)
        · exact .inl h
        · exact .inr (.inr h)
      · rw [if_neg e] at h
        rw [List.filter_cons_of_neg (by simp [e])]
        split at h
        · obtain ⟨d1, h1, h⟩ := except_bind_eq_ok h
          exact flat_plane r hl.2 h (flat_flow h1 hf)
        · exact flat_plane r hl.2 h hf

theorem exportNodeDi_form {n : Node} {t : ETree} (h : exportNodeDi n = .ok t) : ∃ extra w h x y, t = shape n.1 extra w h x y ∧
    Dict.get? extra "isHorizontal" = none ∧ Dict.get? extra "bpmnElement" = none := by
  unfold exportNodeDi at h
  obtain ⟨w, -, h⟩ := except_bind_eq_ok h
  obtain ⟨hh, -, h⟩ := except_bind_eq_ok h
  obtain ⟨x, -, h⟩ := except_bind_eq_ok h
  obtain ⟨y, -, h⟩ := except_bind_eq_ok h
  obtain ⟨ty, -, h⟩ := except_bind_eq_ok h
  split at h
  · obtain ⟨e, -, h⟩ := except_bind_eq_ok h
    cases h
    exact ⟨_, _, _, _, _, rfl, by simp [Dict.get?_cons], by simp [Dict.get?_cons]⟩
  · cases h
    exact ⟨_, _, _, _, _, rfl, rfl, rfl⟩

theorem exportFlowDi_form {a : EdgeAttrs} {t : ETree} (h : exportFlowDi a = .ok t) : ∃ i ws, t = edgeDi i ws := by
  unfold exportFlowDi at h
  obtain ⟨w, -, h⟩ := except_bind_eq_ok h
  obtain ⟨hh, -, h⟩ := except_bind_eq_ok h
  cases h
  exact ⟨_, _, rfl⟩

theorem squeeze_toDom_getAttr (l : Nat) (t : ETree) (k : String) : (squeeze (indent l t).toDom).getAttr k = attrOf k t := by
  rw [squeeze_getAttr]
  rcases t with ⟨tag, attrs, text, tail, _ | ⟨k, ks⟩⟩ <;> simp [indent, attrOf, ETree.toDom, Xml.getAttr]

/-- **C74.** Whatever the diagram: if it can be exported and the result can be loaded into a new object, then every pool of the new object
whose id is the id of a node (which is so for all imported pools without process) has lost its orientation. -/
theorem C74_orientation_lost (d e : Diagram) (fuel : Nat) (t : ETree) (ord : List String → List String) (ht : Export.exportXmlFile fuel d = .ok t)
    (he : Import.load ord t.toDom {} = .ok e) (c : Collab) (hc : e.collaboration = some c) (i : String) (p : Participant)
    (hp : Dict.get? c.participants i = some p) (hi : i ∈ d.getNodes.map (·.1)) : ∃ b, p.di = some b ∧ b.isHorizontal = "" := by
  unfold Export.exportXmlFile at ht
  obtain ⟨t', h0, h⟩ := except_bind_eq_ok ht
  simp only [except_pure, Except.ok.injEq] at h
  subst h
  obtain ⟨did, dname, pid, pel, coll, s1, procs, s2, s3, s4, h1, h2, h3, h4, rfl⟩ := definitions_form h0
  rw [← Import.load_squeeze, squeeze_toDom_el (by decide), List.map_cons, squeeze_toDom_el (by decide), List.map_cons, squeeze_toDom_el (by decide)] at he
  unfold Import.load at he
  rw [byNameIn_miss _ _ _ (by decide), byNameIn_hit _ _ _ (by decide)] at he
  simp only [pyIndex, List.cons_append, List.getElem?_cons_zero, except_bind_ok, Xml.byName] at he
  rw [byNameIn_hit _ _ _ (by decide)] at he
  simp only [pyIndex, List.cons_append, List.getElem?_cons_zero, except_bind_ok, Xml.children, List.map_append] at he
  obtain ⟨d1, -, he⟩ := except_bind_eq_ok he
  obtain ⟨d2, -, he⟩ := except_bind_eq_ok he
  rw [importPlane_append, importPlane_append] at he
  obtain ⟨d3, h5, h6⟩ := except_bind_eq_ok he
  obtain ⟨d4, h7, h5⟩ := except_bind_eq_ok h5
  have f0 : Flat [] d4 := by intro c hc i p hp hi; cases hi
  have f1 := flat_plane _ (by
    intro x hx
    obtain ⟨k, hk, rfl⟩ := List.mem_map.1 hx
    obtain ⟨n, -, hn⟩ := forall₂_mem_right (forEach_eq_ok h3) k hk
    obtain ⟨extra, w, h, x, y, rfl, a1, a2⟩ := exportNodeDi_form hn
    rw [squeeze_toDom_getAttr]
    simp [shape, el, attrOf, Dict.get?_cons, a1]) h5 f0
  have f2 := flat_plane _ (by
    intro x hx
    obtain ⟨k, hk, rfl⟩ := List.mem_map.1 hx
    obtain ⟨n, -, hn⟩ := forall₂_mem_right (forEach_eq_ok h4) k hk
    obtain ⟨j, ws, rfl⟩ := exportFlowDi_form hn
    rw [squeeze_toDom_getAttr]
    simp [edgeDi, el, attrOf, Dict.get?_cons]) h6 f1
  refine f2 c hc i p hp ?_
  obtain ⟨n, hn, rfl⟩ := List.mem_map.1 hi
  obtain ⟨k, hk, hn'⟩ := forall₂_mem_left (forEach_eq_ok h3) n hn
  obtain ⟨extra, w, h, x, y, rfl, a1, a2⟩ := exportNodeDi_form hn'
  refine List.mem_append_right _ (List.mem_append_left _ (List.mem_map.2 ⟨_, List.mem_filter.2 ⟨List.mem_map.2 ⟨_, hk, rfl⟩, ?_⟩, ?_⟩))
  · rw [shape, squeeze_toDom_el (by decide)]
    show (removeNamespace "bpmndi:BPMNShape" == "BPMNShape") = true
    decide
  · rw [squeeze_toDom_getAttr]
    simp [shape, el, attrOf, Dict.get?_cons]

end Bpmn.Props

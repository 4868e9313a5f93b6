import Verif.Lemmas.ImportDoc
set_option linter.unusedSimpArgs false
set_option linter.unusedVariables false
/-!
# Reading back the graphics; the whole round trip
-/
namespace Bpmn
open Spec Export Import

theorem byNameIn_hit {name t : String} (as : List (String × String)) (ks r : List Xml) (h : removeNamespace t = name) :
    Xml.byNameIn name (.elem t as ks :: r) = .elem t as ks :: (Xml.byNameIn name ks ++ Xml.byNameIn name r) := by
  simp [Xml.byNameIn, Xml.byName, Xml.localName, h]

theorem byNameIn_miss {name t : String} (as : List (String × String)) (ks r : List Xml) (h : removeNamespace t ≠ name) :
    Xml.byNameIn name (.elem t as ks :: r) = Xml.byNameIn name ks ++ Xml.byNameIn name r := by
  simp [Xml.byNameIn, Xml.byName, Xml.localName, h]

/-- The edge made by the import of a flow with its graphics. -/
def fullEdge (a : EdgeAttrs) : Edge := ⟨a.sourceRef.getD "", a.targetRef.getD "", a⟩

/-- The collaboration while the plane is read: the shapes of the pools `V` were seen. -/
def collabState (d : Diagram) (V : List String) : Option Collab :=
  d.collaboration.map fun c => { c with participants := c.participants.map fun p => (p.1, { p.2 with di := if p.1 ∈ V then p.2.di else none }) }

/-- While the plane is read: the shapes of the pools `V`, of the nodes `T` and of the flows with ids `U` were seen. -/
structure PlaneInv (d : Diagram) (L : List EdgeAttrs) (P : Dict String ProcAttrs)
    (H : Option String × Option String × Option String × Option String)
    (V T : List String) (U : List (Option String)) (D : Diagram) : Prop where
  procs : noProcIds D.processElements = P
  head : (D.diagramId, D.diagramName, D.planeId, D.planeElement) = H
  collab : D.collaboration = collabState d V
  nodup : D.graph.nodes.keys.Nodup
  known : ∀ m ∈ D.graph.nodes.keys, m ∈ d.graph.nodes.keys
  nodes : ∀ m a, d.graph.nodes.get? m = some a → ∃ b, D.graph.nodes.get? m = some b ∧ (m ∈ T → SameNode a b) ∧ (m ∉ T → Core a b)
  edges : D.graph.edges = L.map fun a => if a.id ∈ U then fullEdge a else coreEdge a
  table : ∀ i v, D.sequenceFlows.get? i = some v ↔ ∃ a ∈ flowAttrs d, a.process.isSome ∧ a.id = some i ∧ v = flowEntry a

/-- The graphics part of the attributes of a shape. -/
def shapeExtra (n : Node) : List (String × String) := if n.2.type = some "subProcess" then [("isExpanded", n.2.isExpanded.getD "")] else []

/-- The shape of a node. -/
def shapeTree (n : Node) : ETree :=
  shape n.1 (shapeExtra n) (n.2.width.getD "") (n.2.height.getD "") (n.2.x.getD "") (n.2.y.getD "")

/-- The edge of a flow in the plane. -/
def edgeTree (a : EdgeAttrs) : ETree := edgeDi (a.id.getD "") (a.waypoints.getD [])

theorem exportNodeDi_ok {n : Node} (h : NodeReady n) : exportNodeDi n = .ok (shapeTree n) := by
  obtain ⟨w, hw⟩ := Option.isSome_iff_exists.1 h.width
  obtain ⟨hh, hhh⟩ := Option.isSome_iff_exists.1 h.height
  obtain ⟨x, hx⟩ := Option.isSome_iff_exists.1 h.x
  obtain ⟨y, hy⟩ := Option.isSome_iff_exists.1 h.y
  obtain ⟨k, hk, facts⟩ := h.facts
  have ht : n.2.type = some k.1 := facts.type
  by_cases hs : k.1 = "subProcess"
  · have hkey : k = ("subProcess", ["isExpanded", "triggeredByEvent"], true, []) := by
      revert hs hk; clear facts ht; revert k; decide
    have f0 := facts.isExpanded
    subst hkey
    simp only [List.mem_cons, true_or, if_true] at f0
    obtain ⟨v, f0⟩ := f0
    simp [exportNodeDi, hw, hhh, hx, hy, ht, f0, shapeTree, shapeExtra]
  · simp [exportNodeDi, hw, hhh, hx, hy, ht, hs, shapeTree, shapeExtra]

theorem exportFlowDi_ok {a : EdgeAttrs} (h : FlowReady a) : exportFlowDi a = .ok (edgeTree a) := by
  obtain ⟨i, hi⟩ := Option.isSome_iff_exists.1 h.id
  obtain ⟨w, hw⟩ := Option.isSome_iff_exists.1 h.waypoints
  simp [exportFlowDi, hi, hw, edgeTree]

/-- The parsed shape. -/
def shapeXml (id : String) (extra : List (String × String)) (w h x y : String) : Xml :=
  .elem "bpmndi:BPMNShape" ([("id", id ++ "_gui"), ("bpmnElement", id)] ++ extra)
    [.elem "omgdc:Bounds" [("width", w), ("height", h), ("x", x), ("y", y)] []]

/-- The parsed edge of the plane. -/
def edgeXml (id : String) (ws : List (String × String)) : Xml :=
  .elem "bpmndi:BPMNEdge" [("id", id ++ "_gui"), ("bpmnElement", id)] (ws.map fun w => .elem "omgdi:waypoint" [("x", w.1), ("y", w.2)] [])

theorem clean_shape (id : String) (extra : List (String × String)) (w h x y : String) : clean (shape id extra w h x y) = true := by
  apply clean_el (by decide)
  intro k hk
  simp only [List.mem_singleton] at hk
  subst hk
  exact clean_el (by decide) (by simp)

theorem toDom_shape (id : String) (extra : List (String × String)) (w h x y : String) :
    (shape id extra w h x y).toDom = shapeXml id extra w h x y := by
  simp [shape, el, ETree.toDom, ETree.toDomKids, ETree.tailOf, ETree.textNodes, shapeXml]

theorem clean_edgeDi (id : String) (ws : List (String × String)) : clean (edgeDi id ws) = true := by
  apply clean_el (by decide)
  intro k hk
  obtain ⟨w, -, rfl⟩ := List.mem_map.1 hk
  exact clean_el (by decide) (by simp)

theorem toDom_edgeDi (id : String) (ws : List (String × String)) : (edgeDi id ws).toDom = edgeXml id ws := by
  rw [edgeDi, toDom_el, edgeXml, List.map_map]
  · rfl
  · rw [cleanAll_iff]
    intro k hk
    obtain ⟨w, -, rfl⟩ := List.mem_map.1 hk
    exact clean_el (by decide) (by simp)

theorem shape_lookup {n : Node} (k : String) (h1 : "id" ≠ k) (h2 : "bpmnElement" ≠ k) (w h x y v : String) :
    (shapeXml n.1 (shapeExtra n) w h x y).attrOr k v = (Dict.get? (shapeExtra n) k).getD v := by
  simp [shapeXml, attrOr_elem, Dict.get?_cons, h1, h2]

/-- What the shape of a node writes into its attributes. -/
def writeShape (a : NodeAttrs) (ty e : String) (b : NodeAttrs) : NodeAttrs :=
  { b with width := a.width, height := a.height, x := a.x, y := a.y, isExpanded := if ty = "subProcess" then some e else b.isExpanded }

/-- The graphics part of an import of a shape that is not the one of a pool. -/
theorem participants_same {d : Diagram} {V : List String} {i : String} (hi : i ∉ poolIds d) (g : Participant → Participant) :
    ∀ c, collabState d V = some c → Dict.modify c.participants i g = c.participants := by
  intro c hc
  unfold collabState at hc
  cases hd : d.collaboration with
  | none => simp [hd] at hc
  | some c0 =>
    simp only [hd, Option.map_some, Option.some.injEq] at hc
    subst hc
    apply Dict.modify_of_not_mem
    simpa [poolIds, hd, Dict.keys] using hi

/-- Reading the shape of a node. -/
theorem importShape_node {d : Diagram} {L P H V T U D} (hn : ∀ n ∈ d.graph.nodes, NodeReady n) (hu : d.graph.nodes.keys.Nodup)
    (hH : ∀ n ∈ d.graph.nodes, n.1 ∉ poolIds d) (h : PlaneInv d L P H V T U D) {n : Node} (hm : n ∈ d.graph.nodes) :
    ∃ D', importShape (shapeTree n).toDom D = .ok D' ∧ PlaneInv d L P H V (n.1 :: T) U D' := by
  obtain ⟨n, a⟩ := n
  have hr := hn _ hm
  have hget : d.graph.nodes.get? n = some a := Dict.get?_of_mem hu hm
  obtain ⟨b, hb, hb1, hb2⟩ := h.nodes n a hget
  obtain ⟨w, hw⟩ := Option.isSome_iff_exists.1 hr.width
  obtain ⟨hh, hhh⟩ := Option.isSome_iff_exists.1 hr.height
  obtain ⟨x, hx⟩ := Option.isSome_iff_exists.1 hr.x
  obtain ⟨y, hy⟩ := Option.isSome_iff_exists.1 hr.y
  obtain ⟨k, hk, facts⟩ := hr.facts
  have ht : a.type = some k.1 := facts.type
  simp only at hw hhh hx hy ht
  have hbt : b.type = some k.1 := by
    by_cases hT : n ∈ T
    · have := congrArg NodeAttrs.type (hb1 hT).rest
      simp only at this
      rw [← this, ht]
    · have := congrArg NodeAttrs.type (hb2 hT).rest
      simp only at this
      rw [this, ht]
  have hexp : (if k.1 = "subProcess" then some ((shapeXml n (shapeExtra (n, a)) w hh x y).attrOr "isExpanded" "false") else b.isExpanded) = a.isExpanded := by
    have f0 := facts.isExpanded
    by_cases hs : k.1 = "subProcess"
    · have hkey : k = ("subProcess", ["isExpanded", "triggeredByEvent"], true, []) := by
        revert hs hk; clear facts ht f0 hbt; revert k; decide
      subst hkey
      simp only [List.mem_cons, true_or, if_true] at f0
      obtain ⟨v, f0⟩ := f0
      simp [shapeXml, attrOr_elem, Dict.get?_cons, shapeExtra, ht, f0]
    · have hnot : "isExpanded" ∉ k.2.1 := by
        revert hs hk; clear facts ht f0 hbt; revert k; decide
      simp only [hnot, if_false] at f0
      rw [if_neg hs, f0]
      by_cases hT : n ∈ T
      · have := congrArg NodeAttrs.isExpanded (hb1 hT).rest
        simp only at this
        rw [← this, f0]
      · have := congrArg NodeAttrs.isExpanded (hb2 hT).rest
        simpa using this
  refine ⟨D.updNode n (writeShape a k.1 ((shapeXml n (shapeExtra (n, a)) w hh x y).attrOr "isExpanded" "false")), ?_, ?_⟩
  · rw [shapeTree, toDom_shape]
    simp only [hw, hhh, hx, hy, Option.getD_some]
    have hbounds : boundsOf (shapeXml n (shapeExtra (n, a)) w hh x y) = .ok (.elem "omgdc:Bounds" [("width", w), ("height", hh), ("x", x), ("y", y)] []) := by
      rw [boundsOf, shapeXml, Xml.byName, byNameIn_hit _ _ _ (by decide)]
      rfl
    have hel : (shapeXml n (shapeExtra (n, a)) w hh x y).getAttr "bpmnElement" = n := by
      simp [shapeXml, getAttr_elem, Dict.get?_cons]
    simp only [importShape, hbounds, except_bind_ok, hel, importNodeShape, hb, hbt, need_some, except_pure, getAttr_elem, Dict.get?_cons,
      String.reduceEq, if_true, if_false, Option.getD_some]
    have hw' : writeShape a k.1 ((shapeXml n (shapeExtra (n, a)) w hh x y).attrOr "isExpanded" "false") = fun b => { b with width := some w, height := some hh, isExpanded := if k.1 = "subProcess" then some ((shapeXml n (shapeExtra (n, a)) w hh x y).attrOr "isExpanded" "false") else b.isExpanded, x := some x, y := some y } := by
      funext b
      simp only [writeShape, hw, hhh, hx, hy]
    rw [hw']
    cases hc : (D.updNode n fun b => { b with width := some w, height := some hh, isExpanded := if k.1 = "subProcess" then some ((shapeXml n (shapeExtra (n, a)) w hh x y).attrOr "isExpanded" "false") else b.isExpanded, x := some x, y := some y }).collaboration with
    | none => rfl
    | some c =>
      have hc' : collabState d V = some c := by
        rw [← h.collab]
        exact hc
      simp only [participants_same (hH _ hm) _ c hc']
      have : ∀ E : Diagram, E.collaboration = some c → { E with collaboration := some c } = E := by
        intro E hE
        cases E
        simp only at hE
        subst hE
        rfl
      rw [show ({ c with participants := c.participants } : Collab) = c from rfl, this _ hc]
  · have hsame : SameNode a { b with width := a.width, height := a.height, x := a.x, y := a.y, isExpanded := a.isExpanded } := by
      by_cases hT : n ∈ T
      · obtain ⟨s1, s2, s3⟩ := hb1 hT
        refine ⟨?_, s2, s3⟩
        cases a; cases b
        simp_all only [NodeAttrs.mk.injEq, and_self, true_and, and_true]
      · obtain ⟨s1, s2, s3⟩ := hb2 hT
        refine ⟨?_, s2.symm, s3.1.symm, s3.2.symm⟩
        cases a; cases b
        simp only [NodeAttrs.mk.injEq, true_and, and_true] at s1 ⊢
        obtain ⟨rfl, rfl, rfl, rfl, rfl, rfl, -, -, -, -, -, rfl, rfl, rfl, rfl, rfl, rfl, rfl, rfl, rfl⟩ := s1
        simp
    refine ⟨h.procs, h.head, h.collab, by simpa [Diagram.updNode] using h.nodup, by simpa [Diagram.updNode] using h.known, ?_, h.edges, h.table⟩
    intro m c hc
    simp only [Diagram.updNode, Graph.modifyNode, Dict.get?_modify]
    split
    · rename_i hm'
      subst hm'
      rw [hget] at hc
      cases hc
      refine ⟨_, by rw [hb]; rfl, fun _ => ?_, fun hT => absurd List.mem_cons_self hT⟩
      rw [writeShape, hexp]
      exact hsame
    · rename_i hm'
      obtain ⟨b', hb', hb1', hb2'⟩ := h.nodes m c hc
      refine ⟨b', hb', fun hT => hb1' ?_, fun hT => hb2' fun h' => hT (List.mem_cons_of_mem _ h')⟩
      rcases List.mem_cons.1 hT with hT | hT
      · exact absurd hT.symm hm'
      · exact hT

theorem shape_bounds (id : String) (extra : List (String × String)) (w h x y : String) : boundsOf (shapeXml id extra w h x y) =
    .ok (.elem "omgdc:Bounds" [("width", w), ("height", h), ("x", x), ("y", y)] []) := by
  rw [boundsOf, shapeXml, Xml.byName, byNameIn_hit _ _ _ (by decide)]
  rfl

/-- The shape of a lane or pool. -/
def boxTree (id : String) (b : BoxDi) : ETree := shape id [("isHorizontal", b.isHorizontal)] b.width b.height b.x b.y

theorem toDom_boxTree (id : String) (b : BoxDi) : (boxTree id b).toDom = boxXml id b := toDom_shape _ _ _ _ _ _

theorem boxXml_bounds (id : String) (b : BoxDi) : boundsOf (boxXml id b) =
    .ok (.elem "omgdc:Bounds" [("width", b.width), ("height", b.height), ("x", b.x), ("y", b.y)] []) := shape_bounds _ _ _ _ _ _

theorem boxXml_element (id : String) (b : BoxDi) : (boxXml id b).getAttr "bpmnElement" = id := by simp [boxXml, getAttr_elem, Dict.get?_cons]

theorem boxXml_box (id : String) (b : BoxDi) :
    boxOf (boxXml id b) (.elem "omgdc:Bounds" [("width", b.width), ("height", b.height), ("x", b.x), ("y", b.y)] []) = b := by
  simp [boxOf, boxXml, getAttr_elem, Dict.get?_cons]

theorem known_not {d : Diagram} {L P H V T U D} (h : PlaneInv d L P H V T U D) {i : String} (hi : i ∉ d.graph.nodes.keys) :
    D.graph.nodes.get? i = none := by
  cases hg : D.graph.nodes.get? i with
  | none => rfl
  | some b => exact absurd (h.known i (Dict.mem_keys_of_get? hg)) hi

/-- Reading the shape of a lane. -/
theorem importShape_lane {d : Diagram} {L P H V T U D} (h : PlaneInv d L P H V T U D) {i : String} (b : BoxDi) (hi : i ∉ d.graph.nodes.keys)
    (hp : i ∉ poolIds d) : importShape (boxXml i b) D = .ok D := by
  simp only [importShape, boxXml_bounds, except_bind_ok, boxXml_element, importNodeShape, known_not h hi]
  cases hc : D.collaboration with
  | none => rfl
  | some c =>
    have hc' : collabState d V = some c := by rw [← h.collab]; exact hc
    simp only [participants_same hp _ c hc', except_pure]
    cases D
    simp only at hc
    subst hc
    rfl

theorem modify_map_entries {α : Type} (l : List (String × α)) (g : String × α → α) (i : String) (k : α → α) (hn : (l.map (·.1)).Nodup) :
    Dict.modify (l.map fun p => (p.1, g p)) i k = l.map fun p => (p.1, if p.1 = i then k (g p) else g p) := by
  induction l with
  | nil => rfl
  | cons p r ih =>
    rw [List.map_cons, List.nodup_cons] at hn
    simp only [List.map_cons, Dict.modify]
    by_cases h : p.1 = i
    · subst h
      simp only [if_true, List.cons.injEq, true_and]
      apply List.map_congr_left
      intro q hq
      rw [if_neg]
      intro e
      exact hn.1 (List.mem_map.2 ⟨q, hq, e⟩)
    · simp only [if_neg h, ih hn.2]

/-- Reading the shape of a pool. -/
theorem importShape_pool {d : Diagram} {L P H V T U D} (h : PlaneInv d L P H V T U D) (hpn : (poolIds d).Nodup) {c : Collab}
    (hc : d.collaboration = some c) {p : String × Participant} (hp : p ∈ c.participants) {b : BoxDi} (hb : p.2.di = some b)
    (hi : p.1 ∉ d.graph.nodes.keys) : ∃ D', importShape (boxXml p.1 b) D = .ok D' ∧ PlaneInv d L P H (p.1 :: V) T U D' := by
  have hD : D.collaboration = some { c with participants := c.participants.map fun p => (p.1, { p.2 with di := if p.1 ∈ V then p.2.di else none }) } := by
    rw [h.collab, collabState, hc]; rfl
  have hk : (c.participants.map (·.1)).Nodup := by simpa [poolIds, hc] using hpn
  refine ⟨_, by
    simp only [importShape, boxXml_bounds, except_bind_ok, boxXml_element, importNodeShape, known_not h hi, hD, boxXml_box, except_pure]
    rfl, ?_⟩
  refine ⟨h.procs, h.head, ?_, h.nodup, h.known, h.nodes, h.edges, h.table⟩
  simp only [collabState, hc, Option.map_some, Option.some.injEq]
  rw [modify_map_entries _ _ _ _ hk]
  congr 1
  apply List.map_congr_left
  intro q hq
  simp only [List.mem_cons, Prod.mk.injEq, true_and]
  by_cases e : q.1 = p.1
  · have hqp : q = p := by
      have h1 := Dict.get?_of_mem (d := c.participants) (k := q.1) (v := q.2) hk hq
      have h2 := Dict.get?_of_mem (d := c.participants) (k := p.1) (v := p.2) hk hp
      rw [e, h2, Option.some.injEq] at h1
      exact Prod.ext e h1.symm
    subst hqp
    simp [hb]
  · simp [e]

/-- Reading the edge of a flow. -/
theorem importFlowDi_flow {d : Diagram} {L P H V T U D} (hd : Exportable d) (hL : ∀ a, a ∈ L ↔ a ∈ flowAttrs d)
    (h : PlaneInv d L P H V T U D) {a : EdgeAttrs} (ha : a ∈ flowAttrs d) :
    ∃ D', importFlowDi (edgeTree a).toDom D = .ok D' ∧ PlaneInv d L P H V T (a.id :: U) D' := by
  have hf := hd.flowFacts
  have hr := hf.ready a ha
  obtain ⟨i, hi⟩ := Option.isSome_iff_exists.1 hr.id
  obtain ⟨n, hn⟩ := Option.isSome_iff_exists.1 hr.name
  obtain ⟨s, hs⟩ := Option.isSome_iff_exists.1 hr.source
  obtain ⟨t, ht⟩ := Option.isSome_iff_exists.1 hr.target
  obtain ⟨ws, hws⟩ := Option.isSome_iff_exists.1 hr.waypoints
  have htab : D.sequenceFlows.get? i = some ⟨n, s, t⟩ ∨ (D.sequenceFlows.get? i = none ∧
      ∃ c m, D.collaboration = some c ∧ c.messageFlows.get? i = some m ∧ m.name = n ∧ m.sourceRef = s ∧ m.targetRef = t) := by
    by_cases hp : a.process.isSome
    · have : D.sequenceFlows.get? i = some ⟨n, s, t⟩ := by
        rw [h.table]
        exact ⟨a, ha, hp, hi, by simp [flowEntry, hn, hs, ht]⟩
      exact .inl this
    · have hno : D.sequenceFlows.get? i = none := by
        cases hg : D.sequenceFlows.get? i with
        | none => rfl
        | some v =>
          obtain ⟨b, hb, hbp, hbi, -⟩ := (h.table i v).1 hg
          have := hf.ids b hb a ha (by rw [hbi, hi])
          subst this
          exact absurd hbp hp
      obtain ⟨e, he, rfl⟩ := List.mem_map.1 ha
      rcases hd.flowProcess e he with ⟨p, hp', -⟩ | ⟨j, hj, hij⟩
      · simp [hp'] at hp
      · rw [hi, Option.some.injEq] at hij
        subst hij
        obtain ⟨c, m, hc, hm, -, m1, m2, m3, -⟩ := hd.message he hj hi
        rw [hn, Option.some.injEq] at m1
        rw [hs, Option.some.injEq] at m2
        rw [ht, Option.some.injEq] at m3
        have hg : c.messageFlows.get? i = some m := Dict.get?_of_mem (hd.messages c hc).1 hm
        refine .inr ⟨hno, { c with participants := c.participants.map fun p => (p.1, { p.2 with di := if p.1 ∈ V then p.2.di else none }) }, m,
          by rw [h.collab, collabState, hc, Option.map_some], hg, m1.symm, m2.symm, m3.symm⟩
  have hjoins : ∀ b ∈ L, ∀ e : Edge, (e = fullEdge b ∨ e = coreEdge b) → (e.joins s t = true ↔ b = a) := by
    intro b hb e he
    have h1 : e.joins s t = (coreEdge b).joins s t := by rcases he with rfl | rfl <;> rfl
    rw [h1]
    constructor
    · intro hj
      exact (hf.pairs a ha b ((hL b).1 hb) (by simpa [hs, ht] using hj)).symm
    · rintro rfl
      simpa [hs, ht] using joins_coreEdge b
  have hedge : D.graph.hasEdge s t = true := by
    rw [Graph.hasEdge_iff, h.edges]
    refine ⟨_, List.mem_map.2 ⟨a, (hL a).2 ha, rfl⟩, ?_⟩
    refine (hjoins a ((hL a).2 ha) _ ?_).2 rfl
    split
    · exact .inl rfl
    · exact .inr rfl
  have hway : (edgeXml i ws).byName "waypoint" = ws.map fun w => .elem "omgdi:waypoint" [("x", w.1), ("y", w.2)] [] := by
    simp only [edgeXml, Xml.byName]
    clear hws htab
    induction ws with
    | nil => simp [Xml.byNameIn]
    | cons w r ih =>
      simp only [List.map_cons, Xml.byNameIn, Xml.byName, ih, List.append_nil, show Xml.localName "omgdi:waypoint" = "waypoint" by decide,
        if_true]
      rfl
  refine ⟨{ D with graph := D.graph.modifyEdge s t fun a => { a with waypoints := some ws, name := some n } }, ?_, ?_⟩
  · rw [edgeTree, toDom_edgeDi]
    simp only [hi, hws, Option.getD_some]
    have hel : (edgeXml i ws).getAttr "bpmnElement" = i := by simp [edgeXml, getAttr_elem, Dict.get?_cons]
    have : ((fun w : Xml => (w.getAttr "x", w.getAttr "y")) ∘ fun w : String × String => Xml.elem "omgdi:waypoint" [("x", w.1), ("y", w.2)] []) = id := by
      funext w
      simp [getAttr_elem, Dict.get?_cons]
    rcases htab with htab | ⟨htab, c, m, hc, hm, rfl, rfl, rfl⟩
    · simp only [importFlowDi, hel, htab, hway, hedge, if_true, List.map_map, except_pure]
      rw [this, List.map_id]
    · simp only [importFlowDi, hel, htab, hc, hm, Option.map_some, hway, hedge, if_true, List.map_map, except_pure]
      rw [this, List.map_id]
  · refine ⟨h.procs, h.head, h.collab, h.nodup, h.known, h.nodes, ?_, h.table⟩
    simp only [Graph.modifyEdge, h.edges, List.map_map]
    apply List.map_congr_left
    intro b hb
    simp only [Function.comp]
    by_cases hba : b = a
    · subst hba
      rw [if_pos ((hjoins b hb _ (by split <;> simp)).2 rfl)]
      simp only [List.mem_cons, true_or, if_true]
      obtain ⟨bi, bn, bp, bs, bt, bc, bw⟩ := b
      simp only at hn hws hi
      subst hn hws
      split <;> simp [fullEdge, coreEdge]
    · have hid : b.id ≠ a.id := fun hc => hba (hf.ids b ((hL b).1 hb) a ha hc)
      rw [if_neg (by
        intro hc
        exact hba ((hjoins b hb _ (by split <;> simp)).1 hc))]
      simp only [List.mem_cons, hid, false_or]

theorem importPlane_append (l m : List Xml) (D : Diagram) : importPlane (l ++ m) D = (do
    let E ← importPlane l D
    importPlane m E) := by
  induction l generalizing D with
  | nil => simp [importPlane]
  | cons x r ih =>
    simp only [List.cons_append, importPlane]
    split
    · exact ih D
    · cases x.tagName with
      | error e => rfl
      | ok t =>
        simp only [except_bind_ok]
        split
        · cases importShape x D with
          | error e => rfl
          | ok E => simp [ih]
        · split
          · cases importFlowDi x D with
            | error e => rfl
            | ok E => simp [ih]
          · exact ih D

/-- The place of the shape, with an arbitrary box if there is none. -/
def boxOr (o : Option BoxDi) : BoxDi := o.getD ⟨"", "", "", "", ""⟩

/-- The shape of a lane. -/
def laneShapeTree : Lane → ETree
  | .mk id _ _ _ _ di => boxTree id (boxOr di)

/-- The shape of a pool. -/
def poolShapeTree (p : String × Participant) : ETree := boxTree p.1 (boxOr p.2.di)

theorem importPlane_box (i : String) (b : BoxDi) (r : List Xml) (D : Diagram) : importPlane (boxXml i b :: r) D = (do
    let E ← importShape (boxXml i b) D
    importPlane r E) := by
  simp only [importPlane, boxXml, Xml.isText, Xml.tagName, Bool.false_eq_true, if_false, except_bind_ok]
  rw [if_pos (by decide)]

theorem importPlane_lanes {d : Diagram} {L P H V T U D} (h : PlaneInv d L P H V T U D) : ∀ (l : List Lane),
    (∀ x ∈ l, laneId x ∉ d.graph.nodes.keys ∧ laneId x ∉ poolIds d) → importPlane (l.map fun x => (laneShapeTree x).toDom) D = .ok D
  | [], _ => rfl
  | x :: r, hl => by
    rw [List.forall_mem_cons] at hl
    obtain ⟨i, nm, ci, ch, refs, di⟩ := x
    rw [List.map_cons, laneShapeTree, toDom_boxTree, importPlane_box, importShape_lane (i := i) h _ hl.1.1 hl.1.2, except_bind_ok]
    exact importPlane_lanes h r hl.2

theorem importPlane_pools {d : Diagram} {L P H T U} (hpn : (poolIds d).Nodup) {c : Collab} (hc : d.collaboration = some c) :
    ∀ (l : List (String × Participant)) (hl : ∀ p ∈ l, p ∈ c.participants ∧ p.2.di.isSome ∧ p.1 ∉ d.graph.nodes.keys) {V D}
    (h : PlaneInv d L P H V T U D),
    ∃ D', importPlane (l.map fun p => (poolShapeTree p).toDom) D = .ok D' ∧ PlaneInv d L P H ((l.map (·.1)).reverse ++ V) T U D'
  | [], _, V, D, h => ⟨D, by simp [importPlane], by simpa using h⟩
  | p :: r, hl, V, D, h => by
    rw [List.forall_mem_cons] at hl
    obtain ⟨b, hb⟩ := Option.isSome_iff_exists.1 hl.1.2.1
    obtain ⟨D1, e1, i1⟩ := importShape_pool h hpn hc hl.1.1 hb hl.1.2.2
    obtain ⟨D2, e2, i2⟩ := importPlane_pools hpn hc r hl.2 i1
    refine ⟨D2, ?_, by simpa using i2⟩
    rw [List.map_cons, poolShapeTree, toDom_boxTree, hb, boxOr, Option.getD_some, importPlane_box, e1, except_bind_ok, e2]

theorem importPlane_shapes {d : Diagram} {L P H V U} (hn : ∀ n ∈ d.graph.nodes, NodeReady n) (hu : d.graph.nodes.keys.Nodup)
    (hH : ∀ n ∈ d.graph.nodes, n.1 ∉ poolIds d) : ∀ (l : List Node) (hl : ∀ n ∈ l, n ∈ d.graph.nodes) {T D} (h : PlaneInv d L P H V T U D),
    ∃ D', importPlane (l.map fun n => (shapeTree n).toDom) D = .ok D' ∧ PlaneInv d L P H V ((l.map (·.1)).reverse ++ T) U D'
  | [], _, T, D, h => ⟨D, by simp [importPlane], by simpa using h⟩
  | n :: r, hl, T, D, h => by
    rw [List.forall_mem_cons] at hl
    obtain ⟨D1, e1, i1⟩ := importShape_node hn hu hH h hl.1
    obtain ⟨D2, e2, i2⟩ := importPlane_shapes hn hu hH r hl.2 i1
    refine ⟨D2, ?_, by simpa using i2⟩
    rw [shapeTree, toDom_shape] at e1
    simp only [List.map_cons, importPlane, shapeTree, toDom_shape, shapeXml, Xml.isText, Xml.tagName, Bool.false_eq_true, if_false, except_bind_ok]
    rw [if_pos (by decide), ← shapeXml, e1, except_bind_ok]
    simpa only [shapeTree, toDom_shape, shapeXml] using e2

theorem importPlane_edges {d : Diagram} {L P H V T} (hf : Exportable d) (hL : ∀ a, a ∈ L ↔ a ∈ flowAttrs d) :
    ∀ (l : List EdgeAttrs) (hl : ∀ a ∈ l, a ∈ flowAttrs d) {U D} (h : PlaneInv d L P H V T U D),
    ∃ D', importPlane (l.map fun a => (edgeTree a).toDom) D = .ok D' ∧ PlaneInv d L P H V T ((l.map (·.id)).reverse ++ U) D'
  | [], _, T, D, h => ⟨D, by simp [importPlane], by simpa using h⟩
  | a :: r, hl, T, D, h => by
    rw [List.forall_mem_cons] at hl
    obtain ⟨D1, e1, i1⟩ := importFlowDi_flow hf hL h hl.1
    obtain ⟨D2, e2, i2⟩ := importPlane_edges hf hL r hl.2 i1
    refine ⟨D2, ?_, by simpa using i2⟩
    rw [edgeTree, toDom_edgeDi] at e1
    simp only [List.map_cons, importPlane, edgeTree, toDom_edgeDi, edgeXml, Xml.isText, Xml.tagName, Bool.false_eq_true, if_false, except_bind_ok]
    rw [if_neg (by decide), if_pos (by decide), ← edgeXml, e1, except_bind_ok]
    simpa only [edgeTree, toDom_edgeDi, edgeXml] using e2

/-! ## The exported tree -/

/-- The pools. -/
def poolsOf (d : Diagram) : List (String × Participant) := (d.collaboration.map (·.participants)).getD []

/-- The message flows. -/
def messagesOf (d : Diagram) : List (String × MsgFlow) := (d.collaboration.map (·.messageFlows)).getD []

/-- All lanes. -/
def allLanes (d : Diagram) : List Lane := d.processElements.flatMap fun p => lanesOf p.2

/-- The attributes of the flow with the given id. -/
def msgAttrs (d : Diagram) (i : String) : EdgeAttrs := ((flowAttrs d).find? fun a => a.id == some i).getD {}

/-- The children of the plane. -/
def planeKids (d : Diagram) : List ETree :=
  (messagesOf d).map (fun m => edgeTree (msgAttrs d m.1)) ++ ((poolsOf d).map poolShapeTree ++ ((allLanes d).map laneShapeTree ++
    (d.graph.nodes.map shapeTree ++ d.getFlows.map fun f => edgeTree f.2.2)))

/-- The plane. -/
def planeTree (d : Diagram) : ETree :=
  el "bpmndi:BPMNPlane" [("id", d.planeId.getD ""), ("bpmnElement", d.planeElement.getD "")] (planeKids d)

/-- The element of a message flow. -/
def messageTree (m : String × MsgFlow) : ETree :=
  el "messageFlow" [("id", m.1), ("name", m.2.name), ("sourceRef", m.2.sourceRef), ("targetRef", m.2.targetRef)] []

/-- The element of a pool. -/
def poolTree (p : String × Participant) : ETree := el "participant" [("id", p.1), ("name", p.2.name), ("processRef", p.2.processRef)] []

/-- The collaboration, if there is one. -/
def collabTrees (d : Diagram) : List ETree :=
  match d.collaboration with
  | none => []
  | some c => [el "collaboration" [("id", c.id)] (c.messageFlows.map messageTree ++ c.participants.map poolTree)]

/-- The document. -/
def docTree (d : Diagram) (f : Nat) : ETree :=
  el "definitions" definitionsAttrs
    (el "bpmndi:BPMNDiagram" [("id", d.diagramId.getD ""), ("name", d.diagramName.getD "")] [planeTree d] ::
      (collabTrees d ++ d.processElements.map (procTree d f)))

theorem exportLanes_ok : ∀ (l : List Lane), (∀ x ∈ l, LaneReady x) → exportLanes l = .ok (l.map laneTree, l.map laneShapeTree)
  | [], _ => rfl
  | x :: r, hl => by
    rw [List.forall_mem_cons] at hl
    have ih := exportLanes_ok r hl.2
    obtain ⟨id, name, refs, box, rfl, -⟩ := hl.1
    simp [exportLanes, exportLane, ih, laneTree, laneShapeTree, boxTree, boxOr]

theorem msgAttrs_spec {d : Diagram} {i : String} (h : ∃ e ∈ d.graph.edges, e.attrs.id = some i) :
    msgAttrs d i ∈ flowAttrs d ∧ (msgAttrs d i).id = some i := by
  obtain ⟨e, he, hi⟩ := h
  unfold msgAttrs
  cases hf : (flowAttrs d).find? fun a => a.id == some i with
  | none =>
    rw [List.find?_eq_none] at hf
    exact absurd (by simp [hi]) (hf e.attrs (List.mem_map.2 ⟨e, he, rfl⟩))
  | some a =>
    have h1 := List.find?_some hf
    exact ⟨List.mem_of_find?_eq_some hf, by simpa using h1⟩

theorem getFlowById_msg {d : Diagram} (hd : Writable d) {i : String} (h : ∃ e ∈ d.graph.edges, e.attrs.id = some i) :
    ∃ f, d.getFlowById i = .ok (some f) ∧ f.2.2 = msgAttrs d i := by
  have hids : ∀ f ∈ d.graph.flows, ∃ a ∈ flowAttrs d, a = f.2.2 := by
    intro f hf
    obtain ⟨e, he, h⟩ := mem_getFlows hd.sane (f := f) hf
    exact ⟨_, List.mem_map.2 ⟨e, he, rfl⟩, h⟩
  have hp : d.getFlowById i = .ok (d.graph.flows.find? fun f => f.2.2.id == some i) := by
    apply pyFind_eq_find?
    intro f hf
    obtain ⟨e, he, h⟩ := mem_getFlows hd.sane (f := f) hf
    obtain ⟨j, hj⟩ := Option.isSome_iff_exists.1 (hd.flows e he).id
    rw [← h]
    simp [hj]
  obtain ⟨m1, m2⟩ := msgAttrs_spec h
  have hperm : (d.graph.flows.map (·.2.2)).Perm (flowAttrs d) := Graph.flows_attrs_perm hd.sane.wf
  obtain ⟨x, hx, hxm⟩ := List.mem_map.1 (hperm.mem_iff.2 m1)
  cases hf : d.graph.flows.find? fun f => f.2.2.id == some i with
  | none =>
    rw [List.find?_eq_none] at hf
    exact absurd (by simp [hxm, m2]) (hf x hx)
  | some f =>
    refine ⟨f, by rw [hp, hf], ?_⟩
    have h1 : f.2.2.id = some i := by simpa using List.find?_some hf
    have h2 := List.mem_of_find?_eq_some hf
    obtain ⟨a, ha, rfl⟩ := hids f h2
    have hnd : ((flowAttrs d).map (·.id)).Nodup := by simpa [flowAttrs, Function.comp_def] using hd.flowIds
    exact List.inj_on_of_nodup_map hnd ha m1 (by rw [h1, m2])

theorem exportMessageFlows_ok {d : Diagram} (hd : Writable d) : ∀ (l : List (String × MsgFlow)),
    (∀ m ∈ l, ∃ e ∈ d.graph.edges, e.attrs.id = some m.1) →
    exportMessageFlows d l = .ok (l.map messageTree, l.map fun m => edgeTree (msgAttrs d m.1))
  | [], _ => rfl
  | (i, m) :: r, hl => by
    rw [List.forall_mem_cons] at hl
    obtain ⟨f, hf, hfa⟩ := getFlowById_msg hd hl.1
    obtain ⟨m1, m2⟩ := msgAttrs_spec hl.1
    obtain ⟨e, he, hea⟩ := List.mem_map.1 m1
    obtain ⟨ws, hws⟩ := Option.isSome_iff_exists.1 (hea ▸ (hd.flows e he).waypoints : (msgAttrs d i).waypoints.isSome)
    simp only at m2
    simp [exportMessageFlows, hf, hfa, hws, exportMessageFlows_ok hd r hl.2, messageTree, edgeTree, m2]

theorem exportParticipants_ok : ∀ (l : List (String × Participant)), (∀ p ∈ l, p.2.di.isSome) →
    exportParticipants l = .ok (l.map poolTree, l.map poolShapeTree)
  | [], _ => rfl
  | (i, p) :: r, hl => by
    rw [List.forall_mem_cons] at hl
    obtain ⟨b, hb⟩ := Option.isSome_iff_exists.1 hl.1
    simp only at hb
    simp [exportParticipants, hb, exportParticipants_ok r hl.2, poolTree, poolShapeTree, boxTree, boxOr]

theorem exportCollaboration_ok {d : Diagram} (hd : Writable d) :
    exportCollaboration d = .ok (collabTrees d, (messagesOf d).map (fun m => edgeTree (msgAttrs d m.1)) ++ (poolsOf d).map poolShapeTree) := by
  unfold exportCollaboration collabTrees messagesOf poolsOf
  cases hc : d.collaboration with
  | none => simp
  | some c =>
    obtain ⟨h1, h2⟩ := hd.pools c hc
    simp [exportMessageFlows_ok hd c.messageFlows h2, exportParticipants_ok c.participants h1]

theorem exportProcesses_ok {d : Diagram} (hd : Writable d) {height : String → Nat}
    (hh : ∀ n ∈ d.graph.nodes, ∀ m ∈ d.graph.nodes, n.2.type = some "subProcess" → m.2.process = some n.1 → height m.1 < height n.1)
    {f : Nat} (hf : ∀ n ∈ d.graph.nodes, height n.1 < f) : ∀ (l : List (String × ProcAttrs)), (∀ p ∈ l, p ∈ d.processElements) →
      exportProcesses d f l = .ok (l.map (procTree d f), (l.flatMap fun p => lanesOf p.2).map laneShapeTree)
  | [], _ => rfl
  | (pid, a) :: r, hl => by
    rw [List.forall_mem_cons] at hl
    obtain ⟨h1, h2, h3⟩ := hd.procs _ hl.1
    obtain ⟨c1, hc1⟩ := Option.isSome_iff_exists.1 h1
    obtain ⟨c2, hc2⟩ := Option.isSome_iff_exists.1 h2
    obtain ⟨c3, hc3⟩ := Option.isSome_iff_exists.1 h3
    have hl0 := hd.lanes _ hl.1
    simp only at hc1 hc2 hc3 hl0
    have hns : forEach (exportNode d f) (nodesOf d pid) = .ok ((nodesOf d pid).map (nodeTree d f)) := by
      apply forEach_ok
      intro x hx
      have := (List.mem_filter.1 hx).1
      exact exportNode_ok hd.sane hd.nodes hd.flows hh f x this (hf x this)
    have hfs : forEach (fun f => exportFlow f.2.2) (d.getFlowsByProcess pid)
        = .ok ((d.getFlowsByProcess pid).map fun x => flowTree x.2.2) := by
      apply forEach_ok
      intro x hx
      obtain ⟨e, he, hxe⟩ := List.mem_map.1 (mem_flowsByProcess hd.sane hx).1
      exact exportFlow_ok (hxe ▸ hd.flows e he)
    cases hs : a.laneSet with
    | none =>
      simp [exportProcesses, exportProcess, processAttrs, hc1, hc2, hc3, hs, getNodesByProcess_ok (fun n hn => (hd.nodes n hn).process),
        hns, hfs, exportProcesses_ok hd hh hf r hl.2, procTree, procXmlAttrs, laneSetTrees, lanesOf]
    | some s =>
      have hl1 := exportLanes_ok s.2 (by simpa [lanesOf, hs] using hl0)
      simp [exportProcesses, exportProcess, processAttrs, hc1, hc2, hc3, hs, getNodesByProcess_ok (fun n hn => (hd.nodes n hn).process),
        hns, hfs, exportProcesses_ok hd hh hf r hl.2, procTree, procXmlAttrs, laneSetTrees, lanesOf, hl1]

theorem definitions_ok {d : Diagram} (hd : Writable d) {height : String → Nat}
    (hh : ∀ n ∈ d.graph.nodes, ∀ m ∈ d.graph.nodes, n.2.type = some "subProcess" → m.2.process = some n.1 → height m.1 < height n.1)
    {f : Nat} (hf : ∀ n ∈ d.graph.nodes, height n.1 < f) : definitions f d = .ok (docTree d f) := by
  obtain ⟨h1, h2, h3, h4⟩ := hd.header
  obtain ⟨c1, hc1⟩ := Option.isSome_iff_exists.1 h1
  obtain ⟨c2, hc2⟩ := Option.isSome_iff_exists.1 h2
  obtain ⟨c3, hc3⟩ := Option.isSome_iff_exists.1 h3
  obtain ⟨c4, hc4⟩ := Option.isSome_iff_exists.1 h4
  have s3 : forEach exportNodeDi d.getNodes = .ok (d.graph.nodes.map shapeTree) :=
    forEach_ok fun x hx => exportNodeDi_ok (hd.nodes x hx)
  have s4 : forEach (fun f => exportFlowDi f.2.2) d.getFlows = .ok (d.getFlows.map fun f => edgeTree f.2.2) := by
    apply forEach_ok
    intro x hx
    obtain ⟨e, he, hxe⟩ := mem_getFlows hd.sane hx
    exact exportFlowDi_ok (hxe ▸ hd.flows e he)
  simp [definitions, hc1, hc2, hc3, hc4, exportCollaboration_ok hd, exportProcesses_ok hd hh hf d.processElements (fun _ h => h), s3, s4,
    docTree, planeTree, planeKids, allLanes]

theorem planeKids_forms (d : Diagram) : ∀ t ∈ planeKids d, (∃ id extra w h x y, t = shape id extra w h x y) ∨ ∃ id ws, t = edgeDi id ws := by
  intro t ht
  simp only [planeKids, List.mem_append, List.mem_map] at ht
  rcases ht with ⟨m, -, rfl⟩ | ⟨p, -, rfl⟩ | ⟨⟨i, nm, ci, ch, refs, di⟩, -, rfl⟩ | ⟨n, -, rfl⟩ | ⟨x, -, rfl⟩
  · exact .inr ⟨_, _, rfl⟩
  · exact .inl ⟨_, _, _, _, _, _, rfl⟩
  · exact .inl ⟨_, _, _, _, _, _, rfl⟩
  · exact .inl ⟨_, _, _, _, _, _, rfl⟩
  · exact .inr ⟨_, _, rfl⟩

theorem cleanAll_plane (d : Diagram) : cleanAll (planeKids d) = true := by
  rw [cleanAll_iff]
  intro t ht
  rcases planeKids_forms d t ht with ⟨_, _, _, _, _, _, rfl⟩ | ⟨_, _, rfl⟩
  · exact clean_shape _ _ _ _ _ _
  · exact clean_edgeDi _ _

theorem clean_collabTrees (d : Diagram) : ∀ t ∈ collabTrees d, clean t = true := by
  intro t ht
  unfold collabTrees at ht
  split at ht
  · cases ht
  · simp only [List.mem_singleton] at ht
    subst ht
    apply clean_el (by decide)
    intro k hk
    rcases List.mem_append.1 hk with hk | hk
    · obtain ⟨m, -, rfl⟩ := List.mem_map.1 hk
      exact clean_el (by decide) (by simp)
    · obtain ⟨m, -, rfl⟩ := List.mem_map.1 hk
      exact clean_el (by decide) (by simp)

theorem clean_planeTree (d : Diagram) : clean (planeTree d) = true :=
  clean_el (by decide) ((cleanAll_iff _).1 (cleanAll_plane d))

theorem clean_diagramTree (d : Diagram) (as : List (String × String)) : clean (el "bpmndi:BPMNDiagram" as [planeTree d]) = true := by
  apply clean_el (by decide)
  simp only [List.mem_singleton, forall_eq]
  exact clean_planeTree d

theorem cleanAll_docTree {d : Diagram} (hd : Writable d) (f : Nat) :
    cleanAll (el "bpmndi:BPMNDiagram" [("id", d.diagramId.getD ""), ("name", d.diagramName.getD "")] [planeTree d] ::
      (collabTrees d ++ d.processElements.map (procTree d f))) = true := by
  rw [cleanAll_iff, List.forall_mem_cons]
  refine ⟨clean_diagramTree d _, ?_⟩
  intro t ht
  rcases List.mem_append.1 ht with ht | ht
  · exact clean_collabTrees d t ht
  obtain ⟨p, -, rfl⟩ := List.mem_map.1 ht
  exact clean_procTree hd.nodes f p

theorem clean_docTree {d : Diagram} (hd : Writable d) (f : Nat) : clean (docTree d f) = true :=
  clean_el (by decide) ((cleanAll_iff _).1 (cleanAll_docTree hd f))

/-- The parsed plane. -/
def planeXml (d : Diagram) : Xml :=
  .elem "bpmndi:BPMNPlane" [("id", d.planeId.getD ""), ("bpmnElement", d.planeElement.getD "")]
    ((planeKids d).map ETree.toDom)

/-- The parsed element of a message flow. -/
def messageXml (m : String × MsgFlow) : Xml :=
  .elem "messageFlow" [("id", m.1), ("name", m.2.name), ("sourceRef", m.2.sourceRef), ("targetRef", m.2.targetRef)] []

/-- The parsed element of a pool. -/
def poolXml (p : String × Participant) : Xml := .elem "participant" [("id", p.1), ("name", p.2.name), ("processRef", p.2.processRef)] []

/-- The parsed collaboration. -/
def collabXmls (d : Diagram) : List Xml :=
  match d.collaboration with
  | none => []
  | some c => [.elem "collaboration" [("id", c.id)] (c.messageFlows.map messageXml ++ c.participants.map poolXml)]

theorem toDom_collabTrees (d : Diagram) : (collabTrees d).map ETree.toDom = collabXmls d := by
  have hcl := clean_collabTrees d
  unfold collabTrees collabXmls at *
  cases hc : d.collaboration with
  | none => rfl
  | some c =>
    simp only [List.map_cons, List.map_nil, List.cons.injEq, and_true]
    rw [toDom_el, List.map_append, List.map_map, List.map_map]
    · rfl
    · rw [cleanAll_iff]
      intro k hk
      rcases List.mem_append.1 hk with hk | hk
      · obtain ⟨m, -, rfl⟩ := List.mem_map.1 hk
        exact clean_el (by decide) (by simp)
      · obtain ⟨m, -, rfl⟩ := List.mem_map.1 hk
        exact clean_el (by decide) (by simp)

/-- The parsed diagram element. -/
def diagramXml (d : Diagram) : Xml :=
  .elem "bpmndi:BPMNDiagram" [("id", d.diagramId.getD ""), ("name", d.diagramName.getD "")] [planeXml d]

theorem toDom_docTree {d : Diagram} (hd : Writable d) (f : Nat) : (docTree d f).toDom =
    .elem "definitions" definitionsAttrs (diagramXml d :: (collabXmls d ++ d.processElements.map (procXml d f))) := by
  rw [docTree, toDom_el (cleanAll_docTree hd f), List.map_cons, List.map_append, toDom_collabTrees, List.map_map]
  congr 2
  · rw [toDom_el (by simp [cleanAll, clean_planeTree]), diagramXml]
    simp only [List.map_cons, List.map_nil]
    rw [planeTree, toDom_el (cleanAll_plane d), planeXml]
  · congr 1
    apply List.map_congr_left
    intro p hp
    exact toDom_procTree hd.nodes f p (hd.lanes p hp)

/-! ## Looking up the parts of the document -/

theorem plane_noDoc (d : Diagram) {name : String} (hn : name ∈ docTags) : Xml.byNameIn name [planeXml d] = [] := by
  apply byNameIn_eq_nil
  simp only [List.mem_singleton, forall_eq]
  refine ⟨_, _, _, rfl, by revert name; decide, ?_⟩
  apply byNameIn_eq_nil
  intro x hx
  obtain ⟨t, ht, rfl⟩ := List.mem_map.1 hx
  rcases planeKids_forms d t ht with ⟨_, _, _, _, _, _, rfl⟩ | ⟨_, _, rfl⟩
  · refine ⟨_, _, _, by rw [toDom_shape]; rfl, by revert name; decide, ?_⟩
    apply byNameIn_eq_nil
    simp only [List.mem_singleton, forall_eq]
    exact ⟨_, _, _, rfl, by revert name; decide, by simp [Xml.byNameIn]⟩
  · refine ⟨_, _, _, by rw [toDom_edgeDi]; rfl, by revert name; decide, ?_⟩
    apply byNameIn_eq_nil
    intro y hy
    obtain ⟨w, -, rfl⟩ := List.mem_map.1 hy
    exact ⟨_, _, _, rfl, by revert name; decide, by simp [Xml.byNameIn]⟩

theorem collab_noDoc (d : Diagram) {name : String} (hn : name ∈ docTags) :
    Xml.byNameIn name (collabXmls d) = if name = "collaboration" then collabXmls d else [] := by
  unfold collabXmls
  cases d.collaboration with
  | none => simp [Xml.byNameIn]
  | some c =>
    have inner : Xml.byNameIn name (c.messageFlows.map messageXml ++ c.participants.map poolXml) = [] := by
      apply byNameIn_eq_nil
      intro x hx
      rcases List.mem_append.1 hx with hx | hx
      · obtain ⟨m, -, rfl⟩ := List.mem_map.1 hx
        exact ⟨_, _, _, rfl, by revert name; decide, by simp [Xml.byNameIn]⟩
      · obtain ⟨m, -, rfl⟩ := List.mem_map.1 hx
        exact ⟨_, _, _, rfl, by revert name; decide, by simp [Xml.byNameIn]⟩
    simp only [Xml.byNameIn, Xml.byName, inner, Xml.localName, List.append_nil]
    have e : removeNamespace "collaboration" = "collaboration" := by decide
    by_cases h : name = "collaboration"
    · subst h; simp [e]
    · simp [e, h, Ne.symm h]

theorem doc_diagram (d : Diagram) (as : List (String × String)) (r : List Xml) :
    ∃ rest, Xml.byNameIn "BPMNDiagram" [Xml.elem "definitions" as (diagramXml d :: r)] = diagramXml d :: rest := by
  rw [byNameIn_miss _ _ _ (by decide), diagramXml, byNameIn_hit _ _ _ (by decide)]
  exact ⟨_, rfl⟩

theorem doc_plane (d : Diagram) : ∃ rest, (diagramXml d).byName "BPMNPlane" = planeXml d :: rest := by
  rw [diagramXml, Xml.byName, planeXml, byNameIn_hit _ _ _ (by decide)]
  exact ⟨_, rfl⟩

theorem byNameIn_procs {d : Diagram} {height} (hd : NodeFacts d height) (f : Nat) (l : List (String × ProcAttrs)) :
    Xml.byNameIn "process" (l.map (procXml d f)) = l.map (procXml d f) := by
  induction l with
  | nil => simp [Xml.byNameIn]
  | cons p r ih =>
    have h := inside_noDoc hd f p.1 (name := "process") (by decide)
    have h' := lanes_noDoc p.2 (name := "process") (by decide)
    rw [if_neg (by decide)] at h'
    rw [List.map_cons]
    conv => lhs; rw [procXml, byNameIn_hit _ _ _ (by decide), byNameIn_append, h, h', ih]
    rfl

theorem doc_process {d : Diagram} {height} (hd : NodeFacts d height) (f : Nat) (as : List (String × String)) (l : List (String × ProcAttrs)) :
    Xml.byNameIn "process" [Xml.elem "definitions" as (diagramXml d :: (collabXmls d ++ l.map (procXml d f)))] = l.map (procXml d f) := by
  rw [byNameIn_miss _ _ _ (by decide), diagramXml, byNameIn_miss _ _ _ (by decide), plane_noDoc d (by decide), byNameIn_append, byNameIn_procs hd,
    collab_noDoc d (by decide), if_neg (by decide)]
  simp [Xml.byNameIn]

theorem doc_collaboration {d : Diagram} {height} (hd : NodeFacts d height) (f : Nat) (as : List (String × String)) (l : List (String × ProcAttrs)) :
    Xml.byNameIn "collaboration" [Xml.elem "definitions" as (diagramXml d :: (collabXmls d ++ l.map (procXml d f)))] = collabXmls d := by
  have hprocs : Xml.byNameIn "collaboration" (l.map (procXml d f)) = [] := by
    apply byNameIn_eq_nil
    intro x hx
    obtain ⟨p, -, rfl⟩ := List.mem_map.1 hx
    refine ⟨_, _, _, rfl, by decide, ?_⟩
    rw [byNameIn_append, inside_noDoc hd f p.1 (by decide), lanes_noDoc p.2 (by decide), if_neg (by decide)]
    rfl
  rw [byNameIn_miss _ _ _ (by decide), diagramXml, byNameIn_miss _ _ _ (by decide), plane_noDoc d (by decide), byNameIn_append, hprocs,
    collab_noDoc d (by decide), if_pos rfl]
  simp [Xml.byNameIn]

/-! ## The shapes of lanes -/

theorem laneShape_append (i : String) : ∀ (l m : List Xml) (s : Option Xml), laneShape i (l ++ m) s = (do
    let t ← laneShape i l s
    laneShape i m t)
  | [], m, s => rfl
  | .text _ :: r, m, s => by simp only [List.cons_append, laneShape]; exact laneShape_append i r m s
  | .other _ :: r, m, s => rfl
  | .elem .. :: r, m, s => by simp only [List.cons_append, laneShape]; exact laneShape_append i r m _

theorem laneShape_skip (i : String) : ∀ (l : List Xml) (s : Option Xml),
    (∀ x ∈ l, (∃ t as ks, x = .elem t as ks) ∧ x.getAttr "bpmnElement" ≠ i) → laneShape i l s = .ok s
  | [], s, _ => rfl
  | x :: r, s, h => by
    rw [List.forall_mem_cons] at h
    obtain ⟨⟨t, as, ks, rfl⟩, hne⟩ := h.1
    simp only [laneShape, if_neg hne]
    exact laneShape_skip i r s h.2

theorem laneShape_lanes : ∀ (l : List Lane), (∀ x ∈ l, LaneReady x) → (l.map laneId).Nodup → ∀ x ∈ l, ∀ i nm ci ch refs b, x = .mk i nm ci ch refs (some b) →
    ∀ s, laneShape i (l.map fun x => (laneShapeTree x).toDom) s = .ok (some (boxXml i b))
  | [], _, _ => by simp
  | y :: r, hr, hn => by
    rw [List.forall_mem_cons] at hr
    rw [List.map_cons, List.nodup_cons] at hn
    intro x hx i nm ci ch refs b hxe s
    rw [List.map_cons]
    obtain ⟨yi, yn, yr, yb, rfl, -⟩ := hr.1
    rw [laneShapeTree, toDom_boxTree, boxXml]
    simp only [laneShape]
    rw [← boxXml]
    rcases List.mem_cons.1 hx with hx | hx
    · rw [hxe] at hx
      cases hx
      rw [if_pos (boxXml_element _ _)]
      apply laneShape_skip
      intro z hz
      obtain ⟨l, hl, rfl⟩ := List.mem_map.1 hz
      have hne : laneId l ≠ i := by
        intro e
        exact hn.1 (List.mem_map.2 ⟨l, hl, e⟩)
      obtain ⟨li, ln, lr, lb, rfl, -⟩ := hr.2 l hl
      rw [laneShapeTree, toDom_boxTree]
      exact ⟨⟨_, _, _, rfl⟩, by rw [boxXml_element]; exact hne⟩
    · exact laneShape_lanes r hr.2 hn.2 x hx i nm ci ch refs b hxe _

theorem edgeTree_element (a : EdgeAttrs) : (∃ t as ks, (edgeTree a).toDom = .elem t as ks) ∧ (edgeTree a).toDom.getAttr "bpmnElement" = a.id.getD "" := by
  rw [edgeTree, toDom_edgeDi]
  exact ⟨⟨_, _, _, rfl⟩, by simp [edgeXml, getAttr_elem, Dict.get?_cons]⟩

theorem shapeTree_element (n : Node) : (∃ t as ks, (shapeTree n).toDom = .elem t as ks) ∧ (shapeTree n).toDom.getAttr "bpmnElement" = n.1 := by
  rw [shapeTree, toDom_shape]
  exact ⟨⟨_, _, _, rfl⟩, by simp [shapeXml, getAttr_elem, Dict.get?_cons]⟩

theorem laneIds_eq (d : Diagram) : laneIds d = (allLanes d).map laneId := by
  simp [laneIds, allLanes, List.map_flatMap]

theorem poolIds_eq (d : Diagram) : poolIds d = (poolsOf d).map (·.1) := rfl

theorem messageIds_eq (d : Diagram) : messageIds d = (messagesOf d).map (·.1) := rfl

theorem allLanes_ready {d : Diagram} (hd : Writable d) : ∀ l ∈ allLanes d, LaneReady l := by
  intro l hl
  obtain ⟨p, hp, h⟩ := List.mem_flatMap.1 hl
  exact hd.lanes p hp l h

theorem messages_edges {d : Diagram} (hd : Writable d) : ∀ m ∈ messagesOf d, ∃ e ∈ d.graph.edges, e.attrs.id = some m.1 := by
  intro m hm
  unfold messagesOf at hm
  cases hc : d.collaboration with
  | none => simp [hc] at hm
  | some c => exact (hd.pools c hc).2 m (by simpa [hc] using hm)

/-- Each lane finds its shape in the plane. -/
theorem laneSeen_plane {d : Diagram} (hd : Exportable d) : ∀ l ∈ allLanes d, LaneSeen (planeXml d) l := by
  intro l hl
  have hn := hd.shapeIds
  rw [laneIds_eq, poolIds_eq, List.append_assoc, List.nodup_append, List.nodup_append] at hn
  obtain ⟨-, ⟨n1, -, n3⟩, n2⟩ := hn
  have hmem : laneId l ∈ (allLanes d).map laneId := List.mem_map.2 ⟨l, hl, rfl⟩
  have hflow : ∀ a ∈ flowAttrs d, a.id.getD "" ≠ laneId l := by
    intro a ha
    obtain ⟨e, he, rfl⟩ := List.mem_map.1 ha
    obtain ⟨j, hj⟩ := Option.isSome_iff_exists.1 (hd.flows e he).id
    have := hd.laneNames e he (laneId l) (by rw [laneIds_eq]; exact hmem)
    rw [hj] at this ⊢
    simpa using this
  obtain ⟨i, nm, refs, b, hle, hr⟩ := allLanes_ready hd.toWritable l hl
  have hid : laneId l = i := by rw [hle]; rfl
  rw [hid] at hmem hflow
  have key : laneShape i (planeXml d).children none = .ok (some (boxXml i b)) := by
    rw [planeXml, Xml.children, planeKids]
    simp only [List.map_append, List.map_map]
    rw [laneShape_append, laneShape_skip, except_bind_ok, laneShape_append, laneShape_skip, except_bind_ok, laneShape_append]
    · have := laneShape_lanes (allLanes d) (allLanes_ready hd.toWritable) n1 l hl i nm none [] refs b hle none
      simp only [Function.comp_def]
      rw [this, except_bind_ok, laneShape_append, laneShape_skip, except_bind_ok, laneShape_skip]
      · intro x hx
        obtain ⟨f, hf, rfl⟩ := List.mem_map.1 hx
        obtain ⟨e, he, hxe⟩ := mem_getFlows hd.sane hf
        refine ⟨(edgeTree_element _).1, ?_⟩
        rw [(edgeTree_element _).2]
        exact hflow _ (List.mem_map.2 ⟨e, he, hxe⟩)
      · intro x hx
        obtain ⟨f, hf, rfl⟩ := List.mem_map.1 hx
        refine ⟨(shapeTree_element _).1, ?_⟩
        rw [(shapeTree_element _).2]
        exact fun e => n3 _ hmem _ (List.mem_map.2 ⟨f, hf, rfl⟩) e.symm
    · intro x hx
      obtain ⟨p, hp, rfl⟩ := List.mem_map.1 hx
      simp only [Function.comp_def, poolShapeTree, toDom_boxTree]
      refine ⟨⟨_, _, _, rfl⟩, ?_⟩
      rw [boxXml_element]
      exact n2 _ (List.mem_map.2 ⟨p, hp, rfl⟩) _ (List.mem_append_left _ hmem)
    · intro x hx
      obtain ⟨m, hm, rfl⟩ := List.mem_map.1 hx
      refine ⟨(edgeTree_element _).1, ?_⟩
      simp only [Function.comp_def]
      rw [(edgeTree_element _).2]
      exact hflow _ (msgAttrs_spec (messages_edges hd.toWritable m hm)).1
  rw [hle]
  exact ⟨b, rfl, key⟩

/-! ## The collaboration -/

theorem importCollab_messages {d : Diagram} (hd : Exportable d) {P H S} (r : List Xml) : ∀ (l : List (String × MsgFlow)) (F) (D : Diagram) (c : Collab),
    (∀ m ∈ l, m ∈ messagesOf d) → (c.messageFlows.keys ++ l.map (·.1)).Nodup → Inv d P H S F D →
    ∃ D', importCollabKids (l.map messageXml ++ r) D c = importCollabKids r D' { c with messageFlows := c.messageFlows ++ l } ∧
      Inv d P H S (fun a => F a ∨ ∃ m ∈ l, a.id = some m.1) D'
  | [], F, D, c, _, _, h => ⟨D, by simp, by simpa using h⟩
  | (i, m) :: l, F, D, c, hl, hn, h => by
    rw [List.forall_mem_cons] at hl
    obtain ⟨e, he, hei⟩ := messages_edges hd.toWritable _ hl.1
    have him : i ∈ messageIds d := by rw [messageIds_eq]; exact List.mem_map.2 ⟨_, hl.1, rfl⟩
    obtain ⟨c', m', hc', hm', hmi, h1, h2, h3, h4, h5⟩ := hd.message he him hei
    have hmm : m' = m := by
      have hnd := (hd.messages c' hc').1
      have g1 := Dict.get?_of_mem (d := c'.messageFlows) hnd hm'
      have g2 := Dict.get?_of_mem (d := c'.messageFlows) hnd (by simpa [messagesOf, hc'] using hl.1)
      rw [g1] at g2
      exact Option.some.inj g2
    subst hmm
    have hstep := h.message hd.flowFacts (List.mem_map.2 ⟨e, he, rfl⟩) hei h1 h2 h3 h4 h5
    have hk : i ∉ c.messageFlows.keys := by
      intro hc
      exact (List.nodup_append.1 hn).2.2 _ hc _ (List.mem_cons_self ..) rfl
    obtain ⟨D', e', i'⟩ := importCollab_messages hd r l _ _ { c with messageFlows := c.messageFlows ++ [(i, m')] } hl.2 (by
      simpa [Dict.keys_append] using hn) hstep
    refine ⟨D', ?_, ?_⟩
    · rw [List.map_cons, List.cons_append, messageXml, importCollabKids]
      simp only [Xml.isText, Xml.tagName, Bool.false_eq_true, if_false, except_bind_ok]
      rw [if_neg (by decide), if_pos (by decide)]
      have hx : importMessageFlow (.elem "messageFlow" [("id", i), ("name", m'.name), ("sourceRef", m'.sourceRef), ("targetRef", m'.targetRef)] []) D c =
          (linkEnds i m'.sourceRef m'.targetRef { D with graph := (D.graph.addEdge m'.sourceRef m'.targetRef).modifyEdge m'.sourceRef m'.targetRef (writeMessage i m'.name m'.sourceRef m'.targetRef) }, { c with messageFlows := c.messageFlows ++ [(i, m')] }) := by
        have hmk : (⟨i, m'.name, m'.sourceRef, m'.targetRef⟩ : MsgFlow) = m' := by cases m'; simp only at hmi; subst hmi; rfl
        simp only [importMessageFlow, getAttr_elem, attrOr_elem, Dict.get?_cons, String.reduceEq, if_true, if_false, Option.getD_some]
        rw [hmk, Dict.set_of_not_mem _ _ hk]
        rfl
      rw [hx]
      simp only [e', List.append_assoc, List.cons_append, List.nil_append]
    · refine i'.congr ?_
      intro a ha
      constructor
      · rintro ((h | rfl) | ⟨x, hx, hxi⟩)
        · exact .inl h
        · exact .inr ⟨_, List.mem_cons_self, hei⟩
        · exact .inr ⟨x, List.mem_cons_of_mem _ hx, hxi⟩
      · rintro (h | ⟨x, hx, hxi⟩)
        · exact .inl (.inl h)
        · rcases List.mem_cons.1 hx with rfl | hx
          · exact .inl (.inr (hd.flowFacts.ids _ ha _ (List.mem_map.2 ⟨e, he, rfl⟩) (by rw [hxi, hei])))
          · exact .inr ⟨x, hx, hxi⟩

theorem importCollab_pools : ∀ (l : List (String × Participant)) (D : Diagram) (c : Collab), (∀ p ∈ l, p.2.processRef ≠ "") →
    (c.participants.keys ++ l.map (·.1)).Nodup →
    importCollabKids (l.map poolXml) D c = .ok (D, { c with participants := c.participants ++ l.map fun p => (p.1, { p.2 with di := none }) })
  | [], D, c, _, _ => by simp [importCollabKids]
  | (i, p) :: r, D, c, hl, hn => by
    rw [List.forall_mem_cons] at hl
    have hk : i ∉ c.participants.keys := by
      intro hc
      exact (List.nodup_append.1 hn).2.2 _ hc _ (List.mem_cons_self ..) rfl
    have hp := hl.1
    simp only at hp
    rw [List.map_cons, poolXml, importCollabKids]
    simp only [Xml.isText, Xml.tagName, Bool.false_eq_true, if_false, except_bind_ok]
    rw [if_pos (by decide)]
    simp only [importParticipant, getAttr_elem, Dict.get?_cons, String.reduceEq, if_true, if_false, Option.getD_some, hp]
    rw [Dict.set_of_not_mem _ _ hk]
    rw [importCollab_pools r D _ hl.2 (by simpa [Dict.keys_append] using hn)]
    simp

/-- After the collaboration was read. -/
theorem importCollab_ok {d : Diagram} (hd : Exportable d) {P} {H0 : Option String × Option String × Option String × Option String} {S F D}
    (h : Inv d P (H0.1, H0.2.1, H0.2.2.1, H0.2.2.2, none) S F D) :
    ∃ D' E F', importFirstCollaboration (collabXmls d) D = .ok D' ∧ D' = { E with collaboration := collabState d [] } ∧
      Inv d P (H0.1, H0.2.1, H0.2.2.1, H0.2.2.2, none) S F' E ∧
      (∀ a, F a → F' a) ∧ ∀ a ∈ flowAttrs d, a.process = none → F' a := by
  cases hc : d.collaboration with
  | none =>
    refine ⟨D, D, F, by simp [collabXmls, hc, importFirstCollaboration], ?_, h, fun _ h => h, ?_⟩
    · have := congrArg (fun t => t.2.2.2.2) h.head
      simp only at this
      cases D
      simp only at this
      subst this
      simp [collabState, hc]
    · intro a ha hp
      obtain ⟨e, he, rfl⟩ := List.mem_map.1 ha
      rcases hd.flowProcess e he with ⟨p, hp', -⟩ | ⟨i, hi, -⟩
      · simp [hp'] at hp
      · simp [messageIds, hc] at hi
  | some c =>
    have hnm := (hd.messages c hc).1
    have hnp : (c.participants.map (·.1)).Nodup := by
      have := hd.shapeIds
      rw [List.append_assoc] at this
      simpa [poolIds, hc] using (List.nodup_append.1 this).1
    obtain ⟨E, e1, i1⟩ := importCollab_messages hd (c.participants.map poolXml) c.messageFlows F D ⟨c.id, [], []⟩ (by
      intro m hm
      simpa [messagesOf, hc] using hm) (by simpa using hnm) h
    have e2 := importCollab_pools c.participants E { (⟨c.id, [], []⟩ : Collab) with messageFlows := [] ++ c.messageFlows } (hd.owners c hc)
      (by simpa using hnp)
    refine ⟨_, E, _, ?_, rfl, i1, fun _ h => .inl h, ?_⟩
    · rw [collabXmls, hc]
      have hx : (Xml.elem "collaboration" [("id", c.id)] (c.messageFlows.map messageXml ++ c.participants.map poolXml)).getAttr "id" = c.id := by
        simp [getAttr_elem, Dict.get?_cons]
      simp only [importFirstCollaboration, importCollaboration, hx, Xml.children]
      rw [e1, e2, except_bind_ok]
      simp [collabState, hc]
    · intro a ha hp
      obtain ⟨e, he, rfl⟩ := List.mem_map.1 ha
      rcases hd.flowProcess e he with ⟨p, hp', -⟩ | ⟨i, hi, hid⟩
      · simp [hp'] at hp
      · refine .inr ?_
        rw [messageIds, hc] at hi
        obtain ⟨m, hm, rfl⟩ := List.mem_map.1 hi
        exact ⟨m, by simpa using hm, hid⟩

/-! ## The round trip -/

theorem noProcIds_kept {l m : Dict String ProcAttrs} (h : noProcIds l = noProcIds m) : l.map keptOfProcess = m.map keptOfProcess := by
  have : ∀ l : Dict String ProcAttrs, l.map keptOfProcess = (noProcIds l).map keptOfProcess := by
    intro l
    simp [noProcIds, keptOfProcess]
  rw [this l, this m, h]

theorem exists_map_perm {α β : Type} [DecidableEq α] {f : α → β} : ∀ {l : List β} {m : List α}, l.Perm (m.map f) → ∃ k : List α, l = k.map f ∧ k.Perm m
  | [], m, h => by
    have := h.symm.eq_nil
    simp only [List.map_eq_nil_iff] at this
    exact ⟨[], rfl, by rw [this]⟩
  | x :: r, m, h => by
    obtain ⟨a, ha, rfl⟩ := List.mem_map.1 (h.mem_iff.1 List.mem_cons_self)
    have hm := List.perm_cons_erase ha
    have : r.Perm ((m.erase a).map f) := by
      have := h.trans (hm.map f)
      rw [List.map_cons, List.perm_cons] at this
      exact this
    obtain ⟨k, rfl, hk⟩ := exists_map_perm this
    exact ⟨a :: k, rfl, (hk.cons a).trans hm.symm⟩

/-- Loading the exported document gives the diagram back. -/
theorem load_docTree {d : Diagram} (hd : Exportable d) {ord : List String → List String} (ho : Shuffle ord) {height : String → Nat}
    (hh : ∀ n ∈ d.graph.nodes, ∀ m ∈ d.graph.nodes, n.2.type = some "subProcess" → m.2.process = some n.1 → height m.1 < height n.1)
    {f : Nat} (hf : ∀ n ∈ d.graph.nodes, height n.1 < f) : ∃ e, load ord (docTree d f).toDom {} = .ok e ∧ SameDiagram d e ∧
      noProcIds e.processElements = d.processElements.map procEntry ∧ Sane e := by
  have hN := hd.nodeFacts hh
  obtain ⟨r1, hr1⟩ := doc_diagram d definitionsAttrs (collabXmls d ++ d.processElements.map (procXml d f))
  obtain ⟨r2, hr2⟩ := doc_plane d
  have hid : (diagramXml d).getAttr "id" = d.diagramId.getD "" := by simp [diagramXml, getAttr_elem, Dict.get?_cons]
  have hname : (diagramXml d).attrOr "name" "" = d.diagramName.getD "" := by simp [diagramXml, attrOr_elem, Dict.get?_cons]
  have hpid : (planeXml d).getAttr "id" = d.planeId.getD "" := by simp [planeXml, getAttr_elem, Dict.get?_cons]
  have hpel : (planeXml d).getAttr "bpmnElement" = d.planeElement.getD "" := by simp [planeXml, getAttr_elem, Dict.get?_cons]
  obtain ⟨h1, h2, h3, h4⟩ := hd.header
  obtain ⟨c1, hc1⟩ := Option.isSome_iff_exists.1 h1
  obtain ⟨c2, hc2⟩ := Option.isSome_iff_exists.1 h2
  obtain ⟨c3, hc3⟩ := Option.isSome_iff_exists.1 h3
  obtain ⟨c4, hc4⟩ := Option.isSome_iff_exists.1 h4
  have i0 : Inv d [] (some c1, some c2, some c3, some c4, none) (fun _ => False) (fun _ => False)
      { diagramId := some c1, diagramName := some c2, planeId := some c3, planeElement := some c4 } := by
    refine ⟨rfl, rfl, by simp, ?_, by simp, by simp, by simp⟩
    intro m
    exact ⟨fun h => h.elim, fun _ b hb => by simp at hb⟩
  obtain ⟨-, ⟨hln, -, hlanes3⟩, hpools3⟩ := by
    have := hd.shapeIds
    rwa [List.append_assoc, List.nodup_append, List.nodup_append] at this
  have hlane : ∀ p ∈ d.processElements, (∀ l ∈ lanesOf p.2, LaneReady l ∧ LaneSeen (planeXml d) l) ∧ ((lanesOf p.2).map laneId).Nodup := by
    intro p hp
    refine ⟨fun l hl => ⟨hd.lanes p hp l hl, laneSeen_plane hd l (List.mem_flatMap.2 ⟨p, hp, hl⟩)⟩, ?_⟩
    exact (List.nodup_flatMap.1 hln).1 p hp
  obtain ⟨D0, S, F0, e1, i00, -, -, full⟩ := importProcesses_trees ho hN hf (planeXml d) d.processElements hlane hd.procs (P := [])
    (by simpa using hd.procIds) i0
  obtain ⟨D1, E, F, e1', hD1, i1, hFF, hFm⟩ := importCollab_ok hd (H0 := (some c1, some c2, some c3, some c4)) i00
  -- everything was imported
  have hS : ∀ m a, d.graph.nodes.get? m = some a → S m := by
    intro m a hm
    obtain ⟨p, hp, hw⟩ := hd.within _ (Dict.mem_of_get? hm)
    obtain ⟨q, hq, rfl⟩ := List.mem_map.1 hp
    exact (full q hq).1 m hw
  have hF : ∀ a ∈ flowAttrs d, F a := by
    intro a ha
    by_cases hs : a.process.isSome
    · obtain ⟨p, hp, q, hq, hw⟩ := hd.flowWithin a ha hs
      obtain ⟨p', hp', rfl⟩ := List.mem_map.1 hp
      exact hFF a ((full p' hp').2 a ha q hq hw)
    · exact hFm a ha (by simpa using hs)
  -- the edges in the order of the import
  have hedges : E.graph.edges.Perm ((flowAttrs d).map coreEdge) := by
    rw [List.perm_ext_iff_of_nodup i1.edgesNodup]
    · intro e
      rw [i1.edges, List.mem_map]
      constructor
      · rintro ⟨a, ha, -, rfl⟩; exact ⟨a, ha, rfl⟩
      · rintro ⟨a, ha, rfl⟩; exact ⟨a, ha, hF a ha, rfl⟩
    · have : ((flowAttrs d).map coreEdge).map (fun e => e.attrs.id) = d.graph.edges.map (·.attrs.id) := by
        simp [flowAttrs, coreEdge]
      exact List.Nodup.of_map _ (this ▸ hd.flowIds)
  obtain ⟨L, hL, hLp⟩ := exists_map_perm hedges
  have hLm : ∀ a, a ∈ L ↔ a ∈ flowAttrs d := fun a => hLp.mem_iff
  have i2 : PlaneInv d L (d.processElements.map procEntry) (some c1, some c2, some c3, some c4) [] [] [] D1 := by
    subst hD1
    have hh0 := i1.head
    simp only [Prod.mk.injEq] at hh0
    refine ⟨by simpa using i1.procs, by simp [hh0], rfl, i1.nodup, ?_, ?_, by simp [hL], ?_⟩
    · intro m hm
      by_cases hSm : S m
      · obtain ⟨a, b, ha, -⟩ := (i1.nodes m).1 hSm
        exact Dict.mem_keys_of_get? ha
      · obtain ⟨b, hb⟩ := Option.isSome_iff_exists.1 ((Dict.get?_isSome_iff _ _).2 hm)
        exact ((i1.nodes m).2 hSm b hb).2
    · intro m a hm
      obtain ⟨a', b, ha, hb, hc⟩ := (i1.nodes m).1 (hS m a hm)
      rw [hm] at ha
      cases ha
      exact ⟨b, hb, by simp, fun _ => hc⟩
    · intro i v
      rw [i1.table]
      constructor
      · rintro ⟨a, ha, -, h⟩; exact ⟨a, ha, h⟩
      · rintro ⟨a, ha, h⟩; exact ⟨a, ha, hF a ha, h⟩
  have hkeys : d.graph.nodes.keys = d.graph.nodes.map (·.1) := rfl
  obtain ⟨Da, ea, ia⟩ := importPlane_edges hd hLm ((messagesOf d).map fun m => msgAttrs d m.1) (by
    intro a ha
    obtain ⟨m, hm, rfl⟩ := List.mem_map.1 ha
    exact (msgAttrs_spec (messages_edges hd.toWritable m hm)).1) i2
  obtain ⟨Db, eb, ib⟩ : ∃ D', importPlane ((poolsOf d).map fun p => (poolShapeTree p).toDom) Da = .ok D' ∧
      PlaneInv d L (d.processElements.map procEntry) (some c1, some c2, some c3, some c4) ((poolsOf d).map (·.1)).reverse []
        ((((messagesOf d).map fun m => msgAttrs d m.1).map (·.id)).reverse ++ []) D' := by
    cases hc : d.collaboration with
    | none => exact ⟨Da, by simp [poolsOf, hc, importPlane], by simpa [poolsOf, hc] using ia⟩
    | some c =>
      have hp : poolsOf d = c.participants := by simp [poolsOf, hc]
      rw [hp]
      obtain ⟨Db, eb, ib⟩ := importPlane_pools (by
        have := hd.shapeIds
        rw [List.append_assoc] at this
        exact (List.nodup_append.1 this).1) hc c.participants (by
        intro p hp'
        refine ⟨hp', (hd.pools c hc).1 p hp', ?_⟩
        intro hk
        exact hpools3 p.1 (by rw [poolIds_eq, hp]; exact List.mem_map.2 ⟨p, hp', rfl⟩) p.1 (List.mem_append_right _ hk) rfl) ia
      exact ⟨Db, eb, by simpa using ib⟩
  have ec := importPlane_lanes ib (allLanes d) (by
    intro l hl
    have hmem : laneId l ∈ laneIds d := by rw [laneIds_eq]; exact List.mem_map.2 ⟨l, hl, rfl⟩
    exact ⟨fun hk => hlanes3 _ hmem _ hk rfl, fun hk => hpools3 _ hk _ (List.mem_append_left _ hmem) rfl⟩)
  obtain ⟨D2, e2, i3⟩ := importPlane_shapes hd.nodes hd.sane.nodesUnique (by
    intro n hn hk
    exact hpools3 _ hk n.1 (List.mem_append_right _ (List.mem_map.2 ⟨n, hn, rfl⟩)) rfl) d.graph.nodes (fun _ h => h) ib
  obtain ⟨D3, e3, i4⟩ := importPlane_edges hd hLm (d.getFlows.map (·.2.2)) (by
    intro a ha
    obtain ⟨x, hx, rfl⟩ := List.mem_map.1 ha
    obtain ⟨e, he, hxe⟩ := mem_getFlows hd.sane hx
    exact List.mem_map.2 ⟨e, he, hxe⟩) i3
  have hflowsPerm : (d.getFlows.map (·.2.2)).Perm (flowAttrs d) := Graph.flows_attrs_perm hd.sane.wf
  have hfin : D3.graph.edges = L.map fullEdge := by
    rw [i4.edges]
    apply List.map_congr_left
    intro a ha
    rw [if_pos]
    apply List.mem_append_left
    simp only [List.mem_reverse]
    exact List.mem_map.2 ⟨a, hflowsPerm.mem_iff.2 ((hLm a).1 ha), rfl⟩
  have hall : ∀ m a, d.graph.nodes.get? m = some a → ∃ b, D3.graph.nodes.get? m = some b ∧ SameNode a b := by
    intro m a hm
    obtain ⟨b, hb, hs, -⟩ := i4.nodes m a hm
    refine ⟨b, hb, hs ?_⟩
    simp only [List.append_nil, List.mem_reverse]
    exact List.mem_map.2 ⟨_, Dict.mem_of_get? hm, rfl⟩
  have hwf : D3.graph.WF := by
    refine ⟨i4.nodup, ?_⟩
    intro e he
    rw [hfin] at he
    obtain ⟨a, ha, rfl⟩ := List.mem_map.1 he
    obtain ⟨b, l, hb, -⟩ := hd.flowFacts.source a ((hLm a).1 ha)
    obtain ⟨b', l', hb', -⟩ := hd.flowFacts.target a ((hLm a).1 ha)
    obtain ⟨c, hc, -⟩ := hall _ _ hb
    obtain ⟨c', hc', -⟩ := hall _ _ hb'
    exact ⟨Dict.mem_keys_of_get? hc, Dict.mem_keys_of_get? hc'⟩
  refine ⟨D3, ?_, ?_, i4.procs, ?sane⟩
  case sane =>
    have hLn : L.Nodup := by
      refine hLp.nodup_iff.2 (List.Nodup.of_map (fun a => a.id) ?_)
      simpa [flowAttrs, Function.comp_def] using hd.flowIds
    refine ⟨i4.nodup, hwf.2, ?_, ?_⟩
    · rw [hfin, List.pairwise_map]
      refine List.Pairwise.imp_of_mem ?_ hLn
      intro a b ha hb hab hs
      have ha' := (hLm a).1 ha
      have hb' := (hLm b).1 hb
      apply hab
      apply hd.flowFacts.pairs a ha' b hb'
      rcases hs with ⟨h1, h2⟩ | ⟨h1, h2⟩
      · simp only [fullEdge] at h1 h2
        simp [coreEdge, Edge.joins, h1, h2]
      · simp only [fullEdge] at h1 h2
        simp [coreEdge, Edge.joins, h1, h2]
    · intro e he
      rw [hfin] at he
      obtain ⟨a, ha, rfl⟩ := List.mem_map.1 he
      have hr := hd.flowFacts.ready a ((hLm a).1 ha)
      obtain ⟨s, hs⟩ := Option.isSome_iff_exists.1 hr.source
      obtain ⟨t, ht⟩ := Option.isSome_iff_exists.1 hr.target
      exact ⟨hr.id, hr.name, s, t, hs, ht, .inl ⟨by simp [fullEdge, hs], by simp [fullEdge, ht]⟩⟩
  · rw [toDom_docTree hd.toWritable]
    simp only [load, hr1, pyIndex, List.getElem?_cons_zero, except_bind_ok, hr2, hid, hname, hpid, hpel, doc_process hN, doc_collaboration hN,
      hc1, hc2, hc3, hc4, Option.getD_some, e1, e1']
    rw [planeXml, Xml.children, planeKids]
    simp only [List.map_append, List.map_map, Function.comp_def] at ea e3 ⊢
    rw [importPlane_append, ea, except_bind_ok, importPlane_append, eb, except_bind_ok, importPlane_append, ec, except_bind_ok,
      importPlane_append, e2, except_bind_ok, e3]
  · have hhead := i4.head
    simp only [Prod.mk.injEq] at hhead
    refine ⟨⟨by rw [hhead.1, hc1], by rw [hhead.2.1, hc2], by rw [hhead.2.2.1, hc3], by rw [hhead.2.2.2, hc4]⟩, ?_, ?_, ?_, ?_, ?_, ?_⟩
    · have h1 : D3.processElements.map keptOfProcess = (noProcIds D3.processElements).map keptOfProcess := by
        simp [noProcIds, keptOfProcess]
      rw [h1, i4.procs, List.map_map]
      apply List.map_congr_left
      intro p hp
      simp [keptOfProcess, procEntry, Option.map_map, Function.comp_def]
    · rw [i4.collab, collabState]
      cases hc : d.collaboration with
      | none => rfl
      | some c =>
        have hp : poolsOf d = c.participants := by simp [poolsOf, hc]
        simp only [Option.map_some, Option.some.injEq, hp]
        have : (c.participants.map fun p => (p.1, { p.2 with di := if p.1 ∈ (c.participants.map (·.1)).reverse then p.2.di else none })) =
            c.participants := by
          conv => rhs; rw [← List.map_id c.participants]
          apply List.map_congr_left
          intro p hp'
          rw [if_pos (by rw [List.mem_reverse]; exact List.mem_map.2 ⟨p, hp', rfl⟩)]
          rfl
        rw [this]
    · refine (List.perm_ext_iff_of_nodup i4.nodup hd.sane.nodesUnique).2 ?_
      intro m
      constructor
      · exact i4.known m
      · intro hm
        obtain ⟨a, ha⟩ := Option.isSome_iff_exists.1 ((Dict.get?_isSome_iff _ _).2 hm)
        obtain ⟨b, hb, -⟩ := hall m a ha
        exact Dict.mem_keys_of_get? hb
    · intro n a hn
      obtain ⟨b, hb, hs⟩ := hall n a (Dict.get?_of_mem hd.sane.nodesUnique hn)
      exact ⟨b, Dict.mem_of_get? hb, hs⟩
    · refine (Graph.flows_attrs_perm hwf).trans ?_
      rw [hfin, List.map_map]
      have : (Edge.attrs ∘ fullEdge) = id := by funext a; rfl
      show (List.map (Edge.attrs ∘ fullEdge) L).Perm _
      rw [this, List.map_id]
      exact hLp.trans hflowsPerm.symm
    · intro i
      have key : ∀ v, D3.sequenceFlows.get? i = some v ↔ d.sequenceFlows.get? i = some v := by
        intro v
        rw [i4.table, hd.table]
        constructor
        · rintro ⟨a, ha, hp, hi, rfl⟩
          obtain ⟨e, he, rfl⟩ := List.mem_map.1 ha
          have hr := hd.flows e he
          obtain ⟨n, hn⟩ := Option.isSome_iff_exists.1 hr.name
          obtain ⟨s, hs⟩ := Option.isSome_iff_exists.1 hr.source
          obtain ⟨t, ht⟩ := Option.isSome_iff_exists.1 hr.target
          exact ⟨e, he, hp, hi, by simp [flowEntry, hn, hs, ht]⟩
        · rintro ⟨e, he, hp, hi, hn, hs, ht⟩
          exact ⟨e.attrs, List.mem_map.2 ⟨e, he, rfl⟩, hp, hi, by simp [flowEntry, hn, hs, ht]⟩
      cases h1 : D3.sequenceFlows.get? i with
      | none =>
        cases h2 : d.sequenceFlows.get? i with
        | none => rfl
        | some v => rw [(key v).2 h2] at h1; cases h1
      | some v => rw [(key v).1 h1]

/-! ## The tree does not depend on the budget -/

theorem nodeTree_fuel {d : Diagram} {height : String → Nat}
    (hh : ∀ n ∈ d.graph.nodes, ∀ m ∈ d.graph.nodes, n.2.type = some "subProcess" → m.2.process = some n.1 → height m.1 < height n.1) :
    ∀ (f g : Nat) (n : Node), n ∈ d.graph.nodes → height n.1 < f → height n.1 < g → nodeTree d f n = nodeTree d g n
  | 0, g, n, _, h, _ => by omega
  | f + 1, 0, n, _, _, h => by omega
  | f + 1, g + 1, (n, a), hm, h1, h2 => by
    simp only [nodeTree]
    by_cases hs : a.type = some "subProcess"
    · rw [if_pos hs, if_pos hs]
      congr 3
      apply List.map_congr_left
      intro m hm'
      obtain ⟨m1, m2⟩ := List.mem_filter.1 hm'
      have := hh _ hm m m1 hs (by simpa using m2)
      simp only at this h1 h2
      exact nodeTree_fuel hh f g m m1 (by omega) (by omega)
    · rw [if_neg hs, if_neg hs]

theorem docTree_fuel {d : Diagram} {height : String → Nat}
    (hh : ∀ n ∈ d.graph.nodes, ∀ m ∈ d.graph.nodes, n.2.type = some "subProcess" → m.2.process = some n.1 → height m.1 < height n.1)
    {f g : Nat} (hf : ∀ n ∈ d.graph.nodes, height n.1 < f) (hg : ∀ n ∈ d.graph.nodes, height n.1 < g) : docTree d f = docTree d g := by
  simp only [docTree]
  congr 3
  apply List.map_congr_left
  intro p _
  simp only [procTree]
  congr 3
  apply List.map_congr_left
  intro n hn
  have := (List.mem_filter.1 hn).1
  exact nodeTree_fuel hh f g n this (hf n this) (hg n this)

end Bpmn

import Verif.Lemmas.Saved
import Verif.Props.CsvKinds
import Verif.Props.CsvResult
import Verif.Props.CsvFlat
import Verif.Props.Layouter
/-!
# From a table to a drawing to a file (C89)
-/
set_option linter.unusedSimpArgs false
set_option linter.unusedVariables false

namespace Bpmn.Props
open Bpmn Spec Layouter Csv Spec.Csv

theorem bareEdge_fields {e e' : Edge} (h : bareEdge e = bareEdge e') : e.u = e'.u ∧ e.v = e'.v ∧ e.attrs.id = e'.attrs.id ∧ e.attrs.name = e'.attrs.name ∧
    e.attrs.sourceRef = e'.attrs.sourceRef ∧ e.attrs.targetRef = e'.attrs.targetRef ∧ e.attrs.process = e'.attrs.process ∧
    e.attrs.conditionExpression = e'.attrs.conditionExpression := by
  obtain ⟨u, v, ⟨i, n, p, s, t, c, w⟩⟩ := e
  obtain ⟨u', v', ⟨i', n', p', s', t', c', w'⟩⟩ := e'
  simp only [bareEdge, bareAttrs, Edge.mk.injEq, EdgeAttrs.mk.injEq] at h
  simp_all

/-- Layout keeps `Sane`. -/
theorem sane_of_layout {d d' : Diagram} {fuel : Nat} (h : Sane d) (hl : generateLayout fuel d = .ok d') : Sane d' := by
  have sb := layout_sameBut hl
  have hids : d'.graph.nodes.map Prod.fst = d.graph.nodes.map Prod.fst := by
    have := congrArg (List.map Prod.fst) sb.nodes
    simpa [List.map_map, Function.comp_def, bareNode] using this
  have hed : ∀ e' ∈ d'.graph.edges, ∃ e ∈ d.graph.edges, bareEdge e = bareEdge e' := by
    intro e' he'
    have : bareEdge e' ∈ d.graph.edges.map bareEdge := sb.edges ▸ List.mem_map_of_mem he'
    obtain ⟨e, he, e1⟩ := List.mem_map.1 this
    exact ⟨e, he, e1⟩
  refine ⟨by rw [hids]; exact h.nodesUnique, ?_, ?_, ?_⟩
  · intro e' he'
    obtain ⟨e, he, e1⟩ := hed e' he'
    obtain ⟨e2, e3, -⟩ := bareEdge_fields e1
    rw [hids, ← e2, ← e3]
    exact h.endsKnown e he
  · have h1 : (d.graph.edges.map bareEdge).Pairwise fun e f => ¬SamePair e.u e.v f.u f.v := List.pairwise_map.2 h.onePerPair
    rw [← sb.edges] at h1
    exact List.pairwise_map.1 h1
  · intro e' he'
    obtain ⟨e, he, e1⟩ := hed e' he'
    obtain ⟨e2, e3, e4, e5, e6, e7, -⟩ := bareEdge_fields e1
    rw [← e2, ← e3, ← e4, ← e5, ← e6, ← e7]
    exact h.described e he

theorem flowId_ne (s t : String) : flowId s t ≠ "" := by
  intro h
  have := congrArg String.toList h
  simp [flowId] at this

theorem process_not_node {rows : List Row} {d0 F d1 d2 d} (t : Table rows) (s : Stages rows d0 F d1 d2 d) : "process_1" ∉ ids d := by
  intro hx
  have h2 := (s.keep2.sub _ (s.keep.sub _ hx)).1
  have h1 : "process_1" ∈ ids d1 := by rwa [legacy_ids] at h2
  have al : ∀ o ∈ rows.map Row.order, ∀ c ∈ o.toList, c.isAlphanum = true := by
    intro o ho
    obtain ⟨r, hr, rfl⟩ := List.mem_map.1 ho
    exact t.alnum r hr
  rcases s.named1 _ h1 with h | ⟨r, hr, e⟩ | ⟨r, hr, e⟩
  · exact absurd (al _ h '_' (by decide)) (by decide)
  · have := congrArg (fun s : String => s.toList.getLast?) e
    simp at this
  · have := congrArg (fun s : String => s.toList.getLast?) e
    simp at this

theorem csv_types {rows : List Row} (t : Table rows) {d : Diagram} (h : loadCsv rows {} = .ok d) {n : Node} (hn : n ∈ d.getNodes) :
    n.2.type ∈ [some "startEvent", some "endEvent", some "subProcess", some "task", some "exclusiveGateway", some "inclusiveGateway", some "parallelGateway"] := by
  rcases (C60_nodes rows t d h).2 n hn with ⟨r, hr, hg, e⟩ | ⟨-, hg⟩
  · obtain ⟨n', hn', e1, e2, -⟩ := C60_rows rows t d h r hr hg
    have : n' = n := List.inj_on_of_nodup_map (C60_nodes rows t d h).1 hn' hn (e1.trans e)
    subst this
    rw [e2]
    unfold rowType
    split
    · simp
    · split
      · simp
      · split <;> simp
  · simp only [gatewayTypes, List.mem_cons, List.not_mem_nil, or_false] at hg
    rcases hg with hg | hg | hg <;> rw [hg] <;> simp

theorem tableEntry_eq {a : EdgeAttrs} {i : String} {v : SeqFlow} : tableEntry a = some (i, v) ↔ a.process.isSome ∧ a.id = some i ∧
    (savedFlow a).name = some v.name ∧ a.sourceRef = some v.sourceRef ∧ a.targetRef = some v.targetRef := by
  unfold tableEntry
  obtain ⟨n, s, t⟩ := v
  by_cases hp : a.process.isSome
  · rw [if_pos hp]
    split
    · rename_i h1 h2 h3 h4
      simp [h1, h2, h3, h4, hp]
    · rename_i h
      simp only [hp, true_and]
      constructor
      · intro h; cases h
      · rintro ⟨h1, h2, h3, h4⟩
        exact absurd h4 (by intro h4; exact h _ _ _ _ h1 h2 h3 h4)
  · rw [if_neg hp]
    simp [hp]

theorem tableEntry_get? (i : String) (v : SeqFlow) : ∀ l : List Edge, (l.map (·.attrs.id)).Nodup →
    (Dict.get? (l.filterMap fun e => tableEntry e.attrs) i = some v ↔ ∃ e ∈ l, tableEntry e.attrs = some (i, v)) := by
  intro l hl
  have hk : (Dict.keys (l.filterMap fun e => tableEntry e.attrs)).Nodup := by
    induction l with
    | nil => simp [Dict.keys]
    | cons e l ih =>
      simp only [List.map_cons, List.nodup_cons] at hl
      simp only [List.filterMap_cons]
      cases he : tableEntry e.attrs with
      | none => exact ih hl.2
      | some p =>
        obtain ⟨j, w⟩ := p
        simp only [Dict.keys, List.map_cons, List.nodup_cons]
        refine ⟨?_, ih hl.2⟩
        intro hj
        obtain ⟨q, hq, e1⟩ := List.mem_map.1 hj
        obtain ⟨e', he', e2⟩ := List.mem_filterMap.1 hq
        obtain ⟨j', w'⟩ := q
        simp only at e1
        subst e1
        exact hl.1 (List.mem_map.2 ⟨e', he', (tableEntry_eq.1 e2).2.1.trans (tableEntry_eq.1 he).2.1.symm⟩)
  constructor
  · intro h
    obtain ⟨e, he, e2⟩ := List.mem_filterMap.1 (Dict.mem_of_get? h)
    exact ⟨e, he, e2⟩
  · rintro ⟨e, he, e2⟩
    exact Dict.get?_of_mem hk (List.mem_filterMap.2 ⟨e, he, e2⟩)

theorem csv_nodeReady {i ty nm : String} {I O : List String} {c : Layouter.Cell}
    (hty : ty = "startEvent" ∨ ty = "endEvent" ∨ ty = "subProcess" ∨ ty = "task" ∨ ty = "exclusiveGateway" ∨ ty = "inclusiveGateway" ∨ ty = "parallelGateway")
    (hi : "" ∉ I) (ho : "" ∉ O) :
    NodeReady (mapNode (atCell (i, { csvNode i ty nm with incoming := some I, outgoing := some O }) c)) := by
  have f : ∀ a : NodeAttrs, savedNode a = { a with eventDefinitions := (savedNode a).eventDefinitions } := savedNode_eq
  refine ⟨?_, ?_, ?_, ?_, ?_, ?_, ?_, ?_, ?_, ?_⟩
  all_goals try (simp only [mapNode, atCell]; rw [f]; first | rfl | exact ⟨_, rfl, hi⟩ | exact ⟨_, rfl, ho⟩)
  rcases hty with rfl | rfl | rfl | rfl | rfl | rfl | rfl <;>
    simp [mapNode, atCell, savedNode, csvNode, eventTypes, nodeKinds, presentKeys, gatewayTypes]

/-- What a CSV import and a layout make can be saved. -/
theorem csv_layout_exportable (rows : List Row) (t : Table rows) (d d' : Diagram) (h : loadCsv rows {} = .ok d) {fuel : Nat}
    (hl : generateLayout fuel d = .ok d') : Sane d' ∧ Exportable (saved d') := by
  obtain ⟨d0, F, d1, d2, s⟩ := stages t h
  have inv := s.keep.inv
  have hsane := inv.sane
  have hsane' := sane_of_layout hsane hl
  have hway : ∀ e ∈ d'.graph.edges, e.attrs.waypoints.isSome := by
    intro e he
    obtain ⟨f, hf, e2⟩ := List.mem_map.1 ((Graph.flows_attrs_perm hsane'.wf).mem_iff.2 (List.mem_map_of_mem (f := fun e : Edge => e.attrs) he))
    obtain ⟨_, _, _, _, w, -, -, -, -, hw, -⟩ := C30_waypoints d d' hsane.onePerPair hl f hf
    rw [← e2, hw]
    rfl
  have sb := layout_sameBut hl
  have hed : ∀ e' ∈ d'.graph.edges, ∃ e ∈ d.graph.edges, bareEdge e = bareEdge e' := by
    intro e' he'
    have : bareEdge e' ∈ d.graph.edges.map bareEdge := sb.edges ▸ List.mem_map_of_mem he'
    obtain ⟨e, he, e1⟩ := List.mem_map.1 this
    exact ⟨e, he, e1⟩
  obtain ⟨all, sorted, back, grid, ns, ws, -, -, -, h4, -, hd'⟩ := layout_steps hl
  have hns : d'.graph.nodes = ns := by rw [hd']
  -- the process
  obtain ⟨pd, -, hhead⟩ := loadCsv_head h
  obtain ⟨pa, hpe, hpl, hp1, hp2, hp3⟩ : ∃ a, d.processElements = [("process_1", a)] ∧ a.laneSet = none ∧ a.isClosed.isSome ∧ a.isExecutable.isSome ∧
      a.processType.isSome := ⟨_, congrArg (·.processElements) hhead, rfl, rfl, rfl, rfl⟩
  have hcol : d.collaboration = none := congrArg (·.collaboration) hhead
  have hpe' : d'.processElements = [("process_1", pa)] := by rw [hd']; exact hpe
  have hcol' : d'.collaboration = none := by rw [hd']; exact hcol
  obtain ⟨hh1, hh2, hh3, hh4, -⟩ := C82_head rows t {} d h
  -- nodes
  have hno : ∀ n' ∈ d'.graph.nodes, ∃ n ∈ d.graph.nodes, ∃ c, n' = atCell n c := by
    intro n' hn'
    obtain ⟨n, hn, c, -, e⟩ := setCoordinates_ok h4 n' (hns ▸ hn')
    exact ⟨n, hn, c, e⟩
  have hids : d'.graph.nodes.map Prod.fst = d.graph.nodes.map Prod.fst := by
    have := congrArg (List.map Prod.fst) sb.nodes
    simpa [List.map_map, Function.comp_def, bareNode] using this
  have hsids : (saved d').graph.nodes.map Prod.fst = d.graph.nodes.map Prod.fst := by
    rw [← hids]
    simp [saved, mapNode, List.map_map, Function.comp_def]
  -- flows
  have hflow : ∀ e ∈ d.graph.edges, e.attrs.process = some "process_1" ∧ ∀ c, e.attrs.conditionExpression = some c → c.expr ≠ "" := by
    intro e he
    obtain ⟨f, hf, e2⟩ := List.mem_map.1 ((Graph.flows_attrs_perm hsane.wf).mem_iff.2 (List.mem_map_of_mem (f := fun e : Edge => e.attrs) he))
    refine ⟨by rw [← e2]; exact (C82_flows_say rows t d h f hf).1, ?_⟩
    intro c hc
    rw [← e2] at hc
    exact (C58_conditions rows t d h f hf c hc).1
  have hfid : (d.graph.edges.map (·.attrs.id)).Nodup := by
    refine List.pairwise_map.2 (hsane.onePerPair.imp_of_mem ?_)
    intro e f he hf hne hid
    obtain ⟨s1, t1, i1, -, -, -, p1, w1⟩ := inv.edgeI e he
    obtain ⟨s2, t2, i2, -, -, -, p2, w2⟩ := inv.edgeI f hf
    rw [i1, i2, Option.some.injEq] at hid
    obtain ⟨rfl, rfl⟩ := flowId_inj (inv.plain _ w1.src) (inv.plain _ w2.src) hid
    exact hne (by
      unfold SamePair at p1 p2 ⊢
      rcases p1 with ⟨a, b⟩ | ⟨a, b⟩ <;> rcases p2 with ⟨c, e⟩ | ⟨c, e⟩ <;> subst_vars <;> simp_all)
  have hfid' : (d'.graph.edges.map (·.attrs.id)).Nodup := by
    have e : d'.graph.edges.map (·.attrs.id) = d.graph.edges.map (·.attrs.id) := by
      have := congrArg (List.map fun e : Edge => e.attrs.id) sb.edges
      simpa [List.map_map, Function.comp_def, bareEdge, bareAttrs] using this
    rw [e]; exact hfid
  have hsaved : ∀ e' ∈ (saved d').graph.edges, ∃ e1 ∈ d'.graph.edges, e' = savedEdge e1 := by
    intro e' he'
    obtain ⟨e, he, rfl⟩ := List.mem_map.1 he'
    exact ⟨e, he, rfl⟩
  have hsid : ∀ e : Edge, (savedEdge e).attrs.id = e.attrs.id := fun e => (savedFlow_fields e.attrs).1
  refine ⟨hsane', ⟨⟨?_, ?_, ?_, ?_, ?_, ?_, ?_, ?_, ?_, ?_, ?_⟩, ?_, ?_, ?_, ?_, ?_, ?_, ?_, ?_⟩⟩
  · exact ⟨by rw [show (saved d').diagramId = d.diagramId by rw [hd']; rfl, hh1]; rfl, by rw [show (saved d').diagramName = d.diagramName by rw [hd']; rfl, hh2]; rfl,
      by rw [show (saved d').planeId = d.planeId by rw [hd']; rfl, hh3]; rfl, by rw [show (saved d').planeElement = d.planeElement by rw [hd']; rfl, hh4]; rfl⟩
  · intro c hc
    rw [show (saved d').collaboration = d'.collaboration from rfl, hcol'] at hc
    cases hc
  · intro p hp l hlane
    rw [show (saved d').processElements = d'.processElements from rfl, hpe', List.mem_singleton] at hp
    subst hp
    simp [lanesOf, hpl] at hlane
  · refine ⟨hsids ▸ hsane.nodesUnique, ?_, ?_, ?_⟩
    · intro e' he'
      obtain ⟨e, he, rfl⟩ := hsaved e' he'
      rw [hsids, ← hids]
      exact hsane'.endsKnown e he
    · exact List.pairwise_map.2 hsane'.onePerPair
    · intro e' he'
      obtain ⟨e, he, rfl⟩ := hsaved e' he'
      obtain ⟨d1, d2, s1, t1, d3, d4, d5⟩ := hsane'.described e he
      obtain ⟨f1, -, f3, f4, -, -⟩ := savedFlow_fields e.attrs
      refine ⟨by rw [hsid]; exact d1, ?_, s1, t1, f3.trans d3, f4.trans d4, d5⟩
      change (savedFlow e.attrs).name.isSome
      unfold savedFlow
      split
      · rfl
      · exact d2
  · intro n' hn'
    obtain ⟨n1, hn1, rfl⟩ := List.mem_map.1 hn'
    obtain ⟨n, hn, c, rfl⟩ := hno n1 hn1
    obtain ⟨ty, nm, hs⟩ := C82_nodes_say rows t d h n hn
    have hty := csv_types t h (n := n) hn
    obtain ⟨-, ho, hi, -⟩ := id_of_node inv hn
    have hi' : "" ∉ ins n := by
      rw [hi]
      intro hh
      obtain ⟨s1, -, e⟩ := inv.inI _ _ hh
      exact flowId_ne _ _ e.symm
    have ho' : "" ∉ outs n := by
      rw [ho]
      intro hh
      obtain ⟨s1, e⟩ := inv.outI _ _ hh
      exact flowId_ne _ _ e.symm
    generalize ins n = I at hs hi'
    generalize outs n = O at hs ho'
    obtain ⟨i, a⟩ := n
    simp only at hs hty
    subst hs
    simp only [csvNode, List.mem_cons, Option.some.injEq, List.not_mem_nil, or_false] at hty
    exact csv_nodeReady hty hi' ho'
  · intro e' he'
    obtain ⟨e1, he1, rfl⟩ := hsaved e' he'
    obtain ⟨e, he, hb⟩ := hed e1 he1
    obtain ⟨-, -, -, -, -, -, -, b8⟩ := bareEdge_fields hb
    obtain ⟨d1, d2, s1, t1, d3, d4, d5⟩ := hsane'.described e1 he1
    obtain ⟨f1, f2, f3, f4, f5, f6⟩ := savedFlow_fields e1.attrs
    refine ⟨by rw [hsid]; exact d1, ?_, ?_, ?_, ?_, ?_⟩
    · change (savedFlow e1.attrs).name.isSome
      unfold savedFlow
      split
      · rfl
      · exact d2
    · exact (congrArg Option.isSome (f3.trans d3)).trans rfl
    · exact (congrArg Option.isSome (f4.trans d4)).trans rfl
    · exact (congrArg Option.isSome f5).trans (hway e1 he1)
    · intro c hc
      have hc' := f6.symm.trans hc
      refine ⟨(hflow e he).2 c (b8.trans hc'), ?_⟩
      change (savedFlow e1.attrs).name = _
      unfold savedFlow
      rw [hc']
  · rw [show (saved d').processElements = d'.processElements from rfl, hpe']
    simp
  · intro p hp
    rw [show (saved d').processElements = d'.processElements from rfl, hpe', List.mem_singleton] at hp
    subst hp
    exact ⟨hp1, hp2, hp3⟩
  · intro p hp n hn
    rw [show (saved d').processElements = d'.processElements from rfl, hpe', List.mem_singleton] at hp
    subst hp
    intro e
    refine process_not_node t s ?_
    have : n.1 ∈ d.graph.nodes.map Prod.fst := hsids ▸ List.mem_map_of_mem hn
    rw [← e] at this
    exact this
  · refine ⟨fun _ => 0, ?_⟩
    intro n hn m hm hp
    obtain ⟨n1, hn1, rfl⟩ := List.mem_map.1 hn
    obtain ⟨n0, hn0, c, rfl⟩ := hno n1 hn1
    obtain ⟨ty, nm, hs⟩ := C82_nodes_say rows t d h n0 hn0
    have hp' : n0.2.process = some m.1 := by
      rw [← hp]
      exact ((savedNode_fields (atCell n0 c).2).2.1).symm
    rw [hs] at hp'
    have : m.1 ∈ d.graph.nodes.map Prod.fst := hsids ▸ List.mem_map_of_mem hm
    exact absurd ((Option.some.inj hp') ▸ this) (process_not_node t s)
  · have e : (saved d').graph.edges.map (·.attrs.id) = d'.graph.edges.map (·.attrs.id) := by
      simp only [saved, List.map_map, Function.comp_def]
      exact List.map_congr_left fun e _ => hsid e
    rw [e]; exact hfid'
  · intro n hn p hp
    obtain ⟨n1, hn1, rfl⟩ := List.mem_map.1 hn
    obtain ⟨n0, hn0, c, rfl⟩ := hno n1 hn1
    obtain ⟨ty, nm, hs⟩ := C82_nodes_say rows t d h n0 hn0
    have hp' : n0.2.process = some p := by
      rw [← hp]
      exact ((savedNode_fields (atCell n0 c).2).2.1).symm
    rw [hs] at hp'
    refine .inl ?_
    rw [show (saved d').processElements = d'.processElements from rfl, hpe', ← Option.some.inj hp']
    simp
  · intro e' he'
    obtain ⟨e1, he1, rfl⟩ := hsaved e' he'
    obtain ⟨e, he, hb⟩ := hed e1 he1
    obtain ⟨-, -, -, -, -, -, b7, -⟩ := bareEdge_fields hb
    refine .inl ⟨"process_1", ?_, .inl ?_⟩
    · exact (savedFlow_fields e1.attrs).2.1.trans (b7.symm.trans (hflow e he).1)
    · rw [show (saved d').processElements = d'.processElements from rfl, hpe']
      simp
  · intro c hc
    rw [show (saved d').collaboration = d'.collaboration from rfl, hcol'] at hc
    cases hc
  · intro c hc
    rw [show (saved d').collaboration = d'.collaboration from rfl, hcol'] at hc
    cases hc
  · have e1 : poolIds (saved d') = [] := by
      unfold poolIds
      rw [show (saved d').collaboration = d'.collaboration from rfl, hcol']
      rfl
    have e2 : laneIds (saved d') = [] := by
      unfold laneIds
      rw [show (saved d').processElements = d'.processElements from rfl, hpe']
      simp [lanesOf, hpl]
    rw [e1, e2]
    have : (saved d').graph.nodes.map (·.1) = d.graph.nodes.map Prod.fst := hsids
    rw [this]
    exact hsane.nodesUnique
  · have e2 : laneIds (saved d') = [] := by
      unfold laneIds
      rw [show (saved d').processElements = d'.processElements from rfl, hpe']
      simp [lanesOf, hpl]
    rw [e2]
    simp
  · intro e' he' i s1 t1 hi hs1 ht1
    obtain ⟨e1, he1, rfl⟩ := hsaved e' he'
    obtain ⟨e, he, hb⟩ := hed e1 he1
    obtain ⟨-, -, b3, -, b5, b6, -, -⟩ := bareEdge_fields hb
    obtain ⟨f1, f2, f3, f4, f5, f6⟩ := savedFlow_fields e1.attrs
    obtain ⟨s2, t2, i2, r2, u2, -, -, w⟩ := inv.edgeI e he
    have hi' := (b3.trans f1.symm).trans hi
    have hs' := (b5.trans f3.symm).trans hs1
    have ht' := (b6.trans f4.symm).trans ht1
    rw [i2, Option.some.injEq] at hi'
    rw [r2, Option.some.injEq] at hs'
    rw [u2, Option.some.injEq] at ht'
    subst hi' hs' ht'
    have look : ∀ x ∈ ids d, ∃ a, (saved d').graph.nodes.get? x = some a ∧ a.outgoing = some (outOf d x) ∧ a.incoming = some (inOf d x) := by
      intro x hx
      obtain ⟨n, hn, e1, e2, e3, -⟩ := node_of_id inv hx
      obtain ⟨c, -, hm⟩ := setCoordinates_all h4 n hn
      obtain ⟨ty, nm, hsay⟩ := C82_nodes_say rows t d h n hn
      have hmem : mapNode (atCell n c) ∈ (saved d').graph.nodes := List.mem_map_of_mem (hns ▸ hm)
      have hnd : (saved d').graph.nodes.keys.Nodup := by
        change ((saved d').graph.nodes.map Prod.fst).Nodup
        rw [hsids]
        exact hsane.nodesUnique
      have hget := Dict.get?_of_mem hnd hmem
      subst e1
      refine ⟨_, hget, ?_, ?_⟩
      · change (savedNode (atCell n c).2).outgoing = _
        rw [savedNode_eq, ← e2]
        change n.2.outgoing = _
        rw [hsay]
      · change (savedNode (atCell n c).2).incoming = _
        rw [savedNode_eq, ← e3]
        change n.2.incoming = _
        rw [hsay]
    obtain ⟨a, g1, g2, -⟩ := look _ w.src
    obtain ⟨b, g3, -, g4⟩ := look _ w.tgt
    exact ⟨⟨a, _, g1, g2, w.out⟩, ⟨b, _, g3, g4, w.inn⟩⟩
  · intro i v
    have := tableEntry_get? i v d'.graph.edges hfid'
    refine this.trans ?_
    constructor
    · rintro ⟨e, he, h1⟩
      obtain ⟨h1, h2, h3, h4, h5⟩ := tableEntry_eq.1 h1
      obtain ⟨f1, f2, f3, f4, f5, f6⟩ := savedFlow_fields e.attrs
      exact ⟨savedEdge e, List.mem_map_of_mem he, by rw [show (savedEdge e).attrs = savedFlow e.attrs from rfl, f2]; exact h1, f1.trans h2, h3, f3.trans h4, f4.trans h5⟩
    · rintro ⟨e', he', h1, h2, h3, h4, h5⟩
      obtain ⟨e, he, rfl⟩ := hsaved e' he'
      obtain ⟨f1, f2, f3, f4, f5, f6⟩ := savedFlow_fields e.attrs
      refine ⟨e, he, tableEntry_eq.2 ⟨?_, f1.symm.trans h2, h3, f3.symm.trans h4, f4.symm.trans h5⟩⟩
      rw [show (savedEdge e).attrs = savedFlow e.attrs from rfl, f2] at h1
      exact h1

/-- **C89, saved.** A diagram imported from a table and laid out can be saved to a file.  Loading that file gives the drawn diagram again, apart from the
names of conditional flows and the empty lists of event definitions of nodes that are not events. -/
theorem C89_saved (rows : List Row) (t : Table rows) (d d' : Diagram) (h : loadCsv rows {} = .ok d) {fuel : Nat} (hl : generateLayout fuel d = .ok d') :
    ∃ x N, (∀ n ≥ N, Export.exportXmlFile n d' = .ok x) ∧
      ∀ ord : List String → List String, (∀ l, (ord l).Perm l) → ∃ e, Import.load ord x.toDom {} = .ok e ∧ SavedAs d' e := by
  obtain ⟨h1, h2⟩ := csv_layout_exportable rows t d d' h hl
  exact savedAs_of_exportable d' h1 h2

set_option maxRecDepth 8000 in
/-- A table with a terminated branch and a subprocess is imported and drawn, and therefore can be saved. -/
theorem sample_drawn : Table sample.rows ∧ ∃ d d', loadCsv sample.rows {} = .ok d ∧ generateLayout 40 d = .ok d' := by
  refine ⟨flat_table sample_good, ?_⟩
  obtain ⟨d, h, hp⟩ := ok_of_check (x := loadCsv sample.rows {}) (fun d =>
    match (topologicalSort 40 d ((byType d).map ncOf)).bind fun r => gridLayout 40 d r.1 with
    | .ok g => d.getNodes.all fun n => g.any fun c => c.nodeId == n.1
    | _ => false) (by decide +kernel)
  obtain ⟨F, m⟩ := flat_made sample_good h
  cases hs : topologicalSort 40 d ((byType d).map ncOf) with
  | error e => simp only [hs, Except.bind] at hp; cases hp
  | ok r =>
    obtain ⟨sorted, back⟩ := r
    simp only [hs, Except.bind] at hp
    cases hg : gridLayout 40 d sorted with
    | error e => rw [hg] at hp; cases hp
    | ok grid =>
      simp only [hg, List.all_eq_true, List.any_eq_true, beq_iff_eq] at hp
      obtain ⟨d', ns, h1, -⟩ := layout_ok m.consistent hs hg hp
      exact ⟨d, d', h, h1⟩

end Bpmn.Props

import Verif.Spec.Session
import Verif.Lemmas.Orderly
import Verif.Lemmas.SeqFlow
import Verif.Lemmas.Layout
import Verif.Props.Layouter
import Verif.Props.XmlPools
import Verif.Props.Workflow
set_option linter.unusedSimpArgs false
set_option linter.unusedVariables false
/-!
# Complete diagrams stay complete
-/
namespace Bpmn
open Spec Layouter Props

/-- A new node. -/
theorem exec_new_node {d : Diagram} {op : Op} {n : ANode} (h : declaredNode op = some n) (hv : valid op) (hn : n.id ∉ d.graph.nodes.keys) :
    (op.exec d).1 = { d with graph := { d.graph with nodes := d.graph.nodes ++ [(n.id, stored n)] } } ∧ (op.exec d).2 = .ok n.id := by
  obtain ⟨f, e, -, hv', -⟩ := nodeOp_effect d h
  obtain ⟨h1, h2⟩ := hv' hv
  refine ⟨?_, h2⟩
  rw [e, Graph.addNode_of_not_mem hn]
  simp only [Graph.modifyNode]
  rw [Dict.modify_append _ _ _ hn]
  simp [Dict.modify, h1]

theorem Container.mono {d e : Diagram} {p : String} (h : Container d p) (hp : ∀ i ∈ d.processElements.map (·.1), i ∈ e.processElements.map (·.1))
    (hn : ∀ m ∈ d.graph.nodes, ∃ m' ∈ e.graph.nodes, m'.1 = m.1 ∧ m'.2.type = m.2.type) : Container e p := by
  rcases h with h | ⟨m, hm, e1, e2⟩
  · exact .inl (hp _ h)
  · obtain ⟨m', h1, h2, h3⟩ := hn m hm
    exact .inr ⟨m', h1, h2.trans e1, h3.trans e2⟩

/-- A complete diagram stays complete when a node is added. -/
theorem Spec.Exportable.addNode {d : Diagram} (hd : Exportable d) {op : Op} {n : ANode} (h : declaredNode op = some n) (hf : Fits d op) :
    Exportable (op.exec d).1 := by
  obtain ⟨h1, h2, h3, h4, p, h5, h6⟩ := hf.node n h
  have hs := hd.sane.exec op
  have hk := kindReady_of_usable hf.kind h
  obtain ⟨g1, g2, g3, g4, g5, g6, g7, g8⟩ := declaredNode_attrs h
  rw [(exec_new_node h hf.direction h1).1] at hs ⊢
  have hc : ∀ q, Container d q → Container { d with graph := { d.graph with nodes := d.graph.nodes ++ [(n.id, stored n)] } } q := fun q hq =>
    Container.mono hq (fun _ h => h) fun m hm => ⟨m, List.mem_append_left _ hm, rfl, rfl⟩
  obtain ⟨depth, hdep⟩ := hd.noCircles
  have hne : ∀ m ∈ d.graph.nodes, m.1 ≠ n.id := fun m hm e => h1 (List.mem_map.2 ⟨m, hm, e⟩)
  have hown : ∀ m ∈ d.graph.nodes, m.2.process ≠ some n.id := by
    intro m hm e
    rcases hd.placed m hm _ e with h | ⟨m', hm', e', -⟩
    · exact h2 h
    · exact hne m' hm' e'
  have hpn : p ≠ n.id := by
    rintro rfl
    rcases h6 with h | ⟨m', hm', e', -⟩
    · exact h2 h
    · exact hne m' hm' e'
  have hlook : ∀ i a, d.graph.nodes.get? i = some a → Dict.get? (d.graph.nodes ++ [(n.id, stored n)]) i = some a := by
    intro i a ha
    rw [Dict.get?_append, ha]
    rfl
  exact {
    header := hd.header, pools := hd.pools, lanes := hd.lanes, sane := hs
    nodes := by
      intro m hm
      rcases List.mem_append.1 hm with hm | hm
      · exact hd.nodes m hm
      · rw [List.mem_singleton.1 hm]
        exact { id := g3, name := g5, process := g6, width := by simp [stored, g7], height := by simp [stored, g8], x := by simp [stored, g1],
                y := by simp [stored, g2], kind := hk, incoming := ⟨[], rfl, by simp⟩, outgoing := ⟨[], rfl, by simp⟩ }
    flows := hd.flows, procIds := hd.procIds, procs := hd.procs
    apart := by
      intro q hq m hm
      rcases List.mem_append.1 hm with hm | hm
      · exact hd.apart q hq m hm
      · rw [List.mem_singleton.1 hm]
        exact fun e => h2 (List.mem_map.2 ⟨q, hq, e⟩)
    noCircles := by
      refine ⟨fun i => if i = n.id then depth p + 1 else depth i, ?_⟩
      intro m hm k hk hp ht
      rcases List.mem_append.1 hm with hm | hm
      · rcases List.mem_append.1 hk with hk | hk
        · simp only [hne m hm, hne k hk, if_false]
          exact hdep m hm k hk hp ht
        · rw [List.mem_singleton.1 hk] at hp
          exact absurd hp (hown m hm)
      · rw [List.mem_singleton.1 hm] at hp ⊢
        have : k.1 = p := by
          have e : (stored n).process = some p := h5
          exact (Option.some.inj (e.symm.trans hp)).symm
        simp only [this, hpn, if_false, if_true]
        omega
    flowIds := hd.flowIds
    placed := by
      intro m hm q hq
      rcases List.mem_append.1 hm with hm | hm
      · exact hc _ (hd.placed m hm q hq)
      · rw [List.mem_singleton.1 hm] at hq
        have e : (stored n).process = some p := h5
        rw [← Option.some.inj (e.symm.trans hq)]
        exact hc _ h6
    flowProcess := by
      intro e he
      rcases hd.flowProcess e he with ⟨q, hq, hq'⟩ | h
      · exact .inl ⟨q, hq, hc _ hq'⟩
      · exact .inr h
    messages := hd.messages, owners := hd.owners
    shapeIds := by
      have := hd.shapeIds
      show (poolIds d ++ laneIds d ++ (d.graph.nodes ++ [(n.id, stored n)]).map (·.1)).Nodup
      rw [List.map_append, ← List.append_assoc]
      refine List.nodup_append.2 ⟨this, by simp, ?_⟩
      intro a ha b hb e
      simp only [List.map_cons, List.map_nil, List.mem_singleton] at hb
      subst hb
      subst e
      simp only [List.mem_append] at ha
      rcases ha with (ha | ha) | ha
      · exact h3 ha
      · exact h4 ha
      · exact h1 ha
    laneNames := hd.laneNames
    listed := by
      intro e he i s t hi hs ht
      obtain ⟨⟨a, l, ha, hl⟩, ⟨b, l', hb, hl'⟩⟩ := hd.listed e he i s t hi hs ht
      exact ⟨⟨a, l, hlook _ _ ha, hl⟩, ⟨b, l', hlook _ _ hb, hl'⟩⟩
    table := hd.table }

/-- A complete diagram stays complete when a process is added. -/
theorem Spec.Exportable.addProcess {d : Diagram} (hd : Exportable d) {name ty pl pr : String} {c e : Bool}
    (h1 : pr ∉ d.processElements.map (·.1)) (h2 : pr ∉ d.getNodes.map (·.1)) : Exportable (d.addProcess name c e ty pl pr) := by
  have hset : d.processElements.set pr _ = _ := Dict.set_of_not_mem d.processElements
    (⟨none, some name, some (boolStr c), some (boolStr e), some ty, none, none⟩ : ProcAttrs) h1
  have he : d.addProcess name c e ty pl pr = { d with
      processElements := d.processElements ++ [(pr, ⟨none, some name, some (boolStr c), some (boolStr e), some ty, none, none⟩)]
      planeId := some pl, planeElement := some pr } := by
    unfold Diagram.addProcess
    rw [← hset]
  have hs : Sane (d.addProcess name c e ty pl pr) := hd.sane.of_graph rfl
  rw [he] at hs ⊢
  have hlane : ∀ x : ProcAttrs, x = ⟨none, some name, some (boolStr c), some (boolStr e), some ty, none, none⟩ → lanesOf x = [] := by
    rintro x rfl
    rfl
  have hids : (d.processElements ++ [(pr, (⟨none, some name, some (boolStr c), some (boolStr e), some ty, none, none⟩ : ProcAttrs))]).flatMap
      (fun p => (lanesOf p.2).map laneId) = laneIds d := by
    rw [List.flatMap_append]
    simp [laneIds, hlane _ rfl]
  have hc : ∀ q, Container d q → Container { d with
      processElements := d.processElements ++ [(pr, ⟨none, some name, some (boolStr c), some (boolStr e), some ty, none, none⟩)]
      planeId := some pl, planeElement := some pr } q := fun q hq =>
    Container.mono hq (fun i hi => by rw [List.map_append]; exact List.mem_append_left _ hi) fun m hm => ⟨m, hm, rfl, rfl⟩
  exact {
    header := ⟨hd.header.1, hd.header.2.1, rfl, rfl⟩, pools := hd.pools
    lanes := by
      intro p hp l hl
      rcases List.mem_append.1 hp with hp | hp
      · exact hd.lanes p hp l hl
      · rw [List.mem_singleton.1 hp] at hl
        cases hl
    sane := hs, nodes := hd.nodes, flows := hd.flows
    procIds := by
      show ((d.processElements ++ _).map _).Nodup
      rw [List.map_append]
      refine List.nodup_append.2 ⟨hd.procIds, by simp, ?_⟩
      intro a ha b hb e
      simp only [List.map_cons, List.map_nil, List.mem_singleton] at hb
      subst hb
      subst e
      exact h1 ha
    procs := by
      intro p hp
      rcases List.mem_append.1 hp with hp | hp
      · exact hd.procs p hp
      · rw [List.mem_singleton.1 hp]
        exact ⟨rfl, rfl, rfl⟩
    apart := by
      intro p hp n hn
      rcases List.mem_append.1 hp with hp | hp
      · exact hd.apart p hp n hn
      · rw [List.mem_singleton.1 hp]
        exact fun e => h2 (List.mem_map.2 ⟨n, hn, e.symm⟩)
    noCircles := hd.noCircles, flowIds := hd.flowIds
    placed := fun n hn p hp => hc _ (hd.placed n hn p hp)
    flowProcess := by
      intro e he
      rcases hd.flowProcess e he with ⟨q, hq, hq'⟩ | h
      · exact .inl ⟨q, hq, hc _ hq'⟩
      · exact .inr h
    messages := hd.messages, owners := hd.owners
    shapeIds := by
      show (poolIds d ++ (d.processElements ++ _).flatMap _ ++ _).Nodup
      rw [hids]
      exact hd.shapeIds
    laneNames := by
      intro e he i hi
      change i ∈ (d.processElements ++ _).flatMap _ at hi
      rw [hids] at hi
      exact hd.laneNames e he i hi
    listed := hd.listed, table := hd.table }

/-- A complete diagram stays complete when nodes keep their ids, kinds and processes, lists grow, and complete flows are added. -/
theorem Spec.Exportable.grown {d e : Diagram} (hd : Exportable d) (head : e.diagramId = d.diagramId ∧ e.diagramName = d.diagramName ∧
      e.planeId = d.planeId ∧ e.planeElement = d.planeElement) (procs : e.processElements = d.processElements)
    (col : e.collaboration = d.collaboration) (sane : Sane e) (keys : e.graph.nodes.map Prod.fst = d.graph.nodes.map Prod.fst)
    (ready : ∀ n ∈ e.graph.nodes, NodeReady n)
    (nodes : ∀ n ∈ d.graph.nodes, ∃ a l l' k k', e.graph.nodes.get? n.1 = some a ∧ a.type = n.2.type ∧ a.process = n.2.process ∧
      n.2.incoming = some l ∧ n.2.outgoing = some k ∧ a.incoming = some l' ∧ a.outgoing = some k' ∧ (∀ i ∈ l, i ∈ l') ∧ ∀ i ∈ k, i ∈ k')
    (news : List Edge) (edges : e.graph.edges.map bareEdge = (d.graph.edges ++ news).map bareEdge)
    (ways : ∀ x ∈ e.graph.edges, x.attrs.waypoints.isSome) (added : ∀ x ∈ news, FlowReady x.attrs ∧
      (∃ p, x.attrs.process = some p ∧ Container d p) ∧ (∀ y ∈ d.graph.edges, y.attrs.id ≠ x.attrs.id) ∧ (∀ i ∈ laneIds d, x.attrs.id ≠ some i) ∧
      ∀ i s t, x.attrs.id = some i → x.attrs.sourceRef = some s → x.attrs.targetRef = some t →
        (∃ a l, e.graph.nodes.get? s = some a ∧ a.outgoing = some l ∧ i ∈ l) ∧ (∃ a l, e.graph.nodes.get? t = some a ∧ a.incoming = some l ∧ i ∈ l))
    (ids : (news.map (·.attrs.id)).Nodup)
    (table : ∀ i v, e.sequenceFlows.get? i = some v ↔ d.sequenceFlows.get? i = some v ∨ ∃ x ∈ news, x.attrs.process.isSome ∧ x.attrs.id = some i ∧
      x.attrs.name = some v.name ∧ x.attrs.sourceRef = some v.sourceRef ∧ x.attrs.targetRef = some v.targetRef) : Exportable e := by
  have hkd : (Dict.keys d.graph.nodes).Nodup := hd.sane.nodesUnique
  have hke : (Dict.keys e.graph.nodes).Nodup := sane.nodesUnique
  have hback : ∀ n' ∈ e.graph.nodes, ∃ n ∈ d.graph.nodes, n.1 = n'.1 ∧ n'.2.type = n.2.type ∧ n'.2.process = n.2.process := by
    intro n' hn'
    have : n'.1 ∈ d.graph.nodes.map Prod.fst := keys ▸ List.mem_map_of_mem hn'
    obtain ⟨n, hn, e1⟩ := List.mem_map.1 this
    obtain ⟨a, -, -, -, -, g, t, p, -⟩ := nodes n hn
    have := Dict.get?_of_mem hke hn'
    rw [← e1, g] at this
    obtain rfl := Option.some.inj this
    exact ⟨n, hn, e1, t, p⟩
  have hcont : ∀ p, Container d p → Container e p := fun p hp => Container.mono hp (fun i hi => procs ▸ hi) (by
    intro m hm
    obtain ⟨a, -, -, -, -, g, t, -⟩ := nodes m hm
    exact ⟨(m.1, a), Dict.mem_of_get? g, rfl, t⟩)
  have hb : ∀ x ∈ e.graph.edges, ∃ y ∈ d.graph.edges ++ news, bareEdge y = bareEdge x := by
    intro x hx
    have : bareEdge x ∈ (d.graph.edges ++ news).map bareEdge := edges ▸ List.mem_map_of_mem hx
    exact List.mem_map.1 this
  have hf : ∀ y ∈ d.graph.edges ++ news, ∃ x ∈ e.graph.edges, bareEdge x = bareEdge y := by
    intro x hx
    have : bareEdge x ∈ e.graph.edges.map bareEdge := edges ▸ List.mem_map_of_mem hx
    exact List.mem_map.1 this
  have hlanes : laneIds e = laneIds d := by rw [laneIds, laneIds, procs]
  have hmsg : messageIds e = messageIds d := by rw [messageIds, messageIds, col]
  have hlist : ∀ s (i : String), (∃ a l, d.graph.nodes.get? s = some a ∧ a.outgoing = some l ∧ i ∈ l) →
      ∃ a l, e.graph.nodes.get? s = some a ∧ a.outgoing = some l ∧ i ∈ l := by
    rintro s i ⟨a, l, g, ho, hi⟩
    obtain ⟨a', -, -, k, k', g', -, -, -, o1, -, o2, -, sub⟩ := nodes (s, a) (Dict.mem_of_get? g)
    rw [ho, Option.some.injEq] at o1
    subst o1
    exact ⟨a', k', g', o2, sub _ hi⟩
  have hlist' : ∀ s (i : String), (∃ a l, d.graph.nodes.get? s = some a ∧ a.incoming = some l ∧ i ∈ l) →
      ∃ a l, e.graph.nodes.get? s = some a ∧ a.incoming = some l ∧ i ∈ l := by
    rintro s i ⟨a, l, g, ho, hi⟩
    obtain ⟨a', k, k', -, -, g', -, -, o1, -, o2, -, sub, -⟩ := nodes (s, a) (Dict.mem_of_get? g)
    rw [ho, Option.some.injEq] at o1
    subst o1
    exact ⟨a', k', g', o2, sub _ hi⟩
  exact {
    header := by rw [head.1, head.2.1, head.2.2.1, head.2.2.2]; exact hd.header
    pools := by
      intro c hc
      rw [col] at hc
      obtain ⟨h1, h2⟩ := hd.pools c hc
      refine ⟨h1, fun m hm => ?_⟩
      obtain ⟨y, hy, hi⟩ := h2 m hm
      obtain ⟨x, hx, hxy⟩ := hf y (List.mem_append_left _ hy)
      exact ⟨x, hx, (bareEdge_fields hxy).2.2.1.trans hi⟩
    lanes := by rw [procs]; exact hd.lanes
    sane := sane, nodes := ready
    flows := by
      intro x hx
      obtain ⟨y, hy, hxy⟩ := hb x hx
      obtain ⟨-, -, f1, f2, f3, f4, f5, f6⟩ := bareEdge_fields hxy
      have hr : FlowReady y.attrs := by
        rcases List.mem_append.1 hy with hy | hy
        · exact hd.flows y hy
        · exact (added y hy).1
      exact ⟨f1 ▸ hr.id, f2 ▸ hr.name, f3 ▸ hr.source, f4 ▸ hr.target, ways x hx, by rw [← f6, ← f2]; exact hr.condition⟩
    procIds := by rw [procs]; exact hd.procIds
    procs := by rw [procs]; exact hd.procs
    apart := by
      intro p hp n' hn'
      obtain ⟨n, hn, e1, -⟩ := hback n' hn'
      rw [← e1]
      exact hd.apart p (procs ▸ hp) n hn
    noCircles := by
      obtain ⟨depth, hdep⟩ := hd.noCircles
      refine ⟨depth, fun n' hn' m' hm' hp ht => ?_⟩
      obtain ⟨n, hn, e1, e2, e3⟩ := hback n' hn'
      obtain ⟨m, hm, g1, g2, g3⟩ := hback m' hm'
      rw [← e1, ← g1]
      exact hdep n hn m hm (by rw [← e3, hp, g1]) (by rw [← g2, ht])
    flowIds := by
      have h1 : e.graph.edges.map (·.attrs.id) = (d.graph.edges ++ news).map (·.attrs.id) := by
        have := congrArg (List.map fun e : Edge => e.attrs.id) edges
        simpa [List.map_map, Function.comp_def, bareEdge, bareAttrs] using this
      rw [h1, List.map_append]
      refine List.nodup_append.2 ⟨hd.flowIds, ids, ?_⟩
      intro a ha b hb' e1
      obtain ⟨y, hy, rfl⟩ := List.mem_map.1 ha
      obtain ⟨x, hx, rfl⟩ := List.mem_map.1 hb'
      exact (added x hx).2.2.1 y hy e1
    placed := by
      intro n' hn' p hp
      obtain ⟨n, hn, e1, e2, e3⟩ := hback n' hn'
      exact hcont _ (hd.placed n hn p (e3 ▸ hp))
    flowProcess := by
      intro x hx
      obtain ⟨y, hy, hxy⟩ := hb x hx
      obtain ⟨-, -, f1, -, -, -, f5, -⟩ := bareEdge_fields hxy
      rw [← f1, ← f5, hmsg]
      rcases List.mem_append.1 hy with hy | hy
      · rcases hd.flowProcess y hy with ⟨q, hq, hq'⟩ | h
        · exact .inl ⟨q, hq, hcont _ hq'⟩
        · exact .inr h
      · obtain ⟨q, hq, hq'⟩ := (added y hy).2.1
        exact .inl ⟨q, hq, hcont _ hq'⟩
    messages := by
      intro c hc
      rw [col] at hc
      obtain ⟨h1, h2⟩ := hd.messages c hc
      refine ⟨h1, fun m hm => ⟨(h2 m hm).1, fun x hx hi => ?_⟩⟩
      obtain ⟨y, hy, hxy⟩ := hb x hx
      obtain ⟨-, -, f1, f2, f3, f4, f5, f6⟩ := bareEdge_fields hxy
      rw [← f1] at hi
      rw [← f2, ← f3, ← f4, ← f5, ← f6]
      rcases List.mem_append.1 hy with hy | hy
      · exact (h2 m hm).2 y hy hi
      · obtain ⟨z, hz, hi'⟩ := (hd.pools c hc).2 m hm
        exact absurd (hi'.trans hi.symm) ((added y hy).2.2.1 z hz)
    owners := by rw [col]; exact hd.owners
    shapeIds := by
      have h1 : poolIds e = poolIds d := by rw [poolIds, poolIds, col]
      rw [h1, hlanes]
      exact keys ▸ hd.shapeIds
    laneNames := by
      intro x hx i hi
      obtain ⟨y, hy, hxy⟩ := hb x hx
      rw [← (bareEdge_fields hxy).2.2.1]
      rw [hlanes] at hi
      rcases List.mem_append.1 hy with hy | hy
      · exact hd.laneNames y hy i hi
      · exact (added y hy).2.2.2.1 i hi
    listed := by
      intro x hx i s t hi hs ht
      obtain ⟨y, hy, hxy⟩ := hb x hx
      obtain ⟨-, -, f1, -, f3, f4, -, -⟩ := bareEdge_fields hxy
      rw [← f1] at hi
      rw [← f3] at hs
      rw [← f4] at ht
      rcases List.mem_append.1 hy with hy | hy
      · obtain ⟨h1, h2⟩ := hd.listed y hy i s t hi hs ht
        exact ⟨hlist _ _ h1, hlist' _ _ h2⟩
      · exact (added y hy).2.2.2.2 i s t hi hs ht
    table := by
      intro i v
      rw [table, hd.table]
      constructor
      · rintro (⟨y, hy, h⟩ | ⟨y, hy, h⟩)
        all_goals
          obtain ⟨x, hx, hxy⟩ := hf y (by simp [hy])
          obtain ⟨-, -, f1, f2, f3, f4, f5, -⟩ := bareEdge_fields hxy
          exact ⟨x, hx, by rw [f1, f2, f3, f4, f5]; exact h⟩
      · rintro ⟨x, hx, h⟩
        obtain ⟨y, hy, hxy⟩ := hb x hx
        obtain ⟨-, -, f1, f2, f3, f4, f5, -⟩ := bareEdge_fields hxy
        rw [← f1, ← f2, ← f3, ← f4, ← f5] at h
        rcases List.mem_append.1 hy with hy | hy
        · exact .inl ⟨y, hy, h⟩
        · exact .inr ⟨y, hy, h⟩ }

/-- A complete diagram stays complete when it is laid out. -/
theorem Spec.Exportable.laidOut {d d' : Diagram} (hd : Exportable d) {fuel : Nat} (h : Layouter.generateLayout fuel d = .ok d') : Exportable d' := by
  have hs' := sane_of_layout hd.sane h
  have sb := layout_sameBut h
  have hway : ∀ e ∈ d'.graph.edges, e.attrs.waypoints.isSome := by
    intro e he
    obtain ⟨f, hf, e2⟩ := List.mem_map.1 ((Graph.flows_attrs_perm hs'.wf).mem_iff.2 (List.mem_map_of_mem (f := fun e : Edge => e.attrs) he))
    obtain ⟨_, _, _, _, w, -, -, -, -, hw, -⟩ := C30_waypoints d d' hd.sane.onePerPair h f hf
    rw [← e2, hw]
    rfl
  obtain ⟨all, sorted, back, grid, ns, ws, -, -, -, h4, -, hd'⟩ := layout_steps h
  have hns : d'.graph.nodes = ns := by rw [hd']
  have hids : d'.graph.nodes.map Prod.fst = d.graph.nodes.map Prod.fst := by
    have := congrArg (List.map Prod.fst) sb.nodes
    simpa [List.map_map, Function.comp_def, bareNode] using this
  refine hd.grown (by subst hd'; exact ⟨rfl, rfl, rfl, rfl⟩) (by subst hd'; rfl) (by subst hd'; rfl) hs' hids ?_ ?_ []
    (by simpa using sb.edges) hway (by simp) (by simp) (by subst hd'; simp)
  · intro n' hn'
    obtain ⟨n, hn, c, -, rfl⟩ := setCoordinates_ok h4 n' (hns ▸ hn')
    have r := hd.nodes n hn
    exact ⟨r.id, r.name, r.process, r.width, r.height, rfl, rfl, r.kind, r.incoming, r.outgoing⟩
  · intro n hn
    obtain ⟨c, -, hm⟩ := setCoordinates_all h4 n hn
    obtain ⟨l, hl, -⟩ := (hd.nodes n hn).incoming
    obtain ⟨k, hk, -⟩ := (hd.nodes n hn).outgoing
    exact ⟨(atCell n c).2, l, l, k, k, Dict.get?_of_mem hs'.nodesUnique (hns ▸ hm), rfl, rfl, hl, hk, hl, hk, fun _ h => h, fun _ h => h⟩

/-- A node after a flow has been added. -/
def withFlow (s t uid : String) (out inc : List String) (n : String) (a : NodeAttrs) : NodeAttrs :=
  let b := if s = n then { a with outgoing := some (out ++ [uid]) } else a
  if t = n then { b with incoming := some (inc ++ [uid]) } else b

/-- What adding a flow does to a complete diagram. -/
theorem Spec.Exportable.flow_facts {d : Diagram} (hd : Exportable d) {p s t nm uid : String} (hs : s ∈ d.getNodes.map (·.1))
    (ht : t ∈ d.getNodes.map (·.1)) (hn : ∀ g ∈ d.getFlows, ¬SamePair g.1 g.2.1 s t) :
    ∃ sa ta out inc w, d.graph.nodes.get? s = some sa ∧ d.graph.nodes.get? t = some ta ∧ sa.outgoing = some out ∧ ta.incoming = some inc ∧
      (d.addSequenceFlow p s t nm uid).2 = .ok uid ∧
      (∀ n a, d.graph.nodes.get? n = some a → (d.addSequenceFlow p s t nm uid).1.graph.nodes.get? n = some (withFlow s t uid out inc n a)) ∧
      (d.addSequenceFlow p s t nm uid).1.graph.nodes.map Prod.fst = d.graph.nodes.map Prod.fst ∧
      (d.addSequenceFlow p s t nm uid).1.graph.edges = d.graph.edges ++ [⟨s, t, ⟨some uid, some nm, some p, some s, some t, none, some w⟩⟩] := by
  obtain ⟨sa, hs1⟩ := Dict.mem_keys_iff_exists.1 (show s ∈ Dict.keys d.graph.nodes from hs)
  obtain ⟨ta, ht1⟩ := Dict.mem_keys_iff_exists.1 (show t ∈ Dict.keys d.graph.nodes from ht)
  have hs2 := Dict.get?_of_mem hd.sane.nodesUnique hs1
  have ht2 := Dict.get?_of_mem hd.sane.nodesUnique ht1
  have rs := hd.nodes _ hs1
  have rt := hd.nodes _ ht1
  obtain ⟨out, ho, -⟩ := rs.outgoing
  obtain ⟨inc, hi, -⟩ := rt.incoming
  obtain ⟨x1, hx1⟩ := Option.isSome_iff_exists.1 rs.x
  obtain ⟨y1, hy1⟩ := Option.isSome_iff_exists.1 rs.y
  obtain ⟨x2, hx2⟩ := Option.isSome_iff_exists.1 rt.x
  obtain ⟨y2, hy2⟩ := Option.isSome_iff_exists.1 rt.y
  obtain ⟨k1, k2⟩ := addSequenceFlow_ok d p _ _ nm uid hs2 ht2 rs.x rs.y rt.x rt.y ho hi
  have k3 := addSequenceFlow_edges d p _ _ nm uid hs2 ht2 hx1 hy1 hx2 hy2 ho hi
  have hnj : ∀ e ∈ d.graph.edges, e.joins s t = false := by
    intro e he
    obtain ⟨a, b, hf⟩ := Graph.exists_flow_of_attrs hd.sane.wf he
    obtain ⟨e', he', hat, hab⟩ := Graph.mem_flows hf
    have hee : e' = e := by
      have h1 := hd.flowIds
      have h2 : e'.attrs.id = e.attrs.id := by rw [hat]
      exact eq_of_nodup_map h1 he' he h2
    subst hee
    have h3 := hn _ hf
    cases hj : e'.joins s t with
    | false => rfl
    | true =>
      refine absurd ?_ h3
      simp only [Edge.joins, Bool.or_eq_true, Bool.and_eq_true, beq_iff_eq] at hj
      unfold SamePair
      rcases hj with ⟨j1, j2⟩ | ⟨j1, j2⟩ <;> rcases hab with ⟨i1, i2⟩ | ⟨i1, i2⟩ <;> subst_vars <;> simp_all
  refine ⟨sa, ta, out, inc, [(x1, y1), (x2, y2)], hs2, ht2, ho, hi, k1, ?_, ?_, ?_⟩
  · intro n a ha
    rw [k2, Dict.get?_modify, Dict.get?_modify, ha]
    unfold withFlow
    split <;> split <;> simp_all
  · have h1 := congrArg Dict.keys k2
    rw [Dict.keys_modify, Dict.keys_modify] at h1
    exact h1
  · rw [k3]
    have h1 : d.graph.hasEdge s t = false := by
      rw [Graph.hasEdge, List.any_eq_false]
      intro e he
      rw [hnj e he]
      simp
    simp only [Graph.modifyEdge, Graph.addEdge_edges, h1, Bool.false_eq_true, if_false, List.map_append, List.map_map]
    congr 1
    · refine (List.map_congr_left ?_).trans (List.map_id _)
      intro e he
      simp [Function.comp_def, hnj e he]
    · simp [Edge.joins]

theorem addSequenceFlow_rest (d : Diagram) (p s t nm uid : String) :
    (d.addSequenceFlow p s t nm uid).1.diagramId = d.diagramId ∧ (d.addSequenceFlow p s t nm uid).1.diagramName = d.diagramName ∧
    (d.addSequenceFlow p s t nm uid).1.collaboration = d.collaboration := by
  unfold Diagram.addSequenceFlow
  simp only
  split
  · split
    · exact ⟨rfl, rfl, rfl⟩
    · split
      · exact ⟨rfl, rfl, rfl⟩
      · split
        · exact ⟨rfl, rfl, rfl⟩
        · split <;> exact ⟨rfl, rfl, rfl⟩
  · exact ⟨rfl, rfl, rfl⟩
  · exact ⟨rfl, rfl, rfl⟩

/-- A complete diagram stays complete when a sequence flow is added. -/
theorem Spec.Exportable.addFlow {d : Diagram} (hd : Exportable d) {p s t nm uid : String} (h0 : uid ≠ "") (h1 : uid ∉ laneIds d) (h2 : Container d p)
    (hs : s ∈ d.getNodes.map (·.1)) (ht : t ∈ d.getNodes.map (·.1))
    (hn : ∀ g ∈ d.getFlows, g.2.2.id ≠ some uid ∧ ¬SamePair g.1 g.2.1 s t) : Exportable (d.addSequenceFlow p s t nm uid).1 := by
  obtain ⟨sa, ta, out, inc, w, g1, g2, g3, g4, -, g6, g7, g8⟩ := hd.flow_facts (p := p) (nm := nm) (uid := uid) hs ht fun g hg => (hn g hg).2
  have hsane : Sane (d.addSequenceFlow p s t nm uid).1 := hd.sane.exec (.addSequenceFlow p s t nm uid)
  obtain ⟨f, -, -, -, f3, f4, f5, f6⟩ := addSequenceFlow_effect d p s t nm uid
  have hid : ∀ y ∈ d.graph.edges, y.attrs.id ≠ some uid := by
    intro y hy
    obtain ⟨a, b, hf⟩ := Graph.exists_flow_of_attrs hd.sane.wf hy
    exact (hn _ hf).1
  have hl : ∀ n a, d.graph.nodes.get? n = some a → ∃ l k, a.incoming = some l ∧ a.outgoing = some k ∧ "" ∉ l ∧ "" ∉ k ∧
      ∃ l' k', withFlow s t uid out inc n a = { a with incoming := some l', outgoing := some k' } ∧ "" ∉ l' ∧ "" ∉ k' ∧
        (∀ i ∈ l, i ∈ l') ∧ (∀ i ∈ k, i ∈ k') ∧ (s = n → uid ∈ k') ∧ (t = n → uid ∈ l') := by
    intro n a ha
    have r := hd.nodes _ (Dict.mem_of_get? ha)
    obtain ⟨l, hl, hl0⟩ := r.incoming
    obtain ⟨k, hk, hk0⟩ := r.outgoing
    refine ⟨l, k, hl, hk, hl0, hk0, if t = n then l ++ [uid] else l, if s = n then k ++ [uid] else k, ?_, ?_, ?_, ?_, ?_, ?_, ?_⟩
    · have e1 : s = n → out = k := by
        rintro rfl
        rw [g1] at ha
        cases ha
        exact Option.some.inj (g3.symm.trans hk)
      have e2 : t = n → inc = l := by
        rintro rfl
        rw [g2] at ha
        cases ha
        exact Option.some.inj (g4.symm.trans hl)
      unfold withFlow
      by_cases c1 : s = n <;> by_cases c2 : t = n <;> simp only [c1, c2, if_true, if_false]
      · rw [e1 c1, e2 c2]
      · rw [e1 c1, ← hl]
      · rw [e2 c2, ← hk]
      · rw [← hl, ← hk]
    · split <;> simp [hl0, Ne.symm h0]
    · split <;> simp [hk0, Ne.symm h0]
    · intro i hi; split <;> simp [hi]
    · intro i hi; split <;> simp [hi]
    · intro c; simp [c]
    · intro c; simp [c]
  refine hd.grown ?_ f4 ?_ hsane g7 ?_ ?_ _ (congrArg _ g8) ?_ ?_ (by simp) ?_
  · exact ⟨(addSequenceFlow_rest d p s t nm uid).1, (addSequenceFlow_rest d p s t nm uid).2.1, f6, f5⟩
  · exact (addSequenceFlow_rest d p s t nm uid).2.2
  · rintro ⟨n, a'⟩ hn'
    have hk : n ∈ d.graph.nodes.map Prod.fst := g7 ▸ List.mem_map_of_mem (f := Prod.fst) hn'
    obtain ⟨⟨_, a⟩, hna, rfl⟩ := List.mem_map.1 hk
    have ha := Dict.get?_of_mem hd.sane.nodesUnique hna
    have h3 := Dict.get?_of_mem hsane.nodesUnique hn'
    rw [g6 _ _ ha] at h3
    obtain rfl := Option.some.inj h3
    obtain ⟨l, k, -, -, -, -, l', k', e, z1, z2, -⟩ := hl _ _ ha
    have r := hd.nodes _ hna
    rw [e]
    exact ⟨r.id, r.name, r.process, r.width, r.height, r.x, r.y, r.kind, ⟨l', rfl, z1⟩, ⟨k', rfl, z2⟩⟩
  · rintro ⟨n, a⟩ hna
    have ha := Dict.get?_of_mem hd.sane.nodesUnique hna
    obtain ⟨l, k, i1, i2, -, -, l', k', e, -, -, z3, z4, -⟩ := hl _ _ ha
    exact ⟨_, l, l', k, k', (g6 _ _ ha), by rw [e], by rw [e], i1, i2, by rw [e], by rw [e], z3, z4⟩
  · intro x hx
    rw [g8] at hx
    rcases List.mem_append.1 hx with hx | hx
    · exact (hd.flows x hx).waypoints
    · rw [List.mem_singleton.1 hx]; rfl
  · intro x hx
    rw [List.mem_singleton.1 hx]
    refine ⟨⟨rfl, rfl, rfl, rfl, rfl, by simp⟩, ⟨p, rfl, h2⟩, hid, ?_, ?_⟩
    · intro i hi e
      obtain rfl := Option.some.inj e
      exact h1 hi
    · intro i s' t' hi hs' ht'
      obtain rfl := Option.some.inj hi
      obtain rfl := Option.some.inj hs'
      obtain rfl := Option.some.inj ht'
      obtain ⟨-, -, -, -, -, -, l', k', e, -, -, -, -, z5, -⟩ := hl _ _ g1
      obtain ⟨-, -, -, -, -, -, l2, k2, e2, -, -, -, -, -, z6⟩ := hl _ _ g2
      exact ⟨⟨_, k', g6 _ _ g1, by rw [e], z5 rfl⟩, ⟨_, l2, g6 _ _ g2, by rw [e2], z6 rfl⟩⟩
  · intro i v
    rw [f3, Dict.get?_set]
    have hno : d.sequenceFlows.get? uid = none := by
      cases hg : d.sequenceFlows.get? uid with
      | none => rfl
      | some v =>
        obtain ⟨y, hy, -, hi, -⟩ := (hd.table uid v).1 hg
        exact absurd hi (hid y hy)
    by_cases c : uid = i
    · subst c
      obtain ⟨a, b, c⟩ := v
      simp [hno]
    · simp [c]

/-! ## What is in the diagram -/

theorem Spec.Outcome.trans {d e f : Diagram} {ops ops' : List Op} (h : Outcome d ops e) (k : Outcome e ops' f) : Outcome d (ops ++ ops') f where
  header := ⟨k.header.1.trans h.header.1, k.header.2.trans h.header.2⟩
  processes := by rw [k.processes, h.processes, List.filterMap_append, List.append_assoc]
  collaboration := k.collaboration.trans h.collaboration
  nodeIds := by
    refine k.nodeIds.trans ?_
    simp only [nodesTold, List.map_append, List.filterMap_append, List.map_map, Function.comp_def, ← List.append_assoc]
    have := h.nodeIds
    simp only [nodesTold, List.map_append, List.map_map, Function.comp_def] at this
    exact this.append_right _
  nodes := by
    intro x hx
    have hx' : x ∈ nodesTold d ops ∨ x ∈ (ops'.filterMap declaredNode).map fun n => (n.id, undrawn n.attrs) := by
      simp only [nodesTold, List.filterMap_append, List.map_append, List.mem_append] at hx ⊢
      tauto
    rcases hx' with hx' | hx'
    · obtain ⟨b, hb, s⟩ := h.nodes x hx'
      obtain ⟨c, hc, s'⟩ := k.nodes (x.1, undrawn b) (List.mem_append_left _ (List.mem_map.2 ⟨_, hb, rfl⟩))
      exact ⟨c, hc, s.trans s'⟩
    · exact k.nodes x (List.mem_append_right _ hx')
  flows := by
    refine k.flows.trans ?_
    simp only [flowsTold, List.map_append, List.filterMap_append, ← List.append_assoc]
    exact h.flows.append_right _

theorem Spec.SameNode.undrawn {a b : NodeAttrs} (h : SameNode a b) : SameNode (undrawn a) (undrawn b) :=
  ⟨congrArg Spec.undrawn h.rest, h.default, h.defs⟩

theorem Spec.Outcome.of_same {d e : Diagram} (h : SameDiagram d e) : Outcome d [] e where
  header := ⟨h.header.1, h.header.2.1⟩
  processes := by simpa using h.processes
  collaboration := h.collaboration
  nodeIds := by simpa [nodesTold, Function.comp_def] using h.nodeIds
  nodes := by
    intro x hx
    simp only [nodesTold, List.filterMap_nil, List.map_nil, List.append_nil] at hx
    obtain ⟨n, hn, rfl⟩ := List.mem_map.1 hx
    obtain ⟨b, hb, s⟩ := h.nodes n.1 n.2 hn
    exact ⟨b, hb, Spec.SameNode.undrawn s⟩
  flows := by
    have := h.flows.map unrouted
    simpa [flowsTold, Function.comp_def] using this

theorem Spec.Outcome.of_layout {d e : Diagram} {fuel : Nat} (h : generateLayout fuel d = .ok e) : Outcome d [] e := by
  have sb := layout_sameBut h
  have hf := sb.flows
  have hu : e.getNodes.map (fun n => (n.1, undrawn n.2)) = d.getNodes.map fun n => (n.1, undrawn n.2) := by
    have := congrArg (List.map fun n : Node => (n.1, undrawn n.2)) sb.nodes
    simp only [List.map_map, Function.comp_def, bareNode, undrawn] at this
    exact this
  obtain ⟨all, sorted, back, grid, ns, ws, -, -, -, h4, -, rfl⟩ := layout_steps h
  refine ⟨⟨rfl, rfl⟩, by simp, rfl, ?_, ?_, ?_⟩
  · have := congrArg (List.map Prod.fst) hu
    simp only [List.map_map, Function.comp_def] at this
    simp only [nodesTold, List.filterMap_nil, List.map_nil, List.append_nil, List.map_map, Function.comp_def]
    exact this ▸ List.Perm.refl _
  · intro x hx
    simp only [nodesTold, List.filterMap_nil, List.map_nil, List.append_nil] at hx
    rw [← hu] at hx
    obtain ⟨n, hn, rfl⟩ := List.mem_map.1 hx
    exact ⟨n.2, hn, .refl _⟩
  · have := congrArg (List.map fun f : Flow => f.2.2) hf
    simp only [List.map_map, Function.comp_def, bareFlow, bareAttrs] at this
    simp only [flowsTold, List.filterMap_nil, List.map_nil, List.append_nil, unrouted]
    exact this ▸ List.Perm.refl _

/-- The flows of a sane diagram, up to order. -/
theorem unrouted_perm {d : Diagram} (h : Sane d) : (d.getFlows.map fun f => unrouted f.2.2).Perm (d.graph.edges.map fun e => unrouted e.attrs) := by
  have := (Graph.flows_attrs_perm h.wf).map unrouted
  simp only [List.map_map, Function.comp_def] at this
  exact this

theorem Spec.Outcome.of_node {d : Diagram} (hd : Exportable d) {op : Op} {n : ANode} (h : declaredNode op = some n) (hf : Fits d op) :
    Outcome d [op] (op.exec d).1 := by
  obtain ⟨h1, -⟩ := hf.node n h
  have hs := hd.sane.exec op
  have hp : declaredProcess op = none := by cases op <;> first | rfl | (simp [declaredNode] at h)
  have hfl : declaredFlow op = none := by cases op <;> first | rfl | (simp [declaredNode] at h)
  rw [(exec_new_node h hf.direction h1).1] at hs ⊢
  refine ⟨⟨rfl, rfl⟩, by simp [hp], rfl, ?_, ?_, ?_⟩
  · simp [nodesTold, h, Diagram.getNodes, Function.comp_def]
  · intro x hx
    simp only [nodesTold, List.filterMap_cons, h, List.filterMap_nil, List.map_cons, List.map_nil, List.mem_append, List.mem_singleton] at hx
    rcases hx with hx | rfl
    · obtain ⟨m, hm, rfl⟩ := List.mem_map.1 hx
      exact ⟨m.2, List.mem_append_left _ hm, .refl _⟩
    · exact ⟨stored n, List.mem_append_right _ (by simp), .refl _⟩
  · refine (unrouted_perm hs).trans ?_
    simp only [flowsTold, List.filterMap_cons, hfl, List.filterMap_nil, List.map_nil, List.append_nil]
    exact (unrouted_perm hd.sane).symm

theorem Spec.Outcome.of_flow {d : Diagram} (hd : Exportable d) {p s t nm uid : String} (hs : s ∈ d.getNodes.map (·.1))
    (ht : t ∈ d.getNodes.map (·.1)) (hn : ∀ g ∈ d.getFlows, ¬SamePair g.1 g.2.1 s t) :
    Outcome d [.addSequenceFlow p s t nm uid] (d.addSequenceFlow p s t nm uid).1 := by
  obtain ⟨sa, ta, out, inc, w, g1, g2, g3, g4, -, g6, g7, g8⟩ := hd.flow_facts (p := p) (nm := nm) (uid := uid) hs ht hn
  have hsane : Sane (d.addSequenceFlow p s t nm uid).1 := hd.sane.exec (.addSequenceFlow p s t nm uid)
  obtain ⟨f, -, -, -, f3, f4, f5, f6⟩ := addSequenceFlow_effect d p s t nm uid
  refine ⟨⟨(addSequenceFlow_rest d p s t nm uid).1, (addSequenceFlow_rest d p s t nm uid).2.1⟩, by simp [f4, declaredProcess],
    (addSequenceFlow_rest d p s t nm uid).2.2, ?_, ?_, ?_⟩
  · simp only [nodesTold, List.filterMap_cons, declaredNode, List.filterMap_nil, List.map_nil, List.append_nil, List.map_map, Function.comp_def]
    have : (d.addSequenceFlow p s t nm uid).1.getNodes.map (·.1) = d.getNodes.map (·.1) := g7
    exact this ▸ List.Perm.refl _
  · intro x hx
    simp only [nodesTold, List.filterMap_cons, declaredNode, List.filterMap_nil, List.map_nil, List.append_nil] at hx
    obtain ⟨⟨n, a⟩, hna, rfl⟩ := List.mem_map.1 hx
    have ha := Dict.get?_of_mem hd.sane.nodesUnique hna
    refine ⟨_, Dict.mem_of_get? (g6 _ _ ha), ?_⟩
    have : undrawn (withFlow s t uid out inc n a) = undrawn a := by
      unfold withFlow undrawn
      simp only
      split <;> split <;> rfl
    rw [this]
    exact .refl _
  · refine (unrouted_perm hsane).trans ?_
    rw [g8, List.map_append]
    simp only [flowsTold, List.filterMap_cons, declaredFlow, List.filterMap_nil, List.map_cons, List.map_nil]
    exact (unrouted_perm hd.sane).symm.append_right _

theorem Spec.Outcome.of_process {d : Diagram} (hd : Exportable d) {name ty pl pr : String} {c e : Bool} (h : pr ∉ d.processElements.map (·.1)) :
    Outcome d [.addProcess name c e ty pl pr] (d.addProcess name c e ty pl pr) := by
  refine ⟨⟨rfl, rfl⟩, ?_, rfl, ?_, ?_, ?_⟩
  · have hset := Dict.set_of_not_mem d.processElements
      (⟨none, some name, some (boolStr c), some (boolStr e), some ty, none, none⟩ : ProcAttrs) h
    have : (d.addProcess name c e ty pl pr).processElements = d.processElements ++ [(pr, ⟨none, some name, some (boolStr c), some (boolStr e), some ty, none, none⟩)] := hset
    rw [this, List.map_append]
    cases c <;> cases e <;> rfl
  · simp only [nodesTold, List.filterMap_cons, declaredNode, List.filterMap_nil, List.map_nil, List.append_nil, List.map_map, Function.comp_def]
    exact List.Perm.refl _
  · intro x hx
    simp only [nodesTold, List.filterMap_cons, declaredNode, List.filterMap_nil, List.map_nil, List.append_nil] at hx
    obtain ⟨m, hm, rfl⟩ := List.mem_map.1 hx
    exact ⟨m.2, hm, .refl _⟩
  · simp only [flowsTold, List.filterMap_cons, declaredFlow, List.filterMap_nil, List.map_nil, List.append_nil]
    exact List.Perm.refl _

/-- A fitting call on a complete diagram: it returns, and the diagram stays complete. -/
theorem fits_exec {d : Diagram} (hd : Exportable d) {op : Op} (hf : Fits d op) :
    Exportable (op.exec d).1 ∧ Outcome d [op] (op.exec d).1 ∧ ∃ i, (op.exec d).2 = .ok i := by
  cases hn : declaredNode op with
  | some n =>
    exact ⟨hd.addNode hn hf, .of_node hd hn hf, n.id, (exec_new_node hn hf.direction (hf.node n hn).1).2⟩
  | none =>
    cases op <;> simp only [declaredNode, reduceCtorEq] at hn
    case createNew name uid => exact absurd rfl (hf.notNew name uid)
    case addProcess name c e ty pl pr =>
      obtain ⟨h1, h2⟩ := hf.proc _ _ _ _ _ _ rfl
      exact ⟨hd.addProcess h1 h2, .of_process hd h1, pr, rfl⟩
    case addSequenceFlow p s t nm uid =>
      obtain ⟨h0, h1, h2, h3, h4, h5⟩ := hf.flow _ rfl
      obtain ⟨-, -, -, -, -, -, -, -, -, k, -⟩ := hd.flow_facts (p := p) (nm := nm) (uid := uid) h3 h4 fun g hg => (h5 g hg).2
      exact ⟨hd.addFlow h0 h1 h2 h3 h4 h5, .of_flow hd h3 h4 fun g hg => (h5 g hg).2, uid, k⟩

theorem session_keeps {d e : Diagram} {ops : List Op} (hd : Exportable d) (h : Session d ops e) : Exportable e ∧ Outcome d ops e := by
  induction h with
  | start => exact ⟨hd, .of_same (.refl d)⟩
  | call _ hf ih =>
    obtain ⟨h1, h2, -⟩ := fits_exec ih.1 hf
    exact ⟨h1, ih.2.trans h2⟩
  | layout _ hl ih => exact ⟨ih.1.laidOut hl, by simpa using ih.2.trans (.of_layout hl)⟩
  | file _ h1 h2 h3 ih =>
    obtain ⟨k1, k2⟩ := savedAndLoaded ih.1 ⟨_, _, _, h1, h2, h3⟩
    exact ⟨k2, by simpa using ih.2.trans (.of_same k1)⟩

end Bpmn

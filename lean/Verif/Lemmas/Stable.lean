import Verif.Lemmas.RoundTrip
set_option linter.unusedSimpArgs false
set_option linter.unusedVariables false
/-!
# The loaded diagram can be saved again
-/
namespace Bpmn
open Spec

theorem _root_.Bpmn.Spec.SameNode.refl (a : NodeAttrs) : SameNode a a := ⟨rfl, rfl, rfl, List.Perm.refl _⟩

theorem _root_.Bpmn.Spec.SameNode.trans {a b c : NodeAttrs} (h : SameNode a b) (k : SameNode b c) : SameNode a c :=
  ⟨h.rest.trans k.rest, h.default.trans k.default, h.defs.1.trans k.defs.1, h.defs.2.trans k.defs.2⟩

theorem _root_.Bpmn.Spec.SameDiagram.refl (d : Diagram) : SameDiagram d d :=
  ⟨⟨rfl, rfl, rfl, rfl⟩, rfl, rfl, List.Perm.refl _, fun n a h => ⟨a, h, .refl a⟩, List.Perm.refl _, fun _ => rfl⟩

theorem _root_.Bpmn.Spec.SameDiagram.trans {d e f : Diagram} (h : SameDiagram d e) (k : SameDiagram e f) : SameDiagram d f where
  header := ⟨k.header.1.trans h.header.1, k.header.2.1.trans h.header.2.1, k.header.2.2.1.trans h.header.2.2.1,
    k.header.2.2.2.trans h.header.2.2.2⟩
  processes := k.processes.trans h.processes
  collaboration := k.collaboration.trans h.collaboration
  nodeIds := k.nodeIds.trans h.nodeIds
  nodes := by
    intro n a ha
    obtain ⟨b, hb, hab⟩ := h.nodes n a ha
    obtain ⟨c, hc, hbc⟩ := k.nodes n b hb
    exact ⟨c, hc, hab.trans hbc⟩
  flows := k.flows.trans h.flows
  table := fun i => (k.table i).trans (h.table i)

/-- The same keys are present. -/
theorem presentKeys_same {a b : NodeAttrs} (h : SameNode a b) : presentKeys b = presentKeys a := by
  obtain ⟨h1, h2, h3, -⟩ := h
  cases a; cases b
  simp only [NodeAttrs.mk.injEq] at h1
  simp only at h3
  obtain ⟨rfl, rfl, rfl, rfl, rfl, rfl, rfl, rfl, rfl, rfl, rfl, rfl, rfl, rfl, rfl, rfl, -, rfl, -, rfl, rfl, rfl, -⟩ := h1
  simp only [presentKeys, h3]

theorem NodeReady.same {n : String} {a b : NodeAttrs} (h : NodeReady (n, a)) (s : SameNode a b) : NodeReady (n, b) := by
  have hk := presentKeys_same s
  have hrest := s.rest
  have hd := s.default
  have hp := s.defs.2
  obtain ⟨k, hk1, hk2, hk3, hk4, hk5⟩ := h.kind
  have e := fun (g : NodeAttrs → Option String) (hg : ∀ c : NodeAttrs, g { c with eventDefinitions := none, default := none, nodeIds := none } = g c) =>
    show g b = g a by rw [← hg b, ← hg a, hrest]
  have el := fun (g : NodeAttrs → Option (List String)) (hg : ∀ c : NodeAttrs, g { c with eventDefinitions := none, default := none, nodeIds := none } = g c) =>
    show g b = g a by rw [← hg b, ← hg a, hrest]
  constructor
  · rw [show (n, b).2.id = a.id from e (·.id) fun _ => rfl]; exact h.id
  · rw [show (n, b).2.nodeName = a.nodeName from e (·.nodeName) fun _ => rfl]; exact h.name
  · rw [show (n, b).2.process = a.process from e (·.process) fun _ => rfl]; exact h.process
  · rw [show (n, b).2.width = a.width from e (·.width) fun _ => rfl]; exact h.width
  · rw [show (n, b).2.height = a.height from e (·.height) fun _ => rfl]; exact h.height
  · rw [show (n, b).2.x = a.x from e (·.x) fun _ => rfl]; exact h.x
  · rw [show (n, b).2.y = a.y from e (·.y) fun _ => rfl]; exact h.y
  · refine ⟨k, hk1, ?_, ?_, ?_, ?_⟩
    · rw [show (n, b).2.type = a.type from e (·.type) fun _ => rfl]; exact hk2
    · exact hk.trans hk3
    · intro hs
      apply hk4
      simp only at hs ⊢
      rw [hd]
      exact hs
    · intro x hx
      exact hk5 x (hp.mem_iff.2 hx)
  · rw [show (n, b).2.incoming = a.incoming from el (·.incoming) fun _ => rfl]; exact h.incoming
  · rw [show (n, b).2.outgoing = a.outgoing from el (·.outgoing) fun _ => rfl]; exact h.outgoing

theorem sameNode_type {a b : NodeAttrs} (s : SameNode a b) : b.type = a.type := by
  have := congrArg NodeAttrs.type s.rest
  simpa using this.symm

theorem sameNode_process {a b : NodeAttrs} (s : SameNode a b) : b.process = a.process := by
  have := congrArg NodeAttrs.process s.rest
  simpa using this.symm

theorem sameNode_incoming {a b : NodeAttrs} (s : SameNode a b) : b.incoming = a.incoming := by
  have := congrArg NodeAttrs.incoming s.rest
  simpa using this.symm

theorem sameNode_outgoing {a b : NodeAttrs} (s : SameNode a b) : b.outgoing = a.outgoing := by
  have := congrArg NodeAttrs.outgoing s.rest
  simpa using this.symm

/-- Each node of the loaded diagram is one of the saved diagram. -/
theorem SameDiagram.back {d e : Diagram} (h : SameDiagram d e) (hu : e.graph.nodes.keys.Nodup) {n : String} {b : NodeAttrs}
    (hb : (n, b) ∈ e.graph.nodes) : ∃ a, (n, a) ∈ d.graph.nodes ∧ SameNode a b := by
  have hm : n ∈ d.getNodes.map (·.1) := h.nodeIds.mem_iff.1 (List.mem_map.2 ⟨_, hb, rfl⟩)
  obtain ⟨⟨n', a⟩, ha, rfl⟩ := List.mem_map.1 hm
  obtain ⟨b', hb', hs⟩ := h.nodes n' a ha
  have h1 := Dict.get?_of_mem (d := e.graph.nodes) hu hb
  have h2 := Dict.get?_of_mem (d := e.graph.nodes) hu hb'
  rw [h1, Option.some.injEq] at h2
  subst h2
  exact ⟨a, ha, hs⟩

theorem kept_lanes {l m : List (String × ProcAttrs)} (h : l.map keptOfProcess = m.map keptOfProcess) :
    l.map (fun p => (p.1, lanesOf p.2)) = m.map (fun p => (p.1, lanesOf p.2)) := by
  have : ∀ l : List (String × ProcAttrs), l.map (fun p => (p.1, lanesOf p.2)) =
      (l.map keptOfProcess).map fun k => (k.1, k.2.2.2.2.getD []) := by
    intro l
    simp [keptOfProcess, lanesOf, Function.comp_def]
  rw [this l, this m, h]

/-- What is loaded after saving a complete diagram is a complete diagram. -/
theorem exportable_same {d e : Diagram} (hd : Exportable d) (h : SameDiagram d e) (hs : Sane e) : Exportable e := by
  have hu := hs.nodesUnique
  have hkl := kept_lanes h.processes
  have hproc : ∀ p ∈ e.processElements, ∃ q ∈ d.processElements, keptOfProcess q = keptOfProcess p := by
    intro p hp
    have : keptOfProcess p ∈ d.processElements.map keptOfProcess := h.processes ▸ List.mem_map.2 ⟨p, hp, rfl⟩
    exact List.mem_map.1 this
  have hkeys : e.processElements.map (·.1) = d.processElements.map (·.1) := by
    have := congrArg (List.map (·.1)) h.processes
    simpa [keptOfProcess, Function.comp_def] using this
  have hlanes : laneIds e = laneIds d := by
    have := congrArg (fun l => l.flatMap fun p : String × List Lane => p.2.map laneId) hkl
    simpa [laneIds, List.flatMap_map] using this
  have hpools : poolIds e = poolIds d := by rw [poolIds, poolIds, h.collaboration]
  have hmsgs : messageIds e = messageIds d := by rw [messageIds, messageIds, h.collaboration]
  have hattrs : (flowAttrs e).Perm (flowAttrs d) :=
    (Graph.flows_attrs_perm hs.wf).symm.trans (h.flows.trans (Graph.flows_attrs_perm hd.sane.wf))
  have hedge : ∀ x ∈ e.graph.edges, ∃ y ∈ d.graph.edges, y.attrs = x.attrs := by
    intro x hx
    exact List.mem_map.1 (hattrs.mem_iff.1 (List.mem_map.2 ⟨x, hx, rfl⟩))
  have hedge' : ∀ y ∈ d.graph.edges, ∃ x ∈ e.graph.edges, x.attrs = y.attrs := by
    intro x hx
    exact List.mem_map.1 (hattrs.mem_iff.2 (List.mem_map.2 ⟨x, hx, rfl⟩))
  have hcont : ∀ p, Container d p → Container e p := by
    rintro p (hp | ⟨⟨m, a⟩, hm, rfl, ht⟩)
    · exact .inl (hkeys ▸ hp)
    · obtain ⟨b, hb, hab⟩ := h.nodes m a hm
      exact .inr ⟨_, hb, rfl, (sameNode_type hab).trans ht⟩
  exact {
    header := by rw [h.header.1, h.header.2.1, h.header.2.2.1, h.header.2.2.2]; exact hd.header
    pools := by
      intro c hc
      rw [h.collaboration] at hc
      obtain ⟨h1, h2⟩ := hd.pools c hc
      refine ⟨h1, fun m hm => ?_⟩
      obtain ⟨y, hy, hi⟩ := h2 m hm
      obtain ⟨x, hx, hxy⟩ := hedge' y hy
      exact ⟨x, hx, hxy ▸ hi⟩
    lanes := by
      intro p hp l hl
      have : (p.1, lanesOf p.2) ∈ d.processElements.map fun p => (p.1, lanesOf p.2) := hkl ▸ List.mem_map.2 ⟨p, hp, rfl⟩
      obtain ⟨q, hq, e⟩ := List.mem_map.1 this
      simp only [Prod.mk.injEq] at e
      exact hd.lanes q hq l (e.2 ▸ hl)
    sane := hs
    nodes := by
      rintro ⟨n, b⟩ hn
      obtain ⟨a, ha, hab⟩ := SameDiagram.back h hu hn
      exact NodeReady.same (hd.nodes _ ha) hab
    flows := by
      intro x hx
      obtain ⟨y, hy, hxy⟩ := hedge x hx
      exact hxy ▸ hd.flows y hy
    procIds := hkeys ▸ hd.procIds
    procs := by
      intro p hp
      obtain ⟨q, hq, e⟩ := hproc p hp
      simp only [keptOfProcess, Prod.mk.injEq] at e
      rw [← e.2.1, ← e.2.2.1, ← e.2.2.2.1]
      exact hd.procs q hq
    apart := by
      rintro p hp ⟨n, b⟩ hn
      obtain ⟨q, hq, e⟩ := hproc p hp
      simp only [keptOfProcess, Prod.mk.injEq] at e
      obtain ⟨a, ha, -⟩ := SameDiagram.back h hu hn
      rw [← e.1]
      exact hd.apart q hq (n, a) ha
    noCircles := by
      obtain ⟨depth, hdep⟩ := hd.noCircles
      refine ⟨depth, ?_⟩
      rintro ⟨n, b⟩ hn ⟨m, c⟩ hm hp ht
      obtain ⟨a, ha, hab⟩ := SameDiagram.back h hu hn
      obtain ⟨a', ha', hab'⟩ := SameDiagram.back h hu hm
      exact hdep (n, a) ha (m, a') ha' ((sameNode_process hab).symm.trans hp) ((sameNode_type hab').symm.trans ht)
    flowIds := by
      have h1 := hattrs.map (fun a : EdgeAttrs => a.id)
      simp only [flowAttrs, List.map_map] at h1
      exact h1.nodup_iff.2 hd.flowIds
    placed := by
      rintro ⟨n, b⟩ hn p hp
      obtain ⟨a, ha, hab⟩ := SameDiagram.back h hu hn
      exact hcont p (hd.placed _ ha p ((sameNode_process hab).symm.trans hp))
    flowProcess := by
      intro x hx
      obtain ⟨y, hy, hxy⟩ := hedge x hx
      rw [← hxy, hmsgs]
      rcases hd.flowProcess y hy with ⟨p, h1, h2⟩ | h1
      · exact .inl ⟨p, h1, hcont p h2⟩
      · exact .inr h1
    messages := by
      intro c hc
      rw [h.collaboration] at hc
      obtain ⟨h1, h2⟩ := hd.messages c hc
      refine ⟨h1, fun m hm => ⟨(h2 m hm).1, fun x hx hi => ?_⟩⟩
      obtain ⟨y, hy, hxy⟩ := hedge x hx
      rw [← hxy] at hi ⊢
      exact (h2 m hm).2 y hy hi
    owners := by
      intro c hc
      rw [h.collaboration] at hc
      exact hd.owners c hc
    shapeIds := by
      rw [hpools, hlanes]
      exact ((List.Perm.append_left _ h.nodeIds).nodup_iff).2 hd.shapeIds
    laneNames := by
      intro x hx i hi
      rw [hlanes] at hi
      obtain ⟨y, hy, hxy⟩ := hedge x hx
      rw [← hxy]
      exact hd.laneNames y hy i hi
    listed := by
      intro x hx i s t hi hs' ht
      obtain ⟨y, hy, hxy⟩ := hedge x hx
      rw [← hxy] at hi hs' ht
      obtain ⟨⟨a, l, ha, hl, hil⟩, ⟨a', l', ha', hl', hil'⟩⟩ := hd.listed y hy i s t hi hs' ht
      obtain ⟨b, hb, hab⟩ := h.nodes s a (Dict.mem_of_get? ha)
      obtain ⟨b', hb', hab'⟩ := h.nodes t a' (Dict.mem_of_get? ha')
      exact ⟨⟨b, l, Dict.get?_of_mem hu hb, (sameNode_outgoing hab).trans hl, hil⟩,
        ⟨b', l', Dict.get?_of_mem hu hb', (sameNode_incoming hab').trans hl', hil'⟩⟩
    table := by
      intro i v
      rw [h.table, hd.table]
      constructor
      · rintro ⟨y, hy, hc⟩
        obtain ⟨x, hx, hxy⟩ := hedge' y hy
        exact ⟨x, hx, hxy ▸ hc⟩
      · rintro ⟨x, hx, hc⟩
        obtain ⟨y, hy, hxy⟩ := hedge x hx
        exact ⟨y, hy, hxy ▸ hc⟩ }

end Bpmn

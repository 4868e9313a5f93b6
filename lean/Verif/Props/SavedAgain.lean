import Verif.Lemmas.SavedAgain
import Verif.Props.Savable
/-!
# Property C99: a loaded document can be saved again exactly if its drawing is complete
-/
set_option linter.unusedSimpArgs false
set_option linter.unusedVariables false

namespace Bpmn.Props
open Bpmn Bpmn.Spec Bpmn.Import

section
variable {ord : List String → List String} {root diagram plane : Xml} {d : Diagram}

theorem DistinctDoc.distinctFlows (D : DistinctDoc root) : DistinctFlows root := ⟨D.ends, D.flows, D.pools⟩

/-- The nodes of a loaded diagram. -/
theorem node_cases (hord : ∀ l, (ord l).Perm l) (h : load ord root {} = .ok d) (hd : (Xml.byNameIn "BPMNDiagram" [root]).head? = some diagram)
    (hp : (diagram.byName "BPMNPlane").head? = some plane) (nd : (describedNodes root).Nodup) {n : Node} (hn : n ∈ d.getNodes) :
    (∃ q ∈ allNodeElements root, q.2.getAttr "id" = n.1 ∧ NodeSays root plane q.1 q.2 n.2) ∨
    (n.1 ∈ blackBoxes (collabKids root) ∧ n.2.process = some n.1 ∧ n.2.type = some "participant" ∧ (NodeDrawn n.2 ↔ (shapeFor plane n.1).isSome)) ∨
    (n.1 ∉ describedNodes root ∧ n.1 ∈ flowEnds root ∧ n.2.type = none) := by
  have k := load_known h
  have hg := Dict.get?_of_mem k.nodup hn
  by_cases hm : n.1 ∈ describedNodes root
  · rcases described_cases hm with ⟨q, hq, e⟩ | hb
    · obtain ⟨a, h1, h2⟩ := load_nodes hord h hd hp nd q hq
      rw [e, hg] at h1
      cases h1
      exact .inl ⟨q, hq, e, h2⟩
    · obtain ⟨i, o, e⟩ := load_pool h hd hp nd hb
      rw [hg] at e
      refine .inr (.inl ⟨hb, ?_⟩)
      cases hs : shapeFor plane n.1 with
      | none => rw [hs] at e; rw [Option.some.inj e]; simp [NodeDrawn]
      | some s => rw [hs] at e; rw [Option.some.inj e]; simp [NodeDrawn, drawn]
  · have hk : n.1 ∈ d.graph.nodes.keys := List.mem_map.2 ⟨n, hn, rfl⟩
    have hf : n.1 ∈ flowEnds root := ((k.keys n.1).1 hk).resolve_left hm
    obtain ⟨x, y, e⟩ := load_mentioned h hf hm
    rw [hg] at e
    rw [Option.some.inj e]
    exact .inr (.inr ⟨hm, hf, rfl⟩)

/-- The node of a node element can be written. -/
theorem writable_element (hord : ∀ l, (ord l).Perm l) (h : load ord root {} = .ok d) (hd : (Xml.byNameIn "BPMNDiagram" [root]).head? = some diagram)
    (hp : (diagram.byName "BPMNPlane").head? = some plane) (D : DistinctDoc root) (he : ∀ i ∈ flowEnds root, i ∈ describedNodes root)
    (hf : ∀ f ∈ d.getFlows, FlowComplete f.2.2) :
    ∀ (k : Nat) (q : String × Xml), q ∈ allNodeElements root → sizeOf q.2 = k → ∀ n ∈ d.getNodes, NodeSays root plane q.1 q.2 n.2 →
      q.2.getAttr "id" = n.1 → NodeWritable d n := by
  intro k
  induction k using Nat.strongRecOn with
  | ind k ih =>
    intro q hq hk n hn hs hid
    by_cases hsub : localTag q.2 = "subProcess"
    · have hc := says_complete hs
      rw [hsub] at hc
      refine .sub hc hs.id ?_ ?_ fun f hm _ => hf f hm
      · intro m hm
        rcases node_cases hord h hd hp D.nodes hm with ⟨r, -, -, hr⟩ | ⟨-, hr, -⟩ | ⟨h1, h2, -⟩
        · rw [hr.process]; rfl
        · rw [hr]; rfl
        · exact absurd (he _ h2) h1
      · intro m hm hproc
        rcases node_cases hord h hd hp D.nodes hm with ⟨r, hr, h1, h2⟩ | ⟨hb, hpr, -⟩ | ⟨h1, h2, -⟩
        · rw [h2.process] at hproc
          have hproc := Option.some.inj hproc
          rcases allNodeElements_inside hr with ⟨p, hp', e⟩ | ⟨s, hsm, h3, h4, h5⟩
          · exact absurd (e ▸ hproc ▸ described_element hq) (D.apart p hp')
          · have : s = q := same_element D.nodes hsm hq (h4.trans hproc)
            subst this
            exact ih (sizeOf r.2) (by rw [← hk]; exact size_child h5) r hr rfl m hm h2 h1
        · rw [hpr] at hproc
          have e := Option.some.inj hproc
          have nd := D.nodes
          rw [describedNodes, ← ids_allNodeElements, List.nodup_append] at nd
          exact absurd e.symm (nd.2.2 _ (List.mem_map.2 ⟨q, hq, rfl⟩) _ hb)
        · exact absurd (he _ h2) h1
    · exact .plain (says_complete hs) hsub

theorem node_of_described (h : load ord root {} = .ok d) {i : String} (hi : i ∈ describedNodes root ∨ i ∈ flowEnds root) : ∃ n ∈ d.getNodes, n.1 = i :=
  let ⟨n, hn, e⟩ := List.mem_map.1 (((load_known h).keys i).2 hi)
  ⟨n, hn, e⟩

theorem blackBox_pool : ∀ {l : List Xml} {i : String}, i ∈ blackBoxes l → ∃ x ∈ namedIn "participant" l, x.getAttr "id" = i
  | [], i, h => by simp [blackBoxes] at h
  | x :: r, i, h => by
    rw [blackBoxes.eq_def] at h
    simp only [List.mem_append] at h
    rcases h with h | h
    · cases x with
      | text _ => simp at h
      | other _ => simp at h
      | elem t as ks =>
        simp only at h
        split at h
        · rename_i c
          refine ⟨.elem t as ks, ?_, (List.mem_singleton.1 h).symm⟩
          simp [namedIn, localTag, c.1]
        · simp at h
    · obtain ⟨y, hy, e⟩ := blackBox_pool h
      refine ⟨y, ?_, e⟩
      simp only [namedIn, List.mem_filter, List.mem_cons] at hy ⊢
      exact ⟨.inr hy.1, hy.2⟩

/-- The lanes of a process. -/
theorem process_lanes {p : Xml} {a : ProcAttrs} (h : ProcSays plane p a) : (∀ l ∈ lanesOf a, LaneDrawn l) ↔
    ∀ y, (p.byName "laneSet").head? = some y → ∀ z ∈ namedIn "lane" y.children,
      lastWithId (z.getAttr "id") (namedIn "lane" y.children) = some z → LaneShown plane z := by
  have hl := h.lanes
  cases hy : (p.byName "laneSet").head? with
  | none =>
    rw [hy] at hl
    have hl : a.laneSet = none := hl
    simp [lanesOf, hl]
  | some y =>
    rw [hy] at hl
    obtain ⟨ls, e, h1, h2⟩ := hl
    have e : lanesOf a = ls := by simp [lanesOf, e]
    rw [e, lanes_shown h1 h2 fun l _ x hx => lane_shown _ l rfl x hx]
    constructor
    · intro hz y' hy' z
      cases hy'
      exact hz z
    · intro hz
      exact hz y rfl

/-- **C99.** A document with different ids that has been loaded into a new object can be exported again exactly if all nodes, flows, pools
and lanes in it are drawn and flows lead from nodes to nodes. -/
theorem C99_saved_again (ord : List String → List String) (hord : ∀ l, (ord l).Perm l) (root diagram plane : Xml) (d : Diagram)
    (h : load ord root {} = .ok d) (hd : (Xml.byNameIn "BPMNDiagram" [root]).head? = some diagram)
    (hp : (diagram.byName "BPMNPlane").head? = some plane) (D : DistinctDoc root) :
    (∃ t N, ∀ fuel ≥ N, Export.exportXmlFile fuel d = .ok t) ↔ FullyDrawn root plane := by
  rw [C98_exactly_which]
  obtain ⟨f1, -, -⟩ := C80_what_flows_say ord root diagram plane d h hd hp (DistinctDoc.distinctFlows D)
  obtain ⟨c1, c2, c3, c4, c5⟩ := C81_what_collaborations_say ord root diagram plane d h hd hp (DistinctDoc.distinctFlows D)
  have ps := C79_what_processes_say ord root diagram plane d h hd hp D.procs
  have hfl : ∀ f ∈ d.getFlows, ∃ g ∈ flowElementsOf root, f.2.2 = flowSays plane g.1 g.2 := by
    intro f hf
    obtain ⟨g, hg, e⟩ := List.mem_map.1 (f1.subset (List.mem_map.2 ⟨f, hf, rfl⟩))
    exact ⟨g, hg, e.symm⟩
  have hfl' : ∀ g ∈ flowElementsOf root, ∃ f ∈ d.getFlows, f.2.2 = flowSays plane g.1 g.2 := by
    intro g hg
    obtain ⟨f, hf, e⟩ := List.mem_map.1 (f1.symm.subset (List.mem_map.2 ⟨g, hg, rfl⟩))
    exact ⟨f, hf, e⟩
  have hfc : ∀ f ∈ d.getFlows, FlowComplete f.2.2 := by
    intro f hf
    obtain ⟨g, -, e⟩ := hfl f hf
    rw [e]
    exact ⟨rfl, rfl, rfl, rfl⟩
  have hpools : (∀ c, d.collaboration = some c → ∀ p ∈ c.participants, p.2.di.isSome) ↔
      ∀ x ∈ namedIn "participant" (collabKids root), (shapeFor plane (x.getAttr "id")).isSome := by
    cases hx : (Xml.byNameIn "collaboration" [root]).head? with
    | none =>
      rw [hx] at c5
      have c5 : d.collaboration = none := c5
      simp [c5, collabKids, hx, namedIn]
    | some x =>
      rw [hx] at c5
      obtain ⟨c, hc, cs⟩ := c5
      have e : collabKids root = x.children := by simp [collabKids, hx]
      rw [e]
      have key : ∀ {l : List Xml} {m : List (String × Participant)}, List.Forall₂ (fun y q => q.1 = y.getAttr "id" ∧ q.2.name = y.getAttr "name" ∧
          q.2.processRef = y.getAttr "processRef" ∧ BoxSays (shapeFor plane (y.getAttr "id")) q.2.di) l m →
          ((∀ p ∈ m, p.2.di.isSome) ↔ ∀ x ∈ l, (shapeFor plane (x.getAttr "id")).isSome) := by
        intro l m hm
        induction hm with
        | nil => simp
        | cons h1 _ ih => simp only [List.forall_mem_cons, ih, box_says h1.2.2.2]
      rw [← key cs.pools]
      constructor
      · exact fun hh => hh c hc
      · intro hh c' hc'
        rw [hc] at hc'
        cases hc'
        exact hh
  have hprocs : ∀ {l : List Xml} {m : List (String × ProcAttrs)}, List.Forall₂ (fun p q => q.1 = p.getAttr "id" ∧ ProcSays plane p q.2) l m →
      ((∀ q ∈ m, ProcComplete q.2 ∧ ∀ l ∈ lanesOf q.2, LaneDrawn l) ↔
        ∀ p ∈ l, ∀ y, (p.byName "laneSet").head? = some y → ∀ z ∈ namedIn "lane" y.children,
          lastWithId (z.getAttr "id") (namedIn "lane" y.children) = some z → LaneShown plane z) ∧
      ∀ q ∈ m, ∃ p ∈ l, p.getAttr "id" = q.1 := by
    intro l m hm
    induction hm with
    | nil => simp
    | @cons p q _ _ h1 _ ih =>
      constructor
      · rw [List.forall_mem_cons, List.forall_mem_cons, ih.1, process_lanes h1.2]
        have : ProcComplete q.2 := ⟨by rw [h1.2.isClosed]; rfl, by rw [h1.2.isExecutable]; rfl, by rw [h1.2.processType]; rfl⟩
        simp only [this, true_and]
      · intro q' hq'
        rcases List.mem_cons.1 hq' with rfl | hq'
        · exact ⟨p, by simp, h1.1.symm⟩
        · obtain ⟨p', hp', e⟩ := ih.2 q' hq'
          exact ⟨p', by simp [hp'], e⟩
  obtain ⟨hlanes, hpid⟩ := hprocs ps
  constructor
  · intro s
    have hend : ∀ i ∈ flowEnds root, i ∈ describedNodes root := by
      intro i hi
      obtain ⟨n, hn, rfl⟩ := node_of_described h (.inr hi)
      have hdr := s.shapes n hn
      rcases node_cases hord h hd hp D.nodes hn with ⟨q, hq, e, -⟩ | ⟨hb, -⟩ | ⟨-, -, ht⟩
      · exact e ▸ described_element hq
      · rw [describedNodes, List.mem_append]; exact .inr hb
      · have := hdr.2.2.2.2.1
        rw [ht] at this
        simp at this
    refine ⟨hend, ?_, ?_, hpools.1 fun c hc => (s.pools c hc).1, hlanes.1 s.processes⟩
    · intro i hi
      obtain ⟨n, hn, rfl⟩ := node_of_described h (.inl hi)
      have hdr := s.shapes n hn
      rcases node_cases hord h hd hp D.nodes hn with ⟨q, hq, e, hs⟩ | ⟨hb, -, -, e⟩ | ⟨h1, -⟩
      · exact e ▸ (says_drawn hs).1 hdr
      · exact e.1 hdr
      · exact absurd hi h1
    · intro g hg
      obtain ⟨f, hf, e⟩ := hfl' g hg
      have := (s.edges f hf).2
      rw [e] at this
      exact this
  · intro s
    have hw : ∀ n ∈ d.getNodes, ∀ p ∈ d.processElements, n.2.process = some p.1 → NodeWritable d n := by
      intro n hn p hp' e
      obtain ⟨x, hx, ex⟩ := hpid p hp'
      rcases node_cases hord h hd hp D.nodes hn with ⟨q, hq, e', hs⟩ | ⟨hb, hpr, -⟩ | ⟨h1, h2, -⟩
      · exact writable_element hord h hd hp D s.ends hfc _ q hq rfl n hn hs e'
      · rw [hpr] at e
        have : n.1 ∈ describedNodes root := by rw [describedNodes, List.mem_append]; exact .inr hb
        exact absurd (ex ▸ Option.some.inj e ▸ this) (D.apart x hx)
      · exact absurd (s.ends _ h2) h1
    refine ⟨⟨by rw [c1]; rfl, by rw [c2]; rfl, by rw [c3]; rfl, by rw [c4]; rfl⟩, ?_, hlanes.2 s.lanes, ?_, fun p hp' n hn e => hw n hn p hp' e,
      fun _ _ f hf _ => hfc f hf, ?_, ?_⟩
    · intro c hc
      refine ⟨hpools.2 s.pools c hc, fun m hm => ?_⟩
      cases hx : (Xml.byNameIn "collaboration" [root]).head? with
      | none =>
        rw [hx] at c5
        rw [show d.collaboration = none from c5] at hc
        cases hc
      | some x =>
        rw [hx] at c5
        obtain ⟨c', hc', cs⟩ := c5
        rw [hc] at hc'
        cases hc'
        rw [cs.flows] at hm
        obtain ⟨y, hy, rfl⟩ := List.mem_map.1 hm
        obtain ⟨f, hf, e⟩ := hfl' (none, y) (by
          rw [flowElementsOf, List.mem_append]
          refine .inr (List.mem_map.2 ⟨y, ?_, rfl⟩)
          simpa [collabKids, hx] using hy)
        exact ⟨f, hf, by rw [e]; rfl⟩
    · intro p _ n hn
      rcases node_cases hord h hd hp D.nodes hn with ⟨q, -, -, hs⟩ | ⟨-, hpr, -⟩ | ⟨h1, h2, -⟩
      · rw [hs.process]; rfl
      · rw [hpr]; rfl
      · exact absurd (s.ends _ h2) h1
    · intro n hn
      rcases node_cases hord h hd hp D.nodes hn with ⟨q, hq, e, hs⟩ | ⟨hb, -, -, e⟩ | ⟨h1, h2, -⟩
      · exact (says_drawn hs).2 (s.nodes _ (e ▸ described_element hq) |> fun hh => by rw [e]; exact hh)
      · refine e.2 (s.nodes _ ?_)
        rw [describedNodes, List.mem_append]
        exact .inr hb
      · exact absurd (s.ends _ h2) h1
    · intro f hf
      obtain ⟨g, hg, e⟩ := hfl f hf
      rw [e]
      exact ⟨rfl, s.flows g hg⟩

end

/-- **C79.** A pool without process is a node of type participant that belongs to itself, has no name and no attributes, and has the place
of its last shape. -/
theorem C79_what_pools_say (ord : List String → List String) (root diagram plane : Xml) (d : Diagram)
    (h : load ord root {} = .ok d) (hd : (Xml.byNameIn "BPMNDiagram" [root]).head? = some diagram)
    (hp : (diagram.byName "BPMNPlane").head? = some plane) (nd : (describedNodes root).Nodup) (i : String)
    (hi : i ∈ blackBoxes (collabKids root)) : ∃ a, (i, a) ∈ d.getNodes ∧
      (match shapeFor plane i with
      | none => a = { type := some "participant", process := some i, incoming := a.incoming, outgoing := a.outgoing }
      | some s => ∃ b, (s.byName "Bounds").head? = some b ∧
        a = { type := some "participant", process := some i, incoming := a.incoming, outgoing := a.outgoing, width := some (b.getAttr "width"),
              height := some (b.getAttr "height"), x := some (b.getAttr "x"), y := some (b.getAttr "y") }) := by
  obtain ⟨inc, out, e⟩ := load_pool h hd hp nd hi
  obtain ⟨diagram', plane', hacc⟩ := (load_okIff ord root).1 ⟨d, h⟩
  have e1 := hacc.firstDiagram
  rw [hd] at e1
  cases e1
  have e2 := hacc.firstPlane
  rw [hp] at e2
  cases e2
  cases hs : shapeFor plane i with
  | none =>
    rw [hs] at e
    exact ⟨_, Dict.mem_of_get? e, rfl⟩
  | some s =>
    rw [hs] at e
    have hm := List.mem_filter.1 (List.mem_of_getLast? hs)
    have hl : localTag s = "BPMNShape" := by
      have := hm.2
      simp only [Bool.and_eq_true, beq_iff_eq] at this
      exact this.1
    have hne : s.byName "Bounds" ≠ [] := (hacc.shapes s hm.1 (localTag_isNamed (by decide) hl)).1
    obtain ⟨b, hb⟩ : ∃ b, (s.byName "Bounds").head? = some b := ⟨_, List.head?_eq_some_head hne⟩
    refine ⟨_, Dict.mem_of_get? e, b, hb, ?_⟩
    simp [drawn, hb]

/-- A document with two pools, one without process, a lane, a sub-process with a task inside, a message flow; `extra` are more elements of
the plane. -/
def againDoc (extra : List Xml) : Xml :=
  partnersDoc "pb" [] ([.elem "bpmndi:BPMNShape" [("bpmnElement", "l")] [.elem "omgdc:Bounds" [("x", "2")] []]] ++ extra)

/-- Its plane. -/
def againPlane (extra : List Xml) : Xml := (((Xml.byNameIn "BPMNPlane" [againDoc extra]).head?).getD (.text ""))

theorem again_distinct : DistinctDoc (againDoc []) :=
  ⟨by decide +kernel, by decide +kernel, by decide +kernel,
    .cons (by intro g hg; rcases List.mem_singleton.1 hg with rfl; unfold SameEnds; decide +kernel) (.cons (by simp) .nil), by decide +kernel,
    by decide +kernel⟩

theorem again_drawn : FullyDrawn (againDoc []) (againPlane []) where
  ends := by decide +kernel
  nodes := by decide +kernel
  flows := by decide +kernel
  pools := by decide +kernel
  lanes := by
    have : ∀ p ∈ Xml.byNameIn "process" [againDoc []], ∀ y ∈ (p.byName "laneSet").head?.toList, ∀ z ∈ namedIn "lane" y.children,
        (drawingOf (againPlane []) (z.getAttr "id")).isSome ∧ (namedIn "childLaneSet" z.children).getLast?.isNone := by decide +kernel
    intro p hp y hy z hz _
    obtain ⟨h1, h2⟩ := this p hp y (by simp [hy]) z hz
    refine ⟨h1, fun w _ hw => ?_⟩
    rw [hw] at h2
    simp at h2

/-- The document can be loaded, and what is loaded can be saved. -/
example : ∃ d, load id (againDoc []) {} = .ok d ∧ d.getNodes.length = 4 ∧ ∃ t N, ∀ fuel ≥ N, Export.exportXmlFile fuel d = .ok t := by
  obtain ⟨d, h, e⟩ := ok_of_check (x := load id (againDoc []) {}) (fun d => decide (d.getNodes.length = 4)) (by decide +kernel)
  exact ⟨d, h, by simpa using e, (C99_saved_again id (fun _ => .refl _) (againDoc []) _ (againPlane []) d h rfl rfl again_distinct).2 again_drawn⟩

/-- Without a place for the lane it can be loaded, but not saved. -/
example : ∃ d, load id (partnersDoc "pb" [] []) {} = .ok d ∧ ¬ ∃ t N, ∀ fuel ≥ N, Export.exportXmlFile fuel d = .ok t := by
  obtain ⟨d, h, e⟩ := ok_of_check (x := load id (partnersDoc "pb" [] []) {}) (fun d => true) (by decide +kernel)
  refine ⟨d, h, fun hs => ?_⟩
  have := (C99_saved_again id (fun _ => .refl _) (partnersDoc "pb" [] []) _
    ((Xml.byNameIn "BPMNPlane" [partnersDoc "pb" [] []]).head?.getD (.text "")) d h rfl rfl
    ⟨by decide +kernel, by decide +kernel, by decide +kernel,
      .cons (by intro g hg; rcases List.mem_singleton.1 hg with rfl; unfold SameEnds; decide +kernel) (.cons (by simp) .nil), by decide +kernel,
      by decide +kernel⟩).1 hs
  have hl := this.lanes _ (by rw [show Xml.byNameIn "process" [partnersDoc "pb" [] []] = [_] from rfl]; exact List.mem_singleton.2 rfl) _ rfl
    (.elem "lane" [("id", "l")] [.elem "flowNodeRef" [] [.text "t"]]) (by simp only [namedIn, List.mem_filter]; exact ⟨List.mem_cons_self, rfl⟩) rfl
  cases hl with
  | mk h1 _ => exact absurd h1 (by decide +kernel)

end Bpmn.Props

import Verif.Lemmas.CsvKinds
import Verif.Lemmas.CsvAccept
/-! The CSV import changes nothing but the graph and the sequence flows after the head of the diagram is made. -/
set_option linter.unusedSimpArgs false
set_option linter.unusedVariables false

namespace Bpmn.Csv
open Bpmn.Spec Bpmn.Spec.Csv

/-- A diagram without its nodes and flows. -/
def headOf (d : Diagram) : Diagram := { d with graph := {}, sequenceFlows := [] }

theorem addNodeInfo_head (o : String) (ty : Option String) (act : String) (d : Diagram) : headOf (addNodeInfo o ty act d) = headOf d := by
  obtain ⟨f, e, -⟩ := addNodeInfo_eq o ty act d
  rw [e]; rfl

theorem importNodes_head (pd : Dict String Line) : ∀ d, headOf (importNodes pd d) = headOf d := by
  induction pd with
  | nil => intro d; rfl
  | cons p pd ih =>
    intro d
    have := ih (addNodeInfo p.1 (some (nodeType p.1 p.2)) p.2.activity d)
    rw [addNodeInfo_head] at this
    exact this

theorem addConnection_head {pd : Dict String Line} {s t : String} {d d' : Diagram} (h : addConnection pd s t d = .ok d') : headOf d' = headOf d := by
  unfold addConnection addOutgoing addIncoming at h
  obtain ⟨d1, h1, h⟩ := except_bind_eq_ok h
  obtain ⟨d2, h2, h⟩ := except_bind_eq_ok h
  obtain ⟨a, -, h1⟩ := except_bind_eq_ok h1
  obtain ⟨b, -, h2⟩ := except_bind_eq_ok h2
  cases h; cases h1; cases h2; rfl

theorem foldConnections_head {pd : Dict String Line} {g : String} : ∀ {succ : List String} {d d' : Diagram},
    succ.foldlM (fun d s => addConnection pd g s d) d = .ok d' → headOf d' = headOf d
  | [], d, d', h => by cases h; rfl
  | s :: succ, d, d', h => by
    rw [List.foldlM_cons] at h
    obtain ⟨d1, h1, h⟩ := except_bind_eq_ok h
    rw [foldConnections_head h, addConnection_head h1]

theorem fillNode_head {pd : Dict String Line} {nodes : List String} {r : String} {d d' : Diagram} (h : fillNode pd nodes r d = .ok d') :
    headOf d' = headOf d := by
  obtain ⟨l, -, h⟩ := except_bind_eq_ok h
  split at h
  · cases h; rfl
  split at h
  · obtain ⟨s, -, h⟩ := except_bind_eq_ok h
    exact addConnection_head h
  split at h
  · obtain ⟨ty, -, h⟩ := except_bind_eq_ok h
    obtain ⟨d2, h2, h⟩ := except_bind_eq_ok h
    obtain ⟨succ, -, h⟩ := except_bind_eq_ok h
    rw [foldConnections_head h, addConnection_head h2, addNodeInfo_head]
  obtain ⟨cands, -, h⟩ := except_bind_eq_ok h
  split at h
  · obtain ⟨s, -, h⟩ := except_bind_eq_ok h
    dsimp only at h
    split at h
    · exact addConnection_head h
    · obtain ⟨ty, -, h⟩ := except_bind_eq_ok h
      obtain ⟨d2, h4, h⟩ := except_bind_eq_ok h
      rw [addConnection_head h, addConnection_head h4, addNodeInfo_head]
  · cases h

theorem fillAll_head {pd : Dict String Line} {nodes : List String} : ∀ {rs : List String} {d d' : Diagram},
    rs.foldlM (fun e n => fillNode pd nodes n e) d = .ok d' → headOf d' = headOf d
  | [], d, d', h => by cases h; rfl
  | s :: succ, d, d', h => by
    rw [List.foldlM_cons] at h
    obtain ⟨d1, h1, h⟩ := except_bind_eq_ok h
    rw [fillAll_head h, fillNode_head h1]

theorem removeNode_head {n : String} {pd : Dict String Line} {d : Diagram} {x : String × String × Dict String Line × Diagram}
    (h : removeNode n pd d = .ok x) : headOf x.2.2.2 = headOf d := by
  unfold removeNode at h
  obtain ⟨⟨src, d1⟩, h1, h⟩ := except_bind_eq_ok h
  obtain ⟨⟨tgt, d2⟩, h2, h⟩ := except_bind_eq_ok h
  obtain ⟨g, -, h⟩ := except_bind_eq_ok h
  cases h
  have e1 : headOf d1 = headOf d := by
    unfold removeIncoming at h1
    obtain ⟨_, -, h1⟩ := except_bind_eq_ok h1
    obtain ⟨_, -, h1⟩ := except_bind_eq_ok h1
    obtain ⟨_, -, h1⟩ := except_bind_eq_ok h1
    obtain ⟨_, -, h1⟩ := except_bind_eq_ok h1
    obtain ⟨_, -, h1⟩ := except_bind_eq_ok h1
    obtain ⟨_, -, h1⟩ := except_bind_eq_ok h1
    obtain ⟨_, -, h1⟩ := except_bind_eq_ok h1
    obtain ⟨_, -, h1⟩ := except_bind_eq_ok h1
    cases h1; rfl
  have e2 : headOf d2 = headOf d1 := by
    unfold removeOutgoing at h2
    obtain ⟨_, -, h2⟩ := except_bind_eq_ok h2
    obtain ⟨_, -, h2⟩ := except_bind_eq_ok h2
    obtain ⟨_, -, h2⟩ := except_bind_eq_ok h2
    obtain ⟨_, -, h2⟩ := except_bind_eq_ok h2
    obtain ⟨_, -, h2⟩ := except_bind_eq_ok h2
    obtain ⟨_, -, h2⟩ := except_bind_eq_ok h2
    obtain ⟨_, -, h2⟩ := except_bind_eq_ok h2
    obtain ⟨_, -, h2⟩ := except_bind_eq_ok h2
    cases h2; rfl
  rw [← e1, ← e2]; rfl

theorem removeGotos_head : ∀ {ls : List (String × Line)} {pd : Dict String Line} {d : Diagram} {x : Dict String Line × Diagram},
    removeGotos ls pd d = .ok x → headOf x.2 = headOf d
  | [], pd, d, x, h => by cases h; rfl
  | (o, l) :: ls, pd, d, x, h => by
    unfold removeGotos at h
    split at h
    · obtain ⟨⟨s, t, pd1, d1⟩, h1, h⟩ := except_bind_eq_ok h
      obtain ⟨tgt, -, h⟩ := except_bind_eq_ok h
      obtain ⟨d2, h2, h⟩ := except_bind_eq_ok h
      rw [removeGotos_head h, addConnection_head h2]
      exact removeNode_head h1
    · exact removeGotos_head h

theorem removeGateways_head : ∀ {ns : List String} {pd : Dict String Line} {d d' : Diagram},
    removeGateways ns pd d = .ok d' → headOf d' = headOf d
  | [], pd, d, d', h => by cases h; rfl
  | n :: ns, pd, d, d', h => by
    unfold removeGateways at h
    obtain ⟨a, -, h⟩ := except_bind_eq_ok h
    split at h
    · obtain ⟨i, -, h⟩ := except_bind_eq_ok h
      split at h
      · obtain ⟨o, -, h⟩ := except_bind_eq_ok h
        split at h
        · obtain ⟨⟨s, t, pd1, d1⟩, h1, h⟩ := except_bind_eq_ok h
          obtain ⟨d2, h2, h⟩ := except_bind_eq_ok h
          rw [removeGateways_head h, addConnection_head h2]
          exact removeNode_head h1
        · exact removeGateways_head h
      · exact removeGateways_head h
    · exact removeGateways_head h

theorem loadCsv_head {rows : List Row} {d d' : Diagram} (h : loadCsv rows d = .ok d') :
    ∃ pd, processDict rows = .ok pd ∧ headOf d' = headOf (populate pd d) := by
  unfold loadCsv at h
  obtain ⟨pd, h1, h⟩ := except_bind_eq_ok h
  obtain ⟨d1, h2, h⟩ := except_bind_eq_ok h
  obtain ⟨⟨pd2, d2⟩, h3, h⟩ := except_bind_eq_ok h
  refine ⟨pd, h1, ?_⟩
  rw [removeGateways_head h, removeGotos_head h3, ← importNodes_head pd (populate pd d), ← fillAll_head h2]
  rfl

/-! ## What every flow says -/

/-- The parts of a flow that do not depend on the table. -/
def FlowLooks (e : Edge) : Prop := e.attrs.name = some "" ∧ e.attrs.process = some processId ∧ e.attrs.waypoints = none ∧
  ∀ c, e.attrs.conditionExpression = some c → c.id = flowId e.u e.v ++ "_cond" ∨ c.id = flowId e.v e.u ++ "_cond"

def FlowsLook (d : Diagram) : Prop := ∀ e ∈ d.graph.edges, FlowLooks e

theorem addNodeInfo_flowsLook {o : String} {ty : Option String} {act : String} {d : Diagram} (h : FlowsLook d) : FlowsLook (addNodeInfo o ty act d) := by
  obtain ⟨f, e, -⟩ := addNodeInfo_eq o ty act d
  rw [e]
  intro x hx
  simp only [Graph.modifyNode, Graph.addNode_edges] at hx
  exact h x hx

theorem importNodes_flowsLook (pd : Dict String Line) : ∀ {d}, FlowsLook d → FlowsLook (importNodes pd d) := by
  induction pd with
  | nil => intro d h; exact h
  | cons p pd ih => intro d h; exact ih (addNodeInfo_flowsLook h)

theorem addConnection_flowsLook {pd : Dict String Line} {s t : String} {d d' : Diagram} (h : addConnection pd s t d = .ok d') (k : FlowsLook d) :
    FlowsLook d' := by
  unfold addConnection addOutgoing addIncoming at h
  obtain ⟨d1, h1, h⟩ := except_bind_eq_ok h
  obtain ⟨d2, h2, h⟩ := except_bind_eq_ok h
  obtain ⟨a, -, h1⟩ := except_bind_eq_ok h1
  obtain ⟨b, -, h2⟩ := except_bind_eq_ok h2
  cases h; cases h1; cases h2
  intro x hx
  simp only [addEdge, Graph.modifyEdge, List.mem_map, Graph.addEdge_edges, Diagram.updNode, Graph.modifyNode] at hx
  obtain ⟨e, he, rfl⟩ := hx
  have he : e ∈ d.graph.edges ∨ e = ⟨s, t, {}⟩ := by
    split at he
    · exact Or.inl he
    · simpa using he
  have old : e.attrs.waypoints = none ∧ ∀ c, e.attrs.conditionExpression = some c → c.id = flowId e.u e.v ++ "_cond" ∨ c.id = flowId e.v e.u ++ "_cond" := by
    rcases he with he | rfl
    · exact (k e he).2.2
    · simp
  split
  · rename_i hj
    refine ⟨rfl, rfl, old.1, ?_⟩
    intro c hc
    dsimp only at hc ⊢
    split at hc
    · cases hc
      simp only [Edge.joins, Bool.or_eq_true, Bool.and_eq_true, beq_iff_eq] at hj
      rcases hj with ⟨h1, h2⟩ | ⟨h1, h2⟩
      · left; rw [h1, h2]
      · right; rw [h1, h2]
    · exact old.2 c hc
  · rename_i hj
    rcases he with he | rfl
    · exact k e he
    · simp [Edge.joins] at hj

theorem foldConnections_flowsLook {pd : Dict String Line} {g : String} : ∀ {succ : List String} {d d' : Diagram},
    succ.foldlM (fun d s => addConnection pd g s d) d = .ok d' → FlowsLook d → FlowsLook d'
  | [], d, d', h, k => by cases h; exact k
  | s :: succ, d, d', h, k => by
    rw [List.foldlM_cons] at h
    obtain ⟨d1, h1, h⟩ := except_bind_eq_ok h
    exact foldConnections_flowsLook h (addConnection_flowsLook h1 k)

theorem fillNode_flowsLook {pd : Dict String Line} {nodes : List String} {r : String} {d d' : Diagram} (h : fillNode pd nodes r d = .ok d')
    (k : FlowsLook d) : FlowsLook d' := by
  obtain ⟨l, -, h⟩ := except_bind_eq_ok h
  split at h
  · cases h; exact k
  split at h
  · obtain ⟨s, -, h⟩ := except_bind_eq_ok h
    exact addConnection_flowsLook h k
  split at h
  · obtain ⟨ty, -, h⟩ := except_bind_eq_ok h
    obtain ⟨d2, h2, h⟩ := except_bind_eq_ok h
    obtain ⟨succ, -, h⟩ := except_bind_eq_ok h
    exact foldConnections_flowsLook h (addConnection_flowsLook h2 (addNodeInfo_flowsLook k))
  obtain ⟨cands, -, h⟩ := except_bind_eq_ok h
  split at h
  · obtain ⟨s, -, h⟩ := except_bind_eq_ok h
    dsimp only at h
    split at h
    · exact addConnection_flowsLook h k
    · obtain ⟨ty, -, h⟩ := except_bind_eq_ok h
      obtain ⟨d2, h4, h⟩ := except_bind_eq_ok h
      exact addConnection_flowsLook h (addConnection_flowsLook h4 (addNodeInfo_flowsLook k))
  · cases h

theorem fillAll_flowsLook {pd : Dict String Line} {nodes : List String} : ∀ {rs : List String} {d d' : Diagram},
    rs.foldlM (fun e n => fillNode pd nodes n e) d = .ok d' → FlowsLook d → FlowsLook d'
  | [], d, d', h, k => by cases h; exact k
  | s :: succ, d, d', h, k => by
    rw [List.foldlM_cons] at h
    obtain ⟨d1, h1, h⟩ := except_bind_eq_ok h
    exact fillAll_flowsLook h (fillNode_flowsLook h1 k)

theorem removeEdge_sub {g g' : Graph} {u v : String} (h : g.removeEdge u v = .ok g') : ∀ e ∈ g'.edges, e ∈ g.edges := by
  unfold Graph.removeEdge at h
  split at h
  · cases h; intro e he; exact (List.mem_filter.1 he).1
  · cases h

theorem removeGraphNode_sub {g g' : Graph} {n : String} (h : g.removeNode n = .ok g') : ∀ e ∈ g'.edges, e ∈ g.edges := by
  unfold Graph.removeNode at h
  split at h
  · cases h; intro e he; exact (List.mem_filter.1 he).1
  · cases h

theorem removeNode_flowsLook {n : String} {pd : Dict String Line} {d : Diagram} {x : String × String × Dict String Line × Diagram}
    (h : removeNode n pd d = .ok x) (k : FlowsLook d) : FlowsLook x.2.2.2 := by
  unfold removeNode at h
  obtain ⟨⟨src, d1⟩, h1, h⟩ := except_bind_eq_ok h
  obtain ⟨⟨tgt, d2⟩, h2, h⟩ := except_bind_eq_ok h
  obtain ⟨g, hg, h⟩ := except_bind_eq_ok h
  cases h
  have e1 : ∀ e ∈ d1.graph.edges, e ∈ d.graph.edges := by
    unfold removeIncoming at h1
    obtain ⟨_, -, h1⟩ := except_bind_eq_ok h1
    obtain ⟨_, -, h1⟩ := except_bind_eq_ok h1
    obtain ⟨_, -, h1⟩ := except_bind_eq_ok h1
    obtain ⟨_, -, h1⟩ := except_bind_eq_ok h1
    obtain ⟨_, -, h1⟩ := except_bind_eq_ok h1
    obtain ⟨_, -, h1⟩ := except_bind_eq_ok h1
    obtain ⟨_, -, h1⟩ := except_bind_eq_ok h1
    obtain ⟨_, hr, h1⟩ := except_bind_eq_ok h1
    cases h1; intro e he; exact removeEdge_sub hr e he
  have e2 : ∀ e ∈ d2.graph.edges, e ∈ d1.graph.edges := by
    unfold removeOutgoing at h2
    obtain ⟨_, -, h2⟩ := except_bind_eq_ok h2
    obtain ⟨_, -, h2⟩ := except_bind_eq_ok h2
    obtain ⟨_, -, h2⟩ := except_bind_eq_ok h2
    obtain ⟨_, -, h2⟩ := except_bind_eq_ok h2
    obtain ⟨_, -, h2⟩ := except_bind_eq_ok h2
    obtain ⟨_, -, h2⟩ := except_bind_eq_ok h2
    obtain ⟨_, -, h2⟩ := except_bind_eq_ok h2
    obtain ⟨_, hr, h2⟩ := except_bind_eq_ok h2
    cases h2; intro e he; exact removeEdge_sub hr e he
  intro e he
  exact k e (e1 e (e2 e (removeGraphNode_sub hg e he)))

theorem removeGotos_flowsLook : ∀ {ls : List (String × Line)} {pd : Dict String Line} {d : Diagram} {x : Dict String Line × Diagram},
    removeGotos ls pd d = .ok x → FlowsLook d → FlowsLook x.2
  | [], pd, d, x, h, k => by cases h; exact k
  | (o, l) :: ls, pd, d, x, h, k => by
    unfold removeGotos at h
    split at h
    · obtain ⟨⟨s, t, pd1, d1⟩, h1, h⟩ := except_bind_eq_ok h
      obtain ⟨tgt, -, h⟩ := except_bind_eq_ok h
      obtain ⟨d2, h2, h⟩ := except_bind_eq_ok h
      exact removeGotos_flowsLook h (addConnection_flowsLook h2 (removeNode_flowsLook h1 k))
    · exact removeGotos_flowsLook h k

theorem removeGateways_flowsLook : ∀ {ns : List String} {pd : Dict String Line} {d d' : Diagram},
    removeGateways ns pd d = .ok d' → FlowsLook d → FlowsLook d'
  | [], pd, d, d', h, k => by cases h; exact k
  | n :: ns, pd, d, d', h, k => by
    unfold removeGateways at h
    obtain ⟨a, -, h⟩ := except_bind_eq_ok h
    split at h
    · obtain ⟨i, -, h⟩ := except_bind_eq_ok h
      split at h
      · obtain ⟨o, -, h⟩ := except_bind_eq_ok h
        split at h
        · obtain ⟨⟨s, t, pd1, d1⟩, h1, h⟩ := except_bind_eq_ok h
          obtain ⟨d2, h2, h⟩ := except_bind_eq_ok h
          exact removeGateways_flowsLook h (addConnection_flowsLook h2 (removeNode_flowsLook h1 k))
        · exact removeGateways_flowsLook h k
      · exact removeGateways_flowsLook h k
    · exact removeGateways_flowsLook h k

theorem loadCsv_flowsLook {rows : List Row} {d d' : Diagram} (h : loadCsv rows d = .ok d') (k : FlowsLook d) : FlowsLook d' := by
  unfold loadCsv at h
  obtain ⟨pd, h1, h⟩ := except_bind_eq_ok h
  obtain ⟨d1, h2, h⟩ := except_bind_eq_ok h
  obtain ⟨⟨pd2, d2⟩, h3, h⟩ := except_bind_eq_ok h
  have k1 : FlowsLook d1 := fillAll_flowsLook h2 (importNodes_flowsLook pd k)
  exact removeGateways_flowsLook h (removeGotos_flowsLook h3 k1)

/-! ## What every node says -/

theorem Rounds.looks {pd : Dict String Line} {nodes : List String} (hu : ∀ x ∈ nodes, '_' ∉ x.toList) {rs : List String} {d d' : Diagram}
    {F : List (String × String)} (h : Rounds pd nodes rs d F d') : ∀ {done : List String}, Inv d → (∀ x ∈ ids d, Named nodes done x) →
      (∀ r ∈ rs, r ∈ nodes) → (∀ x ∈ ids d, ∃ ty act, Looks d x ty act) → ∀ x ∈ ids d', ∃ ty act, Looks d' x ty act := by
  induction h with
  | nil => intro _ _ _ _ h; exact h
  | @cons r rs d d1 d2 g l F hR hRs ih =>
    intro done i hn hr ht
    obtain ⟨i1, g1, hn1, w1⟩ := hR.step hu (hr _ (by simp)) i hn
    refine ih i1 hn1 (fun x hx => hr x (List.mem_cons_of_mem _ hx)) ?_
    obtain ⟨hP, dm, hc, hch⟩ := hR
    intro x hx
    by_cases e : x ∈ ids d
    · obtain ⟨ty, act, h⟩ := ht x e
      exact ⟨ty, act, h.of_bare (g1.bare x e)⟩
    · rw [hch.ids] at hx
      rcases hc with ⟨rfl, rfl⟩ | ⟨n, ty, rfl, hno, hadd⟩
      · exact absurd hx e
      · rw [hadd.ids] at hx
        simp [e] at hx
        subst hx
        exact ⟨ty, "", hadd.looks.of_bare (hch.bare_eq x)⟩

theorem legacy_bare (d : Diagram) (x : String) : bareOf (legacyAdjustment d) x = saysOf d x := by
  simp only [bareOf, legacy_get?, saysOf]; cases d.graph.nodes.get? x <;> rfl

theorem Bypass.listed {pd : Dict String Line} {d d' : Diagram} {n src tgt t : String} (b : Bypass pd d n src tgt t d') (h : Listed d) : Listed d' := by
  obtain ⟨dm, pd', -, h1, h2⟩ := b
  exact h2.listed (h1.listed h)

theorem Stages.listed {rows : List Row} {d0 d1 d2 d : Diagram} {F : List (String × String)} (s : Stages rows d0 F d1 d2 d) : Listed d := by
  have h2 : Listed d2 := by
    have : ∀ {ls : List (String × Line)} {a b : Diagram}, Gotos (dictOf rows) ls a b → Listed a → Listed b := by
      intro ls a b h
      induction h with
      | nil => exact id
      | skip _ _ ih => exact ih
      | cut _ _ b _ ih => exact fun hl => ih (b.listed hl)
    exact this s.gotos (legacy_listed d1)
  have : ∀ {ls : List String} {a b : Diagram}, Cleaned (dictOf rows) ls a b → Listed a → Listed b := by
    intro ls a b h
    induction h with
    | nil => exact id
    | keep _ _ ih => exact ih
    | cut _ _ _ b _ ih => exact fun hl => ih (b.listed hl)
  exact this s.cleaned h2

theorem Stages.bare_all {rows : List Row} (t : Table rows) {d0 d1 d2 d : Diagram} {F : List (String × String)} (s : Stages rows d0 F d1 d2 d)
    {x : String} (hx : x ∈ ids d) : ∃ ty nm, bareOf d x = some (csvNode x ty nm) := by
  have hu := t.under
  rw [keys_dictOf] at hu
  obtain ⟨h2, ng⟩ := s.keep2.sub x (s.keep.sub x hx)
  rw [legacy_ids] at h2
  obtain ⟨ty, act, h⟩ := s.rounds.looks hu s.planted.inv (done := []) (by
    intro x hx
    rw [s.planted.ids, keys_dictOf] at hx
    exact Or.inl hx) (fun _ h => h) (by
      intro x hx
      rw [s.planted.ids] at hx
      obtain ⟨l, hl⟩ := Dict.mem_keys_iff_exists.1 hx
      exact ⟨_, _, s.planted.looks _ _ hl⟩) x h2
  exact ⟨_, _, by rw [s.keep.bare x hx, s.keep2.bare x ng, legacy_bare]; exact h.whole⟩

end Bpmn.Csv

import Verif.Lemmas.LayoutState
import Verif.Props.CsvExport
import Verif.Props.Grid
/-! # C107: a layout that raises -/
set_option linter.unusedSimpArgs false
set_option linter.unusedVariables false

namespace Bpmn.Props
open Bpmn.Spec Bpmn.Layouter Bpmn.Classify

/-- The two models of `generate_layout` agree: a call returns exactly if `generateLayout` gives a diagram, and this is then the object; otherwise it raises
the same exception. -/
theorem C107_object (fuel : Nat) (d d' : Diagram) (e : PyErr) :
    (generateLayout fuel d = .ok d' ↔ layoutObject fuel d = (d', .ok ())) ∧ (generateLayout fuel d = .error e ↔ (layoutObject fuel d).2 = .error e) := by
  rw [layoutObject_eq]
  rcases h : layoutObject fuel d with ⟨o, u | u⟩
  · simp [Except.map]
  · simp [Except.map]

/-- **C107 (all or nothing).** If `generate_layout` raises on a consistent diagram whose nodes are all of the supported types, it leaves the diagram as it was. -/
theorem C107_all_or_nothing (d : Diagram) (h : Consistent d) (hs : ∀ n ∈ d.getNodes, Supported n) (fuel : Nat) (e : PyErr)
    (he : (layoutObject fuel d).2 = .error e) : (layoutObject fuel d).1 = d := by
  cases hg : computeGrid fuel d with
  | error e => simp [layoutObject, hg]
  | ok grid =>
    obtain ⟨⟨sorted, back, h1, h2⟩, hp⟩ := grid_ids h hg
    obtain ⟨d', ns, h3, -⟩ := layout_ok h h1 h2 (by
      intro n hn
      obtain ⟨c, hc, e⟩ := List.mem_map.1 (hp.mem_iff.2 (List.mem_map_of_mem (f := (·.1)) (mem_byType.2 ⟨hn, hs n hn⟩)))
      exact ⟨c, hc, e⟩)
    rw [layoutObject_eq, he] at h3
    cases h3

/-- `b` is the node `a`, moved. -/
def Moved (a b : Node) : Prop := b.1 = a.1 ∧ ∃ x y, b.2 = { a.2 with x := some x, y := some y }

theorem moveNodes_stop {grid : List Cell} {n : Node} {r : List Node} (hn : ∀ c ∈ grid, c.nodeId ≠ n.1) : ∀ (p : List Node),
    (∀ m ∈ p, ∃ c ∈ grid, c.nodeId = m.1) → ∃ p', List.Forall₂ Moved p p' ∧ moveNodes grid (p ++ n :: r) = (p' ++ n :: r, .error .stopIteration)
  | [], _ => by
    have : grid.find? (fun c => c.nodeId == n.1) = none := List.find?_eq_none.2 fun c hc => by simpa using hn c hc
    exact ⟨[], .nil, by simp [moveNodes, this]⟩
  | m :: p, hp => by
    obtain ⟨p', h1, h2⟩ := moveNodes_stop (r := r) hn p fun a ha => hp a (List.mem_cons_of_mem _ ha)
    obtain ⟨c, hc, e⟩ := hp m (by simp)
    cases hf : grid.find? (fun c => c.nodeId == m.1) with
    | none => exact absurd e (by simpa using List.find?_eq_none.1 hf c hc)
    | some c' => exact ⟨atCell m c' :: p', .cons ⟨rfl, _, _, rfl⟩ h1, by simp [moveNodes, hf, h2, atCell]⟩

/-- **C107 (half way).** If a consistent diagram has a node of another type, `n` being the first such node, `generate_layout` always raises (or does not end).
Either it leaves the diagram as it was, or it raises `StopIteration` after it has moved all nodes before `n` and nothing else: neither the nodes from `n` on,
nor any waypoints. -/
theorem C107_half_way (d : Diagram) (h : Consistent d) (p r : List Node) (n : Node) (hd : d.getNodes = p ++ n :: r) (hp : ∀ m ∈ p, Supported m) (hn : ¬Supported n)
    (fuel : Nat) : ∃ e, (layoutObject fuel d).2 = .error e ∧ ((layoutObject fuel d).1 = d ∨
      (e = .stopIteration ∧ ∃ p', List.Forall₂ Moved p p' ∧ (layoutObject fuel d).1 = { d with graph := { d.graph with nodes := p' ++ n :: r } })) := by
  cases hg : computeGrid fuel d with
  | error e => exact ⟨e, by simp [layoutObject, hg], .inl (by simp [layoutObject, hg])⟩
  | ok grid =>
    obtain ⟨-, hpm⟩ := grid_ids h hg
    have hnodes : d.graph.nodes = p ++ n :: r := hd
    obtain ⟨p', h1, h2⟩ := moveNodes_stop (r := r) (n := n) (grid := grid) (by
      intro c hc e
      obtain ⟨m, hm, e'⟩ := List.mem_map.1 (hpm.mem_iff.1 (List.mem_map_of_mem (f := (·.nodeId)) hc))
      obtain ⟨hm, hs⟩ := mem_byType.1 hm
      have : m = n := h.node_eq hm (by rw [hd]; simp) (by rw [e', e])
      exact hn (this ▸ hs)) p (by
      intro m hm
      obtain ⟨c, hc, e⟩ := List.mem_map.1 (hpm.mem_iff.2 (List.mem_map_of_mem (f := (·.1)) (mem_byType.2 ⟨by rw [hd]; simp [hm], hp m hm⟩)))
      exact ⟨c, hc, e⟩)
    refine ⟨.stopIteration, ?_, .inr ⟨rfl, p', h1, ?_⟩⟩ <;> simp [layoutObject, hg, hnodes, h2]

/-- `b` is the edge `a`: with new waypoints if one of the flows `fs` is between its ends, as it was otherwise. -/
def Redrawn (fs : List Flow) (a b : Edge) : Prop :=
  ((∃ f ∈ fs, a.joins f.1 f.2.1 = true) ∧ ∃ w, b = { a with attrs := { a.attrs with waypoints := some w } }) ∨ ((∀ f ∈ fs, a.joins f.1 f.2.1 = false) ∧ b = a)

theorem moveNodes_any (grid : List Cell) : ∀ l : List Node, ∃ p r p', l = p ++ r ∧ List.Forall₂ Moved p p' ∧ (moveNodes grid l).1 = p' ++ r ∧
    ((moveNodes grid l).2 = .ok () → r = [])
  | [] => ⟨[], [], [], rfl, .nil, rfl, fun _ => rfl⟩
  | n :: l => by
    rw [moveNodes]
    cases grid.find? (fun c => c.nodeId == n.1) with
    | none => exact ⟨[], n :: l, [], rfl, .nil, rfl, fun h => by cases h⟩
    | some c =>
      obtain ⟨p, r, p', h1, h2, h3, h4⟩ := moveNodes_any grid l
      exact ⟨n :: p, r, atCell n c :: p', by rw [h1]; rfl, .cons ⟨rfl, _, _, rfl⟩ h2, by simp [h3, atCell], h4⟩

theorem moved_keys {p p' : List Node} (h : List.Forall₂ Moved p p') : p'.map (·.1) = p.map (·.1) := by
  induction h with
  | nil => rfl
  | cons h _ ih => rw [List.map_cons, List.map_cons, ih, h.1]

theorem redrawn_nil (es : List Edge) : List.Forall₂ (Redrawn []) es es := by
  induction es with
  | nil => exact .nil
  | cons e es ih => exact .cons (.inr ⟨by simp, rfl⟩) ih

theorem redrawn_step {f : Flow} {r : List Flow} {w : List (String × String)} : ∀ {es es' : List Edge},
    List.Forall₂ (Redrawn r) (es.map fun e => if e.joins f.1 f.2.1 then { e with attrs := { e.attrs with waypoints := some w } } else e) es' →
    List.Forall₂ (Redrawn (f :: r)) es es'
  | [], es', h => by cases h; exact .nil
  | e :: es, es', h => by
    rw [List.map_cons] at h
    cases h with
    | cons h1 h2 =>
      refine .cons ?_ (redrawn_step h2)
      by_cases hj : e.joins f.1 f.2.1 = true
      · left
        refine ⟨⟨f, by simp, hj⟩, ?_⟩
        rw [if_pos hj] at h1
        rcases h1 with ⟨-, v, rfl⟩ | ⟨-, rfl⟩
        · exact ⟨v, rfl⟩
        · exact ⟨w, rfl⟩
      · rw [if_neg hj] at h1
        rcases h1 with ⟨⟨g, hg, hg2⟩, v, rfl⟩ | ⟨h, rfl⟩
        · exact .inl ⟨⟨g, by simp [hg], hg2⟩, v, rfl⟩
        · refine .inr ⟨?_, rfl⟩
          intro g hg
          simp only [List.mem_cons] at hg
          rcases hg with rfl | hg
          · simpa using hj
          · exact h g hg

theorem drawFlows_stop (d : Diagram) : ∀ (l : List Flow) (g : Graph) (e : PyErr), (drawFlows d l g).2 = .error e →
    ∃ fs f gs es, l = fs ++ f :: gs ∧ List.Forall₂ (Redrawn fs) g.edges es ∧ (drawFlows d l g).1 = { g with edges := es }
  | [], g, e, h => by cases h
  | f :: r, g, e, h => by
    rw [drawFlows] at h ⊢
    cases hp : newPoints d f with
    | error x => exact ⟨[], f, r, g.edges, rfl, redrawn_nil _, rfl⟩
    | ok w =>
      rw [hp] at h
      obtain ⟨fs, f', gs, es, h1, h2, h3⟩ := drawFlows_stop d r _ e h
      exact ⟨f :: fs, f', gs, es, by rw [h1]; rfl, redrawn_step h2, by simp only [h3]; rfl⟩

/-- **C107 (any diagram).** Whatever the diagram, if `generate_layout` raises, then either it has moved some of the nodes, the first ones in the order of the object (perhaps
none of them), and done nothing else; or it has moved all nodes and given new waypoints to the flows before some flow in the order of `get_flows`, and that flow and those
behind it keep their waypoints. -/
theorem C107_any (d : Diagram) (fuel : Nat) (e : PyErr) (he : (layoutObject fuel d).2 = .error e) :
    (∃ p r p', d.getNodes = p ++ r ∧ List.Forall₂ Moved p p' ∧ (layoutObject fuel d).1 = { d with graph := { d.graph with nodes := p' ++ r } }) ∨
    ∃ ns fs f gs es, List.Forall₂ Moved d.getNodes ns ∧ d.getFlows = fs ++ f :: gs ∧ List.Forall₂ (Redrawn fs) d.graph.edges es ∧
      (layoutObject fuel d).1 = { d with graph := { nodes := ns, edges := es } } := by
  unfold layoutObject at he ⊢
  cases hg : computeGrid fuel d with
  | error x => exact .inl ⟨[], d.getNodes, [], rfl, .nil, rfl⟩
  | ok grid =>
    rw [hg] at he
    obtain ⟨p, r, p', h1, h2, h3, h4⟩ := moveNodes_any grid d.graph.nodes
    dsimp only at he ⊢
    cases ho : (moveNodes grid d.graph.nodes).2 with
    | error x => exact .inl ⟨p, r, p', h1, h2, by simp only [h3]⟩
    | ok u =>
      rw [ho] at he
      have := h4 ho
      subst this
      simp only [List.append_nil] at h1 h3
      right
      simp only [h3] at he ⊢
      obtain ⟨fs, f, gs, es, k1, k2, k3⟩ := drawFlows_stop _ _ _ e he
      refine ⟨p', fs, f, gs, es, ?_, ?_, k2, by simp only [k3]⟩
      · have : d.getNodes = p := h1
        rw [this]; exact h2
      · rw [← k1]
        have hk := moved_keys h2
        rw [← h1] at hk
        simp only [Diagram.getFlows, Graph.flows, Dict.keys, hk]

/-! ## Examples -/

/-- A start event, a task and an end event. -/
def movedOps : List Op :=
  [.createNew "d" "D", .addProcess "p" false true "None" "PL" "P",
   .addStartEvent "P" "begin" none false true (some "s") "u1" "u2", .addTask "P" "order" (some "t") "u", .addEndEvent "P" "done" none (some "e") "u" "v",
   .addSequenceFlow "P" "s" "t" "" "f1", .addSequenceFlow "P" "t" "e" "" "f2"]

/-- A data object, as the XML import makes it. -/
def paper : Node :=
  ("o", { id := some "o", type := some "dataObject", nodeName := some "paper", process := some "P", incoming := some [], outgoing := some [],
          isCollection := some "false", x := some "7", y := some "8", width := some "20", height := some "30" })

/-- The three nodes, and a data object before the last one. -/
def withPaper : Diagram :=
  let d := Op.run {} movedOps
  { d with graph := { d.graph with nodes := d.graph.nodes.take 2 ++ paper :: d.graph.nodes.drop 2 } }

theorem flowFromTo_of_check {d : Diagram} {i s t : String}
    (h : (d.getFlowById i).map (fun r => r.map fun f => (f.2.2.id, f.2.2.sourceRef, f.2.2.targetRef)) = .ok (some (some i, some s, some t))) : FlowFromTo d i s t := by
  cases e : d.getFlowById i with
  | error x => rw [e] at h; cases h
  | ok r =>
    rw [e] at h
    cases r with
    | none => cases h
    | some f =>
      obtain ⟨a, b, c⟩ := f
      simp only [Except.map, Option.map, Except.ok.injEq, Option.some.injEq, Prod.mk.injEq] at h
      exact ⟨a, b, c, e, h.1, h.2.1, h.2.2⟩

theorem withPaper_consistent : Consistent withPaper := by
  have out : ∀ n ∈ withPaper.getNodes, ∀ i ∈ outs n, ∃ m ∈ withPaper.getNodes,
      (withPaper.getFlowById i).map (fun r => r.map fun f => (f.2.2.id, f.2.2.sourceRef, f.2.2.targetRef)) = .ok (some (some i, some n.1, some m.1)) ∧ i ∈ ins m := by
    decide +kernel
  have inn : ∀ m ∈ withPaper.getNodes, ∀ i ∈ ins m, ∃ n ∈ withPaper.getNodes,
      (withPaper.getFlowById i).map (fun r => r.map fun f => (f.2.2.id, f.2.2.sourceRef, f.2.2.targetRef)) = .ok (some (some i, some n.1, some m.1)) ∧ i ∈ outs n := by
    decide +kernel
  have li : ∀ f ∈ withPaper.getFlows, ∃ i ∈ ["f1", "f2"], ∃ n ∈ withPaper.getNodes, f.2.2.id = some i ∧ f.2.2.sourceRef = some n.1 ∧ i ∈ outs n := by
    decide +kernel
  constructor
  · decide +kernel
  · decide +kernel
  · decide +kernel
  · intro n hn i hi
    obtain ⟨m, hm, h1, h2⟩ := out n hn i hi
    exact ⟨m, hm, flowFromTo_of_check h1, h2⟩
  · intro m hm i hi
    obtain ⟨n, hn, h1, h2⟩ := inn m hm i hi
    exact ⟨n, hn, flowFromTo_of_check h1, h2⟩
  · decide +kernel
  · intro f hf
    obtain ⟨i, -, h⟩ := li f hf
    exact ⟨i, h⟩

/-- `C107_half_way` applies to it, and the layout gets half way: the start event and the task are moved, the data object and the end event
stay where they were. -/
example : Consistent withPaper ∧ (∃ p r, withPaper.getNodes = p ++ paper :: r ∧ ∀ m ∈ p, Supported m) ∧ ¬Supported paper ∧
    (layoutObject 10 withPaper).2 = .error .stopIteration ∧
    (withPaper.getNodes.map fun n => (n.1, n.2.x, n.2.y)) =
      [("s", some "100", some "100"), ("t", some "100", some "100"), ("o", some "7", some "8"), ("e", some "100", some "100")] ∧
    ((layoutObject 10 withPaper).1.getNodes.map fun n => (n.1, n.2.x, n.2.y)) =
      [("s", some "200", some "250"), ("t", some "350", some "250"), ("o", some "7", some "8"), ("e", some "100", some "100")] := by
  refine ⟨withPaper_consistent, ⟨_, _, rfl, ?_⟩, ?_, ?_, ?_, ?_⟩
  · unfold Supported; decide +kernel
  · unfold Supported; decide +kernel
  · decide +kernel
  · decide +kernel
  · decide +kernel

set_option maxRecDepth 8000 in
/-- `C107_all_or_nothing` on a diagram that cannot be laid out (`nestedOps`: a gateway both of whose branches begin with a gateway). -/
example : Consistent (Op.run {} nestedOps) ∧ (∀ n ∈ (Op.run {} nestedOps).getNodes, Supported n) ∧ (layoutObject 30 (Op.run {} nestedOps)).2 = .error .typeError ∧
    (layoutObject 30 (Op.run {} nestedOps)).1 = Op.run {} nestedOps := by
  have h := consistent_of_allowed _ nested_allowed
  have hs : ∀ n ∈ (Op.run {} nestedOps).getNodes, Supported n := by decide
  have he : (layoutObject 30 (Op.run {} nestedOps)).2 = .error .typeError := by decide +kernel
  exact ⟨h, hs, he, C107_all_or_nothing _ h hs _ _ he⟩

/-- The three nodes, and a flow without source that no node lists, as somebody may add it to the graph by hand. -/
def stray : Diagram :=
  let d := Op.run {} movedOps
  { d with graph := { d.graph with edges := ⟨"s", "e", { id := some "f3", waypoints := some [("1", "2")] }⟩ :: d.graph.edges } }

/-- A layout of this diagram raises, and this is the second case of `C107_any`: all nodes are moved, no flow is redrawn. -/
example : (layoutObject 10 stray).2 = .error .keyError ∧
    ((layoutObject 10 stray).1.getNodes.map fun n => (n.1, n.2.x, n.2.y)) =
      [("s", some "200", some "250"), ("t", some "350", some "250"), ("e", some "500", some "250")] ∧
    ((layoutObject 10 stray).1.getFlows.map fun f => (f.1, f.2.1, f.2.2.waypoints)) =
      [("s", "e", some [("1", "2")]), ("s", "t", some [("100", "100"), ("100", "100")]), ("t", "e", some [("100", "100"), ("100", "100")])] := by
  refine ⟨?_, ?_, ?_⟩ <;> decide +kernel

end Bpmn.Props

import Verif.Lemmas.Drawing
import Verif.Props.Layouter
/-!
# Properties C68 - C71: pictures, positions, determinants

`Visualizer.toPng` is what `bpmn_diagram_to_png` hands to pydotplus, `Visualizer.visualize` what `visualize_diagram` hands to networkx.
-/
set_option linter.unusedSimpArgs false
set_option linter.unusedVariables false

namespace Bpmn.Props
open Bpmn Bpmn.Spec Bpmn.Visualizer Bpmn.Layouter Bpmn.LayoutMetrics

/-! ## C68 -/

/-- The arrow a reader would see for a declared flow, when the nodes were declared in the order `ids`: it starts at the end that was
declared first. -/
def arrowOf (ids : List String) (f : AFlow) : DotEdge :=
  if ids.idxOf f.src ≤ ids.idxOf f.tgt then ⟨f.src, f.tgt, some f.name⟩ else ⟨f.tgt, f.src, some f.name⟩

/-- **C68.** After any allowed history, the picture has one symbol per declared node, named after it, in order, and one arrow per
declared flow, with its name, between its ends; the arrow starts at the end that was declared first. -/
theorem C68_picture (ops : List Op) (h : AllowedHistory {} ops) :
    let pic := toPng (Op.run {} ops)
    let A := runAbs {} ops
    pic.1.map (fun n => (n.name, n.label)) = A.nodes.map (fun n => (n.id, n.attrs.nodeName)) ∧
    pic.2.Perm (A.flows.map (arrowOf (A.nodes.map (·.id)))) := by
  obtain ⟨e, w⟩ := run_empty ops h
  have hs : Sane (Op.run {} ops) := Sane.empty.run ops
  intro pic A
  have hids : (Op.run {} ops).getNodes.map (·.1) = A.nodes.map (·.id) := by
    rw [e]
    simp [Diagram.getNodes, concretize, A]
  constructor
  · simp only [pic, toPng, List.map_map]
    have : ∀ n : Node, ((fun m : DotNode => (m.name, m.label)) ∘ dotNode) n = (n.1, n.2.nodeName) := by
      intro n
      simp only [Function.comp, dotNode]
      split
      · rfl
      · split <;> rfl
    rw [List.map_congr_left (fun n _ => this n), e]
    simp [Diagram.getNodes, concretize, A, nodeOf]
  · have := (flows_perm_oriented hs).map dotEdge
    rw [hids, List.map_map] at this
    refine this.trans (.of_eq ?_)
    have he : (Op.run {} ops).graph.edges = A.flows.map edgeOf := by rw [e]; rfl
    rw [he, List.map_map]
    apply List.map_congr_left
    intro f _
    by_cases hle : (A.nodes.map (·.id)).idxOf f.src ≤ (A.nodes.map (·.id)).idxOf f.tgt <;>
      simp [Function.comp, edgeOf, oriented, arrowOf, hle, dotEdge]

/-- **C68, symbols.** Tasks are drawn as rounded boxes, exclusive gateways as diamonds, and all other nodes in the default shape. -/
theorem C68_shapes (d : Diagram) : ∀ n ∈ d.getNodes, ∃ m ∈ (toPng d).1, m.name = n.1 ∧ m.label = n.2.nodeName ∧
    (n.2.type = some "task" → m.shape = some "box" ∧ m.style = some "rounded") ∧
    (n.2.type = some "exclusiveGateway" → m.shape = some "diamond" ∧ m.style = none) ∧
    (n.2.type ≠ some "task" → n.2.type ≠ some "exclusiveGateway" → m.shape = none ∧ m.style = none) := by
  intro n hn
  refine ⟨dotNode n, List.mem_map_of_mem hn, ?_⟩
  unfold dotNode
  by_cases h1 : n.2.type = some "task"
  · simp [h1]
  · by_cases h2 : n.2.type = some "exclusiveGateway"
    · simp [h2]
    · simp [h1, h2]

/-- **C68.** So the arrow of a flow between two different nodes shows the direction of the flow exactly when its source was declared
before its target. -/
theorem C68_direction (ops : List Op) (h : AllowedHistory {} ops) (f : AFlow) (hf : f ∈ (runAbs {} ops).flows) (hne : f.src ≠ f.tgt) :
    let ids := (runAbs {} ops).nodes.map (·.id)
    let arrows := (toPng (Op.run {} ops)).2
    (Before ids f.src f.tgt → ⟨f.src, f.tgt, some f.name⟩ ∈ arrows ∧ ∀ l, ⟨f.tgt, f.src, l⟩ ∉ arrows) ∧
    (Before ids f.tgt f.src → ⟨f.tgt, f.src, some f.name⟩ ∈ arrows ∧ ∀ l, ⟨f.src, f.tgt, l⟩ ∉ arrows) ∧
    (Before ids f.src f.tgt ∨ Before ids f.tgt f.src) := by
  intro ids arrows
  obtain ⟨e, w⟩ := run_empty ops h
  have hperm := (C68_picture ops h).2
  have hnd : ids.Nodup := w.nodesNodup
  have hmem := w.ends f hf
  have hs : f.src ∈ ids := hmem.1
  have ht : f.tgt ∈ ids := hmem.2
  have hin : arrowOf ids f ∈ arrows := hperm.mem_iff.2 (List.mem_map_of_mem hf)
  have hlt : ∀ a b, Before ids a b → ids.idxOf a < ids.idxOf b := by
    rintro a b ⟨pre, post, e, ha⟩
    have hb : b ∉ pre := by
      intro hb
      rw [e] at hnd
      exact (List.nodup_append.1 hnd).2.2 _ hb _ (List.mem_cons_self ..) rfl
    rw [e, List.idxOf_append, if_pos ha, List.idxOf_append, if_neg hb]
    have := List.idxOf_lt_length_of_mem ha
    omega
  have hno : ∀ a b, ids.idxOf a < ids.idxOf b → ∀ l, (⟨b, a, l⟩ : DotEdge) ∉ arrows := by
    intro a b hab l hm
    obtain ⟨g, -, hg⟩ := List.mem_map.1 (hperm.mem_iff.1 hm)
    simp only [arrowOf] at hg
    split at hg
    · rename_i hle
      simp only [DotEdge.mk.injEq] at hg
      obtain ⟨rfl, rfl, -⟩ := hg
      change ids.idxOf _ ≤ ids.idxOf _ at hle
      omega
    · rename_i hle
      simp only [DotEdge.mk.injEq] at hg
      obtain ⟨rfl, rfl, -⟩ := hg
      change ¬ids.idxOf _ ≤ ids.idxOf _ at hle
      omega
  refine ⟨?_, ?_, ?_⟩
  · intro hb
    have := hlt _ _ hb
    refine ⟨?_, hno _ _ this⟩
    rwa [arrowOf, if_pos (by omega)] at hin
  · intro hb
    have := hlt _ _ hb
    refine ⟨?_, hno _ _ this⟩
    rwa [arrowOf, if_neg (by omega)] at hin
  · obtain ⟨p, q, e⟩ := List.append_of_mem ht
    by_cases hp : f.src ∈ p
    · exact .inl ⟨p, q, e, hp⟩
    · right
      rw [e] at hs
      simp [hp, hne] at hs
      obtain ⟨a, b, rfl⟩ := List.append_of_mem hs
      exact ⟨p ++ f.tgt :: a, b, by simp [e], by simp⟩

/-- A process whose end event is added before its start event. -/
def endFirst : List Op :=
  [.addEndEvent "P" "done" none (some "e") "u1" "u2", .addStartEvent "P" "go" none false true (some "s") "u3" "u4",
   .addSequenceFlow "P" "s" "e" "only" "f"]

/-- Its picture shows an arrow from the end event to the start event. -/
example : AllowedHistory {} endFirst ∧ Before ((runAbs {} endFirst).nodes.map (·.id)) "e" "s" ∧
    (toPng (Op.run {} endFirst)).2 = [⟨"e", "s", some "only"⟩] := by
  refine ⟨?_, ⟨["e"], [], rfl, by simp⟩, by decide⟩
  simp [endFirst, AllowedHistory, Allowed, step, declaredNode, declaredFlow, directionArg, directions, chosen]

/-- In `demoOps` three arrows are right and the one from `t2` to `t1` is wrong. -/
example : AllowedHistory {} demoOps ∧ (toPng (Op.run {} demoOps)).2 =
    [⟨"s", "g", some ""⟩, ⟨"g", "t1", some "yes"⟩, ⟨"g", "t2", some "no"⟩, ⟨"t1", "t2", some ""⟩] := ⟨demo_allowed, by decide⟩

/-! ## C69 -/

/-- The symbol of a kind of node: squares for activities, diamonds for gateways, circles for events (and for one kind of gateway). -/
def symbolOf (ty : String) : Option String :=
  if ty ∈ ["task", "subProcess"] then some "s"
  else if ty ∈ ["complexGateway", "inclusiveGateway", "exclusiveGateway", "parallelGateway"] then some "d"
  else if ty ∈ ["eventBasedGateway", "startEvent", "endEvent", "intermediateCatchEvent", "intermediateThrowEvent"] then some "o"
  else none

theorem forall₂_left {α β : Type} {R : α → β → Prop} : ∀ {l : List α} {m : List β}, List.Forall₂ R l m → ∀ x ∈ l, ∃ y ∈ m, R x y
  | _, _, .nil, _, h => by cases h
  | _, _, .cons h1 h2, x, h => by
    rcases List.mem_cons.1 h with rfl | h
    · exact ⟨_, List.mem_cons_self .., h1⟩
    · obtain ⟨y, hy, hr⟩ := forall₂_left h2 x h
      exact ⟨y, List.mem_cons_of_mem _ hy, hr⟩

theorem count_ids {l : List Node} (hn : (l.map (·.1)).Nodup) {n : Node} (hm : n ∈ l) (t : String) :
    ((l.filter fun m => m.2.type == some t).map (·.1)).count n.1 = if n.2.type = some t then 1 else 0 := by
  have hnd : ((l.filter fun m => m.2.type == some t).map (·.1)).Nodup := hn.sublist (List.filter_sublist.map _)
  split
  · rename_i ht
    exact List.count_eq_one_of_mem hnd (List.mem_map.2 ⟨n, List.mem_filter.2 ⟨hm, by simp [ht]⟩, rfl⟩)
  · rename_i ht
    rw [List.count_eq_zero]
    intro h
    obtain ⟨m, hm', e⟩ := List.mem_map.1 h
    obtain ⟨h1, h2⟩ := List.mem_filter.1 hm'
    have : m = n := List.inj_on_of_nodup_map hn h1 hm e
    subst this
    exact ht (by simpa using h2)

theorem pairs_nodup {d : Diagram} (h : Sane d) : (d.getFlows.map fun f => (f.1, f.2.1)).Nodup := by
  have hp := (flows_perm_oriented h).map fun f => (f.1, f.2.1)
  rw [hp.nodup_iff, List.map_map, List.Nodup, List.pairwise_map]
  have key : ∀ e ∈ d.graph.edges, SamePair e.u e.v (oriented (d.getNodes.map (·.1)) e.attrs).1 (oriented (d.getNodes.map (·.1)) e.attrs).2.1 := by
    intro e he
    obtain ⟨-, -, s, t, hs, ht, hp⟩ := h.described e he
    simp only [oriented, hs, ht, Option.getD_some]
    split
    · exact hp
    · rcases hp with ⟨rfl, rfl⟩ | ⟨rfl, rfl⟩ <;> simp [SamePair]
  refine List.Pairwise.imp_of_mem ?_ h.onePerPair
  intro a b ha hb hab e
  apply hab
  simp only [Function.comp, Prod.mk.injEq] at e
  have h1 := key a ha
  have h2 := key b hb
  rw [e.1, e.2] at h1
  generalize (oriented (d.getNodes.map (·.1)) b.attrs).1 = x at h1 h2
  generalize (oriented (d.getNodes.map (·.1)) b.attrs).2.1 = y at h1 h2
  rcases h1 with ⟨rfl, rfl⟩ | ⟨rfl, rfl⟩ <;> rcases h2 with ⟨h3, h4⟩ | ⟨h3, h4⟩ <;> simp [SamePair, h3, h4]

/-- **C69.** What `visualize_diagram` draws, if it does not raise: each node of the eleven known kinds is drawn exactly once, with the
symbol of its kind; nodes of other kinds (user tasks, data objects, boundary events, ...) are not drawn, though their labels are; labels
are the names, one for each node and one for each flow. -/
theorem C69_symbols (num : String → Py Rat) (d : Diagram) (hs : Sane d) (ht : ∀ n ∈ d.getNodes, n.2.type.isSome) (dr : Drawing)
    (h : visualize num d = .ok dr) :
    (∀ n ∈ d.getNodes, ∀ ty, n.2.type = some ty →
      (dr.symbols.flatMap (·.2)).count n.1 = (if (symbolOf ty).isSome then 1 else 0) ∧
      ∀ c ∈ dr.symbols, n.1 ∈ c.2 → symbolOf ty = some c.1) ∧
    (∀ i ∈ dr.symbols.flatMap (·.2), i ∈ d.getNodes.map (·.1)) ∧
    dr.nodeLabels = d.getNodes.map (fun n => (n.1, n.2.nodeName)) ∧
    dr.edgeLabels = d.getFlows.map (fun f => ((f.1, f.2.1), f.2.2.name)) := by
  unfold visualize at h
  obtain ⟨pos, hp, h⟩ := except_bind_eq_ok h
  obtain ⟨syms, hy, h⟩ := except_bind_eq_ok h
  rw [symbols_eq ht] at hy
  cases hy
  simp only [except_pure, Except.ok.injEq] at h
  subst h
  have hn : (d.getNodes.map (·.1)).Nodup := hs.nodesUnique
  refine ⟨?_, ?_, ?_, ?_⟩
  · intro n hm ty hty
    constructor
    · simp only [symbolTypes, List.map_cons, List.map_nil, List.flatMap_cons, List.flatMap_nil, List.count_append, count_ids hn hm, hty,
        Option.some.injEq, List.count_nil]
      unfold symbolOf
      by_cases h1 : ty ∈ ["task", "subProcess", "complexGateway", "inclusiveGateway", "exclusiveGateway", "parallelGateway",
        "eventBasedGateway", "startEvent", "endEvent", "intermediateCatchEvent", "intermediateThrowEvent"]
      · simp only [List.mem_cons, List.not_mem_nil, or_false] at h1
        rcases h1 with rfl | rfl | rfl | rfl | rfl | rfl | rfl | rfl | rfl | rfl | rfl <;> decide
      · simp only [List.mem_cons, List.not_mem_nil, or_false, not_or] at h1
        simp [h1]
    · intro c hc hmem
      obtain ⟨⟨s, t⟩, hst, rfl⟩ := List.mem_map.1 hc
      obtain ⟨m, hm', e⟩ := List.mem_map.1 hmem
      obtain ⟨k1, k2⟩ := List.mem_filter.1 hm'
      have : m = n := List.inj_on_of_nodup_map hn k1 hm e
      subst this
      rw [hty] at k2
      simp at k2
      subst k2
      have : ∀ p ∈ symbolTypes, symbolOf p.2 = some p.1 := by decide
      exact this _ hst
  · intro i hi
    obtain ⟨c, hc, hi⟩ := List.mem_flatMap.1 hi
    obtain ⟨p, -, rfl⟩ := List.mem_map.1 hc
    obtain ⟨m, hm', e⟩ := List.mem_map.1 hi
    exact List.mem_map.2 ⟨m, (List.mem_filter.1 hm').1, e⟩
  · simpa using foldl_set_map (fun n : Node => n.1) (fun n => n.2.nodeName) d.getNodes [] (by simpa using hn)
  · simpa using foldl_set_map (fun f : Flow => (f.1, f.2.1)) (fun f => f.2.2.name) d.getFlows [] (by simpa using pairs_nodup hs)

/-! ## C70 -/

/-- `float` reads the numbers written by the library. -/
def Reads (num : String → Py Rat) : Prop := ∀ k : Int, num (toString k) = .ok k

/-- **C70.** `get_nodes_positions` returns exactly when every node has coordinates that are numbers; the result then has one entry per
node, in order, with its coordinates. -/
theorem C70_positions (num : String → Py Rat) (d : Diagram) (hn : (d.getNodes.map (·.1)).Nodup) :
    ((∃ pos, getNodesPositions num d = .ok pos) ↔
      ∀ n ∈ d.getNodes, ∃ x y p q, n.2.x = some x ∧ n.2.y = some y ∧ num x = .ok p ∧ num y = .ok q) ∧
    ∀ pos, getNodesPositions num d = .ok pos → pos.keys = d.getNodes.map (·.1) ∧
      ∀ n ∈ d.getNodes, ∃ x y p q, n.2.x = some x ∧ n.2.y = some y ∧ num x = .ok p ∧ num y = .ok q ∧ pos.get? n.1 = some (p, q) := by
  have key : ∀ pos, getNodesPositions num d = .ok pos → pos.keys = d.getNodes.map (·.1) ∧
      ∀ n ∈ d.getNodes, ∃ x y p q, n.2.x = some x ∧ n.2.y = some y ∧ num x = .ok p ∧ num y = .ok q ∧ pos.get? n.1 = some (p, q) := by
    intro pos h
    obtain ⟨ps, e, hf⟩ := positionsLoop_ok (by simpa using hn) h
    rw [List.nil_append] at e
    subst e
    have hk : pos.keys = d.getNodes.map (·.1) := by
      clear hn h
      generalize d.getNodes = l at hf
      induction hf with
      | nil => rfl
      | cons h _ ih => simp [h.1, ih]
    refine ⟨hk, ?_⟩
    intro n hm
    have hnd : pos.keys.Nodup := hk ▸ hn
    clear h hn
    obtain ⟨p, hp, h1, x, y, h2, h3, h4, h5⟩ := forall₂_left hf n hm
    exact ⟨x, y, p.2.1, p.2.2, h2, h3, h4, h5, Dict.get?_of_mem hnd (by rw [← h1]; exact hp)⟩
  refine ⟨⟨?_, ?_⟩, key⟩
  · rintro ⟨pos, h⟩ n hm
    obtain ⟨x, y, p, q, h1, h2, h3, h4, -⟩ := (key pos h).2 n hm
    exact ⟨x, y, p, q, h1, h2, h3, h4⟩
  · intro h
    exact positionsLoop_succeeds [] h

/-- **C70.** After any allowed history all nodes have the same position, so all symbols are drawn on top of each other. -/
theorem C70_before_layout (num : String → Py Rat) (hr : Reads num) (ops : List Op) (h : AllowedHistory {} ops) :
    ∃ pos, getNodesPositions num (Op.run {} ops) = .ok pos ∧ pos.keys = (runAbs {} ops).nodes.map (·.id) ∧
      ∀ n ∈ pos.keys, pos.get? n = some (100, 100) := by
  obtain ⟨e, w⟩ := run_empty ops h
  have hs : Sane (Op.run {} ops) := Sane.empty.run ops
  have h100 : num "100" = .ok 100 := hr 100
  have hxy : ∀ n ∈ (Op.run {} ops).getNodes, n.2.x = some "100" ∧ n.2.y = some "100" := by
    intro n hn
    rw [e] at hn
    simp only [Diagram.getNodes, concretize, List.mem_map] at hn
    obtain ⟨a, ha, rfl⟩ := hn
    exact ⟨(w.geom a ha).1, (w.geom a ha).2.1⟩
  obtain ⟨h1, h2⟩ := C70_positions num _ hs.nodesUnique
  obtain ⟨pos, hp⟩ := h1.2 fun n hn => ⟨_, _, _, _, (hxy n hn).1, (hxy n hn).2, h100, h100⟩
  obtain ⟨h3, h4⟩ := h2 pos hp
  refine ⟨pos, hp, ?_, ?_⟩
  · rw [h3, e]
    simp [Diagram.getNodes, concretize]
  · intro i hi
    rw [h3] at hi
    obtain ⟨n, hn, rfl⟩ := List.mem_map.1 hi
    obtain ⟨x, y, p, q, e1, e2, e3, e4, e5⟩ := h4 n hn
    rw [(hxy n hn).1] at e1
    rw [(hxy n hn).2] at e2
    cases e1
    cases e2
    rw [h100] at e3 e4
    cases e3
    cases e4
    exact e5

/-- **C70.** After a successful layout of a consistent diagram the positions are pairwise different. -/
theorem C70_after_layout (num : String → Py Rat) (hr : Reads num) (d d' : Diagram) (hc : Consistent d) {fuel : Nat}
    (h : generateLayout fuel d = .ok d') :
    ∃ pos, getNodesPositions num d' = .ok pos ∧ pos.keys = d'.getNodes.map (·.1) ∧
      ∀ a ∈ pos.keys, ∀ b ∈ pos.keys, a ≠ b → pos.get? a ≠ pos.get? b := by
  have hs' : (d'.getNodes.map (·.1)).Nodup := by
    have := congrArg (List.map Prod.fst) (layout_sameBut h).nodes
    simp only [List.map_map] at this
    have e : d'.getNodes.map (·.1) = d.getNodes.map (·.1) := this
    rw [e]
    exact hc.ids
  obtain ⟨h1, h2⟩ := C70_positions num d' hs'
  have hcol := (C28_columns d d' hc h).1
  obtain ⟨pos, hp⟩ := h1.2 fun n hn => by
    obtain ⟨c, r, ⟨hx, hy⟩, -⟩ := hcol n hn
    exact ⟨_, _, _, _, hx, hy, hr _, hr _⟩
  obtain ⟨h3, h4⟩ := h2 pos hp
  refine ⟨pos, hp, h3, ?_⟩
  intro a ha b hb hab heq
  rw [h3] at ha hb
  obtain ⟨n, hn, rfl⟩ := List.mem_map.1 ha
  obtain ⟨m, hm, rfl⟩ := List.mem_map.1 hb
  obtain ⟨c, r, ⟨hx, hy⟩, -⟩ := hcol n hn
  obtain ⟨c', r', ⟨hx', hy'⟩, -⟩ := hcol m hm
  obtain ⟨x, y, p, q, e1, e2, e3, e4, e5⟩ := h4 n hn
  obtain ⟨x', y', p', q', e1', e2', e3', e4', e5'⟩ := h4 m hm
  rw [hx] at e1
  rw [hy] at e2
  rw [hx'] at e1'
  rw [hy'] at e2'
  cases e1
  cases e2
  cases e1'
  cases e2'
  rw [hr] at e3 e4 e3' e4'
  cases e3
  cases e4
  cases e3'
  cases e4'
  rw [e5, e5', Option.some.injEq, Prod.mk.injEq] at heq
  have k1 := Rat.intCast_injective heq.1
  have k2 := Rat.intCast_injective heq.2
  exact C27_distinct_positions d d' h n hn m hm hab (by rw [hx, hy, hx', hy', k1, k2])

/-- Reading of integers. -/
def readInt (s : String) : Py Rat := match s.toInt? with | some k => .ok k | none => .error .valueError

theorem reads_readInt : Reads readInt := by
  intro k
  have : (toString k).toInt? = some k := Int.toInt?_repr k
  simp [readInt, this]

/-- A process with a user task. -/
def userOps : List Op :=
  [.addStartEvent "P" "go" none false true (some "s") "u1" "u2", .addFlowNode "P" "userTask" "ask" (some "u") "u3",
   .addTask "P" "do" (some "t") "u4", .addSequenceFlow "P" "s" "u" "" "f", .addSequenceFlow "P" "u" "t" "" "g"]

theorem user_allowed : AllowedHistory {} userOps := by
  simp [userOps, AllowedHistory, Allowed, step, declaredNode, declaredFlow, directionArg, directions, chosen]

/-- `visualize_diagram` returns on it and meets the hypotheses of C69; the user task is not drawn. -/
example : Reads readInt ∧ AllowedHistory {} userOps ∧ Sane (Op.run {} userOps) ∧ (∀ n ∈ (Op.run {} userOps).getNodes, n.2.type.isSome) ∧
    ∃ dr, visualize readInt (Op.run {} userOps) = .ok dr ∧ dr.symbols.flatMap (·.2) = ["t", "s"] := by
  have ht : ∀ n ∈ (Op.run {} userOps).getNodes, n.2.type.isSome := by decide
  obtain ⟨pos, h1, -, -⟩ := C70_before_layout readInt reads_readInt userOps user_allowed
  have h2 : ∃ dr, visualize readInt (Op.run {} userOps) = .ok dr ∧ dr.symbols = symbolTypes.map fun p =>
      (p.1, ((Op.run {} userOps).getNodes.filter fun n => n.2.type == some p.2).map (·.1)) := by
    simp only [visualize, h1, symbols_eq ht, except_bind_ok, except_pure]
    exact ⟨_, rfl, rfl⟩
  obtain ⟨dr, h2, h3⟩ := h2
  refine ⟨reads_readInt, user_allowed, Sane.empty.run _, ht, dr, h2, ?_⟩
  rw [h3]
  decide

/-- The layout of `splitOps` succeeds, so C70 applies to it. -/
example : Consistent (Op.run {} splitOps) ∧ ∃ d', generateLayout 20 (Op.run {} splitOps) = .ok d' ∧ d'.getNodes.length = 6 :=
  let ⟨d', h1, h2, _⟩ := split_layout
  ⟨consistent_of_allowed _ split_allowed, d', h1, h2⟩

/-! ## C71 -/

/-- **C71.** `compute_determinant` changes its sign when two points are exchanged, does not depend on the origin, and its sign agrees with
`orientation`: 0 for points on a line, 1 (clockwise) for negative, 2 (counterclockwise) for positive determinants. -/
theorem C71_determinant (a b c : Point) (u v : Rat) :
    computeDeterminant b a c = -computeDeterminant a b c ∧ computeDeterminant b c a = computeDeterminant a b c ∧
    computeDeterminant ⟨a.x + u, a.y + v⟩ ⟨b.x + u, b.y + v⟩ ⟨c.x + u, c.y + v⟩ = computeDeterminant a b c ∧
    (orientation a b c = 0 ↔ computeDeterminant a b c = 0) ∧
    (orientation a b c = 1 ↔ computeDeterminant a b c < 0) ∧
    (orientation a b c = 2 ↔ 0 < computeDeterminant a b c) ∧
    (checkIntegerSign (computeDeterminant a b c) = true ↔ orientation a b c ≠ 1) := by
  have key : (b.y - a.y) * (c.x - b.x) - (b.x - a.x) * (c.y - b.y) = -computeDeterminant a b c := by
    simp only [computeDeterminant]
    ring
  refine ⟨?_, ?_, ?_, ?_, ?_, ?_, ?_⟩
  · simp only [computeDeterminant]
    ring
  · simp only [computeDeterminant]
    ring
  · simp only [computeDeterminant]
    ring
  all_goals
    simp only [orientation, key, checkIntegerSign, decide_eq_true_eq]
    rcases lt_trichotomy (computeDeterminant a b c) 0 with h | h | h
    · simp [h, h.ne, not_lt.2 h.le, h.not_ge]
    · simp [h]
    · simp [h, h.ne', not_lt.2 h.le, h.le]

/-- A counterclockwise triangle, and three points on a line. -/
example : computeDeterminant ⟨0, 0⟩ ⟨2, 0⟩ ⟨0, 3⟩ = 6 ∧ orientation ⟨0, 0⟩ ⟨2, 0⟩ ⟨0, 3⟩ = 2 ∧
    computeDeterminant ⟨0, 0⟩ ⟨1, 1⟩ ⟨3, 3⟩ = 0 := by
  norm_num [computeDeterminant, orientation]

end Bpmn.Props

import Verif.Lemmas.Construct
import Verif.Lemmas.NodeOps
import Verif.Lemmas.RoundTrip
set_option linter.unusedSimpArgs false
set_option linter.unusedVariables false
/-!
# Orderly histories build exportable diagrams
-/
namespace Bpmn
open Spec

theorem Spec.OrderlyHistory.allowed : ∀ {ops : List Op} {A : ADiagram}, OrderlyHistory A ops → AllowedHistory A ops
  | [], _, _ => trivial
  | _ :: _, _, h => ⟨h.1.1, h.2.allowed⟩

/-- The kind of a declared node. -/
def KindReady (a : NodeAttrs) : Prop := ∃ k ∈ nodeKinds, a.type = some k.1 ∧ presentKeys a = k.2.1 ∧ (a.default.join.isSome → k.2.2.1 = true) ∧
    ∀ e ∈ a.eventDefinitions.getD [], e.defType ∈ k.2.2.2

theorem definitionsOf_mem {table : List (String × String)} {short : Option String} {i : String} {e : EventDef}
    (h : e ∈ definitionsOf table short i) : e.defType ∈ table.map (·.2) := by
  obtain ⟨p, hp, rfl⟩ := List.mem_map.1 h
  exact List.mem_map.2 ⟨p, (List.mem_filter.1 hp).1, rfl⟩

theorem kindReady_of_usable {op : Op} (h : usable op = true) {n : ANode} (hn : declaredNode op = some n) : KindReady n.attrs := by
  cases op <;> simp only [declaredNode, Option.some.injEq, reduceCtorEq] at hn
  case addStartEvent =>
    subst hn
    simp only [KindReady, nodeKinds, List.mem_cons, exists_eq_or_imp, List.not_mem_nil]
    simp [baseNode, presentKeys]
    intro e he
    have := definitionsOf_mem he
    simp [startKinds] at this ⊢
    tauto
  case addEndEvent =>
    subst hn
    simp only [KindReady, nodeKinds, List.mem_cons, exists_eq_or_imp, List.not_mem_nil]
    simp [baseNode, presentKeys]
    intro e he
    have := definitionsOf_mem he
    simp [endKinds] at this ⊢
    tauto
  all_goals
    subst hn
    first
      | (simp only [usable, List.mem_cons, List.not_mem_nil, or_false, decide_eq_true_eq] at h
         rcases h with rfl | rfl | rfl | rfl <;>
           simp [KindReady, nodeKinds, baseNode, presentKeys])
      | simp [KindReady, nodeKinds, baseNode, presentKeys]

/-- What is known of an abstract diagram after an orderly history. -/
structure AReady (A : ADiagram) : Prop where
  kinds : ∀ n ∈ A.nodes, KindReady n.attrs
  /-- each node is in a process or in a sub-process declared before it -/
  nested : ∀ l n r, A.nodes = l ++ n :: r → ∃ p, n.attrs.process = some p ∧
    ((∃ q ∈ A.procs, q.id = p) ∨ ∃ m ∈ l, m.id = p ∧ m.attrs.type = some "subProcess")
  apart : ∀ q ∈ A.procs, ∀ n ∈ A.nodes, q.id ≠ n.id
  flows : ∀ f ∈ A.flows, f.id ≠ "" ∧ Placed A f.process

theorem Placed.mono {A B : ADiagram} {p : String} (h : Placed A p) (hp : ∀ q ∈ A.procs, q ∈ B.procs) (hn : ∀ m ∈ A.nodes, m ∈ B.nodes) :
    Placed B p := by
  rcases h with ⟨q, hq, e⟩ | ⟨m, hm, e⟩
  · exact .inl ⟨q, hp q hq, e⟩
  · exact .inr ⟨m, hn m hm, e⟩

theorem AReady.header (h) : AReady { header := h } := by constructor <;> simp

theorem AReady.add {A : ADiagram} (h : AReady A) {ns : Option ANode} {fs : Option AFlow}
    (hn : ∀ n, ns = some n → KindReady n.attrs ∧ (∃ p, n.attrs.process = some p ∧ Placed A p) ∧ ∀ q ∈ A.procs, q.id ≠ n.id)
    (hf : ∀ f, fs = some f → f.id ≠ "" ∧ Placed A f.process) :
    AReady { A with nodes := A.nodes ++ ns.toList, flows := A.flows ++ fs.toList } where
  kinds := by
    intro n hm
    rcases List.mem_append.1 hm with hm | hm
    · exact h.kinds n hm
    · exact (hn n (by simpa using hm)).1
  nested := by
    intro l n r e
    simp only at e
    cases ns with
    | none =>
      simp only [Option.toList, List.append_nil] at e
      exact h.nested l n r e
    | some x =>
      rcases List.eq_nil_or_concat r with rfl | ⟨r', y, rfl⟩
      · obtain ⟨rfl, hx⟩ := List.append_inj' e (by simp)
        simp only [Option.toList, List.cons.injEq, and_true] at hx
        subst hx
        exact (hn x rfl).2.1
      · have e' : A.nodes ++ [x] = (l ++ n :: r') ++ [y] := by simpa using e
        obtain ⟨e1, -⟩ := List.append_inj' e' (by simp)
        exact h.nested l n r' e1
  apart := by
    intro q hq n hm
    rcases List.mem_append.1 hm with hm | hm
    · exact h.apart q hq n hm
    · exact (hn n (by simpa using hm)).2.2 q hq
  flows := by
    intro f hm
    have : f.id ≠ "" ∧ Placed A f.process := by
      rcases List.mem_append.1 hm with hm | hm
      · exact h.flows f hm
      · exact hf f (by simpa using hm)
    exact ⟨this.1, Placed.mono this.2 (fun _ h => h) (fun _ h => List.mem_append_left _ h)⟩

theorem AReady.proc {A : ADiagram} (h : AReady A) (p : AProc) (pl) (ha : ∀ n ∈ A.nodes, n.id ≠ p.id) :
    AReady { A with procs := A.procs ++ [p], plane := pl } where
  kinds := h.kinds
  nested := by
    intro l n r e
    obtain ⟨q, hq, hc⟩ := h.nested l n r e
    refine ⟨q, hq, ?_⟩
    rcases hc with ⟨x, hx, hx'⟩ | hc
    · exact .inl ⟨x, List.mem_append_left _ hx, hx'⟩
    · exact .inr hc
  apart := by
    intro q hq n hm
    rcases List.mem_append.1 hq with hq | hq
    · exact h.apart q hq n hm
    · rw [List.mem_singleton.1 hq]
      exact (ha n hm).symm
  flows := fun f hf => ⟨(h.flows f hf).1, Placed.mono (h.flows f hf).2 (fun _ h => List.mem_append_left _ h) (fun _ h => h)⟩

theorem AReady.step {A : ADiagram} (h : AReady A) {op : Op} (ho : Orderly A op) : AReady (step A op) := by
  have key : AReady { A with nodes := A.nodes ++ (declaredNode op).toList, flows := A.flows ++ (declaredFlow op).toList } :=
    h.add (fun n hn => ⟨kindReady_of_usable ho.kind hn, ho.node n hn⟩) ho.flow
  cases op
  case createNew => exact AReady.header _
  case addProcess => exact h.proc _ _ (ho.proc _ _ _ _ _ _ rfl)
  all_goals exact key

theorem AReady.run : ∀ {ops : List Op} {A : ADiagram}, AReady A → OrderlyHistory A ops → AReady (runAbs A ops)
  | [], _, h, _ => h
  | _ :: _, _, h, ho => (h.step ho.1.2).run ho.2

theorem exportable_concretize {A : ADiagram} (w : AWF A) (h : AReady A) (hs : Sane (concretize A)) (hh : A.header.isSome) (hp : A.plane.isSome) :
    Exportable (concretize A) where
  header := by simp [concretize, hh, hp]
  pools := by
    intro c hc
    cases hc
  lanes := by
    intro p hp
    obtain ⟨q, -, rfl⟩ := List.mem_map.1 hp
    exact fun l hl => absurd hl (by simp [lanesOf, procOf])
  messages := by
    intro c hc
    cases hc
  owners := by
    intro c hc
    cases hc
  shapeIds := by
    have : laneIds (concretize A) = [] := by
      rw [laneIds, List.flatMap_eq_nil_iff]
      intro p hp
      obtain ⟨q, -, rfl⟩ := List.mem_map.1 hp
      simp [lanesOf, procOf]
    rw [this]
    exact hs.nodesUnique
  laneNames := by
    have : laneIds (concretize A) = [] := by
      rw [laneIds, List.flatMap_eq_nil_iff]
      intro p hp
      obtain ⟨q, -, rfl⟩ := List.mem_map.1 hp
      simp [lanesOf, procOf]
    rw [this]
    simp
  sane := hs
  nodes := by
    intro n hn
    obtain ⟨m, hm, rfl⟩ := List.mem_map.1 hn
    obtain ⟨g1, g2, g3, g4, g5, g6, g7, g8⟩ := w.geom m hm
    have hids : ∀ l : List AFlow, (∀ f ∈ l, f ∈ A.flows) → "" ∉ l.map (·.id) := by
      intro l hl hc
      obtain ⟨f, hf, e⟩ := List.mem_map.1 hc
      exact (h.flows f (hl f hf)).1 e
    exact {
      id := g3, name := g5, process := g6, width := by simp [nodeOf, g7], height := by simp [nodeOf, g8],
      x := by simp [nodeOf, g1], y := by simp [nodeOf, g2], kind := h.kinds m hm,
      incoming := ⟨_, rfl, hids _ fun f hf => (List.mem_filter.1 hf).1⟩,
      outgoing := ⟨_, rfl, hids _ fun f hf => (List.mem_filter.1 hf).1⟩ }
  flows := by
    intro e he
    obtain ⟨f, hf, rfl⟩ := List.mem_map.1 he
    constructor <;> simp [edgeOf]
  procIds := by
    have := w.procsNodup
    simpa [concretize, procOf, Function.comp_def] using this
  procs := by
    intro p hp
    obtain ⟨q, -, rfl⟩ := List.mem_map.1 hp
    simp [procOf]
  apart := by
    intro p hp n hn
    obtain ⟨q, hq, rfl⟩ := List.mem_map.1 hp
    obtain ⟨m, hm, rfl⟩ := List.mem_map.1 hn
    exact h.apart q hq m hm
  noCircles := by
    refine ⟨fun i => (A.nodes.map (·.id)).idxOf i, ?_⟩
    intro n hn m0 hm0 hp ht
    obtain ⟨m, hm, rfl⟩ := List.mem_map.1 hn
    obtain ⟨l, r, e⟩ := List.append_of_mem hm
    obtain ⟨q, hq, hc⟩ := h.nested l m r e
    have : m0.1 = q := by
      simp only [nodeOf] at hp
      rw [hp] at hq
      exact Option.some.inj hq
    subst this
    rcases hc with ⟨x, hx, hx'⟩ | ⟨k, hk, hk', -⟩
    · obtain ⟨y, hy, rfl⟩ := List.mem_map.1 hm0
      exact absurd hx' (h.apart x hx y hy)
    · have hnd := w.nodesNodup
      rw [e, List.map_append, List.map_cons] at hnd
      have hm' : m.id ∉ l.map (·.id) := by
        intro hc
        exact (List.nodup_append.1 hnd).2.2 _ hc _ List.mem_cons_self rfl
      have hk' : m0.1 ∈ l.map (·.id) := List.mem_map.2 ⟨k, hk, hk'⟩
      simp only [e, List.map_append, List.map_cons]
      rw [List.idxOf_append_of_mem hk', List.idxOf_append_of_notMem hm']
      have := List.idxOf_lt_length_of_mem hk'
      simp at this ⊢
      omega
  placed := by
    intro n hn p hp
    obtain ⟨m, hm, rfl⟩ := List.mem_map.1 hn
    obtain ⟨l, r, e⟩ := List.append_of_mem hm
    obtain ⟨q, hq, hc⟩ := h.nested l m r e
    have : p = q := by
      simp only [nodeOf] at hp
      rw [hp] at hq
      exact Option.some.inj hq
    subst this
    rcases hc with ⟨x, hx, rfl⟩ | ⟨k, hk, rfl, ht⟩
    · exact .inl (List.mem_map.2 ⟨_, List.mem_map.2 ⟨x, hx, rfl⟩, rfl⟩)
    · exact .inr ⟨_, List.mem_map.2 ⟨k, by rw [e]; exact List.mem_append_left _ hk, rfl⟩, rfl, ht⟩
  flowProcess := by
    intro e he
    obtain ⟨f, hf, rfl⟩ := List.mem_map.1 he
    refine .inl ⟨f.process, rfl, ?_⟩
    rcases (h.flows f hf).2 with ⟨q, hq, e⟩ | ⟨m, hm, e, ht⟩
    · exact .inl (List.mem_map.2 ⟨_, List.mem_map.2 ⟨q, hq, rfl⟩, e⟩)
    · exact .inr ⟨_, List.mem_map.2 ⟨m, hm, rfl⟩, e, ht⟩
  flowIds := by
    have := w.flowsNodup
    have h2 : (concretize A).graph.edges.map (·.attrs.id) = (A.flows.map (·.id)).map some := by
      simp [concretize, edgeOf, Function.comp_def]
    rw [h2]
    exact this.map (fun _ _ => Option.some.inj)
  listed := by
    intro e he i s t hi hs ht
    obtain ⟨f, hf, rfl⟩ := List.mem_map.1 he
    simp only [edgeOf, Option.some.injEq] at hi hs ht
    subst hi hs ht
    obtain ⟨h1, h2⟩ := w.ends f hf
    obtain ⟨a, ha, ha'⟩ := List.mem_map.1 h1
    obtain ⟨b, hb, hb'⟩ := List.mem_map.1 h2
    refine ⟨⟨nodeOf A.flows a, _, ?_, rfl, ?_⟩, ⟨nodeOf A.flows b, _, ?_, rfl, ?_⟩⟩
    · rw [← ha']
      exact get?_map A.nodes (·.id) (nodeOf A.flows) w.nodesNodup ha
    · exact List.mem_map.2 ⟨f, List.mem_filter.2 ⟨hf, by simp [ha']⟩, rfl⟩
    · rw [← hb']
      exact get?_map A.nodes (·.id) (nodeOf A.flows) w.nodesNodup hb
    · exact List.mem_map.2 ⟨f, List.mem_filter.2 ⟨hf, by simp [hb']⟩, rfl⟩
  table := by
    intro i v
    rw [Dict.get?_eq_some_iff (by simpa [concretize, Dict.keys, Function.comp_def] using w.flowsNodup)]
    constructor
    · intro hm
      obtain ⟨f, hf, e⟩ := List.mem_map.1 hm
      simp only [Prod.mk.injEq] at e
      obtain ⟨rfl, rfl⟩ := e
      exact ⟨_, List.mem_map.2 ⟨f, hf, rfl⟩, rfl, rfl, rfl, rfl, rfl⟩
    · rintro ⟨e, he, -, h1, h2, h3, h4⟩
      obtain ⟨f, hf, rfl⟩ := List.mem_map.1 he
      simp only [edgeOf, Option.some.injEq] at h1 h2 h3 h4
      refine List.mem_map.2 ⟨f, hf, ?_⟩
      obtain ⟨a, b, c⟩ := v
      simp_all

/-- An orderly history with a header and a process builds an exportable diagram. -/
theorem exportable_of_orderly {ops : List Op} (h : OrderlyHistory {} ops) (hh : (runAbs {} ops).header.isSome)
    (hp : (runAbs {} ops).plane.isSome) : Exportable (Op.run {} ops) := by
  obtain ⟨e, w⟩ := run_empty ops h.allowed
  have hs : Sane (Op.run {} ops) := Sane.empty.run ops
  rw [e] at hs ⊢
  exact exportable_concretize w (AReady.run (AReady.header none) h) hs hh hp

end Bpmn

import Verif.Lemmas.ImportInv
set_option linter.unusedSimpArgs false
set_option linter.unusedVariables false
/-!
# Importing all elements of an exported process
-/
namespace Bpmn
open Spec Export Import

/-- Node `m` is in process or sub-process `p`, directly or in a sub-process. -/
inductive Within (d : Diagram) : String → String → Prop
  | child {p m b} : (m, b) ∈ d.graph.nodes → b.process = some p → Within d p m
  | deep {p c b m} : (c, b) ∈ d.graph.nodes → b.process = some p → b.type = some "subProcess" → Within d c m → Within d p m

/-- Everything inside `p` was imported. -/
def Full (d : Diagram) (S : String → Prop) (F : EdgeAttrs → Prop) (p : String) : Prop :=
  (∀ m, Within d p m → S m) ∧ ∀ a ∈ flowAttrs d, ∀ q, a.process = some q → (q = p ∨ Within d p q) → F a

theorem importElements_append (ord : List String → List String) (pid : String) (o : Owner) (l m : List Xml) (D : Diagram) :
    importElements ord pid o (l ++ m) D = (do
      let E ← importElements ord pid o l D
      importElements ord pid o m E) := by
  induction l generalizing D with
  | nil => simp [importElements]
  | cons x r ih =>
    simp only [List.cons_append, importElements]
    cases importElement ord pid o x D with
    | error e => rfl
    | ok E => simp [ih]

theorem importFlows_append (pid : String) (l m : List Xml) (D : Diagram) :
    importFlows pid (l ++ m) D = (do
      let E ← importFlows pid l D
      importFlows pid m E) := by
  induction l generalizing D with
  | nil => simp [importFlows]
  | cons x r ih =>
    simp only [List.cons_append, importFlows]
    split
    · exact ih D
    · cases x.tagName with
      | error e => rfl
      | ok t =>
        simp only [except_bind_ok]
        split
        · cases importSequenceFlow pid x D with
          | error e => rfl
          | ok E => simp [ih]
        · exact ih D

/-- Tags of elements that are not imported as nodes. -/
def skipped : List String := ["incoming", "outgoing", "sequenceFlow", "laneSet"]

theorem importElements_skip (ord : List String → List String) (pid : String) (o : Owner) (l : List Xml)
    (h : ∀ x ∈ l, ∃ t as ks, x = .elem t as ks ∧ removeNamespace t ∈ skipped) (D : Diagram) : importElements ord pid o l D = .ok D := by
  induction l with
  | nil => simp [importElements]
  | cons x r ih =>
    rw [List.forall_mem_cons] at h
    obtain ⟨⟨t, as, ks, rfl, ht⟩, h2⟩ := h
    have : importElement ord pid o (.elem t as ks) D = .ok D := by
      simp only [skipped, List.mem_cons, List.not_mem_nil, or_false] at ht
      rcases ht with ht | ht | ht | ht <;> simp [importElement, ht, importSimple, Import.isTask]
    simp [importElements, this, ih h2]

theorem importFlows_skip (pid : String) (l : List Xml)
    (h : ∀ x ∈ l, ∃ t as ks, x = .elem t as ks ∧ removeNamespace t ≠ "sequenceFlow") (D : Diagram) : importFlows pid l D = .ok D := by
  induction l with
  | nil => simp [importFlows]
  | cons x r ih =>
    rw [List.forall_mem_cons] at h
    obtain ⟨⟨t, as, ks, rfl, ht⟩, h2⟩ := h
    simp [importFlows, Xml.isText, Xml.tagName, ht, ih h2]

/-- The flow elements of a process. -/
theorem importFlows_trees {d : Diagram} {P H} (hf : FlowFacts d) {pid : String} : ∀ (l : List Flow)
    (hl : ∀ x ∈ l, x.2.2 ∈ flowAttrs d ∧ x.2.2.process = some pid) {S F D} (h : Inv d P H S F D),
    ∃ D', importFlows pid (l.map fun x => (flowTree x.2.2).toDom) D = .ok D' ∧
      Inv d P H S (fun b => F b ∨ b ∈ l.map (·.2.2)) D'
  | [], _, S, F, D, h => ⟨D, by simp [importFlows], by simpa using h⟩
  | x :: r, hl, S, F, D, h => by
    rw [List.forall_mem_cons] at hl
    obtain ⟨D1, h1, i1⟩ := h.flow hf hl.1.1 hl.1.2
    obtain ⟨D2, h2, i2⟩ := importFlows_trees hf r hl.2 i1
    refine ⟨D2, ?_, ?_⟩
    · obtain ⟨t, as, ks, htree, ht⟩ : ∃ t as ks, (flowTree x.2.2).toDom = .elem t as ks ∧ removeNamespace t = "sequenceFlow" :=
        ⟨_, _, _, toDom_flowTree (hf.ready _ hl.1.1), by decide⟩
      rw [htree] at h1
      simp [importFlows, htree, Xml.isText, Xml.tagName, ht, h1, h2]
    · have : (fun b => (F b ∨ b = x.2.2) ∨ b ∈ r.map (·.2.2)) = (fun b => F b ∨ b ∈ (x :: r).map (·.2.2)) := by
        funext b
        simp [or_assoc]
      exact this ▸ i2

/-- What the import of nodes relies on. -/
structure NodeFacts (d : Diagram) (height : String → Nat) : Prop extends FlowFacts d where
  unique : d.graph.nodes.keys.Nodup
  nodes : ∀ n ∈ d.graph.nodes, NodeReady n
  sane : Sane d
  heights : ∀ n ∈ d.graph.nodes, ∀ m ∈ d.graph.nodes, n.2.type = some "subProcess" → m.2.process = some n.1 → height m.1 < height n.1
  /-- flows inside a node are inside a sub-process -/
  inSub : ∀ a ∈ flowAttrs d, ∀ n ∈ d.graph.nodes, a.process = some n.1 → n.2.type = some "subProcess"

theorem mem_flowsByProcess {d : Diagram} (hs : Sane d) {p : String} {x : Flow} (h : x ∈ d.getFlowsByProcess p) :
    x.2.2 ∈ flowAttrs d ∧ x.2.2.process = some p := by
  obtain ⟨h1, h2⟩ := List.mem_filter.1 h
  obtain ⟨e, he, hx⟩ := mem_getFlows hs h1
  exact ⟨List.mem_map.2 ⟨e, he, hx⟩, by simpa using h2⟩

theorem flowsByProcess_all {d : Diagram} (hs : Sane d) {p : String} {a : EdgeAttrs} (ha : a ∈ flowAttrs d) (hp : a.process = some p) :
    a ∈ (d.getFlowsByProcess p).map (·.2.2) := by
  obtain ⟨e, he, rfl⟩ := List.mem_map.1 ha
  obtain ⟨u, v, hx⟩ := Graph.exists_flow_of_attrs hs.wf he
  exact List.mem_map.2 ⟨_, List.mem_filter.2 ⟨hx, by simpa using hp⟩, rfl⟩

/-- Importing what is inside a process or sub-process, given how to import its nodes. -/
theorem importInside {d : Diagram} {P H height} {ord : List String → List String} (hd : NodeFacts d height) {pid : String} {o : Owner} {f : Nat}
    (hstep : ∀ (n : Node), n ∈ nodesOf d pid → ∀ {S F D}, Inv d P H S F D →
      ∃ D' S' F', importElement ord pid o (nodeTree d f n).toDom D = .ok D' ∧ Inv d P H S' F' D' ∧
        (∀ m, S m → S' m) ∧ (∀ a, F a → F' a) ∧ S' n.1 ∧ (n.2.type = some "subProcess" → Full d S' F' n.1))
    (pre : List Xml) (hpre : ∀ x ∈ pre, ∃ t as ks, x = Xml.elem t as ks ∧ removeNamespace t ∈ ["incoming", "outgoing", "laneSet"])
    (htag : ∀ n ∈ nodesOf d pid, ∃ t as ks, (nodeTree d f n).toDom = .elem t as ks ∧ removeNamespace t ≠ "sequenceFlow")
    {S F D} (h : Inv d P H S F D) :
    ∃ D' S' F', (do
        let E ← importElements ord pid o (pre ++ ((nodesOf d pid).map (fun m => (nodeTree d f m).toDom) ++
          (d.getFlowsByProcess pid).map (fun x : Flow => (flowTree x.2.2).toDom))) D
        importFlows pid (pre ++ ((nodesOf d pid).map (fun m => (nodeTree d f m).toDom) ++
          (d.getFlowsByProcess pid).map (fun x : Flow => (flowTree x.2.2).toDom))) E) = .ok D' ∧
      Inv d P H S' F' D' ∧ (∀ m, S m → S' m) ∧ (∀ a, F a → F' a) ∧ Full d S' F' pid := by
  have hloop : ∀ (l : List Node), (∀ n ∈ l, n ∈ nodesOf d pid) → ∀ {S F D}, Inv d P H S F D →
      ∃ D' S' F', importElements ord pid o (l.map fun m => (nodeTree d f m).toDom) D = .ok D' ∧ Inv d P H S' F' D' ∧
        (∀ m, S m → S' m) ∧ (∀ a, F a → F' a) ∧ ∀ n ∈ l, S' n.1 ∧ (n.2.type = some "subProcess" → Full d S' F' n.1) := by
    intro l
    induction l with
    | nil => intro _ S F D h; exact ⟨D, S, F, by simp [importElements], h, fun _ h => h, fun _ h => h, by simp⟩
    | cons n r ih =>
      intro hl S F D h
      rw [List.forall_mem_cons] at hl
      obtain ⟨D1, S1, F1, e1, i1, s1, f1, n1, full1⟩ := hstep n hl.1 h
      obtain ⟨D2, S2, F2, e2, i2, s2, f2, n2⟩ := ih hl.2 i1
      refine ⟨D2, S2, F2, by simp [importElements, e1, e2], i2, fun m hm => s2 m (s1 m hm), fun a ha => f2 a (f1 a ha), ?_⟩
      rw [List.forall_mem_cons]
      refine ⟨⟨s2 _ n1, fun ht => ?_⟩, n2⟩
      obtain ⟨g1, g2⟩ := full1 ht
      exact ⟨fun m hm => s2 m (g1 m hm), fun a ha q hq hw => f2 a (g2 a ha q hq hw)⟩
  obtain ⟨D1, S1, F1, e1, i1, s1, f1, n1⟩ := hloop (nodesOf d pid) (fun _ h => h) h
  obtain ⟨D2, e2, i2⟩ := importFlows_trees hd.toFlowFacts (d.getFlowsByProcess pid) (fun x hx => mem_flowsByProcess hd.sane hx) i1
  have hflowTag : ∀ x ∈ (d.getFlowsByProcess pid).map (fun x : Flow => (flowTree x.2.2).toDom), ∃ t as ks, x = .elem t as ks ∧ removeNamespace t ∈ skipped := by
    intro x hx
    obtain ⟨y, hy, rfl⟩ := List.mem_map.1 hx
    exact ⟨_, _, _, toDom_flowTree (hd.ready _ (mem_flowsByProcess hd.sane hy).1), by decide⟩
  refine ⟨D2, S1, _, ?_, i2, s1, fun a ha => .inl (f1 a ha), ?_, ?_⟩
  · rw [importElements_append, importElements_skip _ _ _ pre, except_bind_ok, importElements_append, e1, except_bind_ok,
      importElements_skip _ _ _ _ hflowTag, except_bind_ok, importFlows_append, importFlows_skip, except_bind_ok, importFlows_append,
      importFlows_skip, except_bind_ok, e2]
    · intro x hx
      obtain ⟨y, hy, rfl⟩ := List.mem_map.1 hx
      exact htag y hy
    · intro x hx
      obtain ⟨t, as, ks, rfl, h⟩ := hpre x hx
      refine ⟨t, as, ks, rfl, ?_⟩
      simp only [List.mem_cons, List.not_mem_nil, or_false] at h
      rcases h with h | h | h <;> rw [h] <;> decide
    · intro x hx
      obtain ⟨t, as, ks, rfl, h⟩ := hpre x hx
      refine ⟨t, as, ks, rfl, ?_⟩
      simp only [List.mem_cons, List.not_mem_nil, or_false] at h
      rcases h with h | h | h <;> rw [h] <;> decide
  · intro m hm
    cases hm with
    | child hb hp => exact (n1 _ (List.mem_filter.2 ⟨hb, by simpa using hp⟩)).1
    | deep hb hp ht hw => exact ((n1 _ (List.mem_filter.2 ⟨hb, by simpa using hp⟩)).2 ht).1 _ hw
  · intro a ha q hq hw
    rcases hw with rfl | hw
    · exact .inr (flowsByProcess_all hd.sane ha hq)
    · left
      cases hw with
      | child hb hp =>
        refine ((n1 _ (List.mem_filter.2 ⟨hb, by simpa using hp⟩)).2 ?_).2 a ha _ hq (.inl rfl)
        exact hd.inSub a ha _ hb hq
      | deep hb hp ht hw => exact ((n1 _ (List.mem_filter.2 ⟨hb, by simpa using hp⟩)).2 ht).2 a ha _ hq (.inr hw)

/-- Importing an exported node. -/
theorem importNode {d : Diagram} {P H height} {ord : List String → List String} (ho : Shuffle ord) (hd : NodeFacts d height) :
    ∀ (f : Nat) {n : String} {a : NodeAttrs}, (n, a) ∈ d.graph.nodes → height n < f → ∀ {pid : String}, a.process = some pid → ∀ (o : Owner)
      {S F D}, Inv d P H S F D →
      ∃ D' S' F', importElement ord pid o (nodeTree d f (n, a)).toDom D = .ok D' ∧ Inv d P H S' F' D' ∧
        (∀ m, S m → S' m) ∧ (∀ a, F a → F' a) ∧ S' n ∧ (a.type = some "subProcess" → Full d S' F' n)
  | 0, n, a, _, hh, _, _, _, S, F, D, h => by omega
  | f + 1, n, a, hm, hh, pid, hp, o, S, F, D, h => by
    have hr := hd.nodes _ hm
    rw [toDom_nodeTree hd.nodes f hm, ← nodeElem]
    have hget : d.graph.nodes.get? n = some a := Dict.get?_of_mem hd.unique hm
    by_cases hs : a.type = some "subProcess"
    · have hnonempty : ∀ m ∈ nodesOf d n, height m.1 < f := by
        intro m hm'
        obtain ⟨m1, m2⟩ := List.mem_filter.1 hm'
        have := hd.heights _ hm m m1 hs (by simpa using m2)
        simp only at this
        omega
      have htags : ∀ m ∈ nodesOf d n, ∃ t as ks, (nodeTree d f m).toDom = .elem t as ks ∧ removeNamespace t = t ∧ t ∉ textualTags ∧ t ≠ "sequenceFlow" := by
        rintro ⟨m, b⟩ hm'
        have := hnonempty _ hm'
        have hmem := (List.mem_filter.1 hm').1
        obtain ⟨g, rfl⟩ : ∃ g, f = g + 1 := ⟨f - 1, by omega⟩
        obtain ⟨k, hk, facts⟩ := (hd.nodes _ hmem).facts
        obtain ⟨p1, p2, p3, -⟩ := kind_plain hk
        refine ⟨_, _, _, toDom_nodeTree hd.nodes g hmem, ?_⟩
        simp only [show b.type = some k.1 from facts.type, Option.getD_some]
        exact ⟨p1, p2, p3⟩
      have hinner : innerXml d f n a = (nodesOf d n).map (fun m => (nodeTree d f m).toDom) ++
          (d.getFlowsByProcess n).map (fun x : Flow => (flowTree x.2.2).toDom) := by simp [innerXml, hs]
      obtain ⟨D1, G, e1, u1, c1⟩ := importSub_core (ord := ord) (d := d) (f := f) hr hs hp (by
        intro x hx
        rw [hinner] at hx
        rcases List.mem_append.1 hx with hx | hx
        · obtain ⟨m, hm', rfl⟩ := List.mem_map.1 hx
          obtain ⟨t, as, ks, h1, h2, h3, -⟩ := htags m hm'
          exact ⟨t, as, ks, h1, h2, h3⟩
        · obtain ⟨y, hy, rfl⟩ := List.mem_map.1 hx
          exact ⟨_, _, _, toDom_flowTree (hd.ready _ (mem_flowsByProcess hd.sane hy).1), by decide, by decide⟩) o D
      have i1 := h.node hget u1 c1
      obtain ⟨D2, S2, F2, e2, i2, s2, f2, full2⟩ := importInside (ord := ord) hd (pid := n) (o := .node n) (f := f) (by
          rintro ⟨m, b⟩ hm' S F D h
          obtain ⟨m1, m2⟩ := List.mem_filter.1 hm'
          exact importNode ho hd f m1 (hnonempty _ hm') (by simpa using m2) (.node n) h)
        ((a.incoming.getD []).map (refXml "incoming") ++ (a.outgoing.getD []).map (refXml "outgoing"))
        (by
          intro x hx
          rcases List.mem_append.1 hx with hx | hx
          · obtain ⟨y, -, rfl⟩ := List.mem_map.1 hx
            exact ⟨_, _, _, rfl, by decide⟩
          · obtain ⟨y, -, rfl⟩ := List.mem_map.1 hx
            exact ⟨_, _, _, rfl, by decide⟩)
        (by
          intro m hm'
          obtain ⟨t, as, ks, h1, h2, -, h3⟩ := htags m hm'
          exact ⟨t, as, ks, h1, by rw [h2]; exact h3⟩) i1
      refine ⟨D2, S2, F2, ?_, i2, fun m hm => s2 m (.inl hm), f2, s2 n (.inr rfl), fun _ => full2⟩
      rw [e1, nodeElem, Xml.children, hinner]
      exact e2
    · obtain ⟨D1, G, e1, u1, c1⟩ := importSimple_core ho (d := d) f hr hs hp o D
      exact ⟨D1, _, _, e1, h.node hget u1 c1, fun m hm => .inl hm, fun _ h => h, .inr rfl, fun h => absurd h hs⟩

end Bpmn

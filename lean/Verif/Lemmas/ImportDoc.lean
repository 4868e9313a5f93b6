import Verif.Lemmas.ImportLoop
import Mathlib.Data.List.Nodup
import Mathlib.Data.List.Pairwise
set_option linter.unusedSimpArgs false
set_option linter.unusedVariables false
/-!
# Importing an exported document
-/
namespace Bpmn
open Spec Export Import

/-! ## From the conditions on the diagram -/

theorem eq_of_nodup_map {α β : Type} {f : α → β} {l : List α} (h : (l.map f).Nodup) {a b : α} (ha : a ∈ l) (hb : b ∈ l) (hab : f a = f b) :
    a = b := List.inj_on_of_nodup_map h ha hb hab

theorem Spec.SamePair.symm {a b c d : String} (h : SamePair a b c d) : SamePair c d a b := by
  rcases h with ⟨rfl, rfl⟩ | ⟨rfl, rfl⟩
  · exact .inl ⟨rfl, rfl⟩
  · exact .inr ⟨rfl, rfl⟩

theorem Spec.SamePair.trans {a b c d e f : String} (h : SamePair a b c d) (k : SamePair c d e f) : SamePair a b e f := by
  rcases h with ⟨rfl, rfl⟩ | ⟨rfl, rfl⟩
  · exact k
  · rcases k with ⟨rfl, rfl⟩ | ⟨rfl, rfl⟩
    · exact .inr ⟨rfl, rfl⟩
    · exact .inl ⟨rfl, rfl⟩

theorem Spec.Sane.edge_unique {d : Diagram} (h : Sane d) {e f : Edge} (he : e ∈ d.graph.edges) (hf : f ∈ d.graph.edges)
    (hp : SamePair e.u e.v f.u f.v) : e = f := by
  by_contra hne
  have h1 : d.graph.edges.Pairwise fun e f => e ≠ f → ¬SamePair e.u e.v f.u f.v := by
    apply h.onePerPair.imp
    intro x y hr _
    exact hr
  have h2 : d.graph.edges.Pairwise (flip fun e f => e ≠ f → ¬SamePair e.u e.v f.u f.v) := by
    apply h.onePerPair.imp
    intro x y hr _ hc
    exact hr hc.symm
  have := h1.forall_of_forall_of_flip (fun x _ hx => absurd rfl hx) h2 he hf
  exact this hne hp

theorem Spec.Exportable.flowFacts {d : Diagram} (h : Exportable d) : FlowFacts d where
  ready := by
    intro a ha
    obtain ⟨e, he, rfl⟩ := List.mem_map.1 ha
    exact h.flows e he
  ids := by
    intro a ha b hb hab
    obtain ⟨e, he, rfl⟩ := List.mem_map.1 ha
    obtain ⟨f, hf, rfl⟩ := List.mem_map.1 hb
    rw [eq_of_nodup_map h.flowIds he hf hab]
  pairs := by
    intro a ha b hb hj
    obtain ⟨e, he, rfl⟩ := List.mem_map.1 ha
    obtain ⟨f, hf, rfl⟩ := List.mem_map.1 hb
    obtain ⟨-, -, s, t, hs, ht, hp⟩ := h.sane.described e he
    obtain ⟨-, -, s', t', hs', ht', hp'⟩ := h.sane.described f hf
    rw [Edge.joins_iff] at hj
    simp only [coreEdge, hs, ht, hs', ht', Option.getD_some] at hj
    rw [h.sane.edge_unique he hf (hp.trans ((show SamePair s t s' t' from (show SamePair s' t' s t from hj).symm).trans hp'.symm))]
  source := by
    intro a ha
    obtain ⟨e, he, rfl⟩ := List.mem_map.1 ha
    obtain ⟨i, hi⟩ := Option.isSome_iff_exists.1 (h.flows e he).id
    obtain ⟨s, hs⟩ := Option.isSome_iff_exists.1 (h.flows e he).source
    obtain ⟨t, ht⟩ := Option.isSome_iff_exists.1 (h.flows e he).target
    simpa [hi, hs] using (h.listed e he i s t hi hs ht).1
  target := by
    intro a ha
    obtain ⟨e, he, rfl⟩ := List.mem_map.1 ha
    obtain ⟨i, hi⟩ := Option.isSome_iff_exists.1 (h.flows e he).id
    obtain ⟨s, hs⟩ := Option.isSome_iff_exists.1 (h.flows e he).source
    obtain ⟨t, ht⟩ := Option.isSome_iff_exists.1 (h.flows e he).target
    simpa [hi, ht] using (h.listed e he i s t hi hs ht).2

/-- Heights: the sub-processes of the content of a sub-process are nested less deeply. -/
theorem Spec.Writable.height {d : Diagram} (h : Writable d) : ∃ height : String → Nat, ∃ N, (∀ n ∈ d.graph.nodes, height n.1 < N) ∧
    ∀ n ∈ d.graph.nodes, ∀ m ∈ d.graph.nodes, n.2.type = some "subProcess" → m.2.process = some n.1 → height m.1 < height n.1 := by
  obtain ⟨depth, hd⟩ := h.noCircles
  obtain ⟨M, hM⟩ : ∃ M, ∀ n ∈ d.graph.nodes, depth n.1 ≤ M := by
    induction d.graph.nodes with
    | nil => exact ⟨0, by simp⟩
    | cons x r ih =>
      obtain ⟨M, hM⟩ := ih
      refine ⟨max M (depth x.1), ?_⟩
      intro n hn
      rcases List.mem_cons.1 hn with rfl | hn
      · exact Nat.le_max_right _ _
      · exact Nat.le_trans (hM n hn) (Nat.le_max_left _ _)
  refine ⟨fun n => M - depth n, M + 1, fun n _ => by simp only; omega, ?_⟩
  intro n hn m hm ht hp
  have := hM m hm
  have := hd m hm n hn hp ht
  simp only
  omega

theorem Spec.Exportable.nested {d : Diagram} (h : Exportable d) : ∃ depth : String → Nat, ∀ n ∈ d.graph.nodes, ∀ p, n.2.process = some p →
    p ∈ d.processElements.map (·.1) ∨ ∃ m ∈ d.graph.nodes, m.1 = p ∧ m.2.type = some "subProcess" ∧ depth p < depth n.1 := by
  obtain ⟨depth, hd⟩ := h.noCircles
  refine ⟨depth, ?_⟩
  intro n hn p hp
  rcases h.placed n hn p hp with h | ⟨m, hm, rfl, ht⟩
  · exact .inl h
  · exact .inr ⟨m, hm, rfl, ht, hd n hn m hm hp ht⟩

theorem Spec.Exportable.message {d : Diagram} (h : Exportable d) {e : Edge} (he : e ∈ d.graph.edges) {i : String} (hi : i ∈ messageIds d)
    (hid : e.attrs.id = some i) : ∃ c m, d.collaboration = some c ∧ (i, m) ∈ c.messageFlows ∧ m.id = i ∧ e.attrs.name = some m.name ∧
      e.attrs.sourceRef = some m.sourceRef ∧ e.attrs.targetRef = some m.targetRef ∧ e.attrs.process = none ∧ e.attrs.conditionExpression = none := by
  unfold messageIds at hi
  cases hc : d.collaboration with
  | none => simp [hc] at hi
  | some c =>
    simp only [hc, Option.map_some, Option.getD_some] at hi
    obtain ⟨⟨j, m⟩, hm, rfl⟩ := List.mem_map.1 hi
    obtain ⟨h1, h2⟩ := (h.messages c hc).2 _ hm
    exact ⟨c, m, rfl, hm, h1, h2 e he hid⟩

theorem Spec.Exportable.container {d : Diagram} (h : Exportable d) {e : Edge} (he : e ∈ d.graph.edges) (hp : e.attrs.process.isSome) :
    ∃ p, e.attrs.process = some p ∧ Container d p := by
  rcases h.flowProcess e he with h1 | ⟨i, hi, hid⟩
  · exact h1
  · obtain ⟨c, m, -, -, -, -, -, -, h1, -⟩ := h.message he hi hid
    rw [h1] at hp
    cases hp

theorem Spec.Exportable.nodeFacts {d : Diagram} (h : Exportable d) {height : String → Nat}
    (hh : ∀ n ∈ d.graph.nodes, ∀ m ∈ d.graph.nodes, n.2.type = some "subProcess" → m.2.process = some n.1 → height m.1 < height n.1) :
    NodeFacts d height where
  toFlowFacts := h.flowFacts
  unique := h.sane.nodesUnique
  nodes := h.nodes
  sane := h.sane
  heights := hh
  inSub := by
    intro a ha n hn hp
    obtain ⟨e, he, rfl⟩ := List.mem_map.1 ha
    obtain ⟨p, hp', hc⟩ := h.container he (by simp [hp])
    rw [hp, Option.some.injEq] at hp'
    subst hp'
    rcases hc with hc | ⟨m, hm, hmn, ht⟩
    · obtain ⟨q, hq, hqn⟩ := List.mem_map.1 hc
      exact absurd hqn (h.apart q hq n hn)
    · rw [← eq_of_nodup_map h.sane.nodesUnique hm hn hmn]
      exact ht

/-! ## Everything is inside a process -/

theorem Within.extend {d : Diagram} {p q : String} (h : Within d p q) {c m : NodeAttrs} {n : String} (hn : (n, m) ∈ d.graph.nodes)
    (hp : m.process = some q) (ht : ∀ b, (q, b) ∈ d.graph.nodes → b.type = some "subProcess") : Within d p n := by
  induction h with
  | child hb hbp => exact .deep hb hbp (ht _ hb) (.child hn hp)
  | deep hb hbp hbt _ ih => exact .deep hb hbp hbt (ih hp ht)

theorem Spec.Exportable.within {d : Diagram} (h : Exportable d) : ∀ n ∈ d.graph.nodes, ∃ p ∈ d.processElements.map (·.1), Within d p n.1 := by
  obtain ⟨depth, hd⟩ := h.nested
  have : ∀ k, ∀ n ∈ d.graph.nodes, depth n.1 < k → ∃ p ∈ d.processElements.map (·.1), Within d p n.1 := by
    intro k
    induction k with
    | zero => intro n _ hk; omega
    | succ k ih =>
      intro n hn hk
      obtain ⟨q, hq⟩ := Option.isSome_iff_exists.1 (h.nodes n hn).process
      rcases hd n hn q hq with hq' | ⟨m, hm, rfl, ht, hlt⟩
      · exact ⟨q, hq', .child hn hq⟩
      · obtain ⟨p, hp, hw⟩ := ih m hm (by omega)
        refine ⟨p, hp, hw.extend (c := {}) hn hq ?_⟩
        intro b hb
        have := eq_of_nodup_map h.sane.nodesUnique hb hm rfl
        rw [← this] at ht
        exact ht
  intro n hn
  exact this _ n hn (Nat.lt_succ_self _)

theorem Spec.Exportable.flowWithin {d : Diagram} (h : Exportable d) : ∀ a ∈ flowAttrs d, a.process.isSome → ∃ p ∈ d.processElements.map (·.1),
    ∃ q, a.process = some q ∧ (q = p ∨ Within d p q) := by
  intro a ha hs
  obtain ⟨e, he, rfl⟩ := List.mem_map.1 ha
  obtain ⟨q, hq, hc⟩ := h.container he hs
  rcases hc with hc | ⟨m, hm, rfl, -⟩
  · exact ⟨q, hc, q, hq, .inl rfl⟩
  · obtain ⟨p, hp, hw⟩ := h.within m hm
    exact ⟨p, hp, m.1, hq, .inr hw⟩

/-! ## Elements that do not occur inside a process -/

/-- Names looked up in the whole document. -/
def docTags : List String := ["laneSet", "process", "collaboration", "BPMNDiagram"]

theorem byNameIn_eq_nil {name : String} {l : List Xml} (h : ∀ x ∈ l, ∃ t as ks, x = .elem t as ks ∧ removeNamespace t ≠ name ∧ Xml.byNameIn name ks = []) :
    Xml.byNameIn name l = [] := by
  induction l with
  | nil => simp [Xml.byNameIn]
  | cons x r ih =>
    rw [List.forall_mem_cons] at h
    obtain ⟨⟨t, as, ks, rfl, h1, h2⟩, h3⟩ := h
    simp [Xml.byNameIn, Xml.localName, h1, Xml.byName, h2, ih h3]

theorem byNameIn_text (name s : String) : Xml.byNameIn name [.text s] = [] := by simp [Xml.byNameIn, Xml.byName]

theorem flowTree_noDoc {a : EdgeAttrs} (hr : FlowReady a) {name : String} (hn : name ∈ docTags) :
    ∃ t as ks, (flowTree a).toDom = .elem t as ks ∧ removeNamespace t ≠ name ∧ Xml.byNameIn name ks = [] := by
  refine ⟨_, _, _, toDom_flowTree hr, ?_, ?_⟩
  · revert name; decide
  · cases a.conditionExpression with
    | none => simp [Xml.byNameIn]
    | some c =>
      apply byNameIn_eq_nil
      intro x hx
      simp only [List.mem_singleton] at hx
      subst hx
      exact ⟨_, _, _, rfl, by revert name; decide, byNameIn_text _ _⟩

theorem nodeTree_noDoc {d : Diagram} {height} (hd : NodeFacts d height) {name : String} (hn : name ∈ docTags) :
    ∀ (f : Nat) (n : Node), n ∈ d.graph.nodes →
      ∃ t as ks, (nodeTree d f n).toDom = .elem t as ks ∧ removeNamespace t ≠ name ∧ Xml.byNameIn name ks = []
  | 0, n, _ => by
    refine ⟨"", [], [], by simp [nodeTree, el, ETree.toDom, ETree.textNodes, ETree.toDomKids, ETree.tailOf], ?_, by simp [Xml.byNameIn]⟩
    revert name; decide
  | f + 1, (n, a), hm => by
    obtain ⟨k, hk, facts⟩ := (hd.nodes _ hm).facts
    obtain ⟨p1, p2, p3, p4, p5, p6, p7, p8, p9⟩ := kind_plain hk
    refine ⟨_, _, _, toDom_nodeTree hd.nodes f hm, ?_, ?_⟩
    · rw [show a.type = some k.1 from facts.type, Option.getD_some, p1]
      simp only [docTags, List.mem_cons, List.not_mem_nil, or_false] at hn
      rcases hn with rfl | rfl | rfl | rfl <;> assumption
    · rw [byNameIn_append, byNameIn_append, byNameIn_refs, byNameIn_refs, List.nil_append, List.nil_append]
      · simp only [innerXml]
        split
        · rw [byNameIn_append, byNameIn_eq_nil, byNameIn_eq_nil, List.nil_append]
          · intro x hx
            obtain ⟨y, hy, rfl⟩ := List.mem_map.1 hx
            exact flowTree_noDoc (hd.ready _ (mem_flowsByProcess hd.sane hy).1) hn
          · intro x hx
            obtain ⟨y, hy, rfl⟩ := List.mem_map.1 hx
            exact nodeTree_noDoc hd hn f y (List.mem_filter.1 hy).1
        · apply byNameIn_eq_nil
          intro x hx
          obtain ⟨e, he, rfl⟩ := List.mem_map.1 hx
          obtain ⟨q1, q2, q3, q4, q5, q6, q7⟩ := p9 _ (facts.defs e he)
          refine ⟨_, _, _, rfl, ?_, by simp [Xml.byNameIn]⟩
          rw [q1]
          simp only [docTags, List.mem_cons, List.not_mem_nil, or_false] at hn
          rcases hn with rfl | rfl | rfl | rfl <;> assumption
      · revert name; decide
      · revert name; decide

/-! ## Processes -/

/-- The attributes of a process element. -/
def procXmlAttrs (p : String × ProcAttrs) : List (String × String) :=
  [("id", p.1), ("isClosed", p.2.isClosed.getD ""), ("isExecutable", p.2.isExecutable.getD ""), ("processType", p.2.processType.getD "")]

/-- The element of a lane without lanes inside. -/
def laneTree : Lane → ETree
  | .mk id name _ _ refs _ => el "lane" [("id", id), ("name", name)] (refs.map (leaf "flowNodeRef"))

/-- The lane set element, if there is a lane set. -/
def laneSetTrees (a : ProcAttrs) : List ETree :=
  match a.laneSet with
  | none => []
  | some s => [el "laneSet" [] (s.2.map laneTree)]

/-- The parsed element of a lane. -/
def laneXml : Lane → Xml
  | .mk id name _ _ refs _ => .elem "lane" [("id", id), ("name", name)] (refs.map (refXml "flowNodeRef"))

/-- The parsed lane set. -/
def laneSetXmls (a : ProcAttrs) : List Xml :=
  match a.laneSet with
  | none => []
  | some s => [.elem "laneSet" [] (s.2.map laneXml)]

/-- The parsed shape of a lane or pool. -/
def boxXml (id : String) (b : BoxDi) : Xml :=
  .elem "bpmndi:BPMNShape" ([("id", id ++ "_gui"), ("bpmnElement", id)] ++ [("isHorizontal", b.isHorizontal)])
    [.elem "omgdc:Bounds" [("width", b.width), ("height", b.height), ("x", b.x), ("y", b.y)] []]

/-- The plane has the shape of the lane, and nothing else for its id behind it. -/
def LaneSeen (plane : Xml) : Lane → Prop
  | .mk id _ _ _ _ di => ∃ b, di = some b ∧ laneShape id plane.children none = .ok (some (boxXml id b))

/-- The process element. -/
def procTree (d : Diagram) (f : Nat) (p : String × ProcAttrs) : ETree :=
  el "process" (procXmlAttrs p) (laneSetTrees p.2 ++ ((nodesOf d p.1).map (nodeTree d f) ++ (d.getFlowsByProcess p.1).map fun x => flowTree x.2.2))

/-- The parsed process element. -/
def procXml (d : Diagram) (f : Nat) (p : String × ProcAttrs) : Xml :=
  .elem "process" (procXmlAttrs p) (laneSetXmls p.2 ++ ((nodesOf d p.1).map (fun m => (nodeTree d f m).toDom) ++
    (d.getFlowsByProcess p.1).map fun x => (flowTree x.2.2).toDom))

/-- The entry made for the process. -/
def procEntry (p : String × ProcAttrs) : String × ProcAttrs :=
  (p.1, { id := some p.1, name := some "", isClosed := p.2.isClosed, isExecutable := p.2.isExecutable, processType := p.2.processType,
          laneSet := p.2.laneSet.map fun s => ("", s.2) })

theorem cleanAll_inside {d : Diagram} (hn : ∀ n ∈ d.graph.nodes, NodeReady n) (f : Nat) (p : String) :
    cleanAll ((nodesOf d p).map (nodeTree d f) ++ (d.getFlowsByProcess p).map fun x => flowTree x.2.2) = true := by
  rw [cleanAll_iff]
  intro t ht
  rcases List.mem_append.1 ht with ht | ht
  · obtain ⟨n, hn', rfl⟩ := List.mem_map.1 ht
    exact clean_nodeTree hn f n (List.mem_filter.1 hn').1
  · obtain ⟨x, -, rfl⟩ := List.mem_map.1 ht
    exact clean_flowTree _

theorem clean_laneTree (l : Lane) : clean (laneTree l) = true := by
  obtain ⟨id, name, ci, ch, refs, di⟩ := l
  apply clean_el (by decide)
  intro k hk
  obtain ⟨r, -, rfl⟩ := List.mem_map.1 hk
  exact clean_leaf _ r (by decide)

theorem cleanAll_lanes (ls : List Lane) : cleanAll (ls.map laneTree) = true := by
  rw [cleanAll_iff]
  intro k hk
  obtain ⟨l, -, rfl⟩ := List.mem_map.1 hk
  exact clean_laneTree l

theorem clean_laneSetTrees (a : ProcAttrs) : ∀ t ∈ laneSetTrees a, clean t = true := by
  intro t ht
  unfold laneSetTrees at ht
  split at ht
  · cases ht
  · rename_i s _
    simp only [List.mem_singleton] at ht
    subst ht
    exact clean_el (by decide) ((cleanAll_iff _).1 (cleanAll_lanes s.2))

theorem cleanAll_procKids {d : Diagram} (hn : ∀ n ∈ d.graph.nodes, NodeReady n) (f : Nat) (p : String × ProcAttrs) :
    cleanAll (laneSetTrees p.2 ++ ((nodesOf d p.1).map (nodeTree d f) ++ (d.getFlowsByProcess p.1).map fun x => flowTree x.2.2)) = true := by
  rw [cleanAll_iff]
  intro t ht
  rcases List.mem_append.1 ht with ht | ht
  · exact clean_laneSetTrees _ t ht
  · exact (cleanAll_iff _).1 (cleanAll_inside hn f p.1) t ht

theorem toDom_laneTree {l : Lane} (h : LaneReady l) : (laneTree l).toDom = laneXml l := by
  obtain ⟨id, name, refs, box, rfl, hr⟩ := h
  rw [laneTree, toDom_el, laneXml, List.map_map]
  · congr 1
    apply List.map_congr_left
    intro r hr'
    have : r ≠ "" := fun e => hr (e ▸ hr')
    simp [leaf, ETree.toDom, ETree.textNodes, ETree.toDomKids, refXml, this]
  · rw [cleanAll_iff]
    intro k hk
    obtain ⟨r, -, rfl⟩ := List.mem_map.1 hk
    exact clean_leaf _ r (by decide)

theorem toDom_laneSetTrees {a : ProcAttrs} (h : ∀ l ∈ lanesOf a, LaneReady l) : (laneSetTrees a).map ETree.toDom = laneSetXmls a := by
  unfold lanesOf at h
  unfold laneSetTrees laneSetXmls
  cases hs : a.laneSet with
  | none => rfl
  | some s =>
    simp only [hs, Option.map_some, Option.getD_some] at h
    simp only [List.map_cons, List.map_nil, List.cons.injEq, and_true]
    rw [toDom_el (cleanAll_lanes s.2), List.map_map]
    congr 1
    exact List.map_congr_left fun l hl => toDom_laneTree (h l hl)

theorem lanes_noDoc (a : ProcAttrs) {name : String} (hn : name ∈ docTags) :
    Xml.byNameIn name (laneSetXmls a) = if name = "laneSet" then laneSetXmls a else [] := by
  unfold laneSetXmls
  cases a.laneSet with
  | none => simp [Xml.byNameIn]
  | some s =>
    have inner : Xml.byNameIn name (s.2.map laneXml) = [] := by
      apply byNameIn_eq_nil
      intro x hx
      obtain ⟨⟨id, nm, ci, ch, refs, di⟩, -, rfl⟩ := List.mem_map.1 hx
      refine ⟨_, _, _, rfl, by revert name; decide, ?_⟩
      exact byNameIn_refs _ _ _ (by revert name; decide)
    simp only [Xml.byNameIn, Xml.byName, inner, Xml.localName, List.append_nil]
    have e : removeNamespace "laneSet" = "laneSet" := by decide
    by_cases h : name = "laneSet"
    · subst h; simp [e]
    · simp [e, h, Ne.symm h]

theorem setLane_append (ls : List Lane) (l : Lane) (h : laneId l ∉ ls.map laneId) : setLane ls l = ls ++ [l] := by
  induction ls with
  | nil => obtain ⟨⟩ := l; rfl
  | cons x r ih =>
    obtain ⟨i, n, ci, c, rf, di⟩ := x
    obtain ⟨i', n', ci', c', rf', di'⟩ := l
    simp only [List.map_cons, List.mem_cons, laneId, not_or] at h ih
    simp only [setLane, if_neg (Ne.symm h.1), List.cons_append, List.cons.injEq, true_and]
    exact ih h.2

theorem importLaneKids_refs (plane : Xml) : ∀ (rs : List String) (ci : Option String) (ch : List Lane) (acc : List String),
    importLaneKids plane (rs.map (refXml "flowNodeRef")) (ci, ch, acc) = .ok (ci, ch, acc ++ rs)
  | [], ci, ch, acc => by simp [importLaneKids]
  | r :: rs, ci, ch, acc => by
    rw [List.map_cons, refXml, importLaneKids, if_neg (by decide), if_pos (by decide)]
    simp only [Xml.firstValue, Xml.children, except_bind_ok]
    rw [importLaneKids_refs plane rs ci ch (acc ++ [r]), List.append_assoc]
    rfl

theorem importLane_ok {plane : Xml} {l : Lane} (h : LaneReady l) (hs : LaneSeen plane l) : importLane plane (laneXml l) = .ok l := by
  obtain ⟨id, name, refs, box, rfl, hr⟩ := h
  obtain ⟨b, hb, hsh⟩ := hs
  cases hb
  have h1 : (laneXml (.mk id name none [] refs (some box))).getAttr "id" = id := by simp [laneXml, getAttr_elem, Dict.get?_cons]
  have h2 : (laneXml (.mk id name none [] refs (some box))).getAttr "name" = name := by simp [laneXml, getAttr_elem, Dict.get?_cons]
  have h3 : boundsOf (boxXml id box) = .ok (.elem "omgdc:Bounds" [("width", box.width), ("height", box.height), ("x", box.x), ("y", box.y)] []) := by
    simp only [boundsOf, boxXml, Xml.byName, Xml.byNameIn, show Xml.localName "omgdc:Bounds" = "Bounds" by decide, if_true]
    rfl
  rw [laneXml] at h1 h2 ⊢
  simp only [importLane, importLaneKids_refs, List.nil_append, except_bind_ok, h1, h2, hsh, h3, except_pure, boxOf]
  simp [boxXml, getAttr_elem, Dict.get?_cons]

theorem importLanes_ok {plane : Xml} : ∀ (ls acc : List Lane), (∀ l ∈ ls, LaneReady l ∧ LaneSeen plane l) → ((acc ++ ls).map laneId).Nodup →
    importLanes plane (ls.map laneXml) acc = .ok (acc ++ ls)
  | [], acc, _, _ => by simp [importLanes]
  | l :: r, acc, h, hn => by
    rw [List.forall_mem_cons] at h
    have hl := importLane_ok h.1.1 h.1.2
    have happ : setLane acc l = acc ++ [l] := by
      apply setLane_append
      rw [List.map_append, List.map_cons] at hn
      intro hm
      exact (List.nodup_append.1 hn).2.2 _ hm _ (List.mem_cons_self ..) rfl
    have ih := importLanes_ok r (acc ++ [l]) h.2 (by simpa using hn)
    obtain ⟨id, name, refs, box, rfl, hr⟩ := h.1.1
    rw [List.map_cons, laneXml] at *
    rw [importLanes, if_pos (by decide), hl, except_bind_ok, happ, ih, List.append_assoc]
    rfl

theorem clean_procTree {d : Diagram} (hn : ∀ n ∈ d.graph.nodes, NodeReady n) (f : Nat) (p : String × ProcAttrs) :
    clean (procTree d f p) = true := by
  apply clean_el (by decide)
  exact (cleanAll_iff _).1 (cleanAll_procKids hn f p)

theorem toDom_procTree {d : Diagram} (hn : ∀ n ∈ d.graph.nodes, NodeReady n) (f : Nat) (p : String × ProcAttrs)
    (hl : ∀ l ∈ lanesOf p.2, LaneReady l) : (procTree d f p).toDom = procXml d f p := by
  rw [procTree, toDom_el (cleanAll_procKids hn f p), procXml, List.map_append, List.map_append, List.map_map, List.map_map, toDom_laneSetTrees hl]
  rfl

theorem inside_noDoc {d : Diagram} {height} (hd : NodeFacts d height) (f : Nat) (p : String) {name : String} (hn : name ∈ docTags) :
    Xml.byNameIn name ((nodesOf d p).map (fun m => (nodeTree d f m).toDom) ++ (d.getFlowsByProcess p).map fun x => (flowTree x.2.2).toDom) = [] := by
  rw [byNameIn_append, byNameIn_eq_nil, byNameIn_eq_nil, List.nil_append]
  · intro x hx
    obtain ⟨y, hy, rfl⟩ := List.mem_map.1 hx
    exact flowTree_noDoc (hd.ready _ (mem_flowsByProcess hd.sane hy).1) hn
  · intro x hx
    obtain ⟨y, hy, rfl⟩ := List.mem_map.1 hx
    exact nodeTree_noDoc hd hn f y (List.mem_filter.1 hy).1

theorem noProcIds_keys (l : Dict String ProcAttrs) : (noProcIds l).keys = l.keys := by
  simp [noProcIds, Dict.keys]

/-- Importing a process element. -/
theorem importProcess_tree {d : Diagram} {P H height} {ord : List String → List String} (ho : Shuffle ord) (hd : NodeFacts d height) {f : Nat}
    (hh : ∀ n ∈ d.graph.nodes, height n.1 < f) (plane : Xml) {p : String × ProcAttrs}
    (hl : ∀ l ∈ lanesOf p.2, LaneReady l ∧ LaneSeen plane l) (hln : ((lanesOf p.2).map laneId).Nodup)
    (hp : p.2.isClosed.isSome ∧ p.2.isExecutable.isSome ∧ p.2.processType.isSome) (hP : p.1 ∉ P.keys) {S F D} (h : Inv d P H S F D) :
    ∃ D' S' F', importProcess ord plane (procXml d f p) D = .ok D' ∧ Inv d (P ++ [procEntry p]) H S' F' D' ∧
      (∀ m, S m → S' m) ∧ (∀ a, F a → F' a) ∧ Full d S' F' p.1 := by
  obtain ⟨pid, pa⟩ := p
  obtain ⟨h1, h2, h3⟩ := hp
  obtain ⟨c1, hc1⟩ := Option.isSome_iff_exists.1 h1
  obtain ⟨c2, hc2⟩ := Option.isSome_iff_exists.1 h2
  obtain ⟨c3, hc3⟩ := Option.isSome_iff_exists.1 h3
  simp only at hc1 hc2 hc3 hP
  have hid : (procXml d f (pid, pa)).getAttr "id" = pid := by simp [procXml, procXmlAttrs, getAttr_elem, Dict.get?_cons]
  have hent : processEntry (procXml d f (pid, pa)) = { (procEntry (pid, pa)).2 with nodeIds := some [], laneSet := none } := by
    simp [processEntry, procXml, procXmlAttrs, getAttr_elem, attrOr_elem, Dict.get?_cons, procEntry, hc1, hc2, hc3]
  have hlanes : (procXml d f (pid, pa)).byName "laneSet" = laneSetXmls pa := by
    rw [procXml, Xml.byName, byNameIn_append, lanes_noDoc _ (by decide), if_pos rfl, inside_noDoc hd f pid (by decide), List.append_nil]
  have hkeys : pid ∉ D.processElements.keys := by
    rw [← noProcIds_keys, h.procs]; exact hP
  have i0 : Inv d (P ++ [procEntry (pid, pa)]) H S F
      { D with processElements := D.processElements ++ [(pid, { (procEntry (pid, pa)).2 with nodeIds := some [] })] } := by
    refine ⟨?_, h.head, h.nodup, h.nodes, h.edges, h.edgesNodup, h.table⟩
    rw [noProcIds, List.map_append, ← noProcIds, h.procs]
    simp [procEntry]
  have hset : importLaneSet plane pid (laneSetXmls pa) { D with processElements := D.processElements.set pid (processEntry (procXml d f (pid, pa))) } =
      .ok { D with processElements := D.processElements ++ [(pid, { (procEntry (pid, pa)).2 with nodeIds := some [] })] } := by
    rw [Dict.set_of_not_mem _ _ hkeys, hent]
    unfold lanesOf at hl hln
    unfold laneSetXmls
    cases hs : pa.laneSet with
    | none => simp [importLaneSet, procEntry, hs]
    | some s =>
      simp only [hs, Option.map_some, Option.getD_some] at hl hln
      have hx : (Xml.elem "laneSet" [] (s.2.map laneXml)).getAttr "id" = "" := by simp [getAttr_elem]
      simp only [importLaneSet, Xml.children, importLanes_ok s.2 [] hl (by simpa using hln), except_bind_ok, List.nil_append, hx, except_pure]
      rw [Dict.modify_append _ _ _ hkeys]
      simp [Dict.modify, procEntry, hs]
  obtain ⟨D', S', F', e, i, s, f', full⟩ := importInside (ord := ord) hd (pid := pid) (o := .process pid) (f := f) (by
      rintro ⟨m, b⟩ hm' S F D h
      obtain ⟨m1, m2⟩ := List.mem_filter.1 hm'
      exact importNode ho hd f m1 (hh _ m1) (by simpa using m2) (.process pid) h) (laneSetXmls pa) (by
        intro x hx
        unfold laneSetXmls at hx
        split at hx
        · cases hx
        · simp only [List.mem_singleton] at hx
          subst hx
          exact ⟨_, _, _, rfl, by decide⟩)
    (by
      rintro ⟨m, b⟩ hm'
      obtain ⟨m1, m2⟩ := List.mem_filter.1 hm'
      have := hh _ m1
      obtain ⟨g, rfl⟩ : ∃ g, f = g + 1 := ⟨f - 1, by omega⟩
      obtain ⟨k, hk, facts⟩ := (hd.nodes _ m1).facts
      obtain ⟨p1, p2, p3, -⟩ := kind_plain hk
      refine ⟨_, _, _, toDom_nodeTree hd.nodes g m1, ?_⟩
      rw [show b.type = some k.1 from facts.type, Option.getD_some, p1]
      exact p3) i0
  refine ⟨D', S', F', ?_, i, s, f', full⟩
  simp only [importProcess, hid, hlanes, hset, except_bind_ok]
  exact e

theorem importProcesses_trees {d : Diagram} {H height} {ord : List String → List String} (ho : Shuffle ord) (hd : NodeFacts d height) {f : Nat}
    (hh : ∀ n ∈ d.graph.nodes, height n.1 < f) (plane : Xml) : ∀ (l : List (String × ProcAttrs))
    (hl : ∀ p ∈ l, (∀ l ∈ lanesOf p.2, LaneReady l ∧ LaneSeen plane l) ∧ ((lanesOf p.2).map laneId).Nodup) (hp : ∀ p ∈ l, p.2.isClosed.isSome ∧ p.2.isExecutable.isSome ∧ p.2.processType.isSome) {P : Dict String ProcAttrs}
    (hP : (P.keys ++ l.map (·.1)).Nodup) {S F D} (h : Inv d P H S F D),
    ∃ D' S' F', importProcesses ord plane (l.map (procXml d f)) D = .ok D' ∧ Inv d (P ++ l.map procEntry) H S' F' D' ∧
      (∀ m, S m → S' m) ∧ (∀ a, F a → F' a) ∧ ∀ p ∈ l, Full d S' F' p.1
  | [], _, _, P, _, S, F, D, h => ⟨D, S, F, by simp [importProcesses], by simpa using h, fun _ h => h, fun _ h => h, by simp⟩
  | p :: r, hl, hp, P, hP, S, F, D, h => by
    rw [List.forall_mem_cons] at hp hl
    rw [List.map_cons] at hP
    obtain ⟨D1, S1, F1, e1, i1, s1, f1, full1⟩ := importProcess_tree ho hd hh plane hl.1.1 hl.1.2 hp.1 (P := P) (by
      intro hc
      rw [List.nodup_append] at hP
      exact hP.2.2 _ hc _ List.mem_cons_self rfl) h
    obtain ⟨D2, S2, F2, e2, i2, s2, f2, full2⟩ := importProcesses_trees ho hd hh plane r hl.2 hp.2 (P := P ++ [procEntry p]) (by
      simpa [Dict.keys, procEntry] using hP) i1
    refine ⟨D2, S2, F2, by simp [importProcesses, e1, e2], by simpa using i2, fun m hm => s2 m (s1 m hm), fun a ha => f2 a (f1 a ha), ?_⟩
    rw [List.forall_mem_cons]
    refine ⟨?_, full2⟩
    exact ⟨fun m hm => s2 m (full1.1 m hm), fun a ha q hq hw => f2 a (full1.2 a ha q hq hw)⟩

end Bpmn

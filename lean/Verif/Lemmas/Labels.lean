import Verif.Lemmas.RoundTrip
set_option linter.unusedSimpArgs false
set_option linter.unusedVariables false
/-!
# What the exported trees contain
-/
namespace Bpmn
open Spec Export

mutual
theorem treeLabels_indent : ∀ (level : Nat) (t : ETree), treeLabels (indent level t) = treeLabels t
  | level, .node tag attrs text tail [] => by simp [indent, treeLabels, label, tagOf, attrOf]
  | level, .node tag attrs text tail (k :: ks) => by
    simp [indent, treeLabels, label, tagOf, attrOf, labelsAll_indentAll (level + 1) (k :: ks)]
theorem labelsAll_indentAll : ∀ (level : Nat) (l : List ETree), labelsAll (indentAll level l) = labelsAll l
  | _, [] => by simp [indentAll]
  | level, t :: r => by simp [indentAll, labelsAll, treeLabels_indent level t, labelsAll_indentAll level r]
end

theorem indentAll_eq_map (level : Nat) (l : List ETree) : indentAll level l = l.map (indent level) := by
  induction l with
  | nil => simp [indentAll]
  | cons t r ih => simp [indentAll, ih]

@[simp] theorem tagOf_indent (level : Nat) (t : ETree) : tagOf (indent level t) = tagOf t := by
  rcases t with ⟨tag, attrs, text, tail, _ | ⟨k, ks⟩⟩ <;> simp [indent, tagOf]

@[simp] theorem attrOf_indent (k : String) (level : Nat) (t : ETree) : attrOf k (indent level t) = attrOf k t := by
  rcases t with ⟨tag, attrs, text, tail, _ | ⟨k, ks⟩⟩ <;> simp [indent, attrOf]

@[simp] theorem label_indent (level : Nat) (t : ETree) : label (indent level t) = label t := by simp [label]

@[simp] theorem kidsOf_indent (level : Nat) (t : ETree) : kidsOf (indent level t) = (kidsOf t).map (indent (level + 1)) := by
  rcases t with ⟨tag, attrs, text, tail, _ | ⟨k, ks⟩⟩ <;> simp [indent, kidsOf, indentAll_eq_map]

theorem kidsTagged_indent (tag : String) (level : Nat) (t : ETree) :
    kidsTagged tag (indent level t) = (kidsTagged tag t).map (indent (level + 1)) := by
  simp [kidsTagged, List.filter_map, Function.comp_def]

theorem labelsAll_eq (l : List ETree) : labelsAll l = l.flatMap treeLabels := by
  induction l with
  | nil => simp [labelsAll]
  | cons t r ih => simp [labelsAll, ih]

theorem treeLabels_el (tag : String) (attrs : List (String × String)) (kids : List ETree) :
    treeLabels (el tag attrs kids) = (tag, (Dict.get? attrs "id").getD "") :: kids.flatMap treeLabels := by
  simp [el, treeLabels, label, tagOf, attrOf, labelsAll_eq]

/-- The types of nodes. -/
def kindNames : List String := nodeKinds.map (·.1)

/-- Labels of nodes. -/
def nodeLabels (l : List (String × String)) : List (String × String) := l.filter fun p => p.1 ∈ kindNames

/-- Labels of flows. -/
def flowLabels (l : List (String × String)) : List (String × String) := l.filter fun p => p.1 == "sequenceFlow"

/-- What is inside a process or sub-process. -/
def descend (d : Diagram) : Nat → String → List Node
  | 0, _ => []
  | f + 1, p => (nodesOf d p).flatMap fun n => n :: if n.2.type = some "subProcess" then descend d f n.1 else []

/-- Label of a node. -/
def nodeLabel (n : Node) : String × String := (n.2.type.getD "", n.1)

theorem nodeLabels_append (l m : List (String × String)) : nodeLabels (l ++ m) = nodeLabels l ++ nodeLabels m := by simp [nodeLabels]
theorem flowLabels_append (l m : List (String × String)) : flowLabels (l ++ m) = flowLabels l ++ flowLabels m := by simp [flowLabels]

theorem nodeLabels_flatMap {α : Type} (l : List α) (g : α → List (String × String)) :
    nodeLabels (l.flatMap g) = l.flatMap fun x => nodeLabels (g x) := by simp [nodeLabels, List.filter_flatMap]
theorem flowLabels_flatMap {α : Type} (l : List α) (g : α → List (String × String)) :
    flowLabels (l.flatMap g) = l.flatMap fun x => flowLabels (g x) := by simp [flowLabels, List.filter_flatMap]

theorem labels_leaf (tag text : String) : treeLabels (leaf tag text) = [(tag, "")] := by simp [leaf, treeLabels, label, tagOf, attrOf, labelsAll]

theorem flatMap_eq_nil' {α β : Type} {l : List α} {g : α → List β} (h : ∀ x ∈ l, g x = []) : l.flatMap g = [] := by
  simp only [List.flatMap_eq_nil_iff]
  exact h

theorem nodeLabels_leaves (tag : String) (h : tag ∉ kindNames) (l : List String) : nodeLabels ((l.map (leaf tag)).flatMap treeLabels) = [] := by
  rw [nodeLabels_flatMap]
  apply flatMap_eq_nil'
  intro x hx
  obtain ⟨y, -, rfl⟩ := List.mem_map.1 hx
  simp [labels_leaf, nodeLabels, h]

theorem nodeLabels_flowTree (a : EdgeAttrs) : nodeLabels (treeLabels (flowTree a)) = [] := by
  have h1 : ¬ "sequenceFlow" ∈ kindNames := by decide
  have h2 : ¬ "conditionExpression" ∈ kindNames := by decide
  rw [flowTree, treeLabels_el]
  cases a.conditionExpression <;> simp [nodeLabels, h1, h2, treeLabels, label, tagOf, labelsAll]

theorem flowLabels_flowTree (a : EdgeAttrs) : flowLabels (treeLabels (flowTree a)) = [("sequenceFlow", a.id.getD "")] := by
  rw [flowTree, treeLabels_el]
  cases a.conditionExpression <;> simp [flowLabels, treeLabels, label, tagOf, labelsAll, Dict.get?_cons]

theorem defTypes_facts {n : Node} (h : NodeReady n) : ∀ e ∈ n.2.eventDefinitions.getD [], e.defType ∉ kindNames ∧ e.defType ≠ "sequenceFlow" := by
  obtain ⟨k, hk, -, -, -, hdefs⟩ := h.kind
  intro e he
  have h1 := hdefs e he
  have h2 : ∀ k ∈ nodeKinds, ∀ t ∈ k.2.2.2, t ∉ kindNames ∧ t ≠ "sequenceFlow" := by decide
  exact h2 k hk _ h1

theorem type_facts {n : Node} (h : NodeReady n) : n.2.type.getD "" ∈ kindNames ∧ n.2.type.getD "" ≠ "sequenceFlow" := by
  obtain ⟨k, hk, ht, -⟩ := h.kind
  have h2 : ∀ k ∈ nodeKinds, k.1 ≠ "sequenceFlow" := by decide
  rw [ht]
  exact ⟨List.mem_map.2 ⟨k, hk, rfl⟩, h2 k hk⟩

theorem labels_exportDefs (defs : List EventDef) : (exportDefs defs).flatMap treeLabels = defs.map fun e => (e.defType, e.id) := by
  induction defs with
  | nil => simp [exportDefs]
  | cons e r ih =>
    simp only [exportDefs, ne_eq, ite_not] at ih
    by_cases h : e.id = "" <;> simp [exportDefs, treeLabels_el, h, ih, Dict.get?_cons]

theorem nodeLabels_nodeTree {d : Diagram} (hn : ∀ n ∈ d.graph.nodes, NodeReady n) : ∀ (f : Nat) (n : Node), n ∈ d.graph.nodes →
    nodeLabels (treeLabels (nodeTree d (f + 1) n)) = nodeLabel n :: if n.2.type = some "subProcess" then
      (nodesOf d n.1).flatMap (fun m => nodeLabels (treeLabels (nodeTree d f m))) else []
  | f, (n, a), hm => by
    have ht := (type_facts (hn _ hm)).1
    have hd := defTypes_facts (hn _ hm)
    simp only at ht hd
    simp only [nodeTree, treeLabels_el, List.flatMap_append]
    have hi : (Dict.get? (nodeXmlAttrs n a) "id").getD "" = n := by simp [nodeXmlAttrs, Dict.get?_cons]
    rw [hi]
    have hc : ∀ (p : String × String) (l : List (String × String)), p.1 ∈ kindNames → nodeLabels (p :: l) = p :: nodeLabels l := by
      intro p l hp
      simp [nodeLabels, hp]
    rw [hc _ _ ht, nodeLabels_append, nodeLabels_append, nodeLabels_leaves _ (by decide), nodeLabels_leaves _ (by decide)]
    simp only [List.nil_append, nodeLabel]
    congr 1
    by_cases hs : a.type = some "subProcess"
    · rw [if_pos hs, if_pos hs, List.flatMap_append, nodeLabels_append]
      have : nodeLabels (((d.getFlowsByProcess n).map fun x => flowTree x.2.2).flatMap treeLabels) = [] := by
        rw [nodeLabels_flatMap]
        apply flatMap_eq_nil'
        intro x hx
        obtain ⟨y, -, rfl⟩ := List.mem_map.1 hx
        exact nodeLabels_flowTree _
      rw [this, nodeLabels_flatMap, List.append_nil, List.flatMap_map]
    · rw [if_neg hs, if_neg hs, labels_exportDefs]
      simp only [nodeLabels, List.filter_eq_nil_iff, List.mem_map, decide_eq_true_eq]
      rintro x ⟨e, he, rfl⟩
      exact (hd e he).1

theorem flowLabels_leaves (tag : String) (h : tag ≠ "sequenceFlow") (l : List String) : flowLabels ((l.map (leaf tag)).flatMap treeLabels) = [] := by
  rw [flowLabels_flatMap]
  apply flatMap_eq_nil'
  intro x hx
  obtain ⟨y, -, rfl⟩ := List.mem_map.1 hx
  simp [labels_leaf, flowLabels, h]

theorem flowLabels_nodeTree {d : Diagram} (hn : ∀ n ∈ d.graph.nodes, NodeReady n) : ∀ (f : Nat) (n : Node), n ∈ d.graph.nodes →
    flowLabels (treeLabels (nodeTree d (f + 1) n)) = if n.2.type = some "subProcess" then
      (nodesOf d n.1).flatMap (fun m => flowLabels (treeLabels (nodeTree d f m))) ++
        (d.getFlowsByProcess n.1).map (fun x => ("sequenceFlow", x.2.2.id.getD "")) else []
  | f, (n, a), hm => by
    have ht := (type_facts (hn _ hm)).2
    have hd := defTypes_facts (hn _ hm)
    simp only at ht hd
    simp only [nodeTree, treeLabels_el, List.flatMap_append]
    have hc : ∀ (p : String × String) (l : List (String × String)), p.1 ≠ "sequenceFlow" → flowLabels (p :: l) = flowLabels l := by
      intro p l hp
      simp [flowLabels, hp]
    rw [hc _ _ ht, flowLabels_append, flowLabels_append, flowLabels_leaves _ (by decide), flowLabels_leaves _ (by decide)]
    simp only [List.nil_append]
    by_cases hs : a.type = some "subProcess"
    · rw [if_pos hs, if_pos hs, List.flatMap_append, flowLabels_append]
      congr 1
      · rw [flowLabels_flatMap, List.flatMap_map]
      · rw [flowLabels_flatMap, List.flatMap_map]
        simp only [flowLabels_flowTree]
        exact List.map_eq_flatMap.symm
    · rw [if_neg hs, if_neg hs, labels_exportDefs]
      simp only [flowLabels, List.filter_eq_nil_iff, List.mem_map, beq_iff_eq]
      rintro x ⟨e, he, rfl⟩
      exact (hd e he).2

theorem nodeLabels_descend {d : Diagram} (hn : ∀ n ∈ d.graph.nodes, NodeReady n) : ∀ (f : Nat) (p : String),
    (nodesOf d p).flatMap (fun m => nodeLabels (treeLabels (nodeTree d f m))) = (descend d f p).map nodeLabel
  | 0, p => by
    have : ¬ "" ∈ kindNames := by decide
    simp only [descend, List.map_nil]
    apply flatMap_eq_nil'
    intro x _
    simp [nodeTree, treeLabels_el, nodeLabels, this]
  | f + 1, p => by
    rw [descend, List.map_flatMap]
    apply flatMap_congr'
    intro m hm
    have hm' := (List.mem_filter.1 hm).1
    rw [nodeLabels_nodeTree hn f m hm', List.map_cons]
    congr 1
    split
    · exact nodeLabels_descend hn f m.1
    · rfl

/-- The treeLabels of the flows of a process or sub-process. -/
def ownFlows (d : Diagram) (p : String) : List (String × String) :=
  (d.getFlowsByProcess p).map fun x => ("sequenceFlow", x.2.2.id.getD "")

theorem flatMap_perm_congr {α β : Type} {l : List α} {f g : α → List β} (h : ∀ x ∈ l, (f x).Perm (g x)) :
    (l.flatMap f).Perm (l.flatMap g) := by
  induction l with
  | nil => simp
  | cons x r ih =>
    rw [List.forall_mem_cons] at h
    simp only [List.flatMap_cons]
    exact h.1.append (ih h.2)

theorem flowLabels_descend {d : Diagram} (hn : ∀ n ∈ d.graph.nodes, NodeReady n) : ∀ (f : Nat) (p : String),
    ((nodesOf d p).flatMap (fun m => flowLabels (treeLabels (nodeTree d f m)))).Perm
      ((descend d f p).flatMap fun m => if m.2.type = some "subProcess" then ownFlows d m.1 else [])
  | 0, p => by
    have : ¬ "" ∈ kindNames := by decide
    simp only [descend, List.flatMap_nil]
    rw [flatMap_eq_nil']
    intro x _
    simp [nodeTree, treeLabels_el, flowLabels, this]
  | f + 1, p => by
    rw [descend, List.flatMap_assoc]
    apply flatMap_perm_congr
    intro m hm
    have hm' := (List.mem_filter.1 hm).1
    rw [flowLabels_nodeTree hn f m hm', List.flatMap_cons]
    split
    · exact ((flowLabels_descend hn f m.1).append_right _).trans List.perm_append_comm
    · simp

/-! ## Every node is inside at most one process -/

theorem Within.up {d : Diagram} {p m : String} (h : Within d p m) : ∃ b, (m, b) ∈ d.graph.nodes ∧ (b.process = some p ∨
    ∃ q c, b.process = some q ∧ (q, c) ∈ d.graph.nodes ∧ c.type = some "subProcess" ∧ Within d p q) := by
  induction h with
  | child hb hp => exact ⟨_, hb, .inl hp⟩
  | @deep p c b m hb hp ht hw ih =>
    obtain ⟨b', hb', h | ⟨q, e, h1, h2, h3, h4⟩⟩ := ih
    · exact ⟨b', hb', .inr ⟨c, b, h, hb, ht, .child hb hp⟩⟩
    · exact ⟨b', hb', .inr ⟨q, e, h1, h2, h3, .deep hb hp ht h4⟩⟩

theorem Within.height_lt {d : Diagram} {height : String → Nat}
    (hh : ∀ n ∈ d.graph.nodes, ∀ m ∈ d.graph.nodes, n.2.type = some "subProcess" → m.2.process = some n.1 → height m.1 < height n.1)
    {p m : String} (h : Within d p m) : ∀ {a}, (p, a) ∈ d.graph.nodes → a.type = some "subProcess" → height m < height p := by
  induction h with
  | child hb hp =>
    intro a ha ht
    exact hh _ ha _ hb ht hp
  | deep hb hp ht hw ih =>
    intro a ha hta
    exact Nat.lt_trans (ih hb ht) (hh _ ha _ hb hta hp)

theorem within_unique {d : Diagram} {height : String → Nat} {N : Nat} (hN : ∀ n ∈ d.graph.nodes, height n.1 < N)
    (hh : ∀ n ∈ d.graph.nodes, ∀ m ∈ d.graph.nodes, n.2.type = some "subProcess" → m.2.process = some n.1 → height m.1 < height n.1)
    (hu : d.graph.nodes.keys.Nodup) {n1 n2 : Node} (h1 : n1 ∈ d.graph.nodes) (h2 : n2 ∈ d.graph.nodes) {p : String}
    (p1 : n1.2.process = some p) (p2 : n2.2.process = some p) : ∀ (k : Nat) (m : String), N ≤ height m + k →
      (m = n1.1 ∨ (n1.2.type = some "subProcess" ∧ Within d n1.1 m)) → (m = n2.1 ∨ (n2.2.type = some "subProcess" ∧ Within d n2.1 m)) → n1.1 = n2.1 := by
  have uniq : ∀ {n : String} {a b : NodeAttrs}, (n, a) ∈ d.graph.nodes → (n, b) ∈ d.graph.nodes → a = b := by
    intro n a b ha hb
    have := Dict.get?_of_mem hu ha
    rw [Dict.get?_of_mem hu hb] at this
    exact (Option.some.inj this).symm
  -- a sibling is not inside
  have sib : ∀ {a b : Node}, a ∈ d.graph.nodes → b ∈ d.graph.nodes → a.2.process = some p → b.2.process = some p →
      b.2.type = some "subProcess" → Within d b.1 a.1 → False := by
    intro a b ha hb pa pb tb hw
    obtain ⟨c, hc, h | ⟨q, e, e1, e2, e3, e4⟩⟩ := hw.up
    · have : c = a.2 := uniq hc ha
      subst this
      rw [pa, Option.some.injEq] at h
      subst h
      exact absurd (hh b hb b hb tb pb) (Nat.lt_irrefl _)
    · have : c = a.2 := uniq hc ha
      subst this
      rw [pa, Option.some.injEq] at e1
      subst e1
      have l1 := e4.height_lt hh hb tb
      have l2 := hh _ e2 b hb e3 pb
      simp only at l1 l2
      omega
  intro k
  induction k with
  | zero =>
    intro m hk g1 g2
    exfalso
    have : ∃ b, (m, b) ∈ d.graph.nodes := by
      rcases g1 with rfl | ⟨-, g⟩
      · exact ⟨_, h1⟩
      · obtain ⟨b, hb, -⟩ := g.up
        exact ⟨b, hb⟩
    obtain ⟨b, hb⟩ := this
    have := hN _ hb
    simp only at this
    omega
  | succ k ih =>
    intro m hk g1 g2
    rcases g1 with rfl | ⟨t1, g1⟩
    · rcases g2 with e | ⟨t2, g2⟩
      · exact e
      · exact (sib h1 h2 p1 p2 t2 g2).elim
    · rcases g2 with rfl | ⟨t2, g2⟩
      · exact (sib h2 h1 p2 p1 t1 g1).elim
      · obtain ⟨b, hb, c1⟩ := g1.up
        obtain ⟨b', hb', c2⟩ := g2.up
        have := uniq hb hb'
        subst this
        rcases c1 with c1 | ⟨q, e, e1, e2, e3, e4⟩
        · rcases c2 with c2 | ⟨q, e, e1, e2, e3, e4⟩
          · rw [c1] at c2
            exact Option.some.inj c2
          · rw [c1, Option.some.injEq] at e1
            subst e1
            exact (sib h1 h2 p1 p2 t2 e4).elim
        · rcases c2 with c2 | ⟨q', e', e1', e2', e3', e4'⟩
          · rw [c2, Option.some.injEq] at e1
            subst e1
            exact (sib h2 h1 p2 p1 t1 e4).elim
          · rw [e1, Option.some.injEq] at e1'
            subst e1'
            have := hh _ e2 _ hb e3 e1
            simp only at this
            exact ih q (by omega) (.inr ⟨t1, e4⟩) (.inr ⟨t2, e4'⟩)

theorem within_process_unique {d : Diagram} {height : String → Nat} {N : Nat} (hN : ∀ n ∈ d.graph.nodes, height n.1 < N)
    (hh : ∀ n ∈ d.graph.nodes, ∀ m ∈ d.graph.nodes, n.2.type = some "subProcess" → m.2.process = some n.1 → height m.1 < height n.1)
    (hu : d.graph.nodes.keys.Nodup) {p1 p2 : String} (a1 : ∀ n ∈ d.graph.nodes, p1 ≠ n.1) (a2 : ∀ n ∈ d.graph.nodes, p2 ≠ n.1) :
    ∀ (k : Nat) (m : String), N ≤ height m + k → Within d p1 m → Within d p2 m → p1 = p2 := by
  have uniq : ∀ {n : String} {a b : NodeAttrs}, (n, a) ∈ d.graph.nodes → (n, b) ∈ d.graph.nodes → a = b := by
    intro n a b ha hb
    have := Dict.get?_of_mem hu ha
    rw [Dict.get?_of_mem hu hb] at this
    exact (Option.some.inj this).symm
  intro k
  induction k with
  | zero =>
    intro m hk g1 g2
    obtain ⟨b, hb, -⟩ := g1.up
    have := hN _ hb
    simp only at this
    omega
  | succ k ih =>
    intro m hk g1 g2
    obtain ⟨b, hb, c1⟩ := g1.up
    obtain ⟨b', hb', c2⟩ := g2.up
    have := uniq hb hb'
    subst this
    rcases c1 with c1 | ⟨q, e, e1, e2, e3, e4⟩
    · rcases c2 with c2 | ⟨q, e, e1, e2, e3, e4⟩
      · rw [c1] at c2
        exact Option.some.inj c2
      · rw [c1, Option.some.injEq] at e1
        subst e1
        exact absurd rfl (a1 _ e2)
    · rcases c2 with c2 | ⟨q', e', e1', e2', e3', e4'⟩
      · rw [c2, Option.some.injEq] at e1
        subst e1
        exact absurd rfl (a2 _ e2)
      · rw [e1, Option.some.injEq] at e1'
        subst e1'
        have := hh _ e2 _ hb e3 e1
        simp only at this
        exact ih q (by omega) e4 e4'

theorem mem_descend {d : Diagram} : ∀ {f : Nat} {p : String} {m : Node}, m ∈ descend d f p → m ∈ d.graph.nodes ∧ Within d p m.1
  | 0, p, m, h => by simp [descend] at h
  | f + 1, p, m, h => by
    rw [descend, List.mem_flatMap] at h
    obtain ⟨n, hn, h⟩ := h
    obtain ⟨n1, n2⟩ := List.mem_filter.1 hn
    have hp : n.2.process = some p := by simpa using n2
    rcases List.mem_cons.1 h with rfl | h
    · exact ⟨n1, .child n1 hp⟩
    · split at h
      · rename_i ht
        obtain ⟨h1, h2⟩ := mem_descend h
        exact ⟨h1, .deep n1 hp ht h2⟩
      · simp at h

theorem descend_complete {d : Diagram} {height : String → Nat}
    (hh : ∀ n ∈ d.graph.nodes, ∀ m ∈ d.graph.nodes, n.2.type = some "subProcess" → m.2.process = some n.1 → height m.1 < height n.1)
    {p m : String} (h : Within d p m) : ∀ (f : Nat), (∀ n ∈ nodesOf d p, height n.1 < f) → ∃ b, (m, b) ∈ descend d f p := by
  induction h with
  | @child p m b hb hp =>
    intro f hf
    have hm : (m, b) ∈ nodesOf d p := List.mem_filter.2 ⟨hb, by simpa using hp⟩
    obtain ⟨f, rfl⟩ : ∃ g, f = g + 1 := ⟨f - 1, by have := hf _ hm; omega⟩
    refine ⟨b, ?_⟩
    rw [descend, List.mem_flatMap]
    exact ⟨_, hm, List.mem_cons_self⟩
  | @deep p c b m hb hp ht hw ih =>
    intro f hf
    have hm : (c, b) ∈ nodesOf d p := List.mem_filter.2 ⟨hb, by simpa using hp⟩
    have h0 := hf _ hm
    obtain ⟨f, rfl⟩ : ∃ g, f = g + 1 := ⟨f - 1, by omega⟩
    obtain ⟨x, hx⟩ := ih f (by
      intro n hn
      obtain ⟨n1, n2⟩ := List.mem_filter.1 hn
      have := hh _ hb n n1 ht (by simpa using n2)
      simp only at this h0
      omega)
    refine ⟨x, ?_⟩
    rw [descend, List.mem_flatMap]
    exact ⟨_, hm, List.mem_cons_of_mem _ (by simpa [ht] using hx)⟩

theorem nodup_descend {d : Diagram} {height : String → Nat} {N : Nat} (hN : ∀ n ∈ d.graph.nodes, height n.1 < N)
    (hh : ∀ n ∈ d.graph.nodes, ∀ m ∈ d.graph.nodes, n.2.type = some "subProcess" → m.2.process = some n.1 → height m.1 < height n.1)
    (hu : d.graph.nodes.keys.Nodup) : ∀ (f : Nat) (p : String), (descend d f p).Nodup
  | 0, p => by simp [descend]
  | f + 1, p => by
    rw [descend, List.nodup_flatMap]
    have hnd : (nodesOf d p).Nodup := (List.Nodup.of_map _ hu).filter _
    constructor
    · intro n hn
      rw [List.nodup_cons]
      constructor
      · intro hc
        split at hc
        · rename_i ht
          have := (mem_descend hc).2.height_lt hh (List.mem_filter.1 hn).1 ht
          omega
        · simp at hc
      · split
        · exact nodup_descend hN hh hu f n.1
        · exact List.nodup_nil
    · apply List.Pairwise.imp_of_mem ?_ hnd
      intro a b ha hb hab m ma mb
      obtain ⟨a1, a2⟩ := List.mem_filter.1 ha
      obtain ⟨b1, b2⟩ := List.mem_filter.1 hb
      have conv : ∀ {x : Node}, (m ∈ x :: if x.2.type = some "subProcess" then descend d f x.1 else []) →
          m.1 = x.1 ∨ (x.2.type = some "subProcess" ∧ Within d x.1 m.1) := by
        intro x hx
        rcases List.mem_cons.1 hx with rfl | hx
        · exact .inl rfl
        · split at hx
          · rename_i ht
            exact .inr ⟨ht, (mem_descend hx).2⟩
          · simp at hx
      have := within_unique hN hh hu a1 b1 (by simpa using a2) (by simpa using b2) N m.1 (by omega) (conv ma) (conv mb)
      exact hab (eq_of_nodup_map hu a1 b1 this)

/-- All nodes inside processes. -/
def insideNodes (d : Diagram) (f : Nat) : List Node := (d.processElements.map (·.1)).flatMap (descend d f)

theorem nodup_insideNodes {d : Diagram} (hd : Writable d) {height : String → Nat} {N : Nat} (hN : ∀ n ∈ d.graph.nodes, height n.1 < N)
    (hh : ∀ n ∈ d.graph.nodes, ∀ m ∈ d.graph.nodes, n.2.type = some "subProcess" → m.2.process = some n.1 → height m.1 < height n.1)
    (f : Nat) : ((insideNodes d f).map (·.1)).Nodup := by
  have hu : d.graph.nodes.keys.Nodup := hd.sane.nodesUnique
  have hnd : (insideNodes d f).Nodup := by
    rw [insideNodes, List.nodup_flatMap]
    refine ⟨fun p _ => nodup_descend hN hh hu f p, ?_⟩
    apply List.Pairwise.imp_of_mem ?_ hd.procIds
    intro a b ha hb hab m ma mb
    obtain ⟨x, hx, rfl⟩ := List.mem_map.1 ha
    obtain ⟨y, hy, rfl⟩ := List.mem_map.1 hb
    exact hab (within_process_unique hN hh hu (hd.apart x hx) (hd.apart y hy) N m.1 (by omega) (mem_descend ma).2 (mem_descend mb).2)
  apply List.Nodup.map_on ?_ hnd
  intro x hx y hy e
  obtain ⟨p, -, hx⟩ := List.mem_flatMap.1 hx
  obtain ⟨q, -, hy⟩ := List.mem_flatMap.1 hy
  exact eq_of_nodup_map hu (mem_descend hx).1 (mem_descend hy).1 e

theorem Within.inProcess {d : Diagram} {p m : String} (h : Within d p m) :
    (p ∈ d.processElements.map (·.1) ∨ (InProcess d p ∧ ∃ b, (p, b) ∈ d.graph.nodes ∧ b.type = some "subProcess")) → InProcess d m := by
  induction h with
  | child hb hp =>
    rintro (h | ⟨h, c, hc, ht⟩)
    · exact .direct hb hp h
    · exact .nested hb hp hc ht h
  | deep hb hp ht _ ih =>
    intro h
    refine ih (.inr ⟨?_, _, hb, ht⟩)
    rcases h with h | ⟨h, c, hc, ht'⟩
    · exact .direct hb hp h
    · exact .nested hb hp hc ht' h

theorem inProcess_iff {d : Diagram} (hu : d.graph.nodes.keys.Nodup) {m : String} :
    InProcess d m ↔ ∃ p ∈ d.processElements.map (·.1), Within d p m := by
  constructor
  · intro h
    induction h with
    | direct hn hp hm => exact ⟨_, hm, .child hn hp⟩
    | @nested n a m b hn hp hm ht _ ih =>
      obtain ⟨p, hp', hw⟩ := ih
      refine ⟨p, hp', hw.extend (c := a) hn hp ?_⟩
      intro b' hb'
      have := Dict.get?_of_mem hu hm
      rw [Dict.get?_of_mem hu hb'] at this
      rw [Option.some.inj this]
      exact ht
  · rintro ⟨p, hp, hw⟩
    exact hw.inProcess (.inl hp)

theorem mem_insideNodes {d : Diagram} (hu : d.graph.nodes.keys.Nodup) {height : String → Nat} {f : Nat} (hf : ∀ n ∈ d.graph.nodes, height n.1 < f)
    (hh : ∀ n ∈ d.graph.nodes, ∀ m ∈ d.graph.nodes, n.2.type = some "subProcess" → m.2.process = some n.1 → height m.1 < height n.1)
    (m : Node) : m ∈ insideNodes d f ↔ m ∈ d.graph.nodes ∧ InProcess d m.1 := by
  rw [insideNodes, List.mem_flatMap]
  constructor
  · rintro ⟨p, hp, hm⟩
    obtain ⟨h1, h2⟩ := mem_descend hm
    exact ⟨h1, (inProcess_iff hu).2 ⟨p, hp, h2⟩⟩
  · rintro ⟨h1, h2⟩
    obtain ⟨p, hp, hw⟩ := (inProcess_iff hu).1 h2
    obtain ⟨b, hb⟩ := descend_complete hh hw f (fun n hn => hf n (List.mem_filter.1 hn).1)
    refine ⟨p, hp, ?_⟩
    have := eq_of_nodup_map hu h1 (mem_descend hb).1 rfl
    rw [this]
    exact hb

/-! ## Content of the process elements -/

theorem labels_laneSet (a : ProcAttrs) : ∀ x ∈ (laneSetTrees a).flatMap treeLabels, x.1 ∈ ["laneSet", "lane", "flowNodeRef"] := by
  intro x hx
  unfold laneSetTrees at hx
  split at hx
  · simp at hx
  · rename_i s _
    simp only [List.flatMap_cons, List.flatMap_nil, List.append_nil, treeLabels_el, List.mem_cons] at hx
    rcases hx with rfl | hx
    · simp
    · obtain ⟨t, ht, hx⟩ := List.mem_flatMap.1 hx
      obtain ⟨⟨i, n, ci, ch, refs, di⟩, -, rfl⟩ := List.mem_map.1 ht
      simp only [laneTree, treeLabels_el, List.mem_cons] at hx
      rcases hx with rfl | hx
      · simp
      · obtain ⟨t, ht, hx⟩ := List.mem_flatMap.1 hx
        obtain ⟨r, -, rfl⟩ := List.mem_map.1 ht
        simp only [leaf, treeLabels, labelsAll, label, tagOf, List.mem_cons, List.not_mem_nil, or_false] at hx
        subst hx
        simp

theorem nodeLabels_laneSet (a : ProcAttrs) : nodeLabels ((laneSetTrees a).flatMap treeLabels) = [] := by
  rw [nodeLabels, List.filter_eq_nil_iff]
  intro x hx
  have := labels_laneSet a x hx
  obtain ⟨t, v⟩ := x
  simp only at this ⊢
  have hk : ∀ t ∈ ["laneSet", "lane", "flowNodeRef"], t ∉ kindNames := by decide
  simpa using hk t this

theorem flowLabels_laneSet (a : ProcAttrs) : flowLabels ((laneSetTrees a).flatMap treeLabels) = [] := by
  rw [flowLabels, List.filter_eq_nil_iff]
  intro x hx
  have := labels_laneSet a x hx
  obtain ⟨t, v⟩ := x
  simp only at this ⊢
  revert this
  simp only [List.mem_cons, List.not_mem_nil, or_false]
  rintro (rfl | rfl | rfl) <;> simp

theorem processLabels {d : Diagram} (f : Nat) : labelsAll (kidsTagged "process" (docTree d f)) = d.processElements.flatMap fun p => treeLabels (procTree d f p) := by
  have h1 : (d.processElements.map (procTree d f)).filter (fun k => tagOf k == "process") = d.processElements.map (procTree d f) := by
    rw [List.filter_eq_self]
    intro t ht
    obtain ⟨p, -, rfl⟩ := List.mem_map.1 ht
    simp [procTree, el, tagOf]
  have h2 : kidsTagged "process" (docTree d f) = d.processElements.map (procTree d f) := by
    simp only [kidsTagged, docTree, el, kidsOf]
    rw [List.filter_cons_of_neg (by simp [tagOf]), List.filter_append, h1]
    have : (collabTrees d).filter (fun k => tagOf k == "process") = [] := by
      unfold collabTrees
      cases d.collaboration <;> simp [el, tagOf]
    rw [this, List.nil_append]
  rw [h2, labelsAll_eq, List.flatMap_map]

theorem nodeLabels_doc {d : Diagram} (hd : Writable d) (f : Nat) :
    nodeLabels (labelsAll (kidsTagged "process" (docTree d f))) = (insideNodes d f).map nodeLabel := by
  rw [processLabels, nodeLabels_flatMap, insideNodes, List.map_flatMap, List.flatMap_map]
  apply flatMap_congr'
  intro p hp
  have hk : ¬ "process" ∈ kindNames := by decide
  rw [procTree, treeLabels_el]
  have : ∀ (x : String) (l : List (String × String)), nodeLabels (("process", x) :: l) = nodeLabels l := by
    intro x l
    simp [nodeLabels, hk]
  rw [this, List.flatMap_append, nodeLabels_append, nodeLabels_laneSet, List.nil_append, List.flatMap_append, nodeLabels_append, nodeLabels_flatMap, nodeLabels_flatMap, List.flatMap_map, List.flatMap_map,
    nodeLabels_descend hd.nodes f p.1]
  simp only [nodeLabels_flowTree]
  simp

/-- All containers inside processes: the processes and their sub-processes. -/
def containers (d : Diagram) (f : Nat) : List String :=
  d.processElements.map (·.1) ++ ((insideNodes d f).filter fun m => m.2.type == some "subProcess").map (·.1)

theorem flatMap_ite_filter {α β : Type} (l : List α) (q : α → Bool) (g : α → List β) :
    (l.flatMap fun x => if q x = true then g x else []) = (l.filter q).flatMap g := by
  induction l with
  | nil => simp
  | cons x r ih =>
    by_cases h : q x = true <;> simp [h, ih]

theorem flatMap_append_perm {α β : Type} (l : List α) (f g : α → List β) :
    (l.flatMap fun x => f x ++ g x).Perm (l.flatMap f ++ l.flatMap g) := by
  induction l with
  | nil => simp
  | cons x r ih =>
    simp only [List.flatMap_cons]
    refine (ih.append_left (f x ++ g x)).trans ?_
    simp only [List.append_assoc]
    apply List.Perm.append_left
    rw [← List.append_assoc, ← List.append_assoc]
    exact (List.perm_append_comm).append_right _

theorem flowLabels_doc {d : Diagram} (hd : Writable d) (f : Nat) :
    (flowLabels (labelsAll (kidsTagged "process" (docTree d f)))).Perm ((containers d f).flatMap (ownFlows d)) := by
  rw [processLabels, flowLabels_flatMap]
  have h1 : ∀ p ∈ d.processElements, flowLabels (treeLabels (procTree d f p)) =
      ((nodesOf d p.1).flatMap fun m => flowLabels (treeLabels (nodeTree d f m))) ++ ownFlows d p.1 := by
    intro p hp
    rw [procTree, treeLabels_el]
    have : ∀ (x : String) (l : List (String × String)), flowLabels (("process", x) :: l) = flowLabels l := by
      intro x l
      simp [flowLabels]
    rw [this, List.flatMap_append, flowLabels_append, flowLabels_laneSet, List.nil_append, List.flatMap_append, flowLabels_append, flowLabels_flatMap, flowLabels_flatMap, List.flatMap_map, List.flatMap_map]
    simp only [flowLabels_flowTree]
    rw [← List.map_eq_flatMap]
    rfl
  rw [flatMap_congr' h1]
  refine (flatMap_append_perm _ _ _).trans ?_
  rw [containers, List.flatMap_append, List.flatMap_map]
  refine List.Perm.trans ?_ List.perm_append_comm
  apply List.Perm.append_right
  rw [List.flatMap_map, ← flatMap_ite_filter, insideNodes, List.flatMap_assoc, List.flatMap_map]
  apply flatMap_perm_congr
  intro p hp
  have := flowLabels_descend hd.nodes f p.1
  simpa using this

theorem nodup_containers {d : Diagram} (hd : Writable d) {height : String → Nat} {N : Nat} (hN : ∀ n ∈ d.graph.nodes, height n.1 < N)
    (hh : ∀ n ∈ d.graph.nodes, ∀ m ∈ d.graph.nodes, n.2.type = some "subProcess" → m.2.process = some n.1 → height m.1 < height n.1)
    (f : Nat) : (containers d f).Nodup := by
  rw [containers, List.nodup_append]
  refine ⟨hd.procIds, (nodup_insideNodes hd hN hh f).sublist (List.filter_sublist.map _), ?_⟩
  intro a ha b hb e
  obtain ⟨x, hx, rfl⟩ := List.mem_map.1 ha
  obtain ⟨y, hy, rfl⟩ := List.mem_map.1 hb
  obtain ⟨p, -, hy'⟩ := List.mem_flatMap.1 (List.mem_filter.1 hy).1
  exact hd.apart x hx y (mem_descend hy').1 e

theorem flowIds_nodup {d : Diagram} (hd : Writable d) : (d.getFlows.map fun x => x.2.2.id).Nodup := by
  have h1 := Graph.flows_attrs_perm hd.sane.wf
  have h2 := h1.map (fun a : EdgeAttrs => a.id)
  have h3 := hd.flowIds
  rw [List.map_map, List.map_map] at h2
  exact h2.nodup_iff.2 h3

theorem nodup_flowLabels {d : Diagram} (hd : Writable d) {cs : List String} (hc : cs.Nodup) : (cs.flatMap (ownFlows d)).Nodup := by
  have hfl := flowIds_nodup hd
  have hinj : ∀ x ∈ d.getFlows, ∀ y ∈ d.getFlows, x.2.2.id.getD "" = y.2.2.id.getD "" → x = y := by
    intro x hx y hy e
    obtain ⟨ex, hex, hx'⟩ := mem_getFlows hd.sane hx
    obtain ⟨ey, hey, hy'⟩ := mem_getFlows hd.sane hy
    obtain ⟨i, hi⟩ := Option.isSome_iff_exists.1 (hd.flows ex hex).id
    obtain ⟨j, hj⟩ := Option.isSome_iff_exists.1 (hd.flows ey hey).id
    rw [hx'] at hi
    rw [hy'] at hj
    rw [hi, hj] at e
    simp only [Option.getD_some] at e
    subst e
    exact eq_of_nodup_map hfl hx hy (hi.trans hj.symm)
  have hnd : d.getFlows.Nodup := List.Nodup.of_map _ hfl
  rw [List.nodup_flatMap]
  constructor
  · intro p hp
    apply List.Nodup.map_on ?_ (hnd.filter _)
    intro x hx y hy e
    simp only [Prod.mk.injEq, true_and] at e
    exact hinj x (List.mem_filter.1 hx).1 y (List.mem_filter.1 hy).1 e
  · apply List.Pairwise.imp_of_mem ?_ hc
    intro a b _ _ hab x hx hy
    obtain ⟨u, hu, rfl⟩ := List.mem_map.1 hx
    obtain ⟨v, hv, e⟩ := List.mem_map.1 hy
    simp only [Prod.mk.injEq, true_and] at e
    obtain ⟨u1, u2⟩ := List.mem_filter.1 hu
    obtain ⟨v1, v2⟩ := List.mem_filter.1 hv
    have := hinj v v1 u u1 e
    subst this
    simp only [beq_iff_eq] at u2 v2
    rw [u2] at v2
    exact hab (Option.some.inj v2)

theorem mem_containers {d : Diagram} (hu : d.graph.nodes.keys.Nodup) {height : String → Nat} {f : Nat} (hf : ∀ n ∈ d.graph.nodes, height n.1 < f)
    (hh : ∀ n ∈ d.graph.nodes, ∀ m ∈ d.graph.nodes, n.2.type = some "subProcess" → m.2.process = some n.1 → height m.1 < height n.1)
    (p : String) : p ∈ containers d f ↔ p ∈ d.processElements.map (·.1) ∨
      ∃ a, (p, a) ∈ d.graph.nodes ∧ a.type = some "subProcess" ∧ InProcess d p := by
  rw [containers, List.mem_append]
  apply or_congr Iff.rfl
  constructor
  · intro h
    obtain ⟨x, hx, rfl⟩ := List.mem_map.1 h
    obtain ⟨h1, h2⟩ := List.mem_filter.1 hx
    obtain ⟨h3, h4⟩ := (mem_insideNodes hu hf hh x).1 h1
    exact ⟨x.2, h3, by simpa using h2, h4⟩
  · rintro ⟨a, h1, h2, h3⟩
    exact List.mem_map.2 ⟨(p, a), List.mem_filter.2 ⟨(mem_insideNodes hu hf hh (p, a)).2 ⟨h1, h3⟩, by simpa using h2⟩, rfl⟩

end Bpmn

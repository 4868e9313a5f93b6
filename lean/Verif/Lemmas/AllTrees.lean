import Verif.Lemmas.Xml
import Verif.Lemmas.Dict
import Verif.Model.Export
import Verif.Model.Import
import Mathlib.Data.List.Forall2
set_option linter.unusedSimpArgs false
set_option linter.unusedVariables false
/-!
# Predicates that hold of all elements of an exported document, for arbitrary diagrams
-/
namespace Bpmn
open Spec Export

/-- A predicate on an element: tag, attributes, tags of the children. -/
abbrev ElemPred := String → List (String × String) → List String → Prop

mutual
/-- Holds of the tree's root and of everything below. -/
def AllT (P : ElemPred) : ETree → Prop
  | .node t as _ _ ks => P t as (tags ks) ∧ AllTs P ks
/-- The same for lists. -/
def AllTs (P : ElemPred) : List ETree → Prop
  | [] => True
  | t :: r => AllT P t ∧ AllTs P r
/-- The tags of the children. -/
def tags : List ETree → List String
  | [] => []
  | (.node t _ _ _ _) :: r => t :: tags r
end

theorem allTs_iff (P : ElemPred) (l : List ETree) : AllTs P l ↔ ∀ t ∈ l, AllT P t := by
  induction l with
  | nil => simp [AllTs]
  | cons t r ih => simp [AllTs, ih]

theorem tags_append (l m : List ETree) : tags (l ++ m) = tags l ++ tags m := by
  induction l with
  | nil => simp [tags]
  | cons t r ih => cases t; simp [tags, ih]

theorem allT_el (P : ElemPred) (t : String) (as : List (String × String)) (ks : List ETree) :
    AllT P (el t as ks) ↔ P t as (tags ks) ∧ ∀ k ∈ ks, AllT P k := by
  simp [el, AllT, allTs_iff]

/-- Tags of the element children of a node. -/
def xmlTags : List Xml → List String
  | [] => []
  | .elem t _ _ :: r => t :: xmlTags r
  | _ :: r => xmlTags r

mutual
/-- Holds of all elements of a document. -/
def AllX (P : ElemPred) : Xml → Prop
  | .elem t as ks => P t as (xmlTags ks) ∧ AllXs P ks
  | _ => True
/-- The same for lists. -/
def AllXs (P : ElemPred) : List Xml → Prop
  | [] => True
  | x :: r => AllX P x ∧ AllXs P r
end

theorem allXs_iff (P : ElemPred) (l : List Xml) : AllXs P l ↔ ∀ t ∈ l, AllX P t := by
  induction l with
  | nil => simp [AllXs]
  | cons t r ih => simp [AllXs, ih]

theorem xmlTags_append (l m : List Xml) : xmlTags (l ++ m) = xmlTags l ++ xmlTags m := by
  induction l with
  | nil => simp [xmlTags]
  | cons t r ih => cases t <;> simp [xmlTags, ih]

theorem xmlTags_textNodes (o : Option String) : xmlTags (ETree.textNodes o) = [] := by
  unfold ETree.textNodes
  split
  · rfl
  · split <;> simp [xmlTags]

theorem allXs_textNodes (P : ElemPred) (o : Option String) : AllXs P (ETree.textNodes o) := by
  unfold ETree.textNodes
  split
  · simp [AllXs]
  · split <;> simp [AllXs, AllX]

theorem allXs_append (P : ElemPred) (l m : List Xml) : AllXs P (l ++ m) ↔ AllXs P l ∧ AllXs P m := by
  induction l with
  | nil => simp [AllXs]
  | cons x r ih => simp [AllXs, ih, and_assoc]

theorem xmlTags_toDomKids : ∀ l : List ETree, xmlTags (ETree.toDomKids l) = tags l
  | [] => by simp [ETree.toDomKids, ETree.tailOf, ETree.toDom, xmlTags, tags]
  | .node t as x y ks :: r => by
    simp [ETree.toDomKids, ETree.tailOf, ETree.toDom, xmlTags, tags, xmlTags_append, xmlTags_textNodes, xmlTags_toDomKids r]

mutual
theorem AllT.toDom {P : ElemPred} : ∀ {t : ETree}, AllT P t → AllX P t.toDom
  | .node t as x y ks, h => by
    simp only [AllT] at h
    simp only [ETree.toDom, AllX, xmlTags_append, xmlTags_textNodes, xmlTags_toDomKids, List.nil_append, allXs_append]
    exact ⟨h.1, allXs_textNodes _ _, AllTs.toDomKids h.2⟩
theorem AllTs.toDomKids {P : ElemPred} : ∀ {l : List ETree}, AllTs P l → AllXs P (ETree.toDomKids l)
  | [], _ => by simp [ETree.toDomKids, ETree.tailOf, AllXs]
  | .node t as x y ks :: r, h => by
    simp only [AllTs, AllT] at h
    simp only [ETree.toDomKids, ETree.tailOf, ETree.toDom, AllXs, AllX, xmlTags_append, xmlTags_textNodes, xmlTags_toDomKids, List.nil_append, allXs_append]
    exact ⟨⟨h.1.1, allXs_textNodes _ _, AllTs.toDomKids h.1.2⟩, allXs_textNodes _ _, AllTs.toDomKids h.2⟩
end

theorem tags_indentAll (level : Nat) : ∀ l : List ETree, tags (indentAll level l) = tags l
  | [] => by simp [indentAll]
  | .node t as x y [] :: r => by simp [indentAll, indent, tags, tags_indentAll level r]
  | .node t as x y (k :: ks) :: r => by simp [indentAll, indent, tags, tags_indentAll level r]

mutual
theorem AllT.indent {P : ElemPred} : ∀ (level : Nat) {t : ETree}, AllT P t → AllT P (Export.indent level t)
  | level, .node t as x y [], h => by simpa [Export.indent, AllT] using h
  | level, .node t as x y (k :: ks), h => by
    simp only [AllT] at h
    simp only [Export.indent, AllT, tags_indentAll]
    exact ⟨h.1, AllTs.indentAll (level + 1) h.2⟩
theorem AllTs.indentAll {P : ElemPred} : ∀ (level : Nat) {l : List ETree}, AllTs P l → AllTs P (Export.indentAll level l)
  | _, [], _ => by simp [Export.indentAll, AllTs]
  | level, t :: r, h => by
    simp only [AllTs] at h
    simp only [Export.indentAll, AllTs]
    exact ⟨AllT.indent level h.1, AllTs.indentAll level h.2⟩
end

mutual
theorem allX_byName {P : ElemPred} (name : String) : ∀ {x : Xml}, AllX P x → ∀ y ∈ x.byName name, AllX P y ∧ ∃ t as ks, y = .elem t as ks ∧ removeNamespace t = name
  | .elem t as ks, h => by
    simp only [AllX] at h
    simp only [Xml.byName]
    exact allXs_byNameIn name h.2
  | .text _, _ => by simp [Xml.byName]
  | .other _, _ => by simp [Xml.byName]
theorem allXs_byNameIn {P : ElemPred} (name : String) : ∀ {l : List Xml}, AllXs P l → ∀ y ∈ Xml.byNameIn name l, AllX P y ∧ ∃ t as ks, y = .elem t as ks ∧ removeNamespace t = name
  | [], _ => by simp [Xml.byNameIn]
  | x :: r, h => by
    simp only [AllXs] at h
    intro y hy
    simp only [Xml.byNameIn, List.mem_append] at hy
    rcases hy with (hy | hy) | hy
    · cases x with
      | elem t as ks =>
        simp only at hy
        split at hy
        · rename_i hn
          rw [List.mem_singleton.1 hy]
          exact ⟨h.1, t, as, ks, rfl, hn⟩
        · simp at hy
      | text _ => simp at hy
      | other _ => simp at hy
    · exact allX_byName name h.1 y hy
    · exact allXs_byNameIn name h.2 y hy
end

/-! ## The exported elements -/

theorem forEach_eq_ok {α : Type} {f : α → Py ETree} : ∀ {l : List α} {ts : List ETree}, forEach f l = .ok ts → List.Forall₂ (fun x t => f x = .ok t) l ts
  | [], ts, h => by
    simp only [forEach, Except.ok.injEq] at h
    subst h
    exact .nil
  | x :: r, ts, h => by
    simp only [forEach] at h
    obtain ⟨t, h1, h⟩ := except_bind_eq_ok h
    obtain ⟨ts', h2, h⟩ := except_bind_eq_ok h
    simp only [except_pure, Except.ok.injEq] at h
    subst h
    exact .cons h1 (forEach_eq_ok h2)

theorem forall₂_right {α β : Type} {R : α → β → Prop} {Q : β → Prop} : ∀ {l : List α} {m : List β}, List.Forall₂ R l m →
    (∀ x ∈ l, ∀ y, R x y → Q y) → ∀ y ∈ m, Q y
  | _, _, .nil, _ => by simp
  | _, _, .cons h1 h2, h => by
    rw [List.forall_mem_cons] at h
    rw [List.forall_mem_cons]
    exact ⟨h.1 _ h1, forall₂_right h2 h.2⟩

theorem need_eq_ok {α : Type} {o : Option α} {a : α} (h : need o = .ok a) : o = some a := by
  cases o with
  | none => cases h
  | some b => simp at h; simp [h]

theorem pyFilter_subset {α : Type} {p : α → Py Bool} : ∀ {l r : List α}, pyFilter p l = .ok r → ∀ x ∈ r, x ∈ l
  | [], r, h => by
    simp only [pyFilter, Except.ok.injEq] at h
    subst h
    simp
  | y :: l, r, h => by
    rw [pyFilter] at h
    obtain ⟨b, -, h⟩ := except_bind_eq_ok h
    obtain ⟨r', h2, h⟩ := except_bind_eq_ok h
    simp only [except_pure, Except.ok.injEq] at h
    subst h
    have ih := pyFilter_subset h2
    intro x hx
    split at hx
    · rcases List.mem_cons.1 hx with rfl | hx
      · exact List.mem_cons_self
      · exact List.mem_cons_of_mem _ (ih x hx)
    · exact List.mem_cons_of_mem _ (ih x hx)

/-- What may follow the flow lists inside a node element. -/
inductive More (d : Diagram) (fuel : Nat) (n : Node) (ty : String) : List ETree → Prop
  | none : More d fuel n ty []
  | sub {nodes ns fl fs} (ht : ty = "subProcess") (hns : forEach (exportNode d fuel) nodes = .ok ns) (hn : ∀ m ∈ nodes, m ∈ d.graph.nodes)
      (hfs : forEach (fun f : Flow => exportFlow f.2.2) fl = .ok fs) : More d fuel n ty (ns ++ fs)
  | defs {defs} (ht : ty ∈ ["startEvent", "intermediateCatchEvent", "endEvent", "intermediateThrowEvent", "boundaryEvent"])
      (hd : n.2.eventDefinitions = some defs) : More d fuel n ty (exportDefs defs)

/-- The shape of a node element: tag, id, name, and what the children are. -/
theorem exportNode_shape {d : Diagram} {fuel : Nat} {n : Node} {t : ETree} (h : exportNode d (fuel + 1) n = .ok t) :
    ∃ (ty name : String) (attrs : List (String × String)) (inc out : List String) (more : List ETree), n.2.type = some ty ∧
      t = el ty (("id", n.1) :: ("name", name) :: attrs) (inc.map (leaf "incoming") ++ out.map (leaf "outgoing") ++ more) ∧
      More d fuel n ty more := by
  obtain ⟨n, p⟩ := n
  rw [exportNode] at h
  obtain ⟨ty, h1, h⟩ := except_bind_eq_ok h
  obtain ⟨name, h2, h⟩ := except_bind_eq_ok h
  obtain ⟨inc, h3, h⟩ := except_bind_eq_ok h
  obtain ⟨out, h4, h⟩ := except_bind_eq_ok h
  refine ⟨ty, name, ?_⟩
  have hty := need_eq_ok h1
  clear h1 h2 h3 h4
  by_cases c0 : isTask ty = true
  · rw [if_pos c0] at h
    simp only [except_pure, Except.ok.injEq] at h
    exact ⟨_, inc, out, [], hty, by simpa using h.symm, .none⟩
  rw [if_neg c0] at h
  by_cases c1 : ty = "subProcess"
  · rw [if_pos c1] at h
    have ht := c1
    obtain ⟨tr, -, h⟩ := except_bind_eq_ok h
    obtain ⟨sid, -, h⟩ := except_bind_eq_ok h
    obtain ⟨nodes, hn, h⟩ := except_bind_eq_ok h
    obtain ⟨ns, hns, h⟩ := except_bind_eq_ok h
    obtain ⟨fs, hfs, h⟩ := except_bind_eq_ok h
    simp only [except_pure, Except.ok.injEq] at h
    refine ⟨_, inc, out, ns ++ fs, hty, by simpa using h.symm, .sub ht hns ?_ hfs⟩
    exact pyFilter_subset hn
  rw [if_neg c1] at h
  by_cases c2 : ty = "dataObject"
  · rw [if_pos c2] at h
    obtain ⟨c, -, h⟩ := except_bind_eq_ok h
    simp only [except_pure, Except.ok.injEq] at h
    exact ⟨_, inc, out, [], hty, by simpa using h.symm, .none⟩
  rw [if_neg c2] at h
  by_cases c3 : ty = "complexGateway"
  · rw [if_pos c3] at h
    obtain ⟨c, -, h⟩ := except_bind_eq_ok h
    simp only [except_pure, Except.ok.injEq] at h
    exact ⟨_, inc, out, [], hty, by simpa using h.symm, .none⟩
  rw [if_neg c3] at h
  by_cases c4 : ty = "eventBasedGateway"
  · rw [if_pos c4] at h
    obtain ⟨c, -, h⟩ := except_bind_eq_ok h
    obtain ⟨c, -, h⟩ := except_bind_eq_ok h
    obtain ⟨c, -, h⟩ := except_bind_eq_ok h
    simp only [except_pure, Except.ok.injEq] at h
    exact ⟨_, inc, out, [], hty, by simpa using h.symm, .none⟩
  rw [if_neg c4] at h
  by_cases c5 : ty = "inclusiveGateway" ∨ ty = "exclusiveGateway"
  · rw [if_pos c5] at h
    obtain ⟨c, -, h⟩ := except_bind_eq_ok h
    simp only [except_pure, Except.ok.injEq] at h
    exact ⟨_, inc, out, [], hty, by simpa using h.symm, .none⟩
  rw [if_neg c5] at h
  by_cases c6 : ty = "parallelGateway"
  · rw [if_pos c6] at h
    obtain ⟨c, -, h⟩ := except_bind_eq_ok h
    simp only [except_pure, Except.ok.injEq] at h
    exact ⟨_, inc, out, [], hty, by simpa using h.symm, .none⟩
  rw [if_neg c6] at h
  by_cases c7 : ty = "startEvent"
  · rw [if_pos c7] at h
    have ht := c7
    obtain ⟨c, -, h⟩ := except_bind_eq_ok h
    obtain ⟨c, -, h⟩ := except_bind_eq_ok h
    split at h
    · cases h
    · rename_i defs hd
      simp only [except_pure, Except.ok.injEq] at h
      exact ⟨_, inc, out, _, hty, by simpa using h.symm, .defs (by simp [ht]) hd⟩
  rw [if_neg c7] at h
  by_cases c8 : ty = "intermediateCatchEvent"
  · rw [if_pos c8] at h
    have ht := c8
    obtain ⟨c, -, h⟩ := except_bind_eq_ok h
    obtain ⟨c, hd, h⟩ := except_bind_eq_ok h
    simp only [except_pure, Except.ok.injEq] at h
    exact ⟨_, inc, out, _, hty, by simpa using h.symm, .defs (by simp [ht]) (need_eq_ok hd)⟩
  rw [if_neg c8] at h
  by_cases c9 : ty = "endEvent" ∨ ty = "intermediateThrowEvent"
  · rw [if_pos c9] at h
    have ht := c9
    obtain ⟨c, hd, h⟩ := except_bind_eq_ok h
    simp only [except_pure, Except.ok.injEq] at h
    exact ⟨[], inc, out, _, hty, by simpa using h.symm, .defs (by rcases ht with ht | ht <;> simp [ht]) (need_eq_ok hd)⟩
  rw [if_neg c9] at h
  by_cases c10 : ty = "boundaryEvent"
  · rw [if_pos c10] at h
    have ht := c10
    obtain ⟨c, -, h⟩ := except_bind_eq_ok h
    obtain ⟨c, -, h⟩ := except_bind_eq_ok h
    obtain ⟨c, -, h⟩ := except_bind_eq_ok h
    obtain ⟨c, hd, h⟩ := except_bind_eq_ok h
    simp only [except_pure, Except.ok.injEq] at h
    exact ⟨_, inc, out, _, hty, by simpa using h.symm, .defs (by simp [ht]) (need_eq_ok hd)⟩
  · rw [if_neg c10] at h
    simp only [except_pure, Except.ok.injEq] at h
    exact ⟨[], inc, out, [], hty, by simpa using h.symm, .none⟩

/-- Tags of elements inside processes. -/
def basicTags : List String := ["incoming", "outgoing", "sequenceFlow", "conditionExpression", "definitions"]

/-- Tags of the remaining elements. -/
def otherTags : List String :=
  ["flowNodeRef", "laneSet", "bpmndi:BPMNShape", "omgdc:Bounds", "bpmndi:BPMNEdge", "omgdi:waypoint", "bpmndi:BPMNDiagram", "bpmndi:BPMNPlane",
   "collaboration", "messageFlow", "participant"]

/-- The predicate holds of everything that is exported for nodes, flows and processes. -/
structure Covers (P : ElemPred) (d : Diagram) : Prop where
  basic : ∀ t ∈ basicTags, ∀ as ks, P t as ks
  process : ∀ i c e t ks, P "process" [("id", i), ("isClosed", c), ("isExecutable", e), ("processType", t)] ks
  node : ∀ n ∈ d.graph.nodes, ∀ ty, n.2.type = some ty → ∀ as ks,
    (ty ∉ ["subProcess", "startEvent", "intermediateCatchEvent", "endEvent", "intermediateThrowEvent", "boundaryEvent"] →
      ∀ k ∈ ks, k = "incoming" ∨ k = "outgoing") → P ty as ks
  defs : ∀ n ∈ d.graph.nodes, ∀ l, n.2.eventDefinitions = some l → ∀ e ∈ l, ∀ as, P e.defType as []

theorem allT_leaf {P : ElemPred} {t : String} (h : ∀ as ks, P t as ks) (l : List String) : ∀ k ∈ l.map (leaf t), AllT P k := by
  intro k hk
  obtain ⟨x, -, rfl⟩ := List.mem_map.1 hk
  simp [leaf, AllT, AllTs, h]

theorem allT_exportFlow {P : ElemPred} {d : Diagram} (c : Covers P d) {a : EdgeAttrs} {t : ETree} (h : exportFlow a = .ok t) : AllT P t := by
  unfold exportFlow at h
  obtain ⟨i, -, h⟩ := except_bind_eq_ok h
  obtain ⟨n, -, h⟩ := except_bind_eq_ok h
  obtain ⟨s, -, h⟩ := except_bind_eq_ok h
  obtain ⟨g, -, h⟩ := except_bind_eq_ok h
  have h1 := c.basic "sequenceFlow" (by decide)
  have h2 := c.basic "conditionExpression" (by decide)
  split at h
  · simp only [except_pure, Except.ok.injEq] at h
    subst h
    simp [allT_el, h1]
  · simp only [except_pure, Except.ok.injEq] at h
    subst h
    simp [allT_el, h1, h2, AllT, AllTs]

theorem tags_leaves (t : String) (l : List String) : tags (l.map (leaf t)) = l.map fun _ => t := by
  induction l with
  | nil => simp [tags]
  | cons x r ih => simp [tags, leaf] at ih ⊢; exact ih

theorem allT_exportNode {P : ElemPred} {d : Diagram} (c : Covers P d) : ∀ (f : Nat) {n : Node} {t : ETree}, n ∈ d.graph.nodes →
    exportNode d f n = .ok t → AllT P t
  | 0, n, t, _, h => by simp [exportNode] at h
  | f + 1, n, t, hn, h => by
    obtain ⟨ty, name, attrs, inc, out, more, hty, rfl, hmore⟩ := exportNode_shape h
    rw [allT_el]
    constructor
    · apply c.node n hn ty hty
      intro ht
      cases hmore with
      | none =>
        intro k hk
        simp only [List.append_nil, tags_append, tags_leaves, List.mem_append, List.mem_map] at hk
        rcases hk with ⟨_, -, rfl⟩ | ⟨_, -, rfl⟩
        · exact .inl rfl
        · exact .inr rfl
      | sub h1 => simp [h1] at ht
      | defs h1 =>
        simp only [List.mem_cons, List.not_mem_nil, or_false, not_or] at ht h1
        obtain ⟨-, a1, a2, a3, a4, a5⟩ := ht
        rcases h1 with h1 | h1 | h1 | h1 | h1 <;> contradiction
    · intro k hk
      rcases List.mem_append.1 hk with hk | hk
      · rcases List.mem_append.1 hk with hk | hk
        · exact allT_leaf (c.basic _ (by decide)) _ k hk
        · exact allT_leaf (c.basic _ (by decide)) _ k hk
      · cases hmore with
        | none => simp at hk
        | sub _ hns hm hfs =>
          rcases List.mem_append.1 hk with hk | hk
          · exact forall₂_right (forEach_eq_ok hns) (fun x hx y hy => allT_exportNode c f (hm x hx) hy) k hk
          · exact forall₂_right (forEach_eq_ok hfs) (fun x hx y hy => allT_exportFlow c hy) k hk
        | defs _ hd =>
          obtain ⟨e, he, rfl⟩ := List.mem_map.1 hk
          simp only [allT_el, List.not_mem_nil, false_imp_iff, implies_true, and_true, tags]
          exact c.defs n hn _ hd e he _

/-- Everything in the output without diagram interchange. -/
theorem allT_noDi {P : ElemPred} {d : Diagram} (c : Covers P d) {f : Nat} {t : ETree} (h : definitionsNoDi f d = .ok t) : AllT P t := by
  unfold definitionsNoDi at h
  obtain ⟨ps, hps, h⟩ := except_bind_eq_ok h
  simp only [except_pure, Except.ok.injEq] at h
  subst h
  rw [allT_el]
  refine ⟨c.basic _ (by decide) _ _, ?_⟩
  refine forall₂_right (forEach_eq_ok hps) ?_
  intro p hp t ht
  unfold exportProcessNoDi at ht
  obtain ⟨as, has, ht⟩ := except_bind_eq_ok ht
  obtain ⟨ns, hns, ht⟩ := except_bind_eq_ok ht
  obtain ⟨fs, hfs, ht⟩ := except_bind_eq_ok ht
  simp only [except_pure, Except.ok.injEq] at ht
  subst ht
  unfold processAttrs at has
  obtain ⟨c1, -, has⟩ := except_bind_eq_ok has
  obtain ⟨c2, -, has⟩ := except_bind_eq_ok has
  obtain ⟨c3, -, has⟩ := except_bind_eq_ok has
  simp only [except_pure, Except.ok.injEq] at has
  subst has
  rw [allT_el]
  refine ⟨c.process _ _ _ _ _, ?_⟩
  intro k hk
  rcases List.mem_append.1 hk with hk | hk
  · exact forall₂_right (forEach_eq_ok hns) (fun x hx y hy => allT_exportNode c f hx hy) k hk
  · exact forall₂_right (forEach_eq_ok hfs) (fun x hx y hy => allT_exportFlow c hy) k hk

/-- The predicate holds of lanes and of everything in the plane, too. -/
structure CoversAll (P : ElemPred) (d : Diagram) : Prop extends Covers P d where
  other : ∀ t ∈ otherTags, ∀ as ks, P t as ks
  lane : ∀ as ks, (∀ k ∈ ks, k = "laneSet" ∨ k = "flowNodeRef") → P "lane" as ks

theorem allT_shape {P : ElemPred} {d : Diagram} (c : CoversAll P d) (id : String) (ex : List (String × String)) (w h x y : String) :
    AllT P (shape id ex w h x y) := by
  have h1 := c.other "bpmndi:BPMNShape" (by decide)
  have h2 := c.other "omgdc:Bounds" (by decide)
  simp [shape, allT_el, h1, h2]

theorem allT_edgeDi {P : ElemPred} {d : Diagram} (c : CoversAll P d) (id : String) (ws : List (String × String)) : AllT P (edgeDi id ws) := by
  have h1 := c.other "bpmndi:BPMNEdge" (by decide)
  have h2 := c.other "omgdi:waypoint" (by decide)
  rw [edgeDi, allT_el]
  refine ⟨h1 _ _, ?_⟩
  intro k hk
  obtain ⟨w, -, rfl⟩ := List.mem_map.1 hk
  simp [allT_el, h2]

mutual
theorem allT_exportLane {P : ElemPred} {d : Diagram} (c : CoversAll P d) : ∀ {l : Lane} {t : ETree} {s : List ETree}, exportLane l = .ok (t, s) →
    AllT P t ∧ ∀ k ∈ s, AllT P k
  | .mk id name childId children refs di, t, s, h => by
    have hl := c.lane
    have h2 := c.other "laneSet" (by decide)
    have h3 := allT_leaf (P := P) (c.other "flowNodeRef" (by decide)) refs
    cases childId with
    | none =>
      cases di with
      | none => simp [exportLane] at h
      | some b =>
        simp only [exportLane, except_bind_ok, List.nil_append, except_pure, Except.ok.injEq, Prod.mk.injEq] at h
        obtain ⟨rfl, rfl⟩ := h
        refine ⟨?_, ?_⟩
        · rw [allT_el]
          refine ⟨hl _ _ ?_, h3⟩
          intro k hk
          rw [tags_leaves] at hk
          obtain ⟨_, -, rfl⟩ := List.mem_map.1 hk
          exact .inr rfl
        · intro k hk
          rw [List.mem_singleton.1 hk]
          exact allT_shape c _ _ _ _ _ _
    | some ci =>
      cases h4 : exportLanes children with
      | error e => cases di <;> simp [exportLane, h4] at h
      | ok r =>
        obtain ⟨ls, sh⟩ := r
        obtain ⟨i1, i2⟩ := allT_exportLanes c h4
        cases di with
        | none => simp [exportLane, h4] at h
        | some b =>
          simp only [exportLane, h4, except_bind_ok, except_pure, Except.ok.injEq, Prod.mk.injEq] at h
          obtain ⟨rfl, rfl⟩ := h
          refine ⟨?_, ?_⟩
          · rw [allT_el]
            refine ⟨hl _ _ ?_, ?_⟩
            · intro k hk
              rw [tags_append, tags_leaves] at hk
              rcases List.mem_append.1 hk with hk | hk
              · exact .inl (by simpa [tags, el] using hk)
              · obtain ⟨_, -, rfl⟩ := List.mem_map.1 hk
                exact .inr rfl
            · intro k hk
              rcases List.mem_append.1 hk with hk | hk
              · rw [List.mem_singleton.1 hk, allT_el]
                exact ⟨h2 _ _, i1⟩
              · exact h3 k hk
          · intro k hk
            rcases List.mem_append.1 hk with hk | hk
            · exact i2 k hk
            · rw [List.mem_singleton.1 hk]
              exact allT_shape c _ _ _ _ _ _
theorem allT_exportLanes {P : ElemPred} {d : Diagram} (c : CoversAll P d) : ∀ {l : List Lane} {ts s : List ETree}, exportLanes l = .ok (ts, s) →
    (∀ t ∈ ts, AllT P t) ∧ ∀ k ∈ s, AllT P k
  | [], ts, s, h => by
    simp only [exportLanes, Except.ok.injEq, Prod.mk.injEq] at h
    obtain ⟨rfl, rfl⟩ := h
    simp
  | l :: r, ts, s, h => by
    rw [exportLanes] at h
    obtain ⟨⟨t, s1⟩, h1, h⟩ := except_bind_eq_ok h
    obtain ⟨⟨ts', s2⟩, h2, h⟩ := except_bind_eq_ok h
    simp only [except_pure, Except.ok.injEq, Prod.mk.injEq] at h
    obtain ⟨rfl, rfl⟩ := h
    obtain ⟨a1, a2⟩ := allT_exportLane c h1
    obtain ⟨b1, b2⟩ := allT_exportLanes c h2
    constructor
    · rw [List.forall_mem_cons]
      exact ⟨a1, b1⟩
    · intro k hk
      rcases List.mem_append.1 hk with hk | hk
      · exact a2 k hk
      · exact b2 k hk
end

theorem allT_exportProcess {P : ElemPred} {d : Diagram} (c : CoversAll P d) {f : Nat} {pid : String} {a : ProcAttrs} {t : ETree} {s : List ETree}
    (h : exportProcess d f pid a = .ok (t, s)) : AllT P t ∧ ∀ k ∈ s, AllT P k := by
  unfold exportProcess at h
  obtain ⟨as, has, h⟩ := except_bind_eq_ok h
  obtain ⟨lanes, shapes, hl, h⟩ : ∃ lanes shapes, ((∀ t ∈ lanes, AllT P t) ∧ ∀ k ∈ shapes, AllT P k) ∧ (do
      let nodes ← d.getNodesByProcess pid
      let ns ← forEach (exportNode d f) nodes
      let fs ← forEach (fun f => exportFlow f.2.2) (d.getFlowsByProcess pid)
      pure (el "process" as (lanes ++ ns ++ fs), shapes) : Py (ETree × List ETree)) = .ok (t, s) := by
    cases hls : a.laneSet with
    | none =>
      simp only [hls, except_bind_ok] at h
      exact ⟨[], [], by simp, h⟩
    | some x =>
      simp only [hls] at h
      obtain ⟨⟨ts, sh⟩, h1, h⟩ := except_bind_eq_ok h
      simp only [except_pure, except_bind_ok] at h
      obtain ⟨a1, a2⟩ := allT_exportLanes c h1
      refine ⟨_, _, ⟨?_, a2⟩, h⟩
      intro t ht
      rw [List.mem_singleton.1 ht, allT_el]
      exact ⟨c.other _ (by decide) _ _, a1⟩
  obtain ⟨nodes, hnodes, h⟩ := except_bind_eq_ok h
  obtain ⟨ns, hns, h⟩ := except_bind_eq_ok h
  obtain ⟨fs, hfs, h⟩ := except_bind_eq_ok h
  simp only [except_pure, Except.ok.injEq, Prod.mk.injEq] at h
  obtain ⟨rfl, rfl⟩ := h
  unfold processAttrs at has
  obtain ⟨c1, -, has⟩ := except_bind_eq_ok has
  obtain ⟨c2, -, has⟩ := except_bind_eq_ok has
  obtain ⟨c3, -, has⟩ := except_bind_eq_ok has
  simp only [except_pure, Except.ok.injEq] at has
  subst has
  refine ⟨?_, hl.2⟩
  rw [allT_el]
  refine ⟨c.process _ _ _ _ _, ?_⟩
  intro k hk
  rcases List.mem_append.1 hk with hk | hk
  · rcases List.mem_append.1 hk with hk | hk
    · exact hl.1 k hk
    · exact forall₂_right (forEach_eq_ok hns) (fun x hx y hy => allT_exportNode c.toCovers f (pyFilter_subset hnodes x hx) hy) k hk
  · exact forall₂_right (forEach_eq_ok hfs) (fun x hx y hy => allT_exportFlow c.toCovers hy) k hk

theorem allT_exportProcesses {P : ElemPred} {d : Diagram} (c : CoversAll P d) {f : Nat} : ∀ {l : List (String × ProcAttrs)} {ts s : List ETree},
    exportProcesses d f l = .ok (ts, s) → (∀ t ∈ ts, AllT P t) ∧ ∀ k ∈ s, AllT P k
  | [], ts, s, h => by
    simp only [exportProcesses, Except.ok.injEq, Prod.mk.injEq] at h
    obtain ⟨rfl, rfl⟩ := h
    simp
  | (p, a) :: r, ts, s, h => by
    rw [exportProcesses] at h
    obtain ⟨⟨t, s1⟩, h1, h⟩ := except_bind_eq_ok h
    obtain ⟨⟨ts', s2⟩, h2, h⟩ := except_bind_eq_ok h
    simp only [except_pure, Except.ok.injEq, Prod.mk.injEq] at h
    obtain ⟨rfl, rfl⟩ := h
    obtain ⟨a1, a2⟩ := allT_exportProcess c h1
    obtain ⟨b1, b2⟩ := allT_exportProcesses c h2
    constructor
    · rw [List.forall_mem_cons]
      exact ⟨a1, b1⟩
    · intro k hk
      rcases List.mem_append.1 hk with hk | hk
      · exact a2 k hk
      · exact b2 k hk

theorem allT_messageFlows {P : ElemPred} {d : Diagram} (c : CoversAll P d) : ∀ {l : List (String × MsgFlow)} {ts s : List ETree},
    exportMessageFlows d l = .ok (ts, s) → (∀ t ∈ ts, AllT P t) ∧ ∀ k ∈ s, AllT P k
  | [], ts, s, h => by
    simp only [exportMessageFlows, Except.ok.injEq, Prod.mk.injEq] at h
    obtain ⟨rfl, rfl⟩ := h
    simp
  | (p, a) :: r, ts, s, h => by
    rw [exportMessageFlows] at h
    obtain ⟨o, h0, h⟩ := except_bind_eq_ok h
    cases o with
    | none => cases h
    | some x =>
      simp only at h
      obtain ⟨ws, -, h⟩ := except_bind_eq_ok h
      obtain ⟨⟨ts', s2⟩, h2, h⟩ := except_bind_eq_ok h
      simp only [except_pure, Except.ok.injEq, Prod.mk.injEq] at h
      obtain ⟨rfl, rfl⟩ := h
      obtain ⟨b1, b2⟩ := allT_messageFlows c h2
      rw [List.forall_mem_cons, List.forall_mem_cons, allT_el]
      have := c.other "messageFlow" (by decide)
      exact ⟨⟨⟨this _ _, by simp⟩, b1⟩, allT_edgeDi c _ _, b2⟩

theorem allT_participants {P : ElemPred} {d : Diagram} (c : CoversAll P d) : ∀ {l : List (String × Participant)} {ts s : List ETree},
    exportParticipants l = .ok (ts, s) → (∀ t ∈ ts, AllT P t) ∧ ∀ k ∈ s, AllT P k
  | [], ts, s, h => by
    simp only [exportParticipants, Except.ok.injEq, Prod.mk.injEq] at h
    obtain ⟨rfl, rfl⟩ := h
    simp
  | (p, a) :: r, ts, s, h => by
    rw [exportParticipants] at h
    split at h
    · cases h
    · obtain ⟨⟨ts', s2⟩, h2, h⟩ := except_bind_eq_ok h
      simp only [except_pure, Except.ok.injEq, Prod.mk.injEq] at h
      obtain ⟨rfl, rfl⟩ := h
      obtain ⟨b1, b2⟩ := allT_participants c h2
      rw [List.forall_mem_cons, List.forall_mem_cons, allT_el]
      have := c.other "participant" (by decide)
      exact ⟨⟨⟨this _ _, by simp⟩, b1⟩, allT_shape c _ _ _ _ _ _, b2⟩

/-- Everything in the output. -/
theorem allT_definitions {P : ElemPred} {d : Diagram} (c : CoversAll P d) {f : Nat} {t : ETree} (h : definitions f d = .ok t) : AllT P t := by
  unfold definitions at h
  obtain ⟨did, -, h⟩ := except_bind_eq_ok h
  obtain ⟨dn, -, h⟩ := except_bind_eq_ok h
  obtain ⟨pid, -, h⟩ := except_bind_eq_ok h
  obtain ⟨pel, -, h⟩ := except_bind_eq_ok h
  obtain ⟨⟨coll, s1⟩, h1, h⟩ := except_bind_eq_ok h
  obtain ⟨⟨procs, s2⟩, h2, h⟩ := except_bind_eq_ok h
  obtain ⟨s3, h3, h⟩ := except_bind_eq_ok h
  obtain ⟨s4, h4, h⟩ := except_bind_eq_ok h
  simp only [except_pure, Except.ok.injEq] at h
  subst h
  have hc : (∀ t ∈ coll, AllT P t) ∧ ∀ k ∈ s1, AllT P k := by
    unfold exportCollaboration at h1
    split at h1
    · simp only [Except.ok.injEq, Prod.mk.injEq] at h1
      obtain ⟨rfl, rfl⟩ := h1
      simp
    · obtain ⟨⟨ms, es⟩, g1, h1⟩ := except_bind_eq_ok h1
      obtain ⟨⟨ps, ss⟩, g2, h1⟩ := except_bind_eq_ok h1
      simp only [except_pure, Except.ok.injEq, Prod.mk.injEq] at h1
      obtain ⟨rfl, rfl⟩ := h1
      obtain ⟨a1, a2⟩ := allT_messageFlows c g1
      obtain ⟨b1, b2⟩ := allT_participants c g2
      constructor
      · intro t ht
        rw [List.mem_singleton.1 ht, allT_el]
        refine ⟨c.other _ (by decide) _ _, ?_⟩
        intro k hk
        rcases List.mem_append.1 hk with hk | hk
        · exact a1 k hk
        · exact b1 k hk
      · intro k hk
        rcases List.mem_append.1 hk with hk | hk
        · exact a2 k hk
        · exact b2 k hk
  obtain ⟨p1, p2⟩ := allT_exportProcesses c h2
  have q3 : ∀ k ∈ s3, AllT P k := by
    refine forall₂_right (forEach_eq_ok h3) ?_
    intro n _ t ht
    unfold exportNodeDi at ht
    obtain ⟨w, -, ht⟩ := except_bind_eq_ok ht
    obtain ⟨hh, -, ht⟩ := except_bind_eq_ok ht
    obtain ⟨x, -, ht⟩ := except_bind_eq_ok ht
    obtain ⟨y, -, ht⟩ := except_bind_eq_ok ht
    obtain ⟨ty, -, ht⟩ := except_bind_eq_ok ht
    split at ht
    · obtain ⟨e, -, ht⟩ := except_bind_eq_ok ht
      simp only [except_pure, Except.ok.injEq] at ht
      subst ht
      exact allT_shape c _ _ _ _ _ _
    · simp only [except_pure, Except.ok.injEq] at ht
      subst ht
      exact allT_shape c _ _ _ _ _ _
  have q4 : ∀ k ∈ s4, AllT P k := by
    refine forall₂_right (forEach_eq_ok h4) ?_
    intro n _ t ht
    unfold exportFlowDi at ht
    obtain ⟨w, -, ht⟩ := except_bind_eq_ok ht
    obtain ⟨hh, -, ht⟩ := except_bind_eq_ok ht
    simp only [except_pure, Except.ok.injEq] at ht
    subst ht
    exact allT_edgeDi c _ _
  rw [allT_el, List.forall_mem_cons, allT_el]
  refine ⟨c.basic _ (by decide) _ _, ⟨c.other _ (by decide) _ _, ?_⟩, ?_⟩
  · intro k hk
    rw [List.mem_singleton.1 hk, allT_el]
    refine ⟨c.other _ (by decide) _ _, ?_⟩
    intro k hk
    simp only [List.mem_append] at hk
    rcases hk with ((hk | hk) | hk) | hk
    · exact hc.2 k hk
    · exact p2 k hk
    · exact q3 k hk
    · exact q4 k hk
  · intro k hk
    rcases List.mem_append.1 hk with hk | hk
    · exact hc.1 k hk
    · exact p1 k hk

end Bpmn

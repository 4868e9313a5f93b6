import Verif.Spec.XmlNames
import Verif.Lemmas.Labels
import Verif.Lemmas.AllTrees
set_option linter.unusedSimpArgs false
set_option linter.unusedVariables false
/-!
# Names and ids in written files
-/
namespace Bpmn
open Spec Export

theorem elementsOfAll_eq (l : List ETree) : elementsOfAll l = l.flatMap elementsOf := by
  induction l with
  | nil => simp [elementsOfAll]
  | cons t r ih => simp [elementsOfAll, ih]

theorem elementsOf_el (tag : String) (attrs : List (String × String)) (kids : List ETree) :
    elementsOf (el tag attrs kids) = (tag, attrs) :: kids.flatMap elementsOf := by
  simp [el, elementsOf, elementsOfAll_eq]

mutual
theorem elementsOf_indent : ∀ (level : Nat) (t : ETree), elementsOf (indent level t) = elementsOf t
  | level, .node tag attrs text tail [] => by simp [indent, elementsOf]
  | level, .node tag attrs text tail (k :: ks) => by
    simp [indent, elementsOf, elementsOfAll_indentAll (level + 1) (k :: ks)]
theorem elementsOfAll_indentAll : ∀ (level : Nat) (l : List ETree), elementsOfAll (indentAll level l) = elementsOfAll l
  | _, [] => by simp [indentAll]
  | level, t :: r => by simp [indentAll, elementsOfAll, elementsOf_indent level t, elementsOfAll_indentAll level r]
end

@[simp] theorem attrsOf_indent (level : Nat) (t : ETree) : attrsOf (indent level t) = attrsOf t := by
  rcases t with ⟨tag, attrs, text, tail, _ | ⟨k, ks⟩⟩ <;> simp [indent, attrsOf]

/-! ## Namespaces -/

/-- All elements of the trees satisfy `P`. -/
def Every (P : String × List (String × String) → Prop) (l : List ETree) : Prop := ∀ e ∈ l.flatMap elementsOf, P e

variable {P : String × List (String × String) → Prop}

theorem Every.nil : Every P [] := by simp [Every]

theorem Every.append {l m : List ETree} (h : Every P l) (k : Every P m) : Every P (l ++ m) := by
  intro e he
  rw [List.flatMap_append] at he
  exact (List.mem_append.1 he).elim (h e) (k e)

theorem Every.cons {t : ETree} {l : List ETree} (h : Every P [t]) (k : Every P l) : Every P (t :: l) := Every.append (l := [t]) h k

theorem Every.el {tag : String} {attrs : List (String × String)} {l : List ETree} (h : P (tag, attrs)) (k : Every P l) :
    Every P [Export.el tag attrs l] := by
  intro e he
  simp only [List.flatMap_cons, List.flatMap_nil, List.append_nil, elementsOf_el] at he
  rcases List.mem_cons.1 he with rfl | he
  · exact h
  · exact k e he

theorem Every.map {α : Type} {l : List α} {g : α → ETree} (h : ∀ x ∈ l, Every P [g x]) : Every P (l.map g) := by
  induction l with
  | nil => exact Every.nil
  | cons x r ih =>
    rw [List.forall_mem_cons] at h
    exact Every.cons h.1 (ih h.2)

theorem Every.leaf {tag text : String} (h : P (tag, [])) : Every P [Export.leaf tag text] := by
  intro e he
  simp [Export.leaf, elementsOf, elementsOfAll] at he
  subst he
  exact h

theorem Every.forEach {α : Type} {f : α → Py ETree} : ∀ {l : List α} {ts : List ETree}, Export.forEach f l = .ok ts →
    (∀ x ∈ l, ∀ t, f x = .ok t → Every P [t]) → Every P ts
  | [], ts, h, _ => by
    simp only [Export.forEach, Except.ok.injEq] at h
    subst h
    exact Every.nil
  | x :: r, ts, h, hf => by
    rw [List.forall_mem_cons] at hf
    simp only [Export.forEach] at h
    obtain ⟨t, h1, h⟩ := except_bind_eq_ok h
    obtain ⟨ts', h2, h⟩ := except_bind_eq_ok h
    simp only [except_pure, Except.ok.injEq] at h
    subst h
    exact Every.cons (hf.1 t h1) (Every.forEach h2 hf.2)

/-- An element with a plain tag and plain attributes. -/
def PlainEl (e : String × List (String × String)) : Prop := NoColon e.1 ∧ PlainAttrs e

instance (s : String) : Decidable (NoColon s) := inferInstanceAs (Decidable (':' ∉ s.toList))

theorem plainAttrs_of_keys {tag : String} {as : List (String × String)} {ks : List String} (h : as.map (·.1) = ks)
    (hk : ks.Nodup ∧ ∀ k ∈ ks, NoColon k ∧ k ≠ "xmlns" := by (try simp only [List.map_append, List.map_cons, List.map_nil, List.cons_append, List.nil_append]); decide) :
    PlainAttrs (tag, as) := by
  unfold PlainAttrs
  rw [show (tag, as).2.map (·.1) = ks from h]
  exact hk

theorem plainEl {tag : String} {as : List (String × String)} {ks : List String} (h : as.map (·.1) = ks) (ht : NoColon tag := by decide)
    (hk : ks.Nodup ∧ ∀ k ∈ ks, NoColon k ∧ k ≠ "xmlns" := by
      (try simp only [List.map_append, List.map_cons, List.map_nil, List.cons_append, List.nil_append]); decide) : PlainEl (tag, as) :=
  ⟨ht, plainAttrs_of_keys h hk⟩

theorem plain_flow {a : EdgeAttrs} {t : ETree} (h : exportFlow a = .ok t) : Every PlainEl [t] := by
  unfold exportFlow at h
  obtain ⟨i, -, h⟩ := except_bind_eq_ok h
  obtain ⟨n, -, h⟩ := except_bind_eq_ok h
  obtain ⟨s, -, h⟩ := except_bind_eq_ok h
  obtain ⟨g, -, h⟩ := except_bind_eq_ok h
  cases hc : a.conditionExpression with
  | none =>
    rw [hc] at h
    simp only [except_pure, Except.ok.injEq] at h
    subst h
    exact Every.el (plainEl rfl) Every.nil
  | some c =>
    rw [hc] at h
    simp only [except_pure, Except.ok.injEq] at h
    subst h
    refine Every.el (plainEl rfl) ?_
    intro e he
    simp [elementsOf, elementsOfAll] at he
    subst he
    exact (plainEl rfl)

theorem plain_defs {defs : List EventDef} (h : ∀ e ∈ defs, NoColon e.defType) : Every PlainEl (exportDefs defs) := by
  unfold exportDefs
  apply Every.map
  intro e he
  refine Every.el ⟨h e he, ?_⟩ Every.nil
  by_cases hi : e.id = ""
  · simp only [hi, ne_eq, not_true_eq_false, if_false]
    exact plainAttrs_of_keys rfl
  · simp only [hi, ne_eq, not_false_eq_true, if_true]
    exact plainAttrs_of_keys rfl

theorem plain_leaves {tag : String} (h : NoColon tag) (l : List String) : Every PlainEl (l.map (leaf tag)) :=
  Every.map fun _ _ => Every.leaf ⟨h, plainAttrs_of_keys rfl⟩

theorem plain_attrs {tag : String} {as : List (String × String)} (p : NodeAttrs) {ks : List String} (h : as.map (·.1) = ks)
    (hk : (ks ++ ["default"]).Nodup ∧ ∀ k ∈ ks ++ ["default"], NoColon k ∧ k ≠ "xmlns" := by (try simp only [List.map_append, List.map_cons, List.map_nil, List.cons_append, List.nil_append]); decide) :
    PlainAttrs (tag, as ++ defaultAttr p) := by
  have hsub : ((as ++ defaultAttr p).map (·.1)).Sublist (ks ++ ["default"]) := by
    rw [List.map_append, h]
    apply List.Sublist.append_left
    unfold defaultAttr
    split <;> simp
  exact ⟨hk.1.sublist hsub, fun k hm => hk.2 k (hsub.subset hm)⟩

theorem getNodesByProcess_sub {d : Diagram} {p : String} {r : List Node} (h : d.getNodesByProcess p = .ok r) : ∀ x ∈ r, x ∈ d.graph.nodes :=
  pyFilter_subset h

theorem plain_node {d : Diagram} (hd : PlainTypes d) : ∀ (fuel : Nat) (n : Node) (t : ETree), n ∈ d.graph.nodes → exportNode d fuel n = .ok t →
    Every PlainEl [t]
  | 0, _, _, _, h => by cases h
  | fuel + 1, (nodeId, p), t, hn, h => by
    have hty := (hd (nodeId, p) hn).1
    have hdefs := (hd (nodeId, p) hn).2
    simp only at hty hdefs
    simp only [exportNode] at h
    obtain ⟨ty, e1, h⟩ := except_bind_eq_ok h
    obtain ⟨name, -, h⟩ := except_bind_eq_ok h
    obtain ⟨inc, -, h⟩ := except_bind_eq_ok h
    obtain ⟨out, -, h⟩ := except_bind_eq_ok h
    have hp : NoColon ty := by
      apply hty
      revert e1
      cases p.type <;> simp [need]
    have hkids : Every PlainEl (inc.map (leaf "incoming") ++ out.map (leaf "outgoing")) :=
      (plain_leaves (by decide) _).append (plain_leaves (by decide) _)
    have hdk : ∀ {defs : List EventDef}, p.eventDefinitions = some defs →
        Every PlainEl (inc.map (leaf "incoming") ++ out.map (leaf "outgoing") ++ exportDefs defs) := by
      intro defs he
      refine hkids.append (plain_defs ?_)
      rw [he] at hdefs
      exact hdefs
    have hneed : ∀ {defs : List EventDef}, need p.eventDefinitions = .ok defs → p.eventDefinitions = some defs := by
      intro defs
      cases p.eventDefinitions <;> simp [need]
    by_cases c0 : isTask ty = true
    · rw [if_pos c0] at h
      simp only [except_pure, Except.ok.injEq] at h
      subst h
      exact Every.el ⟨hp, plain_attrs p rfl⟩ hkids
    rw [if_neg c0] at h
    by_cases c1 : ty = "subProcess"
    · rw [if_pos c1] at h
      obtain ⟨trig, -, h⟩ := except_bind_eq_ok h
      obtain ⟨sid, -, h⟩ := except_bind_eq_ok h
      obtain ⟨nodes, hnodes, h⟩ := except_bind_eq_ok h
      obtain ⟨ns, h1, h⟩ := except_bind_eq_ok h
      obtain ⟨fs, h2, h⟩ := except_bind_eq_ok h
      simp only [except_pure, Except.ok.injEq] at h
      subst h
      refine Every.el ⟨hp, plain_attrs p rfl⟩ ((hkids.append (Every.forEach h1 ?_)).append (Every.forEach h2 fun x _ t => plain_flow))
      intro m hm t ht
      refine plain_node hd fuel m t ?_ ht
      exact getNodesByProcess_sub hnodes m hm
    rw [if_neg c1] at h
    by_cases c2 : ty = "dataObject"
    · rw [if_pos c2] at h
      obtain ⟨c, -, h⟩ := except_bind_eq_ok h
      simp only [except_pure, Except.ok.injEq] at h
      subst h
      exact Every.el ⟨hp, plainAttrs_of_keys rfl⟩ hkids
    rw [if_neg c2] at h
    by_cases c3 : ty = "complexGateway"
    · rw [if_pos c3] at h
      obtain ⟨c, -, h⟩ := except_bind_eq_ok h
      simp only [except_pure, Except.ok.injEq] at h
      subst h
      exact Every.el ⟨hp, plain_attrs p rfl⟩ hkids
    rw [if_neg c3] at h
    by_cases c4 : ty = "eventBasedGateway"
    · rw [if_pos c4] at h
      obtain ⟨c, -, h⟩ := except_bind_eq_ok h
      obtain ⟨c', -, h⟩ := except_bind_eq_ok h
      obtain ⟨c'', -, h⟩ := except_bind_eq_ok h
      simp only [except_pure, Except.ok.injEq] at h
      subst h
      exact Every.el ⟨hp, plainAttrs_of_keys rfl⟩ hkids
    rw [if_neg c4] at h
    by_cases c5 : ty = "inclusiveGateway" ∨ ty = "exclusiveGateway"
    · rw [if_pos c5] at h
      obtain ⟨c, -, h⟩ := except_bind_eq_ok h
      simp only [except_pure, Except.ok.injEq] at h
      subst h
      exact Every.el ⟨hp, plain_attrs p rfl⟩ hkids
    rw [if_neg c5] at h
    by_cases c6 : ty = "parallelGateway"
    · rw [if_pos c6] at h
      obtain ⟨c, -, h⟩ := except_bind_eq_ok h
      simp only [except_pure, Except.ok.injEq] at h
      subst h
      exact Every.el ⟨hp, plainAttrs_of_keys rfl⟩ hkids
    rw [if_neg c6] at h
    by_cases c7 : ty = "startEvent"
    · rw [if_pos c7] at h
      obtain ⟨c, -, h⟩ := except_bind_eq_ok h
      obtain ⟨c', -, h⟩ := except_bind_eq_ok h
      split at h
      · cases h
      · rename_i defs he
        simp only [except_pure, Except.ok.injEq] at h
        subst h
        exact Every.el ⟨hp, plainAttrs_of_keys rfl⟩ (hdk he)
    rw [if_neg c7] at h
    by_cases c8 : ty = "intermediateCatchEvent"
    · rw [if_pos c8] at h
      obtain ⟨c, -, h⟩ := except_bind_eq_ok h
      obtain ⟨defs, he, h⟩ := except_bind_eq_ok h
      simp only [except_pure, Except.ok.injEq] at h
      subst h
      exact Every.el ⟨hp, plainAttrs_of_keys rfl⟩ (hdk (hneed he))
    rw [if_neg c8] at h
    by_cases c9 : ty = "endEvent" ∨ ty = "intermediateThrowEvent"
    · rw [if_pos c9] at h
      obtain ⟨defs, he, h⟩ := except_bind_eq_ok h
      simp only [except_pure, Except.ok.injEq] at h
      subst h
      exact Every.el ⟨hp, plainAttrs_of_keys rfl⟩ (hdk (hneed he))
    rw [if_neg c9] at h
    by_cases c10 : ty = "boundaryEvent"
    · rw [if_pos c10] at h
      obtain ⟨c, -, h⟩ := except_bind_eq_ok h
      obtain ⟨c', -, h⟩ := except_bind_eq_ok h
      obtain ⟨c'', -, h⟩ := except_bind_eq_ok h
      obtain ⟨defs, he, h⟩ := except_bind_eq_ok h
      simp only [except_pure, Except.ok.injEq] at h
      subst h
      exact Every.el ⟨hp, plainAttrs_of_keys rfl⟩ (hdk (hneed he))
    rw [if_neg c10] at h
    simp only [except_pure, Except.ok.injEq] at h
    subst h
    exact Every.el ⟨hp, plainAttrs_of_keys rfl⟩ hkids

/-- A drawing element as it is written, with plain attributes. -/
def DrawEl (e : String × List (String × String)) : Prop :=
  e.1 ∈ ["bpmndi:BPMNDiagram", "bpmndi:BPMNPlane", "bpmndi:BPMNShape", "bpmndi:BPMNEdge", "omgdc:Bounds", "omgdi:waypoint"] ∧ PlainAttrs e

theorem draw_shape (id : String) (extra : List (String × String)) (w h x y : String)
    (he : PlainAttrs ("bpmndi:BPMNShape", [("id", id ++ "_gui"), ("bpmnElement", id)] ++ extra)) : Every DrawEl [shape id extra w h x y] :=
  Every.el ⟨by simp, he⟩ (Every.el ⟨by simp, plainAttrs_of_keys rfl⟩ Every.nil)

theorem draw_edge (id : String) (ws : List (String × String)) : Every DrawEl [edgeDi id ws] :=
  Every.el ⟨by simp, plainAttrs_of_keys rfl⟩ (Every.map fun w _ => Every.el ⟨by simp, plainAttrs_of_keys rfl⟩ Every.nil)

mutual
theorem named_lane : ∀ {l : Lane} {t : ETree} {s : List ETree}, exportLane l = .ok (t, s) → Every PlainEl [t] ∧ Every DrawEl s
  | .mk id name none children refs di, t, s, h => by
    unfold exportLane at h
    simp only [bind, Except.bind] at h
    cases di with
    | none => cases h
    | some b =>
      simp only [except_pure, Except.ok.injEq, Prod.mk.injEq] at h
      obtain ⟨rfl, rfl⟩ := h
      exact ⟨Every.el (plainEl rfl) (plain_leaves (by decide) _), draw_shape _ _ _ _ _ _ (plainAttrs_of_keys rfl)⟩
  | .mk id name (some c) children refs di, t, s, h => by
    unfold exportLane at h
    simp only [bind, Except.bind] at h
    cases hc : exportLanes children with
    | error e => rw [hc] at h; cases h
    | ok p =>
      obtain ⟨ls, shapes⟩ := p
      rw [hc] at h
      cases di with
      | none => cases h
      | some b =>
        simp only [except_pure, Except.ok.injEq, Prod.mk.injEq] at h
        obtain ⟨rfl, rfl⟩ := h
        have hl := named_lanes hc
        exact ⟨Every.el (plainEl rfl)
          ((Every.el (plainEl rfl) hl.1).append (plain_leaves (by decide) _)),
          hl.2.append (draw_shape _ _ _ _ _ _ (plainAttrs_of_keys rfl))⟩
theorem named_lanes : ∀ {l : List Lane} {ts s : List ETree}, exportLanes l = .ok (ts, s) → Every PlainEl ts ∧ Every DrawEl s
  | [], ts, s, h => by
    unfold exportLanes at h
    simp only [Except.ok.injEq, Prod.mk.injEq] at h
    obtain ⟨rfl, rfl⟩ := h
    exact ⟨Every.nil, Every.nil⟩
  | l :: r, ts, s, h => by
    unfold exportLanes at h
    obtain ⟨⟨t, s1⟩, h1, h⟩ := except_bind_eq_ok h
    obtain ⟨⟨ts, s2⟩, h2, h⟩ := except_bind_eq_ok h
    simp only [except_pure, Except.ok.injEq, Prod.mk.injEq] at h
    obtain ⟨rfl, rfl⟩ := h
    have i1 := named_lane h1
    have i2 := named_lanes h2
    exact ⟨i1.1.cons i2.1, i1.2.append i2.2⟩
end

theorem keys_processAttrs {pid : String} {a : ProcAttrs} {as : List (String × String)} (h : processAttrs pid a = .ok as) :
    PlainEl ("process", as) := by
  unfold processAttrs at h
  obtain ⟨c, -, h⟩ := except_bind_eq_ok h
  obtain ⟨e, -, h⟩ := except_bind_eq_ok h
  obtain ⟨g, -, h⟩ := except_bind_eq_ok h
  simp only [except_pure, Except.ok.injEq] at h
  subst h
  exact (plainEl rfl)

theorem named_processes {d : Diagram} (hd : PlainTypes d) (fuel : Nat) : ∀ {l : List (String × ProcAttrs)} {ts s : List ETree},
    exportProcesses d fuel l = .ok (ts, s) → Every PlainEl ts ∧ Every DrawEl s
  | [], ts, s, h => by
    simp only [exportProcesses, Except.ok.injEq, Prod.mk.injEq] at h
    obtain ⟨rfl, rfl⟩ := h
    exact ⟨Every.nil, Every.nil⟩
  | (pid, a) :: r, ts, s, h => by
    simp only [exportProcesses] at h
    obtain ⟨⟨t, s1⟩, h1, h⟩ := except_bind_eq_ok h
    obtain ⟨⟨ts, s2⟩, h2, h⟩ := except_bind_eq_ok h
    simp only [except_pure, Except.ok.injEq, Prod.mk.injEq] at h
    obtain ⟨rfl, rfl⟩ := h
    have i := named_processes hd fuel h2
    have key : Every PlainEl [t] ∧ Every DrawEl s1 := by
      unfold exportProcess at h1
      obtain ⟨attrs, ha, h1⟩ := except_bind_eq_ok h1
      have rest : ∀ (lanes shapes : List ETree), Every PlainEl lanes → Every DrawEl shapes → (do
          let nodes ← d.getNodesByProcess pid
          let ns ← forEach (exportNode d fuel) nodes
          let fs ← forEach (fun f => exportFlow f.2.2) (d.getFlowsByProcess pid)
          pure (el "process" attrs (lanes ++ ns ++ fs), shapes) : Py (ETree × List ETree)) = .ok (t, s1) → Every PlainEl [t] ∧ Every DrawEl s1 := by
        intro lanes shapes k1 k2 h1
        obtain ⟨nodes, hnodes, h1⟩ := except_bind_eq_ok h1
        obtain ⟨ns, h3, h1⟩ := except_bind_eq_ok h1
        obtain ⟨fs, h4, h1⟩ := except_bind_eq_ok h1
        simp only [except_pure, Except.ok.injEq, Prod.mk.injEq] at h1
        obtain ⟨rfl, rfl⟩ := h1
        refine ⟨Every.el (keys_processAttrs ha) ((k1.append (Every.forEach h3 ?_)).append (Every.forEach h4 fun x _ t => plain_flow)), k2⟩
        intro m hm t ht
        exact plain_node hd fuel m t (getNodesByProcess_sub hnodes m hm) ht
      cases hl : a.laneSet with
      | none =>
        rw [hl] at h1
        exact rest _ _ Every.nil Every.nil h1
      | some q =>
        obtain ⟨si, ls⟩ := q
        rw [hl] at h1
        obtain ⟨⟨ts', s'⟩, h4, h3⟩ := except_bind_eq_ok h1
        have hl := named_lanes h4
        exact rest _ _ (Every.el (plainEl rfl) hl.1) hl.2 h3
    exact ⟨key.1.cons i.1, key.2.append i.2⟩

theorem named_messages (d : Diagram) : ∀ {l : List (String × MsgFlow)} {ts s : List ETree}, exportMessageFlows d l = .ok (ts, s) →
    Every PlainEl ts ∧ Every DrawEl s
  | [], ts, s, h => by
    simp only [exportMessageFlows, Except.ok.injEq, Prod.mk.injEq] at h
    obtain ⟨rfl, rfl⟩ := h
    exact ⟨Every.nil, Every.nil⟩
  | (id, m) :: r, ts, s, h => by
    simp only [exportMessageFlows] at h
    obtain ⟨f, h1, h⟩ := except_bind_eq_ok h
    cases f with
    | none => cases h
    | some f =>
      obtain ⟨ws, -, h⟩ := except_bind_eq_ok h
      obtain ⟨⟨ts', s'⟩, h2, h⟩ := except_bind_eq_ok h
      simp only [except_pure, Except.ok.injEq, Prod.mk.injEq] at h
      obtain ⟨rfl, rfl⟩ := h
      have i := named_messages d h2
      exact ⟨(Every.el (plainEl rfl) Every.nil).cons i.1, (draw_edge _ _).cons i.2⟩

theorem named_participants : ∀ {l : List (String × Participant)} {ts s : List ETree}, exportParticipants l = .ok (ts, s) →
    Every PlainEl ts ∧ Every DrawEl s
  | [], ts, s, h => by
    simp only [exportParticipants, Except.ok.injEq, Prod.mk.injEq] at h
    obtain ⟨rfl, rfl⟩ := h
    exact ⟨Every.nil, Every.nil⟩
  | (id, m) :: r, ts, s, h => by
    simp only [exportParticipants] at h
    cases hd : m.di with
    | none => rw [hd] at h; cases h
    | some b =>
      rw [hd] at h
      obtain ⟨⟨ts', s'⟩, h2, h⟩ := except_bind_eq_ok h
      simp only [except_pure, Except.ok.injEq, Prod.mk.injEq] at h
      obtain ⟨rfl, rfl⟩ := h
      have i := named_participants h2
      exact ⟨(Every.el (plainEl rfl) Every.nil).cons i.1, (draw_shape _ _ _ _ _ _ (plainAttrs_of_keys rfl)).cons i.2⟩

theorem named_collaboration {d : Diagram} {ts s : List ETree} (h : exportCollaboration d = .ok (ts, s)) : Every PlainEl ts ∧ Every DrawEl s := by
  unfold exportCollaboration at h
  cases hc : d.collaboration with
  | none =>
    rw [hc] at h
    simp only [Except.ok.injEq, Prod.mk.injEq] at h
    obtain ⟨rfl, rfl⟩ := h
    exact ⟨Every.nil, Every.nil⟩
  | some c =>
    rw [hc] at h
    obtain ⟨⟨ms, es⟩, h1, h⟩ := except_bind_eq_ok h
    obtain ⟨⟨ps, ss⟩, h2, h⟩ := except_bind_eq_ok h
    simp only [except_pure, Except.ok.injEq, Prod.mk.injEq] at h
    obtain ⟨rfl, rfl⟩ := h
    have i1 := named_messages d h1
    have i2 := named_participants h2
    exact ⟨Every.el (plainEl rfl) (i1.1.append i2.1), i1.2.append i2.2⟩

theorem draw_node {n : Node} {t : ETree} (h1 : exportNodeDi n = .ok t) : Every DrawEl [t] := by
  unfold exportNodeDi at h1
  obtain ⟨w, -, h1⟩ := except_bind_eq_ok h1
  obtain ⟨h', -, h1⟩ := except_bind_eq_ok h1
  obtain ⟨x, -, h1⟩ := except_bind_eq_ok h1
  obtain ⟨y, -, h1⟩ := except_bind_eq_ok h1
  obtain ⟨ty, -, h1⟩ := except_bind_eq_ok h1
  split at h1
  · obtain ⟨e, -, h1⟩ := except_bind_eq_ok h1
    simp only [except_pure, Except.ok.injEq] at h1
    subst h1
    exact draw_shape _ _ _ _ _ _ (plainAttrs_of_keys rfl)
  · simp only [except_pure, Except.ok.injEq] at h1
    subst h1
    exact draw_shape _ _ _ _ _ _ (plainAttrs_of_keys rfl)

theorem draw_flow {a : EdgeAttrs} {t : ETree} (h1 : exportFlowDi a = .ok t) : Every DrawEl [t] := by
  unfold exportFlowDi at h1
  obtain ⟨i, -, h1⟩ := except_bind_eq_ok h1
  obtain ⟨ws, -, h1⟩ := except_bind_eq_ok h1
  simp only [except_pure, Except.ok.injEq] at h1
  subst h1
  exact draw_edge _ _

/-- What `definitions` writes. -/
theorem named_definitions {d : Diagram} (hd : PlainTypes d) {fuel : Nat} {t : ETree} (h : definitions fuel d = .ok t) :
    ∃ dia rest, t = el "definitions" definitionsAttrs (dia :: rest) ∧ Every DrawEl [dia] ∧ Every PlainEl rest := by
  unfold definitions at h
  obtain ⟨did, -, h1⟩ := except_bind_eq_ok h
  obtain ⟨dname, -, h1⟩ := except_bind_eq_ok h1
  obtain ⟨pid, -, h1⟩ := except_bind_eq_ok h1
  obtain ⟨pel, -, h1⟩ := except_bind_eq_ok h1
  obtain ⟨⟨coll, s1⟩, c1, h1⟩ := except_bind_eq_ok h1
  obtain ⟨⟨procs, s2⟩, c2, h1⟩ := except_bind_eq_ok h1
  obtain ⟨s3, c3, h1⟩ := except_bind_eq_ok h1
  obtain ⟨s4, c4, h1⟩ := except_bind_eq_ok h1
  simp only [except_pure, Except.ok.injEq] at h1
  subst h1
  have k1 := named_collaboration c1
  have k2 := named_processes hd fuel c2
  have k3 : Every DrawEl s3 := Every.forEach c3 fun x _ t => draw_node
  have k4 : Every DrawEl s4 := Every.forEach c4 fun x _ t => draw_flow
  exact ⟨_, _, rfl, Every.el ⟨by simp, plainAttrs_of_keys rfl⟩ (Every.el ⟨by simp, plainAttrs_of_keys rfl⟩ (((k1.2.append k2.2).append k3).append k4)),
    k1.1.append k2.1⟩

theorem named_definitionsNoDi {d : Diagram} (hd : PlainTypes d) {fuel : Nat} {t : ETree} (h : definitionsNoDi fuel d = .ok t) :
    ∃ rest, t = el "definitions" definitionsAttrs rest ∧ Every PlainEl rest := by
  unfold definitionsNoDi at h
  obtain ⟨ps, h1, h⟩ := except_bind_eq_ok h
  simp only [except_pure, Except.ok.injEq] at h
  subst h
  refine ⟨_, rfl, Every.forEach h1 ?_⟩
  intro p _ t ht
  unfold exportProcessNoDi at ht
  obtain ⟨attrs, ha, ht⟩ := except_bind_eq_ok ht
  obtain ⟨ns, h3, ht⟩ := except_bind_eq_ok ht
  obtain ⟨fs, h4, ht⟩ := except_bind_eq_ok ht
  simp only [except_pure, Except.ok.injEq] at ht
  subst ht
  exact Every.el (keys_processAttrs ha) ((Every.forEach h3 fun m hm t ht => plain_node hd fuel m t hm ht).append
    (Every.forEach h4 fun x _ t => plain_flow))

/-! ## Ids -/

/-- The ids of a list of trees. -/
def idsOf (l : List ETree) : List String := l.flatMap treeIds

theorem treeIds_indent (level : Nat) (t : ETree) : treeIds (indent level t) = treeIds t := by
  rw [treeIds, elementsOf_indent, treeIds]

theorem treeIds_el (tag : String) (attrs : List (String × String)) (kids : List ETree) :
    treeIds (el tag attrs kids) = (idOf (tag, attrs)).toList ++ idsOf kids := by
  unfold treeIds idsOf
  rw [elementsOf_el, List.filterMap_cons]
  have : (kids.flatMap elementsOf).filterMap idOf = kids.flatMap treeIds := by
    rw [List.filterMap_flatMap]
    rfl
  rw [this]
  cases idOf (tag, attrs) <;> simp

theorem idsOf_append (l m : List ETree) : idsOf (l ++ m) = idsOf l ++ idsOf m := by simp [idsOf]
theorem idsOf_cons (t : ETree) (l : List ETree) : idsOf (t :: l) = treeIds t ++ idsOf l := by simp [idsOf]
theorem idsOf_nil : idsOf [] = [] := rfl
theorem idsOf_map {α : Type} (l : List α) (g : α → ETree) : idsOf (l.map g) = l.flatMap fun x => treeIds (g x) := by simp [idsOf, List.flatMap_map]

theorem idOf_cons_id (tag v : String) (r : List (String × String)) : idOf (tag, ("id", v) :: r) = some v := by simp [idOf]

theorem ids_leaves (tag : String) (l : List String) : idsOf (l.map (leaf tag)) = [] := by
  rw [idsOf_map]
  apply flatMap_eq_nil'
  intro x _
  simp [leaf, treeIds, elementsOf, elementsOfAll, idOf]

/-- The ids written for a flow. -/
def flowOwnIds (a : EdgeAttrs) : List String := a.id.getD "" :: (a.conditionExpression.map (·.id)).toList

theorem ids_flowTree (a : EdgeAttrs) : treeIds (flowTree a) = flowOwnIds a := by
  rw [flowTree, treeIds_el, idOf_cons_id, flowOwnIds]
  cases a.conditionExpression with
  | none => simp [idsOf_nil]
  | some c => simp [idsOf, treeIds, elementsOf, elementsOfAll, idOf]

theorem ids_defs (defs : List EventDef) : idsOf (exportDefs defs) = (defs.map (·.id)).filter (· ≠ "") := by
  rw [exportDefs, idsOf_map]
  induction defs with
  | nil => rfl
  | cons e r ih =>
    rw [List.flatMap_cons, ih, treeIds_el, idsOf_nil]
    by_cases h : e.id = "" <;> simp [h, idOf]

/-- The ids written for a node. -/
def nodeOwnIds (n : Node) : List String := n.1 :: ((n.2.eventDefinitions.getD []).map (·.id)).filter (· ≠ "")

/-- The ids written for the flows of a process or sub-process. -/
def flowsIds (d : Diagram) (p : String) : List String := (d.getFlowsByProcess p).flatMap fun x => flowOwnIds x.2.2

theorem ids_nodeTree {d : Diagram} (hn : ∀ n ∈ d.graph.nodes, NodeReady n) (f : Nat) (n : Node) (hm : n ∈ d.graph.nodes) :
    treeIds (nodeTree d (f + 1) n) = nodeOwnIds n ++ if n.2.type = some "subProcess" then
      (nodesOf d n.1).flatMap (fun m => treeIds (nodeTree d f m)) ++ flowsIds d n.1 else [] := by
  obtain ⟨n, a⟩ := n
  simp only [nodeTree, nodeXmlAttrs]
  rw [treeIds_el, idOf_cons_id, idsOf_append, idsOf_append, ids_leaves, ids_leaves, nodeOwnIds]
  simp only [List.nil_append, Option.toList_some, List.cons_append]
  congr 1
  by_cases hs : a.type = some "subProcess"
  · rw [if_pos hs, if_pos hs, idsOf_append, idsOf_map, idsOf_map]
    have h0 : a.eventDefinitions = none := by
      obtain ⟨k, hk, facts⟩ := (hn _ hm).facts
      have ht : a.type = some k.1 := facts.type
      rw [hs] at ht
      have he : k.1 = "subProcess" := (Option.some.inj ht).symm
      have hkey : k = ("subProcess", ["isExpanded", "triggeredByEvent"], true, []) := by
        revert he hk; clear facts ht; revert k; decide
      subst hkey
      have := facts.eventDefinitions
      simpa using this
    simp only [h0, ids_flowTree, flowsIds]
    simp
  · rw [if_neg hs, if_neg hs, ids_defs, List.append_nil]

theorem ids_descend {d : Diagram} (hn : ∀ n ∈ d.graph.nodes, NodeReady n) : ∀ (f : Nat) (p : String),
    ((nodesOf d p).flatMap fun m => treeIds (nodeTree d f m)).Perm
      ((descend d f p).flatMap fun m => nodeOwnIds m ++ if m.2.type = some "subProcess" then flowsIds d m.1 else [])
  | 0, p => by
    simp only [descend, List.flatMap_nil]
    rw [flatMap_eq_nil']
    intro x _
    simp [nodeTree, treeIds_el, idOf, idsOf_nil]
  | f + 1, p => by
    rw [descend, List.flatMap_assoc]
    apply flatMap_perm_congr
    intro m hm
    have hm' := (List.mem_filter.1 hm).1
    rw [ids_nodeTree hn f m hm', List.flatMap_cons]
    split
    · rw [List.append_assoc]
      apply List.Perm.append_left
      exact ((ids_descend hn f m.1).append_right _).trans List.perm_append_comm
    · simp

theorem ids_laneSet (a : ProcAttrs) : idsOf (laneSetTrees a) = (lanesOf a).map laneId := by
  unfold laneSetTrees lanesOf
  cases a.laneSet with
  | none => rfl
  | some s =>
    simp only [idsOf_cons, idsOf_nil, List.append_nil, treeIds_el, idsOf_map, Option.map_some, Option.getD_some]
    simp only [idOf, List.find?_nil, Option.map_none, Option.toList_none, List.nil_append]
    rw [List.map_eq_flatMap]
    apply flatMap_congr'
    rintro ⟨i, n, ci, ch, refs, di⟩ _
    simp only [laneTree, treeIds_el, ids_leaves, idOf_cons_id, laneId, Option.toList_some, List.append_nil]

theorem ids_procTree (d : Diagram) (f : Nat) (p : String × ProcAttrs) : treeIds (procTree d f p) =
    p.1 :: ((lanesOf p.2).map laneId ++ (((nodesOf d p.1).flatMap fun m => treeIds (nodeTree d f m)) ++ flowsIds d p.1)) := by
  rw [procTree, procXmlAttrs, treeIds_el, idOf_cons_id, idsOf_append, idsOf_append, ids_laneSet, idsOf_map, idsOf_map]
  simp only [ids_flowTree, flowsIds]
  rfl

theorem ids_shape (id : String) (extra : List (String × String)) (w h x y : String) : treeIds (shape id extra w h x y) = [id ++ "_gui"] := by
  rw [shape, List.cons_append, treeIds_el, idOf_cons_id, idsOf_cons, treeIds_el, idsOf_nil]
  simp [idOf]

theorem ids_edge (id : String) (ws : List (String × String)) : treeIds (edgeDi id ws) = [id ++ "_gui"] := by
  rw [edgeDi, treeIds_el, idOf_cons_id, idsOf_map, flatMap_eq_nil']
  · rfl
  · intro w _
    simp [treeIds_el, idOf, idsOf_nil]

theorem ids_plane {d : Diagram} (hd : Writable d) : idsOf (planeKids d) = (drawnIds d).map (· ++ "_gui") := by
  have hfl : ∀ f ∈ d.getFlows, f.2.2.id = some (f.2.2.id.getD "") := by
    intro f hf
    obtain ⟨e, he, h'⟩ := Export.mem_getFlows hd.sane hf
    obtain ⟨i, hi⟩ := Option.isSome_iff_exists.1 (hd.flows e he).id
    rw [← h', hi]
    rfl
  have hm : ∀ m ∈ messagesOf d, (msgAttrs d m.1).id = some m.1 := by
    intro m hm
    unfold messagesOf at hm
    cases hc : d.collaboration with
    | none => simp [hc] at hm
    | some c =>
      simp only [hc, Option.map_some, Option.getD_some] at hm
      exact (msgAttrs_spec ((hd.pools c hc).2 m hm)).2
  unfold planeKids drawnIds
  simp only [idsOf_append, idsOf_map, List.map_append, List.append_assoc]
  congr 1
  · rw [messageIds_eq, List.map_map, List.map_eq_flatMap]
    apply flatMap_congr'
    intro m h
    rw [edgeTree, ids_edge, hm m h]
    rfl
  congr 1
  · rw [poolIds_eq, List.map_map, List.map_eq_flatMap]
    apply flatMap_congr'
    intro m h
    rw [poolShapeTree, boxTree, ids_shape]
    rfl
  congr 1
  · rw [laneIds_eq, List.map_map, List.map_eq_flatMap]
    apply flatMap_congr'
    rintro ⟨i, n, ci, ch, refs, di⟩ h
    rw [laneShapeTree, boxTree, ids_shape]
    rfl
  congr 1
  · rw [Diagram.getNodes, List.map_map, List.map_eq_flatMap]
    apply flatMap_congr'
    intro m h
    rw [shapeTree, ids_shape]
    rfl
  · rw [List.map_filterMap, List.filterMap_eq_flatMap_toList]
    apply flatMap_congr'
    intro f hf
    rw [edgeTree, ids_edge]
    conv_rhs => rw [hfl f hf]
    rfl

theorem ids_collab (d : Diagram) : idsOf (collabTrees d) = (d.collaboration.map (·.id)).toList ++ messageIds d ++ poolIds d := by
  unfold collabTrees messageIds poolIds
  cases d.collaboration with
  | none => rfl
  | some c =>
    simp only [idsOf_cons, idsOf_nil, List.append_nil, treeIds_el, idOf_cons_id, idsOf_append, idsOf_map, messageTree, poolTree, Option.map_some,
      Option.toList_some, Option.getD_some, List.append_assoc, ← List.map_eq_flatMap]

/-- In a complete diagram every node is inside a process. -/
theorem inProcess_all {d : Diagram} (hd : Exportable d) : ∀ n ∈ d.graph.nodes, InProcess d n.1 := by
  obtain ⟨depth, hdepth⟩ := hd.noCircles
  have key : ∀ k, ∀ n ∈ d.graph.nodes, depth n.1 = k → InProcess d n.1 := by
    intro k
    induction k using Nat.strongRecOn with
    | ind k ih =>
      intro n hn hk
      obtain ⟨p, hp⟩ := Option.isSome_iff_exists.1 (hd.nodes n hn).process
      rcases hd.placed n hn p hp with h | ⟨m, hm, rfl, ht⟩
      · exact .direct (a := n.2) hn hp h
      · exact .nested (a := n.2) (b := m.2) hn hp hm ht (ih (depth m.1) (hk ▸ hdepth n hn m hm hp ht) m hm rfl)
  intro n hn
  exact key _ n hn rfl

theorem inside_perm {d : Diagram} (hd : Exportable d) {height : String → Nat} {N : Nat} (hN : ∀ n ∈ d.graph.nodes, height n.1 < N)
    (hh : ∀ n ∈ d.graph.nodes, ∀ m ∈ d.graph.nodes, n.2.type = some "subProcess" → m.2.process = some n.1 → height m.1 < height n.1) :
    (insideNodes d N).Perm d.graph.nodes := by
  have hu : d.graph.nodes.keys.Nodup := hd.sane.nodesUnique
  rw [List.perm_ext_iff_of_nodup (List.Nodup.of_map _ (nodup_insideNodes hd.toWritable hN hh N)) (List.Nodup.of_map _ hu)]
  intro m
  rw [mem_insideNodes hu hN hh]
  exact ⟨fun h => h.1, fun h => ⟨h, inProcess_all hd m h⟩⟩

theorem getFlows_nodup {d : Diagram} (hd : Writable d) : d.getFlows.Nodup := List.Nodup.of_map _ (flowIds_nodup hd)

theorem placed_perm {d : Diagram} (hd : Exportable d) {height : String → Nat} {N : Nat} (hN : ∀ n ∈ d.graph.nodes, height n.1 < N)
    (hh : ∀ n ∈ d.graph.nodes, ∀ m ∈ d.graph.nodes, n.2.type = some "subProcess" → m.2.process = some n.1 → height m.1 < height n.1) :
    ((containers d N).flatMap d.getFlowsByProcess).Perm (d.getFlows.filter fun f => f.2.2.process.isSome) := by
  have hu : d.graph.nodes.keys.Nodup := hd.sane.nodesUnique
  have hf := getFlows_nodup hd.toWritable
  rw [List.perm_ext_iff_of_nodup ?_ (hf.filter _)]
  · intro f
    rw [List.mem_flatMap, List.mem_filter]
    constructor
    · rintro ⟨p, hp, hm⟩
      obtain ⟨h1, h2⟩ := List.mem_filter.1 hm
      simp only [beq_iff_eq] at h2
      exact ⟨h1, by simp [h2]⟩
    · rintro ⟨h1, h2⟩
      obtain ⟨p, hp⟩ := Option.isSome_iff_exists.1 h2
      refine ⟨p, (mem_containers hu hN hh p).2 ?_, List.mem_filter.2 ⟨h1, by simp [hp]⟩⟩
      obtain ⟨e, he, h'⟩ := Export.mem_getFlows hd.sane h1
      rcases hd.flowProcess e he with ⟨q, hq, hc⟩ | ⟨i, hi, h3⟩
      · rw [h', hp] at hq
        cases hq
        rcases hc with h | ⟨m, hm, rfl, ht⟩
        · exact .inl h
        · exact .inr ⟨m.2, hm, ht, inProcess_all hd m hm⟩
      · exfalso
        unfold messageIds at hi
        cases hc : d.collaboration with
        | none => simp [hc] at hi
        | some c =>
          simp only [hc, Option.map_some, Option.getD_some] at hi
          obtain ⟨m, hm, rfl⟩ := List.mem_map.1 hi
          have := ((hd.messages c hc).2 m hm).2 e he h3
          rw [h', hp] at this
          simp at this
  · rw [List.nodup_flatMap]
    refine ⟨fun p _ => hf.filter _, ?_⟩
    refine List.Pairwise.imp ?_ (nodup_containers hd.toWritable hN hh N)
    intro p q hpq f h1 h2
    have h1 := (List.mem_filter.1 h1).2
    have h2 := (List.mem_filter.1 h2).2
    simp only [beq_iff_eq] at h1 h2
    rw [h1] at h2
    exact hpq (Option.some.inj h2)

theorem flows_perm {d : Diagram} (hd : Exportable d) {height : String → Nat} {N : Nat} (hN : ∀ n ∈ d.graph.nodes, height n.1 < N)
    (hh : ∀ n ∈ d.graph.nodes, ∀ m ∈ d.graph.nodes, n.2.type = some "subProcess" → m.2.process = some n.1 → height m.1 < height n.1) :
    ((containers d N).flatMap (flowsIds d)).Perm
      ((placedFlows d).filterMap (·.id) ++ (placedFlows d).filterMap (fun a => a.conditionExpression.map (·.id))) := by
  have h1 : (containers d N).flatMap (flowsIds d) = ((containers d N).flatMap d.getFlowsByProcess).flatMap fun x => flowOwnIds x.2.2 := by
    rw [List.flatMap_assoc]
    rfl
  rw [h1]
  refine ((placed_perm hd hN hh).flatMap_right _).trans ?_
  have h2 : placedFlows d = (d.getFlows.filter fun f => f.2.2.process.isSome).map (·.2.2) := by
    rw [placedFlows, List.filter_map]
    rfl
  rw [h2, List.filterMap_map, List.filterMap_map, List.filterMap_eq_flatMap_toList, List.filterMap_eq_flatMap_toList]
  refine List.Perm.trans ?_ (flatMap_append_perm _ _ _)
  apply List.Perm.of_eq
  apply flatMap_congr'
  intro f hf
  obtain ⟨e, he, h'⟩ := Export.mem_getFlows hd.sane (List.mem_filter.1 hf).1
  obtain ⟨i, hi⟩ := Option.isSome_iff_exists.1 (hd.flows e he).id
  rw [h'] at hi
  simp [flowOwnIds, hi]

theorem ids_doc {d : Diagram} (hd : Exportable d) {height : String → Nat} {N : Nat} (hN : ∀ n ∈ d.graph.nodes, height n.1 < N)
    (hh : ∀ n ∈ d.graph.nodes, ∀ m ∈ d.graph.nodes, n.2.type = some "subProcess" → m.2.process = some n.1 → height m.1 < height n.1) :
    (treeIds (docTree d N)).Perm ([d.diagramId.getD "", d.planeId.getD ""] ++ modelIds d ++ (drawnIds d).map (· ++ "_gui")) := by
  have h0 : treeIds (docTree d N) = d.diagramId.getD "" :: d.planeId.getD "" :: ((drawnIds d).map (· ++ "_gui") ++
      (((d.collaboration.map (·.id)).toList ++ messageIds d ++ poolIds d) ++ d.processElements.flatMap fun p => treeIds (procTree d N p))) := by
    rw [docTree, treeIds_el, idsOf_cons, treeIds_el, idOf_cons_id, idsOf_append, ids_collab, idsOf_map, idsOf_cons, idsOf_nil, planeTree, treeIds_el,
      idOf_cons_id, ids_plane hd.toWritable]
    have : idOf ("definitions", definitionsAttrs) = none := by decide
    simp [this]
  rw [h0]
  have h1 : (d.processElements.flatMap fun p => treeIds (procTree d N p)).Perm
      (d.processElements.map (·.1) ++ (laneIds d ++ (d.getNodes.map (·.1) ++ (definitionIds d ++
        ((placedFlows d).filterMap (·.id) ++ (placedFlows d).filterMap (fun a => a.conditionExpression.map (·.id))))))) := by
    simp only [ids_procTree]
    refine (flatMap_append_perm _ (fun p : String × ProcAttrs => [p.1]) _).trans ?_
    rw [← List.map_eq_flatMap]
    apply List.Perm.append_left
    refine (flatMap_append_perm _ _ _).trans ?_
    apply List.Perm.append_left
    refine (flatMap_append_perm _ _ _).trans ?_
    have h2 : (d.processElements.flatMap fun p => (nodesOf d p.1).flatMap fun m => treeIds (nodeTree d N m)).Perm
        ((insideNodes d N).flatMap nodeOwnIds ++ (insideNodes d N).flatMap fun m => if m.2.type = some "subProcess" then flowsIds d m.1 else []) := by
      refine List.Perm.trans ?_ (flatMap_append_perm _ _ _)
      rw [insideNodes, List.flatMap_map, List.flatMap_assoc]
      apply flatMap_perm_congr
      intro p hp
      exact ids_descend hd.nodes N p.1
    refine (h2.append_right _).trans ?_
    rw [List.append_assoc]
    have h3 : ((insideNodes d N).flatMap nodeOwnIds).Perm (d.getNodes.map (·.1) ++ definitionIds d) := by
      refine ((inside_perm hd hN hh).flatMap_right _).trans ?_
      rw [definitionIds, List.map_eq_flatMap]
      exact flatMap_append_perm _ (fun n : Node => [n.1]) _
    have h4 : (((insideNodes d N).flatMap fun m => if m.2.type = some "subProcess" then flowsIds d m.1 else []) ++
        d.processElements.flatMap fun p => flowsIds d p.1).Perm
        ((placedFlows d).filterMap (·.id) ++ (placedFlows d).filterMap (fun a => a.conditionExpression.map (·.id))) := by
      refine List.Perm.trans ?_ (flows_perm hd hN hh)
      rw [containers, List.flatMap_append, List.flatMap_map, List.flatMap_map, ← flatMap_ite_filter]
      refine List.perm_append_comm.trans ?_
      simp
    rw [← List.append_assoc (d.getNodes.map (·.1))]
    exact h3.append h4
  have h5 : modelIds d = ((d.collaboration.map (·.id)).toList ++ messageIds d ++ poolIds d) ++ (d.processElements.map (·.1) ++ (laneIds d ++ (d.getNodes.map (·.1) ++ (definitionIds d ++
        ((placedFlows d).filterMap (·.id) ++ (placedFlows d).filterMap (fun a => a.conditionExpression.map (·.id))))))) := by
    simp [modelIds]
  rw [h5]
  simp only [List.cons_append, List.nil_append]
  refine List.Perm.cons _ (List.Perm.cons _ ?_)
  exact List.perm_append_comm.trans ((h1.append_left _).append_right _)

end Bpmn

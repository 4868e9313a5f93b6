import Verif.Lemmas.CsvNext
import Verif.Lemmas.Consistent
/-! Without `goto`, lists and flows agree at every moment of the CSV import. -/
set_option linter.unusedSimpArgs false
set_option linter.unusedVariables false

namespace Bpmn.Csv
open Bpmn.Spec Bpmn.Spec.Csv

/-- The graph has a flow from one node to the other. -/
def EdgeOf (d : Diagram) (s t : String) : Prop := ∃ e ∈ d.graph.edges, e.attrs.id = some (flowId s t)

/-- What an edge with the id of a flow is. -/
theorem Inv.edge {d : Diagram} (i : Inv d) {s t : String} (hs : Plain s) (h : EdgeOf d s t) :
    Wired d s t ∧ ∃ e ∈ d.graph.edges, e.attrs.id = some (flowId s t) ∧ e.attrs.sourceRef = some s ∧ e.attrs.targetRef = some t ∧ SamePair e.u e.v s t := by
  obtain ⟨e, he, h1⟩ := h
  obtain ⟨x, y, k1, k2, k3, _, k5, k6⟩ := i.edgeI e he
  rw [h1] at k1
  obtain ⟨rfl, rfl⟩ := flowId_inj hs (i.plain _ k6.src) (Option.some.inj k1)
  exact ⟨k6, e, he, h1, k2, k3, k5⟩

theorem Inv.edge_has {d : Diagram} (i : Inv d) {s t : String} (hs : Plain s) (h : EdgeOf d s t) : d.graph.hasEdge s t = true := by
  obtain ⟨_, e, he, _, _, _, hp⟩ := i.edge hs h
  exact (Graph.hasEdge_iff _ _ _).2 ⟨e, he, SamePair.joins.2 hp⟩

theorem Inv.has_edge {d : Diagram} (i : Inv d) {s t : String} (h : d.graph.hasEdge s t = true) : EdgeOf d s t ∨ EdgeOf d t s := by
  obtain ⟨e, he, hj⟩ := (Graph.hasEdge_iff _ _ _).1 h
  have hj := SamePair.joins.1 hj
  obtain ⟨x, y, k1, _, _, _, k5, _⟩ := i.edgeI e he
  unfold SamePair at hj k5
  rcases hj with ⟨rfl, rfl⟩ | ⟨rfl, rfl⟩ <;> rcases k5 with ⟨rfl, rfl⟩ | ⟨rfl, rfl⟩
  · exact Or.inl ⟨e, he, k1⟩
  · exact Or.inr ⟨e, he, k1⟩
  · exact Or.inr ⟨e, he, k1⟩
  · exact Or.inl ⟨e, he, k1⟩

/-- The lists have every flow once, and nothing else. -/
structure Exact (d : Diagram) : Prop where
  inv : Inv d
  outNd : ∀ x, (outOf d x).Nodup
  inNd : ∀ x, (inOf d x).Nodup
  back : ∀ x t, flowId x t ∈ outOf d x → EdgeOf d x t
  backIn : ∀ x s, Plain s → flowId s x ∈ inOf d x → EdgeOf d s x

theorem Exact.added {d d' : Diagram} (x : Exact d) {o : String} {ty : Option String} {act : String} (h : Added d d' o ty act) (ho : o ∉ ids d)
    (hp : Plain o) : Exact d' := by
  have ed : ∀ a b, EdgeOf d a b → EdgeOf d' a b := by intro a b; unfold EdgeOf; rw [h.edges]; exact id
  refine ⟨x.inv.added h ho hp, ?_, ?_, ?_, ?_⟩
  · intro y; rw [h.out]; split
    · simp
    · exact x.outNd y
  · intro y; rw [h.inn]; split
    · simp
    · exact x.inNd y
  · intro y t; rw [h.out]; split
    · simp
    · exact fun hm => ed _ _ (x.back y t hm)
  · intro y t hs; rw [h.inn]; split
    · simp
    · exact fun hm => ed _ _ (x.backIn y t hs hm)

theorem Connected.edges_new {pd : Dict String Line} {d d' : Diagram} {s t : String} (h : Connected pd d d' s t) (hn : d.graph.hasEdge s t = false) :
    d'.graph.edges = d.graph.edges ++ [⟨s, t, newAttrs pd s t {}⟩] := by
  rw [h.edges, hn]
  simp only [Bool.false_eq_true, if_false, List.append_cancel_right_eq]
  have : ∀ e ∈ d.graph.edges, e.joins s t = false := by
    intro e he
    cases hj : e.joins s t with
    | false => rfl
    | true => rw [(Graph.hasEdge_iff _ _ _).2 ⟨e, he, hj⟩] at hn; cases hn
  conv => rhs; rw [← List.map_id d.graph.edges]
  apply List.map_congr_left
  intro e he
  simp [this e he]

theorem Connected.edgeOf {pd : Dict String Line} {d d' : Diagram} {s t : String} (h : Connected pd d d' s t) (hn : d.graph.hasEdge s t = false)
    (i : Inv d) {a b : String} (ha : Plain a) : EdgeOf d' a b ↔ EdgeOf d a b ∨ (a = s ∧ b = t) := by
  unfold EdgeOf
  rw [h.edges_new hn]
  constructor
  · rintro ⟨e, he, h1⟩
    rw [List.mem_append, List.mem_singleton] at he
    rcases he with he | rfl
    · exact Or.inl ⟨e, he, h1⟩
    · have := flowId_inj (i.plain _ h.src) ha (Option.some.inj h1)
      exact Or.inr ⟨this.1.symm, this.2.symm⟩
  · rintro (⟨e, he, h1⟩ | ⟨rfl, rfl⟩)
    · exact ⟨e, List.mem_append_left _ he, h1⟩
    · exact ⟨_, List.mem_append_right _ (List.mem_singleton_self _), rfl⟩

theorem Exact.connected {pd : Dict String Line} {d d' : Diagram} (x : Exact d) {s t : String} (h : Connected pd d d' s t)
    (hn : d.graph.hasEdge s t = false) : Exact d' := by
  have ps := x.inv.plain _ h.src
  have no1 : flowId s t ∉ outOf d s := by
    intro hm
    have := x.inv.edge_has ps (x.back _ _ hm)
    rw [this] at hn; cases hn
  have no2 : flowId s t ∉ inOf d t := by
    intro hm
    have := x.inv.edge_has ps (x.backIn _ _ ps hm)
    rw [this] at hn; cases hn
  refine ⟨x.inv.connected h, ?_, ?_, ?_, ?_⟩
  · intro y; rw [h.out]; split
    · rename_i e; subst e
      rw [List.nodup_append]
      refine ⟨x.outNd _, by simp, ?_⟩
      intro a ha b hb e
      rw [List.mem_singleton] at hb
      subst e; subst hb; exact no1 ha
    · exact x.outNd y
  · intro y; rw [h.inn]; split
    · rename_i e; subst e
      rw [List.nodup_append]
      refine ⟨x.inNd _, by simp, ?_⟩
      intro a ha b hb e
      rw [List.mem_singleton] at hb
      subst e; subst hb; exact no2 ha
    · exact x.inNd y
  · intro y u hm
    have py : Plain y := (x.inv.connected h).plain _ (outOf_mem hm)
    rw [h.out] at hm
    rw [h.edgeOf hn x.inv py]
    split at hm
    · rename_i e; subst e
      rw [List.mem_append, List.mem_singleton] at hm
      rcases hm with hm | hm
      · exact Or.inl (x.back _ _ hm)
      · exact Or.inr ⟨rfl, (flowId_inj py py hm).2⟩
    · exact Or.inl (x.back _ _ hm)
  · intro y u pu hm
    rw [h.inn] at hm
    rw [h.edgeOf hn x.inv pu]
    split at hm
    · rename_i e; subst e
      rw [List.mem_append, List.mem_singleton] at hm
      rcases hm with hm | hm
      · exact Or.inl (x.backIn _ _ pu hm)
      · exact Or.inr ⟨(flowId_inj pu ps hm).1, rfl⟩
    · exact Or.inl (x.backIn _ _ pu hm)

theorem Removed.edgeOf {d d' : Diagram} {n src tgt : String} (h : Removed d d' n src tgt) (i : Inv d) {a b : String} (pa : Plain a) :
    EdgeOf d' a b ↔ EdgeOf d a b ∧ a ≠ n ∧ b ≠ n := by
  have eq : ∀ e ∈ d.graph.edges, e.attrs.id = some (flowId a b) → SamePair e.u e.v a b := by
    intro e he h1
    obtain ⟨x, y, k1, _, _, _, k5, k6⟩ := i.edgeI e he
    rw [h1] at k1
    obtain ⟨rfl, rfl⟩ := flowId_inj pa (i.plain _ k6.src) (Option.some.inj k1)
    exact k5
  unfold EdgeOf
  rw [h.edges]
  constructor
  · rintro ⟨e, he, h1⟩
    rw [List.mem_filter] at he
    refine ⟨⟨e, he.1, h1⟩, ?_⟩
    have hp := eq e he.1 h1
    have hne := he.2
    simp at hne
    unfold SamePair at hp
    rcases hp with ⟨rfl, rfl⟩ | ⟨rfl, rfl⟩
    · exact hne
    · exact ⟨hne.2, hne.1⟩
  · rintro ⟨⟨e, he, h1⟩, h2, h3⟩
    refine ⟨e, ?_, h1⟩
    rw [List.mem_filter]
    refine ⟨he, ?_⟩
    have hp := eq e he h1
    unfold SamePair at hp
    rcases hp with ⟨rfl, rfl⟩ | ⟨rfl, rfl⟩ <;> simp [h2, h3]

theorem singleton_of_head {α : Type} {l : List α} {a : α} (h : l.head? = some a) (hl : l.length < 2) : l = [a] := by
  match l, h, hl with
  | [b], h, _ => simp at h; rw [h]
  | _ :: _ :: _, _, hl => simp at hl; omega

theorem Exact.removed {d d' : Diagram} (x : Exact d) {n src tgt : String} (h : Removed d d' n src tgt) (hi : (inOf d n).length < 2)
    (ho : (outOf d n).length < 2) (hsn : src ≠ n) : Exact d' := by
  have hi := singleton_of_head h.inHead hi
  have ho := singleton_of_head (h.outHead.resolve_right hsn) ho
  have i' := x.inv.removed h
  refine ⟨i', ?_, ?_, ?_, ?_⟩
  · intro y
    by_cases e : y = n
    · subst e
      have : outOf d' y = [] := List.eq_nil_iff_forall_not_mem.2 fun f hf => (outOf_removed x.inv h hf).2 rfl
      rw [this]; simp
    · rw [h.out y e]; split
      · exact (x.outNd y).erase _
      · exact x.outNd y
  · intro y
    by_cases e : y = n
    · subst e
      have : inOf d' y = [] := List.eq_nil_iff_forall_not_mem.2 fun f hf => (inOf_removed x.inv h hf).2 rfl
      rw [this]; simp
    · rw [h.inn y e]; split
      · exact (x.inNd y).erase _
      · exact x.inNd y
  · intro y t hm
    have py := i'.plain _ (outOf_mem hm)
    obtain ⟨h1, h2⟩ := outOf_removed x.inv h hm
    rw [h.edgeOf x.inv py]
    refine ⟨x.back _ _ h1, h2, ?_⟩
    rintro rfl
    have w := (x.inv.edge py (x.back _ _ h1)).1
    have hw := w.inn
    rw [hi, List.mem_singleton] at hw
    have e := (flowId_inj py (x.inv.plain _ h.hasSrc) hw).1
    subst e
    rw [h.out _ h2, if_pos rfl] at hm
    exact (List.Nodup.not_mem_erase (x.outNd _)) hm
  · intro y s ps hm
    obtain ⟨h1, h2⟩ := inOf_removed x.inv h hm
    rw [h.edgeOf x.inv ps]
    refine ⟨x.backIn _ _ ps h1, ?_, h2⟩
    rintro rfl
    have w := (x.inv.edge ps (x.backIn _ _ ps h1)).1
    have hw := w.out
    rw [ho, List.mem_singleton] at hw
    have e := (flowId_inj ps ps hw).2
    subst e
    rw [h.inn _ h2, if_pos rfl] at hm
    exact (List.Nodup.not_mem_erase (x.inNd _)) hm

/-! ## The rounds -/

/-- Exactly the flows of a list. -/
def Pairs (d : Diagram) (P : List (String × String)) : Prop := ∀ a b, EdgeOf d a b → (a, b) ∈ P

theorem Chained.exact {pd : Dict String Line} {d d' : Diagram} {l : List (String × String)} (h : Chained pd d l d') : ∀ {P : List (String × String)},
    Exact d → (∀ a b, Plain a → EdgeOf d a b → (a, b) ∈ P) → (P ++ l).Nodup → (∀ a b, (a, b) ∈ P ++ l → (b, a) ∉ P ++ l) →
      Exact d' ∧ ∀ a b, Plain a → EdgeOf d' a b → (a, b) ∈ P ++ l := by
  induction h with
  | nil => intro P x hP _ _; simpa using ⟨x, hP⟩
  | @cons d d1 d2 s t l hc _ ih =>
    intro P x hP nd as
    have hn : d.graph.hasEdge s t = false := by
      cases hh : d.graph.hasEdge s t with
      | false => rfl
      | true =>
        exfalso
        rcases x.inv.has_edge hh with he | he
        · have := hP _ _ (x.inv.plain _ hc.src) he
          rw [List.nodup_append] at nd
          exact nd.2.2 _ this _ (by simp) rfl
        · have := hP _ _ (x.inv.plain _ hc.tgt) he
          exact as t s (List.mem_append_left _ this) (by simp)
    have e : P ++ (s, t) :: l = (P ++ [(s, t)]) ++ l := by simp
    rw [e] at nd as ⊢
    refine ih (x.connected hc hn) ?_ nd as
    intro a b ha hab
    rcases (hc.edgeOf hn x.inv ha).1 hab with h | ⟨rfl, rfl⟩
    · exact List.mem_append_left _ (hP a b ha h)
    · simp

theorem Rounds.exact {pd : Dict String Line} {nodes : List String} (hu : ∀ x ∈ nodes, '_' ∉ x.toList) {rs : List String} {d d' : Diagram}
    {F : List (String × String)} (h : Rounds pd nodes rs d F d') : ∀ {done : List String} {P : List (String × String)}, (∀ x ∈ ids d, Named nodes done x) →
      (∀ r ∈ rs, r ∈ nodes) → Exact d → (∀ a b, Plain a → EdgeOf d a b → (a, b) ∈ P) → (P ++ F).Nodup → (∀ a b, (a, b) ∈ P ++ F → (b, a) ∉ P ++ F) →
      Exact d' ∧ ∀ a b, Plain a → EdgeOf d' a b → (a, b) ∈ P ++ F := by
  induction h with
  | nil => intro _ P _ _ x hP _ _; simpa using ⟨x, hP⟩
  | @cons r rs d d1 d2 g l F hR _ ih =>
    intro done P hn hr x hP nd as
    have hstep := hR.step hu (hr r (by simp)) x.inv hn
    rw [← List.append_assoc] at nd as ⊢
    refine ih hstep.2.2.1 (fun x hx => hr x (List.mem_cons_of_mem _ hx)) ?_ ?_ nd as
    all_goals
      obtain ⟨hP', dm, hc, hch⟩ := hR
      have nd' : (P ++ l).Nodup := (List.nodup_append.1 nd).1
      have as' : ∀ a b, (a, b) ∈ P ++ l → (b, a) ∉ P ++ l := fun a b h k => as a b (List.mem_append_left _ h) (List.mem_append_left _ k)
      have key : Exact d1 ∧ ∀ a b, Plain a → EdgeOf d1 a b → (a, b) ∈ P ++ l := by
        rcases hc with ⟨rfl, rfl⟩ | ⟨n, ty, rfl, hno, ha⟩
        · exact hch.exact x hP nd' as'
        · have pn : Plain n := by
            cases hP' with
            | split => exact plain_split (hu _ (hr _ (by simp)))
            | newJoin _ _ _ _ _ h2 => exact plain_join (hu _ (onlyPresent_mem h2).2)
          refine hch.exact (x.added ha hno pn) ?_ nd' as'
          intro a b pa hab
          refine hP a b pa ?_
          unfold EdgeOf at hab ⊢
          rw [ha.edges] at hab; exact hab
    · exact key.1
    · exact key.2

/-- New gateways have a flow in and a flow out. -/
theorem Rounds.alive {pd : Dict String Line} {nodes : List String} {rs : List String} {d d' : Diagram}
    {F : List (String × String)} (h : Rounds pd nodes rs d F d') : ∀ x ∈ ids d', x ∉ ids d → entering x F ≠ [] ∧ leaving x F ≠ [] := by
  have some_in : ∀ {x a : String} {l : List (String × String)}, (a, x) ∈ l → entering x l ≠ [] := by
    intro x a l hm e
    have : flowId a x ∈ entering x l := mem_entering.2 ⟨a, hm, rfl⟩
    rw [e] at this; simp at this
  have some_out : ∀ {x b : String} {l : List (String × String)}, (x, b) ∈ l → leaving x l ≠ [] := by
    intro x a l hm e
    have : flowId x a ∈ leaving x l := mem_leaving.2 ⟨a, hm, rfl⟩
    rw [e] at this; simp at this
  induction h with
  | nil => intro x h1 h2; exact absurd h1 h2
  | @cons r rs d d1 d2 g l F hR _ ih =>
    intro x h1 h2
    rw [entering_append, leaving_append]
    by_cases e : x ∈ ids d1
    · obtain ⟨hP, dm, hc, hch⟩ := hR
      rw [hch.ids] at e
      have : entering x l ≠ [] ∧ leaving x l ≠ [] := by
        rcases hc with ⟨rfl, rfl⟩ | ⟨n, ty, rfl, hno, ha⟩
        · exact absurd e h2
        · rw [ha.ids] at e
          simp only [List.mem_append, List.mem_singleton] at e
          have e := e.resolve_left h2
          subst e
          cases hP with
          | split _ _ _ h4 _ h6 =>
            refine ⟨some_in (a := r) (by simp), ?_⟩
            obtain ⟨y, hy, hyn⟩ := anyPresent_iff.1 h4
            unfold splitCandidates at hy
            unfold splitSuccessors at h6
            split at h6
            · cases h6
            · rename_i pre n ht
              rw [ht] at hy
              cases h6
              have hm : y ∈ nodes.filter (matchesSplit (pre ++ toString (n + 1))) := by
                rw [List.mem_filter]
                refine ⟨hyn, (matchesSplit_iff _ _).2 ?_⟩
                simp only [List.mem_cons, List.not_mem_nil, or_false] at hy
                rcases hy with rfl | rfl
                · exact ⟨'a', [], rfl, by simp, by simp⟩
                · exact ⟨'a', ['1'], rfl, by simp, by simp⟩
              exact some_out (b := y) (List.mem_cons_of_mem _ (List.mem_map.2 ⟨y, hm, rfl⟩))
          | newJoin => exact ⟨some_in (a := r) (by simp), some_out List.mem_cons_self⟩
      simp [this.1, this.2]
    · have := ih x h1 e
      simp [this.1, this.2]

end Bpmn.Csv

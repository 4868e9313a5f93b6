import Verif.Lemmas.TopoSort
import Verif.Lemmas.Grid
/-!
What a successful `topological_sort` has seen of the lists of the nodes, whatever the diagram.
-/
set_option linter.unusedSimpArgs false
set_option linter.unusedVariables false

namespace Bpmn.Layouter
open Bpmn Spec Classify

variable {d : Diagram}

theorem erased {α : Type} [DecidableEq α] {l r : List α} {a : α} (h : pyRemove l a = .ok r) : a ∈ l ∧ r = l.erase a := by
  unfold pyRemove at h
  split at h
  · cases h; exact ⟨by assumption, rfl⟩
  · cases h

theorem removeIn_split {i t : String} : ∀ {tmp r : List NC}, removeIn i t tmp = .ok r →
    ∃ l1 x l2, tmp = l1 ++ x :: l2 ∧ x.id = t ∧ i ∈ x.ins ∧ r = l1 ++ { x with ins := x.ins.erase i } :: l2
  | [], r, h => by cases h
  | x :: l, r, h => by
    rw [removeIn] at h
    split at h
    · rename_i e
      cases hp : pyRemove x.ins i with
      | error e => rw [hp] at h; cases h
      | ok l' =>
        rw [hp] at h; cases h
        obtain ⟨h1, rfl⟩ := erased hp
        exact ⟨[], x, l, rfl, e, h1, rfl⟩
    · cases hp : removeIn i t l with
      | error e => rw [hp] at h; cases h
      | ok l' =>
        rw [hp] at h; cases h
        obtain ⟨l1, y, l2, rfl, h1, h2, rfl⟩ := removeIn_split hp
        exact ⟨x :: l1, y, l2, rfl, h1, h2, rfl⟩

theorem removeOut_split {i t : String} : ∀ {tmp r : List NC}, removeOut i t tmp = .ok r →
    ∃ l1 x l2, tmp = l1 ++ x :: l2 ∧ x.id = t ∧ i ∈ x.outs ∧ r = l1 ++ { x with outs := x.outs.erase i } :: l2
  | [], r, h => by cases h
  | x :: l, r, h => by
    rw [removeOut] at h
    split at h
    · rename_i e
      cases hp : pyRemove x.outs i with
      | error e => rw [hp] at h; cases h
      | ok l' =>
        rw [hp] at h; cases h
        obtain ⟨h1, rfl⟩ := erased hp
        exact ⟨[], x, l, rfl, e, h1, rfl⟩
    · cases hp : removeOut i t l with
      | error e => rw [hp] at h; cases h
      | ok l' =>
        rw [hp] at h; cases h
        obtain ⟨l1, y, l2, rfl, h1, h2, rfl⟩ := removeOut_split hp
        exact ⟨x :: l1, y, l2, rfl, h1, h2, rfl⟩

/-- The flow `i` of an outgoing list leads to a node whose incoming list has it. -/
def OutDone (d : Diagram) (all : List NC) (i : String) : Prop := ∃ c ∈ all, flowTarget d i = .ok c.id ∧ i ∈ c.ins

/-- The flow `i` of the incoming list of the node `t` leads there, and is in an outgoing list. -/
def InDone (d : Diagram) (all : List NC) (i t : String) : Prop := flowTarget d i = .ok t ∧ ∃ c ∈ all, i ∈ c.outs

/-- The entries of the lists that are gone have been found in order. -/
structure Track (d : Diagram) (all tmp : List NC) : Prop where
  from' : ∀ y ∈ tmp, ∃ c ∈ all, c.id = y.id ∧ y.ins ⊆ c.ins ∧ y.outs ⊆ c.outs
  outs : ∀ c ∈ all, ∀ i ∈ c.outs, OutDone d all i ∨ ∃ y ∈ tmp, i ∈ y.outs
  ins : ∀ c ∈ all, ∀ i ∈ c.ins, InDone d all i c.id ∨ ∃ y ∈ tmp, y.id = c.id ∧ i ∈ y.ins

theorem track_start (d : Diagram) (all : List NC) : Track d all all :=
  ⟨fun y hy => ⟨y, hy, rfl, List.Subset.refl _, List.Subset.refl _⟩, fun c hc i hi => Or.inr ⟨c, hc, hi⟩, fun c hc i hi => Or.inr ⟨c, hc, rfl, hi⟩⟩

theorem Track.outDone {all tmp r : List NC} (k : Track d all tmp) {i t : String} (ht : flowTarget d i = .ok t) (h : removeIn i t tmp = .ok r) : OutDone d all i := by
  obtain ⟨l1, x, l2, rfl, h1, h2, -⟩ := removeIn_split h
  obtain ⟨c, hc, e, h3, -⟩ := k.from' x (by simp)
  exact ⟨c, hc, by rw [ht, e, h1], h3 h2⟩

theorem Track.removeIn {all tmp r : List NC} (k : Track d all tmp) {i t : String} (ht : flowTarget d i = .ok t) (ho : ∃ c ∈ all, i ∈ c.outs)
    (h : removeIn i t tmp = .ok r) : Track d all r := by
  obtain ⟨l1, x, l2, rfl, h1, h2, rfl⟩ := removeIn_split h
  refine ⟨?_, ?_, ?_⟩
  · intro y hy
    rcases List.mem_append.1 hy with hy | hy
    · exact k.from' y (by simp [hy])
    · rcases List.mem_cons.1 hy with rfl | hy
      · obtain ⟨c, hc, e, h3, h4⟩ := k.from' x (by simp)
        exact ⟨c, hc, e, fun a ha => h3 (List.mem_of_mem_erase ha), h4⟩
      · exact k.from' y (by simp [hy])
  · intro c hc j hj
    rcases k.outs c hc j hj with h3 | ⟨y, hy, h3⟩
    · exact Or.inl h3
    · refine Or.inr ?_
      rcases List.mem_append.1 hy with hy | hy
      · exact ⟨y, by simp [hy], h3⟩
      · rcases List.mem_cons.1 hy with rfl | hy
        · exact ⟨{ y with ins := y.ins.erase i }, by simp, h3⟩
        · exact ⟨y, by simp [hy], h3⟩
  · intro c hc j hj
    rcases k.ins c hc j hj with h3 | ⟨y, hy, e, h3⟩
    · exact Or.inl h3
    · rcases List.mem_append.1 hy with hy | hy
      · exact Or.inr ⟨y, by simp [hy], e, h3⟩
      · rcases List.mem_cons.1 hy with rfl | hy
        · by_cases hji : j = i
          · subst hji
            exact Or.inl ⟨by rw [ht, ← e, h1], ho⟩
          · exact Or.inr ⟨{ y with ins := y.ins.erase i }, by simp, e, (List.mem_erase_of_ne hji).2 h3⟩
        · exact Or.inr ⟨y, by simp [hy], e, h3⟩

theorem Track.removeOut {all tmp r : List NC} (k : Track d all tmp) {i t : String} (hd : OutDone d all i)
    (h : removeOut i t tmp = .ok r) : Track d all r ∧ ∃ c ∈ all, i ∈ c.outs := by
  obtain ⟨l1, x, l2, rfl, h1, h2, rfl⟩ := removeOut_split h
  refine ⟨⟨?_, ?_, ?_⟩, ?_⟩
  · intro y hy
    rcases List.mem_append.1 hy with hy | hy
    · exact k.from' y (by simp [hy])
    · rcases List.mem_cons.1 hy with rfl | hy
      · obtain ⟨c, hc, e, h3, h4⟩ := k.from' x (by simp)
        exact ⟨c, hc, e, h3, fun a ha => h4 (List.mem_of_mem_erase ha)⟩
      · exact k.from' y (by simp [hy])
  · intro c hc j hj
    rcases k.outs c hc j hj with h3 | ⟨y, hy, h3⟩
    · exact Or.inl h3
    · rcases List.mem_append.1 hy with hy | hy
      · exact Or.inr ⟨y, by simp [hy], h3⟩
      · rcases List.mem_cons.1 hy with rfl | hy
        · by_cases hji : j = i
          · subst hji
            exact Or.inl hd
          · exact Or.inr ⟨{ y with outs := y.outs.erase i }, by simp, (List.mem_erase_of_ne hji).2 h3⟩
        · exact Or.inr ⟨y, by simp [hy], h3⟩
  · intro c hc j hj
    rcases k.ins c hc j hj with h3 | ⟨y, hy, e, h3⟩
    · exact Or.inl h3
    · refine Or.inr ?_
      rcases List.mem_append.1 hy with hy | hy
      · exact ⟨y, by simp [hy], e, h3⟩
      · rcases List.mem_cons.1 hy with rfl | hy
        · exact ⟨{ y with outs := y.outs.erase i }, by simp, e, h3⟩
        · exact ⟨y, by simp [hy], e, h3⟩
  · obtain ⟨c, hc, -, -, h4⟩ := k.from' x (by simp)
    exact ⟨c, hc, h4 h2⟩

/-- Removing an entry from an outgoing list does not change what can be removed from incoming lists. -/
theorem removeOut_ins {i t j u : String} {tmp r s : List NC} (h : removeOut i t tmp = .ok r) (h' : removeIn j u r = .ok s) :
    ∃ y ∈ tmp, y.id = u ∧ j ∈ y.ins := by
  obtain ⟨l1, x, l2, rfl, -, -, rfl⟩ := removeOut_split h
  obtain ⟨m1, y, m2, e, h1, h2, -⟩ := removeIn_split h'
  have : y ∈ l1 ++ { x with outs := x.outs.erase i } :: l2 := by rw [e]; simp
  rcases List.mem_append.1 this with hy | hy
  · exact ⟨y, by simp [hy], h1, h2⟩
  · rcases List.mem_cons.1 hy with rfl | hy
    · exact ⟨x, by simp, h1, h2⟩
    · exact ⟨y, by simp [hy], h1, h2⟩

theorem releaseTargets_track {all : List NC} : ∀ (is : List String) {tmp r : List NC}, Track d all tmp → (∀ i ∈ is, ∃ c ∈ all, i ∈ c.outs) →
    releaseTargets d is tmp = .ok r → Track d all r ∧ ∀ i ∈ is, OutDone d all i
  | [], tmp, r, k, ho, h => by cases h; exact ⟨k, by simp⟩
  | i :: is, tmp, r, k, ho, h => by
    rw [releaseTargets] at h
    cases ht : flowTarget d i with
    | error e => rw [ht] at h; cases h
    | ok t =>
      rw [ht] at h
      simp only [bind, Except.bind] at h
      cases hr : removeIn i t tmp with
      | error e => rw [hr] at h; cases h
      | ok tmp1 =>
        rw [hr] at h
        obtain ⟨h1, h2⟩ := releaseTargets_track is (k.removeIn ht (ho i (by simp)) hr) (fun j hj => ho j (by simp [hj])) h
        refine ⟨h1, fun j hj => ?_⟩
        rcases List.mem_cons.1 hj with rfl | hj
        · exact k.outDone ht hr
        · exact h2 j hj

theorem takeNode_track {all tmp sorted : List NC} {x : NC} {r} (k : Track d all tmp) (hx : x.ins = []) (hs : ∀ y ∈ sorted, y ∈ all)
    (h : takeNode d all x tmp sorted = .ok r) : Track d all r.1 ∧ ∀ y ∈ r.2, y ∈ all := by
  rw [takeNode] at h
  cases hp : pyRemove tmp x with
  | error e => rw [hp] at h; cases h
  | ok tmp1 =>
    rw [hp] at h
    obtain ⟨hm, rfl⟩ := erased hp
    simp only [bind, Except.bind] at h
    split at h
    · cases h
    · rename_i y hy
      cases hr : releaseTargets d x.outs (tmp.erase x) with
      | error e => rw [hr] at h; cases h
      | ok tmp2 =>
        rw [hr] at h
        cases h
        -- while the flows of `x` are looked up, `x` is still counted
        obtain ⟨c, hc, -, -, h4⟩ := k.from' x hm
        have ho : ∀ i ∈ x.outs, ∃ c ∈ all, i ∈ c.outs := fun i hi => ⟨c, hc, h4 hi⟩
        have key : ∀ (is : List String) (l : List NC) (r : List NC), (∀ y ∈ l, ∃ c ∈ all, c.id = y.id ∧ y.ins ⊆ c.ins) →
            releaseTargets d is l = .ok r → ∀ i ∈ is, OutDone d all i := by
          intro is
          induction is with
          | nil => intro l r _ _ i hi; simp at hi
          | cons j js ih =>
            intro l r hl h i hi
            rw [releaseTargets] at h
            cases ht : flowTarget d j with
            | error e => rw [ht] at h; cases h
            | ok t =>
              rw [ht] at h
              simp only [bind, Except.bind] at h
              cases hr : removeIn j t l with
              | error e => rw [hr] at h; cases h
              | ok l' =>
                rw [hr] at h
                obtain ⟨l1, x, l2, rfl, e1, e2, rfl⟩ := removeIn_split hr
                rcases List.mem_cons.1 hi with rfl | hi
                · obtain ⟨c, hc, e, h3⟩ := hl x (by simp)
                  exact ⟨c, hc, by rw [ht, e, e1], h3 e2⟩
                · refine ih _ _ ?_ h i hi
                  intro y hy
                  rcases List.mem_append.1 hy with hy | hy
                  · exact hl y (by simp [hy])
                  · rcases List.mem_cons.1 hy with rfl | hy
                    · obtain ⟨c, hc, e, h3⟩ := hl x (by simp)
                      exact ⟨c, hc, e, fun a ha => h3 (List.mem_of_mem_erase ha)⟩
                    · exact hl y (by simp [hy])
        have done := key _ _ _ (fun y hy => by
          obtain ⟨c, hc, e, h3, -⟩ := k.from' y (List.mem_of_mem_erase hy)
          exact ⟨c, hc, e, h3⟩) hr
        have k' : Track d all (tmp.erase x) := by
          refine ⟨fun y hy => k.from' y (List.mem_of_mem_erase hy), ?_, ?_⟩
          · intro c hc i hi
            rcases k.outs c hc i hi with h3 | ⟨y, hy, h3⟩
            · exact Or.inl h3
            · by_cases hyx : y = x
              · subst hyx; exact Or.inl (done i h3)
              · exact Or.inr ⟨y, (List.mem_erase_of_ne hyx).2 hy, h3⟩
          · intro c hc i hi
            rcases k.ins c hc i hi with h3 | ⟨y, hy, e, h3⟩
            · exact Or.inl h3
            · by_cases hyx : y = x
              · subst hyx; rw [hx] at h3; simp at h3
              · exact Or.inr ⟨y, (List.mem_erase_of_ne hyx).2 hy, e, h3⟩
        refine ⟨(releaseTargets_track _ k' ho hr).1, ?_⟩
        intro z hz
        rcases List.mem_append.1 hz with hz | hz
        · exact hs z hz
        · simp only [List.mem_singleton] at hz
          subst hz
          exact List.mem_of_find?_eq_some hy

theorem takeNodes_track {all : List NC} : ∀ (xs : List NC) {tmp sorted : List NC} {r}, Track d all tmp → (∀ x ∈ xs, x.ins = []) →
    (∀ y ∈ sorted, y ∈ all) → takeNodes d all xs tmp sorted = .ok r → Track d all r.1 ∧ ∀ y ∈ r.2, y ∈ all
  | [], tmp, sorted, r, k, hx, hs, h => by cases h; exact ⟨k, hs⟩
  | x :: xs, tmp, sorted, r, k, hx, hs, h => by
    rw [takeNodes] at h
    cases ht : takeNode d all x tmp sorted with
    | error e => rw [ht] at h; cases h
    | ok q =>
      rw [ht] at h
      obtain ⟨h1, h2⟩ := takeNode_track k (hx x (by simp)) hs ht
      exact takeNodes_track xs h1 (fun y hy => hx y (by simp [hy])) h2 h

theorem cutFlows_track {all : List NC} : ∀ (is : List String) {tmp : List NC} {back : List String} {r}, Track d all tmp →
    cutFlows d is tmp back = .ok r → Track d all r.1
  | [], tmp, back, r, k, h => by cases h; exact k
  | i :: is, tmp, back, r, k, h => by
    rw [cutFlows] at h
    cases hs : flowSource d i with
    | error e => rw [hs] at h; cases h
    | ok s =>
      rw [hs] at h
      simp only [bind, Except.bind] at h
      cases ho : removeOut i s tmp with
      | error e => rw [ho] at h; cases h
      | ok tmp1 =>
        rw [ho] at h
        simp only at h
        cases ht : flowTarget d i with
        | error e => rw [ht] at h; cases h
        | ok t =>
          rw [ht] at h
          simp only at h
          cases hi : removeIn i t tmp1 with
          | error e => rw [hi] at h; cases h
          | ok tmp2 =>
            rw [hi] at h
            obtain ⟨y, hy, e, h2⟩ := removeOut_ins ho hi
            obtain ⟨c, hc, e', h3, -⟩ := k.from' y hy
            obtain ⟨k1, h4⟩ := k.removeOut ⟨c, hc, by rw [ht, e', e], h3 h2⟩ ho
            exact cutFlows_track is (k1.removeIn ht h4 hi) h

theorem cutJoins_track {all : List NC} : ∀ (ks : List Nat) {tmp : List NC} {back : List String} {r}, Track d all tmp →
    cutJoins d ks tmp back = .ok r → Track d all r.1
  | [], tmp, back, r, k, h => by cases h; exact k
  | n :: ks, tmp, back, r, k, h => by
    rw [cutJoins] at h
    cases hx : pyIndex tmp n with
    | error e => rw [hx] at h; cases h
    | ok x =>
      rw [hx] at h
      simp only [bind, Except.bind] at h
      split at h
      · cases hc : cutFlows d x.ins tmp back with
        | error e => rw [hc] at h; cases h
        | ok q =>
          rw [hc] at h
          exact cutJoins_track ks (cutFlows_track _ k hc) h
      · exact cutJoins_track ks k h

theorem sortLoop_track {all : List NC} : ∀ (fuel : Nat) {tmp sorted : List NC} {back : List String} {r}, Track d all tmp →
    (∀ y ∈ sorted, y ∈ all) → sortLoop d all fuel tmp sorted back = .ok r → Track d all [] ∧ ∀ y ∈ r.1, y ∈ all
  | 0, tmp, sorted, back, r, k, hs, h => by cases h
  | fuel + 1, tmp, sorted, back, r, k, hs, h => by
    rw [sortLoop] at h
    split at h
    · rename_i e
      subst e
      cases h
      exact ⟨k, hs⟩
    · simp only at h
      split at h
      · cases ht : takeNodes d all (tmp.filter fun x => x.ins.length == 0).reverse tmp sorted with
        | error e => rw [ht] at h; cases h
        | ok q =>
          rw [ht] at h
          obtain ⟨h1, h2⟩ := takeNodes_track _ k (fun x hx => (free_mem hx).2) hs ht
          exact sortLoop_track fuel h1 h2 h
      · cases ht : cutJoins d (List.range tmp.length) tmp back with
        | error e => rw [ht] at h; cases h
        | ok q =>
          rw [ht] at h
          exact sortLoop_track fuel (cutJoins_track _ k ht) hs h

theorem gridLayout_ids {fuel : Nat} {sorted : List NC} {g} (h : gridLayout fuel d sorted = .ok g) : ∀ c ∈ g, ∃ x ∈ sorted, x.id = c.nodeId := by
  obtain ⟨-, hc⟩ := gridLoop_inv (all := sorted) (fun g _ => ∀ c ∈ g, ∃ x ∈ sorted, x.id = c.nodeId) (by
    intro x hx p enf r hQ hs
    obtain ⟨row, col, h1, h2, -⟩ := placeSelf_ok hs
    rw [h2]
    intro c hc
    rcases List.mem_append.1 hc with hc | hc
    · exact hQ c hc
    · simp only [List.mem_singleton] at hc
      subst hc
      exact ⟨x, hx, rfl⟩) fuel fuel (List.Subset.refl _) (by simp) h
  exact hc

/-! ## The classified nodes -/

theorem classifyElement_from {labels : List String} {n : Node} {c : NC} (h : classifyElement labels n = .ok c) :
    c.id = n.1 ∧ n.2.incoming = some c.ins ∧ n.2.outgoing = some c.outs := by
  rw [classifyElement] at h
  cases hi : n.2.incoming with
  | none => rw [hi] at h; cases h
  | some a =>
    cases ho : n.2.outgoing with
    | none => rw [hi, ho] at h; cases h
    | some b => rw [hi, ho] at h; cases h; exact ⟨rfl, rfl, rfl⟩

theorem classifyElements_from {labels : List String} : ∀ {l : List Node} {cs : List NC}, classifyElements labels l = .ok cs →
    ∀ c ∈ cs, ∃ n ∈ l, c.id = n.1 ∧ n.2.incoming = some c.ins ∧ n.2.outgoing = some c.outs
  | [], cs, h => by cases h; simp
  | n :: l, cs, h => by
    rw [classifyElements] at h
    cases hc : classifyElement labels n with
    | error e => rw [hc] at h; cases h
    | ok c =>
      rw [hc] at h
      simp only [bind, Except.bind] at h
      cases hr : classifyElements labels l with
      | error e => rw [hr] at h; cases h
      | ok cs' =>
        rw [hr] at h
        cases h
        intro z hz
        rcases List.mem_cons.1 hz with rfl | hz
        · exact ⟨n, by simp, classifyElement_from hc⟩
        · obtain ⟨m, hm, h1⟩ := classifyElements_from hr z hz
          exact ⟨m, by simp [hm], h1⟩

theorem filter_keeps {α : Type} {p : α → Py Bool} : ∀ {l r : List α}, pyFilter p l = .ok r → ∀ x ∈ r, x ∈ l
  | [], r, h => by cases h; simp
  | a :: l, r, h => by
    rw [pyFilter] at h
    cases hp : p a with
    | error e => rw [hp] at h; cases h
    | ok b =>
      rw [hp] at h
      simp only [bind, Except.bind] at h
      cases hr : pyFilter p l with
      | error e => rw [hr] at h; cases h
      | ok r' =>
        rw [hr] at h
        simp only [pure, Except.pure, Except.ok.injEq] at h
        have ih := filter_keeps hr
        subst h
        intro x hx
        cases b
        · exact List.mem_cons_of_mem _ (ih x hx)
        · rcases List.mem_cons.1 hx with rfl | hx
          · simp
          · exact List.mem_cons_of_mem _ (ih x hx)

theorem elementsLoop_from : ∀ (ts : List (String × List String)) {all : List NC}, elementsLoop d ts = .ok all →
    ∀ c ∈ all, ∃ n ∈ d.getNodes, c.id = n.1 ∧ n.2.incoming = some c.ins ∧ n.2.outgoing = some c.outs
  | [], all, h => by cases h; simp
  | (ty, labels) :: ts, all, h => by
    rw [elementsLoop] at h
    cases hn : d.getNodesOfType (some ty) with
    | error e => rw [hn] at h; cases h
    | ok ns =>
      rw [hn] at h
      simp only [bind, Except.bind] at h
      cases hc : classifyElements labels ns with
      | error e => rw [hc] at h; cases h
      | ok cs =>
        rw [hc] at h
        simp only at h
        cases hr : elementsLoop d ts with
        | error e => rw [hr] at h; cases h
        | ok rest =>
          rw [hr] at h
          cases h
          intro c hm
          rcases List.mem_append.1 hm with hm | hm
          · obtain ⟨n, h1, h2⟩ := classifyElements_from hc c hm
            refine ⟨n, ?_, h2⟩
            unfold Diagram.getNodesOfType at hn
            split at hn
            · cases hn; exact h1
            · exact filter_keeps hn n h1
          · exact elementsLoop_from ts hr c hm

/-- One cell for every node. -/
theorem setCoordinates_cells {grid : List Cell} : ∀ {l r : List Node}, setCoordinates grid l = .ok r → ∀ n ∈ l, ∃ c ∈ grid, c.nodeId = n.1
  | [], r, h => by simp
  | n :: l, r, h => by
    rw [setCoordinates] at h
    split at h
    · cases h
    · rename_i c hc
      cases hr : setCoordinates grid l with
      | error e => rw [hr] at h; cases h
      | ok l' =>
        intro m hm
        rcases List.mem_cons.1 hm with rfl | hm
        · exact ⟨c, List.mem_of_find?_eq_some hc, by simpa using List.find?_some hc⟩
        · exact setCoordinates_cells hr m hm

theorem flowTarget_ok {i t : String} (h : flowTarget d i = .ok t) : ∃ f, d.getFlowById i = .ok (some f) ∧ f.2.2.targetRef = some t := by
  rw [flowTarget, flowAttrs] at h
  cases hf : d.getFlowById i with
  | error e => rw [hf] at h; cases h
  | ok o =>
    rw [hf] at h
    cases o with
    | none => cases h
    | some f =>
      simp only [bind, Except.bind, pure, Except.pure] at h
      cases ht : f.2.2.targetRef with
      | none => rw [ht] at h; cases h
      | some t' =>
        rw [ht] at h
        cases h
        exact ⟨f, rfl, ht⟩

/-- What every layout that returns has found. -/
theorem layout_lists {fuel : Nat} {d' : Diagram} (hid : (d.getNodes.map (·.1)).Nodup) (h : generateLayout fuel d = .ok d') :
    (∀ n ∈ d.getNodes, n.2.incoming.isSome ∧ n.2.outgoing.isSome) ∧
    (∀ n ∈ d.getNodes, ∀ i ∈ outs n, ∃ m ∈ d.getNodes, i ∈ ins m ∧ ∃ f, d.getFlowById i = .ok (some f) ∧ f.2.2.targetRef = some m.1) ∧
    (∀ m ∈ d.getNodes, ∀ i ∈ ins m, (∃ f, d.getFlowById i = .ok (some f) ∧ f.2.2.targetRef = some m.1) ∧ ∃ n ∈ d.getNodes, i ∈ outs n) := by
  rw [generateLayout, generateElementsClassification] at h
  cases ha : elementsLoop d elementTypes with
  | error e => rw [ha] at h; cases h
  | ok all =>
    rw [ha] at h
    simp only [bind, Except.bind, pure, Except.pure] at h
    cases hs : topologicalSort fuel d all with
    | error e => rw [hs] at h; cases h
    | ok q =>
      obtain ⟨sorted, back⟩ := q
      rw [hs] at h
      simp only at h
      cases hg : gridLayout fuel d sorted with
      | error e => rw [hg] at h; cases h
      | ok grid =>
        rw [hg] at h
        simp only at h
        cases hc : setCoordinates grid d.graph.nodes with
        | error e => rw [hc] at h; cases h
        | ok ns =>
          have hfrom := elementsLoop_from _ ha
          obtain ⟨k, hsub⟩ := sortLoop_track fuel (track_start d all) (by simp) hs
          -- every node is classified
          have hall : ∀ n ∈ d.getNodes, ∃ c ∈ all, c.id = n.1 ∧ n.2.incoming = some c.ins ∧ n.2.outgoing = some c.outs := by
            intro n hn
            obtain ⟨c, hc1, hc2⟩ := setCoordinates_cells hc n hn
            obtain ⟨x, hx1, hx2⟩ := gridLayout_ids hg c hc1
            have hxa := hsub x hx1
            obtain ⟨m, hm, h1, h2⟩ := hfrom x hxa
            have : m = n := List.inj_on_of_nodup_map hid hm hn (by rw [← h1, hx2, hc2])
            subst this
            exact ⟨x, hxa, h1, h2⟩
          have lists : ∀ {n : Node} {c : NC}, n.2.incoming = some c.ins → n.2.outgoing = some c.outs → ins n = c.ins ∧ outs n = c.outs := by
            intro n c h1 h2
            simp [ins, outs, h1, h2]
          refine ⟨?_, ?_, ?_⟩
          · intro n hn
            obtain ⟨c, -, -, h1, h2⟩ := hall n hn
            simp [h1, h2]
          · intro n hn i hi
            obtain ⟨c, hc, e, h1, h2⟩ := hall n hn
            rw [(lists h1 h2).2] at hi
            rcases k.outs c hc i hi with ⟨c', hc', h3, h4⟩ | ⟨y, hy, -⟩
            · obtain ⟨m, hm, e', h5, h6⟩ := hfrom c' hc'
              obtain ⟨f, hf, ht⟩ := flowTarget_ok h3
              exact ⟨m, hm, by rw [(lists h5 h6).1]; exact h4, f, hf, by rw [ht, e']⟩
            · simp at hy
          · intro n hn i hi
            obtain ⟨c, hc, e, h1, h2⟩ := hall n hn
            rw [(lists h1 h2).1] at hi
            rcases k.ins c hc i hi with ⟨h3, c', hc', h4⟩ | ⟨y, hy, -⟩
            · obtain ⟨m, hm, e', h5, h6⟩ := hfrom c' hc'
              obtain ⟨f, hf, ht⟩ := flowTarget_ok h3
              exact ⟨⟨f, hf, by rw [ht, e]⟩, m, hm, by rw [(lists h5 h6).2]; exact h4⟩
            · simp at hy

end Bpmn.Layouter

import Verif.Model.LayoutMetrics
import Verif.Lemmas.Consistent
import Mathlib.Data.List.Nodup
/-!
The path searches of the layout metrics.
-/
set_option linter.unusedSimpArgs false
set_option linter.unusedVariables false

namespace Bpmn.LayoutMetrics
open Bpmn Bpmn.Spec

variable {d : Diagram}

theorem target_of_out (h : Consistent d) {n : Node} (hn : n ∈ d.getNodes) {i : String} (hi : i ∈ outs n) :
    ∃ m ∈ d.getNodes, targetNode d i = .ok (some m) ∧ Next d n m := by
  obtain ⟨m, hm, ⟨a, b, e, h1, h2, h3, h4⟩, h5⟩ := h.outFlow n hn i hi
  refine ⟨m, hm, ?_, i, hi, (a, b, e), h1, h4, h.getNodeById hm⟩
  simp [targetNode, h1, h4, h.getNodeById hm]

theorem out_of_next (h : Consistent d) {n m : Node} (hn : Next d n m) :
    m ∈ d.getNodes ∧ ∃ i ∈ outs n, targetNode d i = .ok (some m) := by
  obtain ⟨i, hi, f, h1, h2, h3⟩ := hn
  refine ⟨(Consistent.mem_of_getNodeById h3).1, i, hi, ?_⟩
  simp [targetNode, h1, h2, h3]

/-- The loop over the outgoing flows keeps the longest result. -/
theorem longestLoop_spec (prev : List Node) (rec : Node → Py (List Node × Nat)) (is : List String)
    (tgt : String → Node) (res : Node → List Node)
    (ht : ∀ i ∈ is, targetNode d i = .ok (some (tgt i)))
    (hr : ∀ i ∈ is, tgt i ∉ prev → rec (tgt i) = .ok (res (tgt i), (res (tgt i)).length)) (best : List Node) :
    ∃ b, longestLoop d prev rec is best = .ok b ∧ best.length ≤ b.length ∧
      (b = best ∨ ∃ i ∈ is, tgt i ∉ prev ∧ b = res (tgt i)) ∧
      ∀ i ∈ is, tgt i ∉ prev → (res (tgt i)).length ≤ b.length := by
  induction is generalizing best with
  | nil => exact ⟨best, rfl, Nat.le_refl _, .inl rfl, by simp⟩
  | cons i is ih =>
    have ih := fun best => ih (fun j hj => ht j (List.mem_cons_of_mem _ hj)) (fun j hj => hr j (List.mem_cons_of_mem _ hj)) best
    have h1 := ht i List.mem_cons_self
    simp only [longestLoop, h1, except_bind_ok]
    by_cases hp : tgt i ∈ prev
    · simp only [hp, if_true]
      obtain ⟨b, e1, e2, e3, e4⟩ := ih best
      refine ⟨b, e1, e2, ?_, ?_⟩
      · rcases e3 with e3 | ⟨j, hj, e3⟩
        · exact .inl e3
        · exact .inr ⟨j, List.mem_cons_of_mem _ hj, e3⟩
      · intro j hj hjp
        rcases List.mem_cons.1 hj with rfl | hj
        · exact absurd hp hjp
        · exact e4 j hj hjp
    · simp only [hp, if_false, hr i List.mem_cons_self hp, except_bind_ok]
      obtain ⟨b, e1, e2, e3, e4⟩ := ih (if (res (tgt i)).length > best.length then res (tgt i) else best)
      refine ⟨b, e1, ?_, ?_, ?_⟩
      · split at e2 <;> omega
      · rcases e3 with e3 | ⟨j, hj, e3⟩
        · split at e3
          · exact .inr ⟨i, List.mem_cons_self, hp, e3⟩
          · exact .inl e3
        · exact .inr ⟨j, List.mem_cons_of_mem _ hj, e3⟩
      · intro j hj hjp
        rcases List.mem_cons.1 hj with rfl | hj
        · split at e2 <;> omega
        · exact e4 j hj hjp

theorem follows_cons {a : Node} {l : List Node} (h : Follows d (a :: l)) : Follows d l := by
  cases l with
  | nil => trivial
  | cons b l => exact h.2

/-- Budget that suffices for a call. -/
def budget (d : Diagram) (prev : List Node) (n : Node) : Nat :=
  2 * (d.getNodes.filter fun m => m ∉ prev).length + if n ∈ prev then 1 else 0

theorem budget_step (h : Consistent d) {prev : List Node} {n m : Node} (hn : n ∈ d.getNodes) (hm : m ∉ prev) :
    budget d (prev ++ [n]) m < budget d prev n := by
  unfold budget
  by_cases hp : n ∈ prev
  · have e : (d.getNodes.filter fun x => x ∉ prev ++ [n]) = d.getNodes.filter fun x => x ∉ prev := by
      apply List.filter_congr
      intro x _
      by_cases hx : x = n
      · subst hx; simp [hp]
      · simp [hx]
    have hmn : m ≠ n := fun e => hm (e ▸ hp)
    rw [e]
    simp [hp, hm, hmn]
  · have hlt : (d.getNodes.filter fun x => x ∉ prev ++ [n]).length < (d.getNodes.filter fun x => x ∉ prev).length := by
      have e : (d.getNodes.filter fun x => x ∉ prev ++ [n]) =
          (d.getNodes.filter fun x => x ∉ prev).filter fun x => x ≠ n := by
        rw [List.filter_filter]
        apply List.filter_congr
        intro x _
        simp [and_comm]
      rw [e]
      apply List.length_filter_lt_length_iff_exists.2
      exact ⟨n, List.mem_filter.2 ⟨hn, by simpa using hp⟩, by simp⟩
    simp only [hp, if_false]
    split <;> omega

/-- A tail of nodes that continues the path from `n` to a node without outgoing flows. -/
def Tail (d : Diagram) (n : Node) (rest : List Node) : Prop :=
  (∀ m ∈ rest, m ∈ d.getNodes) ∧ Follows d (n :: rest) ∧ ∀ m ∈ (n :: rest).getLast?, outs m = []

theorem findLongestPath_spec (h : Consistent d) (fuel : Nat) (prev : List Node) (n : Node) (hn : n ∈ d.getNodes)
    (hf : budget d prev n < fuel) :
    ∃ p, findLongestPath d fuel prev n = .ok (p, p.length) ∧
      (p = [] ∨ ∃ rest, p = prev ++ n :: rest ∧ Tail d n rest) ∧
      ((∀ m ∈ d.getNodes, ¬Next d m m) → prev.Nodup → n ∉ prev → p.Nodup) ∧
      ∀ rest, Tail d n rest → (prev ++ n :: rest).Nodup → (prev ++ n :: rest).length ≤ p.length := by
  induction fuel generalizing prev n with
  | zero => omega
  | succ fuel ih =>
    simp only [findLongestPath, h.outgoing hn, need_some, except_bind_ok]
    by_cases ho : (outs n).length = 0
    · have ho' : outs n = [] := List.length_eq_zero_iff.1 ho
      simp only [ho, if_true]
      refine ⟨prev ++ [n], rfl, .inr ⟨[], rfl, by simp, by simp [Follows], by simpa using ho'⟩, ?_, ?_⟩
      · intro _ h1 h2
        rw [List.nodup_append]
        refine ⟨h1, by simp, ?_⟩
        intro a ha b hb; simp at hb; subst hb; exact fun e => h2 (e ▸ ha)
      · rintro rest ⟨h1, h2, h3⟩ hnd
        cases rest with
        | nil => simp
        | cons m rest =>
          obtain ⟨i, hi, -⟩ := h2.1
          rw [ho'] at hi; simp at hi
    · simp only [ho, if_false]
      -- choose targets and results
      have htgt : ∀ i ∈ outs n, ∃ m, m ∈ d.getNodes ∧ targetNode d i = .ok (some m) ∧ Next d n m := fun i hi => by
        obtain ⟨m, a, b, c⟩ := target_of_out h hn hi
        exact ⟨m, a, b, c⟩
      let tgt : String → Node := fun i => match targetNode d i with | .ok (some m) => m | _ => n
      have htg : ∀ i ∈ outs n, targetNode d i = .ok (some (tgt i)) ∧ tgt i ∈ d.getNodes ∧ Next d n (tgt i) := by
        intro i hi
        obtain ⟨m, a, b, c⟩ := htgt i hi
        have : tgt i = m := by simp [tgt, b]
        rw [this]; exact ⟨b, a, c⟩
      let res : Node → List Node := fun m => match findLongestPath d fuel (prev ++ [n]) m with | .ok (p, _) => p | _ => []
      have hres : ∀ i ∈ outs n, tgt i ∉ prev → findLongestPath d fuel (prev ++ [n]) (tgt i) = .ok (res (tgt i), (res (tgt i)).length) ∧
          (res (tgt i) = [] ∨ ∃ rest, res (tgt i) = prev ++ [n] ++ tgt i :: rest ∧ Tail d (tgt i) rest) ∧
          ((∀ m ∈ d.getNodes, ¬Next d m m) → (prev ++ [n]).Nodup → tgt i ∉ prev ++ [n] → (res (tgt i)).Nodup) ∧
          ∀ rest, Tail d (tgt i) rest → (prev ++ [n] ++ tgt i :: rest).Nodup →
            (prev ++ [n] ++ tgt i :: rest).length ≤ (res (tgt i)).length := by
        intro i hi hp
        obtain ⟨p, e1, e2⟩ := ih (prev ++ [n]) (tgt i) (htg i hi).2.1
          (by have := budget_step h hn hp (prev := prev); omega)
        have : res (tgt i) = p := by simp [res, e1]
        rw [this]; exact ⟨e1, e2⟩
      obtain ⟨b, e1, -, e3, e4⟩ := longestLoop_spec prev (findLongestPath d fuel (prev ++ [n])) (outs n) tgt res
        (fun i hi => (htg i hi).1) (fun i hi hp => (hres i hi hp).1) []
      refine ⟨b, by rw [e1]; rfl, ?_, ?_, ?_⟩
      · rcases e3 with e3 | ⟨i, hi, hp, e3⟩
        · exact .inl e3
        · rcases (hres i hi hp).2.1 with e | ⟨rest, e, t1, t2, t3⟩
          · exact .inl (e3.trans e)
          · refine .inr ⟨tgt i :: rest, by rw [e3, e]; simp, ?_, ⟨(htg i hi).2.2, t2⟩, ?_⟩
            · intro m hm
              rcases List.mem_cons.1 hm with rfl | hm
              · exact (htg i hi).2.1
              · exact t1 m hm
            · rw [List.getLast?_cons_cons]; exact t3
      · intro hself h1 h2
        rcases e3 with e3 | ⟨i, hi, hp, e3⟩
        · rw [e3]; simp
        · rw [e3]
          apply (hres i hi hp).2.2.1 hself
          · rw [List.nodup_append]
            refine ⟨h1, by simp, ?_⟩
            intro a ha b hb; simp at hb; subst hb; exact fun e => h2 (e ▸ ha)
          · simp only [List.mem_append, List.mem_singleton, not_or]
            exact ⟨hp, fun e => hself n hn (by have := (htg i hi).2.2; rwa [e] at this)⟩
      · rintro rest ⟨t1, t2, t3⟩ hnd
        cases rest with
        | nil =>
          exfalso
          have : outs n = [] := t3 n (by simp)
          rw [this] at ho; simp at ho
        | cons m rest =>
          obtain ⟨i, hi, htm⟩ := (out_of_next h t2.1).2
          have hm : tgt i = m := by
            have := (htg i hi).1
            rw [htm] at this; simpa using this.symm
          have hmp : m ∉ prev := by
            intro hx
            rw [List.nodup_append] at hnd
            exact hnd.2.2 m hx m (by simp) rfl
          have hl := (hres i hi (by rw [hm]; exact hmp)).2.2.2 rest
            ⟨fun x hx => t1 x (List.mem_cons_of_mem _ hx), by rw [hm]; exact t2.2, by
              rw [hm]; rw [List.getLast?_cons_cons] at t3; exact t3⟩ (by rw [hm]; simpa using hnd)
          have := e4 i hi (by rw [hm]; exact hmp)
          rw [hm] at hl this
          simp at hl this ⊢
          omega

theorem noIncoming_spec (h : ∀ n ∈ l, n.2.incoming.isSome) : noIncoming l = .ok (l.filter fun n => (ins n).length = 0) := by
  induction l with
  | nil => rfl
  | cons n l ih =>
    obtain ⟨i, hi⟩ := Option.isSome_iff_exists.1 (h n List.mem_cons_self)
    simp [noIncoming, hi, ih (fun m hm => h m (List.mem_cons_of_mem _ hm)), List.filter_cons, ins]

theorem bestOf_spec (rec : Node → Py (List Node × Nat)) (ns : List Node) (res : Node → List Node)
    (hr : ∀ n ∈ ns, rec n = .ok (res n, (res n).length)) (best : List Node) :
    ∃ b, bestOf rec ns best = .ok b ∧ best.length ≤ b.length ∧ (b = best ∨ ∃ n ∈ ns, b = res n) ∧
      ∀ n ∈ ns, (res n).length ≤ b.length := by
  induction ns generalizing best with
  | nil => exact ⟨best, rfl, Nat.le_refl _, .inl rfl, by simp⟩
  | cons n ns ih =>
    obtain ⟨b, e1, e2, e3, e4⟩ := ih (fun m hm => hr m (List.mem_cons_of_mem _ hm))
      (if (res n).length > best.length then res n else best)
    refine ⟨b, by simp [bestOf, hr n List.mem_cons_self, e1], ?_, ?_, ?_⟩
    · split at e2 <;> omega
    · rcases e3 with e3 | ⟨j, hj, e3⟩
      · split at e3
        · exact .inr ⟨n, List.mem_cons_self, e3⟩
        · exact .inl e3
      · exact .inr ⟨j, List.mem_cons_of_mem _ hj, e3⟩
    · intro j hj
      rcases List.mem_cons.1 hj with rfl | hj
      · split at e2 <;> omega
      · exact e4 j hj

/-- Correctness of the search over all starts, self-loops allowed. -/
theorem computeLongestPath_spec (h : Consistent d) (fuel : Nat) (hf : 2 * d.getNodes.length < fuel) :
    ∃ p, computeLongestPath fuel d = .ok (p, p.length) ∧
      (p = [] ∨ ∃ n ∈ d.getNodes, ins n = [] ∧ ∃ rest, p = n :: rest ∧ Tail d n rest) ∧
      ((∀ m ∈ d.getNodes, ¬Next d m m) → p.Nodup) ∧
      ∀ n ∈ d.getNodes, ins n = [] → ∀ rest, Tail d n rest → (n :: rest).Nodup → (n :: rest).length ≤ p.length := by
  unfold computeLongestPath
  rw [noIncoming_spec (fun n hn => (h.lists n hn).1)]
  simp only [except_bind_ok]
  have hb : ∀ n : Node, budget d [] n < fuel := by
    intro n; simp [budget]; exact hf
  let res : Node → List Node := fun m => match findLongestPath d fuel [] m with | .ok (p, _) => p | _ => []
  have hres : ∀ n ∈ d.getNodes, findLongestPath d fuel [] n = .ok (res n, (res n).length) ∧
      (res n = [] ∨ ∃ rest, res n = n :: rest ∧ Tail d n rest) ∧ ((∀ m ∈ d.getNodes, ¬Next d m m) → (res n).Nodup) ∧
      ∀ rest, Tail d n rest → (n :: rest).Nodup → (n :: rest).length ≤ (res n).length := by
    intro n hn
    obtain ⟨p, e1, e2, e3, e4⟩ := findLongestPath_spec h fuel [] n hn (hb n)
    have : res n = p := by simp [res, e1]
    rw [this]
    exact ⟨e1, by simpa using e2, fun hs => e3 hs (by simp) (by simp), by simpa using e4⟩
  obtain ⟨b, e1, -, e3, e4⟩ := bestOf_spec (findLongestPath d fuel []) (d.getNodes.filter fun n => (ins n).length = 0) res
    (fun n hn => (hres n (List.mem_of_mem_filter hn)).1) []
  refine ⟨b, by rw [e1]; rfl, ?_, ?_, ?_⟩
  · rcases e3 with e3 | ⟨n, hn, e3⟩
    · exact .inl e3
    · obtain ⟨hn1, hn2⟩ := List.mem_filter.1 hn
      rcases (hres n hn1).2.1 with e | ⟨rest, e, t⟩
      · exact .inl (e3.trans e)
      · exact .inr ⟨n, hn1, by simpa using hn2, rest, e3.trans e, t⟩
  · intro hs
    rcases e3 with e3 | ⟨n, hn, e3⟩
    · rw [e3]; simp
    · rw [e3]; exact (hres n (List.mem_of_mem_filter hn)).2.2.1 hs
  · intro n hn hin rest t nd
    have hmem : n ∈ d.getNodes.filter fun n => (ins n).length = 0 := List.mem_filter.2 ⟨hn, by simp [hin]⟩
    exact Nat.le_trans ((hres n hn).2.2.2 rest t nd) (e4 n hmem)

/-! ### Activities -/

theorem qualify_spec {q : List Node} {n : Node} (ht : n.2.type.isSome) : qualify q n = .ok (q ++ activities [n]) := by
  obtain ⟨t, ht⟩ := Option.isSome_iff_exists.1 ht
  simp only [qualify, isActivity, ht, need_some, except_bind_ok, except_pure, activities, List.filter_cons, Option.some.injEq]
  by_cases h : t = "task" ∨ t = "subProcess"
  · simp [h]
  · simp [h]

theorem activities_append (p q : List Node) : activities (p ++ q) = activities p ++ activities q := by simp [activities]

theorem longestTasksLoop_spec (path qual : List Node) (n : Node) (ht : n.2.type.isSome)
    (rec : List Node → Node → Py (List Node × List Node)) (is : List String) (tgt : String → Node)
    (cand : String → List Node × List Node)
    (hti : ∀ i ∈ is, targetNode d i = .ok (some (tgt i)))
    (hc1 : ∀ i ∈ is, tgt i ∈ path → cand i = (path ++ [n], qual ++ activities [n]))
    (hc2 : ∀ i ∈ is, tgt i ∉ path → rec (qual ++ activities [n]) (tgt i) = .ok (cand i)) (best : List Node × List Node) :
    ∃ b, longestTasksLoop d path qual n rec is best = .ok b ∧ best.2.length ≤ b.2.length ∧
      (b = best ∨ ∃ i ∈ is, b = cand i) ∧ ∀ i ∈ is, (cand i).2.length ≤ b.2.length := by
  induction is generalizing best with
  | nil => exact ⟨best, rfl, Nat.le_refl _, .inl rfl, by simp⟩
  | cons i is ih =>
    have ih := fun best => ih (fun j hj => hti j (List.mem_cons_of_mem _ hj)) (fun j hj => hc1 j (List.mem_cons_of_mem _ hj))
      (fun j hj => hc2 j (List.mem_cons_of_mem _ hj)) best
    have key : longestTasksLoop d path qual n rec (i :: is) best =
        longestTasksLoop d path qual n rec is (if (cand i).2.length > best.2.length then cand i else best) := by
      simp only [longestTasksLoop, hti i List.mem_cons_self, except_bind_ok, qualify_spec ht]
      by_cases hp : tgt i ∈ path
      · simp [hp, hc1 i List.mem_cons_self hp]
      · simp [hp, hc2 i List.mem_cons_self hp]
    rw [key]
    obtain ⟨b, e1, e2, e3, e4⟩ := ih (if (cand i).2.length > best.2.length then cand i else best)
    refine ⟨b, e1, ?_, ?_, ?_⟩
    · split at e2 <;> omega
    · rcases e3 with e3 | ⟨j, hj, e3⟩
      · split at e3
        · exact .inr ⟨i, List.mem_cons_self, e3⟩
        · exact .inl e3
      · exact .inr ⟨j, List.mem_cons_of_mem _ hj, e3⟩
    · intro j hj
      rcases List.mem_cons.1 hj with rfl | hj
      · split at e2 <;> omega
      · exact e4 j hj

theorem findLongestPathTasks_spec (h : Consistent d) (hself : ∀ m ∈ d.getNodes, ¬Next d m m) (fuel : Nat) (path : List Node) (n : Node)
    (hn : n ∈ d.getNodes) (hf : budget d path n < fuel) (hnd : (path ++ [n]).Nodup) :
    ∃ rest, findLongestPathTasks d fuel path (activities path) n =
        .ok (path ++ n :: rest, activities (path ++ n :: rest)) ∧
      (∀ m ∈ rest, m ∈ d.getNodes) ∧ Follows d (n :: rest) ∧ (path ++ n :: rest).Nodup ∧
      ∀ r, (∀ m ∈ r, m ∈ d.getNodes) → Follows d (n :: r) → (path ++ n :: r).Nodup →
        (activities (path ++ n :: r)).length ≤ (activities (path ++ n :: rest)).length := by
  induction fuel generalizing path n with
  | zero => omega
  | succ fuel ih =>
    have hty := h.typed n hn
    simp only [findLongestPathTasks, h.outgoing hn, need_some, except_bind_ok]
    by_cases ho : (outs n).length = 0
    · have ho' : outs n = [] := List.length_eq_zero_iff.1 ho
      simp only [ho, if_true, qualify_spec hty, except_bind_ok]
      refine ⟨[], by simp [activities_append], by simp, by simp [Follows], hnd, ?_⟩
      rintro r h1 h2 hnd
      cases r with
      | nil => exact Nat.le_refl _
      | cons m r =>
        obtain ⟨i, hi, -⟩ := h2.1
        rw [ho'] at hi; simp at hi
    · simp only [ho, if_false]
      let tgt : String → Node := fun i => match targetNode d i with | .ok (some m) => m | _ => n
      have htg : ∀ i ∈ outs n, targetNode d i = .ok (some (tgt i)) ∧ tgt i ∈ d.getNodes ∧ Next d n (tgt i) := by
        intro i hi
        obtain ⟨m, a, b, c⟩ := target_of_out h hn hi
        have : tgt i = m := by simp [tgt, b]
        rw [this]; exact ⟨b, a, c⟩
      let cand : String → List Node × List Node := fun i =>
        if tgt i ∈ path then (path ++ [n], activities path ++ activities [n]) else
          match findLongestPathTasks d fuel (path ++ [n]) (activities path ++ activities [n]) (tgt i) with
          | .ok r => r
          | _ => ([], [])
      have hact : activities path ++ activities [n] = activities (path ++ [n]) := (activities_append _ _).symm
      have hnot : ∀ i ∈ outs n, tgt i ∉ path → tgt i ∉ path ++ [n] := by
        intro i hi hp
        simp only [List.mem_append, List.mem_singleton, not_or]
        exact ⟨hp, fun e => hself n hn (by have := (htg i hi).2.2; rwa [e] at this)⟩
      have hrec : ∀ i ∈ outs n, tgt i ∉ path → ∃ rest,
          findLongestPathTasks d fuel (path ++ [n]) (activities path ++ activities [n]) (tgt i) = .ok (cand i) ∧
          cand i = (path ++ n :: tgt i :: rest, activities (path ++ n :: tgt i :: rest)) ∧
          (∀ m ∈ rest, m ∈ d.getNodes) ∧ Follows d (tgt i :: rest) ∧ (path ++ n :: tgt i :: rest).Nodup ∧
          ∀ r, (∀ m ∈ r, m ∈ d.getNodes) → Follows d (tgt i :: r) → (path ++ n :: tgt i :: r).Nodup →
            (activities (path ++ n :: tgt i :: r)).length ≤ (activities (path ++ n :: tgt i :: rest)).length := by
        intro i hi hp
        have hnd' : (path ++ [n] ++ [tgt i]).Nodup := by
          rw [List.nodup_append]
          refine ⟨hnd, by simp, ?_⟩
          intro a ha b hb; simp at hb; subst hb; exact fun e => hnot i hi hp (e ▸ ha)
        obtain ⟨rest, e1, e2, e3, e4, e5⟩ := ih (path ++ [n]) (tgt i) (htg i hi).2.1
          (by have := budget_step h hn hp (prev := path); omega) hnd'
        rw [← hact] at e1
        have hc : cand i = (path ++ [n] ++ tgt i :: rest, activities (path ++ [n] ++ tgt i :: rest)) := by simp [cand, hp, e1]
        refine ⟨rest, by rw [e1, hc], by rw [hc]; simp, e2, e3, by simpa using e4, ?_⟩
        intro r r1 r2 r3
        have := e5 r r1 r2 (by simpa using r3)
        simpa using this
      obtain ⟨b, e1, e2, e3, e4⟩ := longestTasksLoop_spec path (activities path) n hty
        (findLongestPathTasks d fuel (path ++ [n])) (outs n) tgt cand (fun i hi => (htg i hi).1)
        (fun i hi hp => by simp [cand, hp]) (fun i hi hp => by obtain ⟨_, x, _⟩ := hrec i hi hp; exact x) (path ++ [n], [])
      -- every candidate is the pair of a continuation and its activities
      have hcand : ∀ i ∈ outs n, ∃ rest, cand i = (path ++ n :: rest, activities (path ++ n :: rest)) ∧
          (∀ m ∈ rest, m ∈ d.getNodes) ∧ Follows d (n :: rest) ∧ (path ++ n :: rest).Nodup ∧
          (activities (path ++ [n])).length ≤ (cand i).2.length := by
        intro i hi
        by_cases hp : tgt i ∈ path
        · refine ⟨[], by simp [cand, hp, hact], by simp, by simp [Follows], hnd, by simp [cand, hp, hact]⟩
        · obtain ⟨rest, x1, x2, x3, x4, x5, x6⟩ := hrec i hi hp
          refine ⟨tgt i :: rest, x2, ?_, ⟨(htg i hi).2.2, x4⟩, x5, ?_⟩
          · intro m hm
            rcases List.mem_cons.1 hm with rfl | hm
            · exact (htg i hi).2.1
            · exact x3 m hm
          · rw [x2]
            have : path ++ n :: tgt i :: rest = (path ++ [n]) ++ tgt i :: rest := by simp
            rw [this, activities_append _ (tgt i :: rest)]
            simp
      obtain ⟨i0, hi0⟩ := List.exists_mem_of_length_pos (Nat.pos_of_ne_zero ho)
      have hbest : ∃ rest, b = (path ++ n :: rest, activities (path ++ n :: rest)) ∧ (∀ m ∈ rest, m ∈ d.getNodes) ∧
          Follows d (n :: rest) ∧ (path ++ n :: rest).Nodup := by
        rcases e3 with e3 | ⟨i, hi, e3⟩
        · refine ⟨[], ?_, by simp, by simp [Follows], hnd⟩
          obtain ⟨rest, x1, x2, x3, x4, x5⟩ := hcand i0 hi0
          have := e4 i0 hi0
          rw [e3] at this
          simp at this
          have h0 : activities (path ++ [n]) = [] := by
            rw [this] at x5; simpa using x5
          rw [e3, h0]
        · obtain ⟨rest, x1, x2, x3, x4, x5⟩ := hcand i hi
          exact ⟨rest, e3.trans x1, x2, x3, x4⟩
      obtain ⟨rest, hb1, hb2, hb3, hb4⟩ := hbest
      refine ⟨rest, by rw [e1, hb1], hb2, hb3, hb4, ?_⟩
      intro r r1 r2 r3
      have hbl : b.2 = activities (path ++ n :: rest) := by rw [hb1]
      cases r with
      | nil =>
        obtain ⟨_, _, _, _, _, x5⟩ := hcand i0 hi0
        have := e4 i0 hi0
        rw [hbl] at this
        exact Nat.le_trans x5 this
      | cons m r =>
        obtain ⟨i, hi, htm⟩ := (out_of_next h r2.1).2
        have hm : tgt i = m := by
          have := (htg i hi).1
          rw [htm] at this; simpa using this.symm
        have hmp : m ∉ path := by
          intro hx
          rw [List.nodup_append] at r3
          exact r3.2.2 m hx m (by simp) rfl
        obtain ⟨rest', x1, x2, x3, x4, x5, x6⟩ := hrec i hi (by rw [hm]; exact hmp)
        rw [hm] at x2 x6
        have h6 := x6 r (fun x hx => r1 x (List.mem_cons_of_mem _ hx)) r2.2 r3
        have := e4 i hi
        rw [hbl, x2] at this
        simp only at this
        omega

theorem bestTasksOf_spec (rec : Node → Py (List Node × List Node)) (ns : List Node) (res : Node → List Node × List Node)
    (hr : ∀ n ∈ ns, rec n = .ok (res n)) (best : List Node) :
    ∃ b, bestTasksOf rec ns best = .ok b ∧ best.length ≤ b.length ∧ (b = best ∨ ∃ n ∈ ns, b = (res n).2) ∧
      ∀ n ∈ ns, (res n).2.length ≤ b.length := by
  induction ns generalizing best with
  | nil => exact ⟨best, rfl, Nat.le_refl _, .inl rfl, by simp⟩
  | cons n ns ih =>
    obtain ⟨b, e1, e2, e3, e4⟩ := ih (fun m hm => hr m (List.mem_cons_of_mem _ hm))
      (if (res n).2.length > best.length then (res n).2 else best)
    refine ⟨b, by simp [bestTasksOf, hr n List.mem_cons_self, e1], ?_, ?_, ?_⟩
    · split at e2 <;> omega
    · rcases e3 with e3 | ⟨j, hj, e3⟩
      · split at e3
        · exact .inr ⟨n, List.mem_cons_self, e3⟩
        · exact .inl e3
      · exact .inr ⟨j, List.mem_cons_of_mem _ hj, e3⟩
    · intro j hj
      rcases List.mem_cons.1 hj with rfl | hj
      · split at e2 <;> omega
      · exact e4 j hj

theorem computeLongestPathTasks_spec (h : Consistent d) (hself : ∀ m ∈ d.getNodes, ¬Next d m m) (fuel : Nat)
    (hf : 2 * d.getNodes.length < fuel) :
    ∃ q, computeLongestPathTasks fuel d = .ok (q, q.length) ∧
      (q = [] ∨ ∃ n ∈ d.getNodes, ins n = [] ∧ ∃ rest, SimplePath d (n :: rest) ∧ q = activities (n :: rest)) ∧
      ∀ n rest, ins n = [] → SimplePath d (n :: rest) → (activities (n :: rest)).length ≤ q.length := by
  unfold computeLongestPathTasks
  rw [noIncoming_spec (fun n hn => (h.lists n hn).1)]
  simp only [except_bind_ok]
  have hb : ∀ n : Node, budget d [] n < fuel := by
    intro n; simp [budget]; exact hf
  let res : Node → List Node × List Node := fun m => match findLongestPathTasks d fuel [] [] m with | .ok r => r | _ => ([], [])
  have hres : ∀ n ∈ d.getNodes, findLongestPathTasks d fuel [] [] n = .ok (res n) ∧
      ∃ rest, res n = (n :: rest, activities (n :: rest)) ∧ SimplePath d (n :: rest) ∧
      ∀ r, SimplePath d (n :: r) → (activities (n :: r)).length ≤ (res n).2.length := by
    intro n hn
    obtain ⟨rest, e1, e2, e3, e4, e5⟩ := findLongestPathTasks_spec h hself fuel [] n hn (hb n) (by simp)
    simp only [List.nil_append, activities, List.filter_nil] at e1 e4 e5
    have : res n = (n :: rest, activities (n :: rest)) := by simp [res, activities, e1]
    refine ⟨by rw [this]; exact e1, rest, this, ⟨by simp, ?_, e3, e4⟩, ?_⟩
    · intro m hm
      rcases List.mem_cons.1 hm with rfl | hm
      · exact hn
      · exact e2 m hm
    · intro r hr
      rw [this]
      exact e5 r (fun m hm => hr.nodes m (List.mem_cons_of_mem _ hm)) hr.follows hr.nodup
  obtain ⟨b, e1, -, e3, e4⟩ := bestTasksOf_spec (findLongestPathTasks d fuel [] [])
    (d.getNodes.filter fun n => (ins n).length = 0) res (fun n hn => (hres n (List.mem_of_mem_filter hn)).1) []
  refine ⟨b, by rw [e1]; rfl, ?_, ?_⟩
  · rcases e3 with e3 | ⟨n, hn, e3⟩
    · exact .inl e3
    · obtain ⟨hn1, hn2⟩ := List.mem_filter.1 hn
      obtain ⟨rest, x1, x2, -⟩ := (hres n hn1).2
      exact .inr ⟨n, hn1, by simpa using hn2, rest, x2, by rw [e3, x1]⟩
  · intro n rest hin hsp
    have hn := hsp.nodes n List.mem_cons_self
    have hmem : n ∈ d.getNodes.filter fun n => (ins n).length = 0 := List.mem_filter.2 ⟨hn, by simp [hin]⟩
    obtain ⟨_, _, _, x⟩ := (hres n hn).2
    exact Nat.le_trans (x rest hsp) (e4 n hmem)

/-! ### More fuel does not change a result -/

theorem longestLoop_mono (prev : List Node) {rec rec' : Node → Py (List Node × Nat)}
    (hr : ∀ m r, rec m = .ok r → rec' m = .ok r) (is : List String) (best b : List Node)
    (h : longestLoop d prev rec is best = .ok b) : longestLoop d prev rec' is best = .ok b := by
  induction is generalizing best with
  | nil => exact h
  | cons i is ih =>
    simp only [longestLoop] at h ⊢
    cases ht : targetNode d i with
    | error e => rw [ht] at h; simp at h
    | ok o =>
      rw [ht] at h
      cases o with
      | none => simp at h
      | some m =>
        simp only [except_bind_ok] at h ⊢
        by_cases hp : m ∈ prev
        · simp only [hp, if_true] at h ⊢; exact ih best h
        · simp only [hp, if_false] at h ⊢
          cases hm : rec m with
          | error e => rw [hm] at h; simp at h
          | ok r =>
            rw [hm] at h
            rw [hr m r hm]
            simp only [except_bind_ok] at h ⊢
            exact ih _ h

theorem findLongestPath_mono {f g : Nat} (hfg : f ≤ g) (prev : List Node) (n : Node) (r)
    (h : findLongestPath d f prev n = .ok r) : findLongestPath d g prev n = .ok r := by
  induction f generalizing g prev n r with
  | zero => simp [findLongestPath] at h
  | succ f ih =>
    cases g with
    | zero => omega
    | succ g =>
      simp only [findLongestPath] at h ⊢
      cases ho : n.2.outgoing with
      | none => rw [ho] at h; simp at h
      | some out =>
        simp only [ho, need_some, except_bind_ok] at h ⊢
        by_cases hl : out.length = 0
        · simp only [hl, if_true] at h ⊢; exact h
        · simp only [hl, if_false] at h ⊢
          cases hb : longestLoop d prev (findLongestPath d f (prev ++ [n])) out [] with
          | error e => rw [hb] at h; simp at h
          | ok b =>
            rw [hb] at h
            rw [longestLoop_mono prev (fun m r hm => ih (by omega) _ m r hm) out [] b hb]
            exact h

theorem bestOf_mono {rec rec' : Node → Py (List Node × Nat)} (hr : ∀ m r, rec m = .ok r → rec' m = .ok r)
    (ns best b : List Node) (h : bestOf rec ns best = .ok b) : bestOf rec' ns best = .ok b := by
  induction ns generalizing best with
  | nil => exact h
  | cons n ns ih =>
    simp only [bestOf] at h ⊢
    cases hm : rec n with
    | error e => rw [hm] at h; simp at h
    | ok r =>
      rw [hm] at h
      rw [hr n r hm]
      simp only [except_bind_ok] at h ⊢
      exact ih _ h

theorem computeLongestPath_mono {f g : Nat} (hfg : f ≤ g) {r} (h : computeLongestPath f d = .ok r) :
    computeLongestPath g d = .ok r := by
  unfold computeLongestPath at h ⊢
  cases hn : noIncoming d.getNodes with
  | error e => rw [hn] at h; simp at h
  | ok ns =>
    rw [hn] at h
    simp only [except_bind_ok] at h ⊢
    cases hb : bestOf (findLongestPath d f []) ns [] with
    | error e => rw [hb] at h; simp at h
    | ok b =>
      rw [hb] at h
      rw [bestOf_mono (fun m r hm => findLongestPath_mono hfg [] m r hm) ns [] b hb]
      exact h

theorem longestTasksLoop_mono (path qual : List Node) (n : Node) {rec rec' : List Node → Node → Py (List Node × List Node)}
    (hr : ∀ q m r, rec q m = .ok r → rec' q m = .ok r) (is : List String) (best b : List Node × List Node)
    (h : longestTasksLoop d path qual n rec is best = .ok b) : longestTasksLoop d path qual n rec' is best = .ok b := by
  induction is generalizing best with
  | nil => exact h
  | cons i is ih =>
    simp only [longestTasksLoop] at h ⊢
    cases ht : targetNode d i with
    | error e => rw [ht] at h; simp at h
    | ok o =>
      rw [ht] at h
      simp only [except_bind_ok] at h ⊢
      cases hq : qualify qual n with
      | error e => rw [hq] at h; simp at h
      | ok q =>
        rw [hq] at h
        simp only [except_bind_ok] at h ⊢
        cases o with
        | none => simp at h
        | some m =>
          simp only at h ⊢
          by_cases hp : m ∈ path
          · simp only [hp, if_true] at h ⊢; exact ih _ h
          · simp only [hp, if_false] at h ⊢
            cases hm : rec q m with
            | error e => rw [hm] at h; simp at h
            | ok r =>
              rw [hm] at h
              rw [hr q m r hm]
              simp only [except_bind_ok] at h ⊢
              exact ih _ h

theorem findLongestPathTasks_mono {f g : Nat} (hfg : f ≤ g) (path qual : List Node) (n : Node) (r)
    (h : findLongestPathTasks d f path qual n = .ok r) : findLongestPathTasks d g path qual n = .ok r := by
  induction f generalizing g path qual n r with
  | zero => simp [findLongestPathTasks] at h
  | succ f ih =>
    cases g with
    | zero => omega
    | succ g =>
      simp only [findLongestPathTasks] at h ⊢
      cases ho : n.2.outgoing with
      | none => rw [ho] at h; simp at h
      | some out =>
        simp only [ho, need_some, except_bind_ok] at h ⊢
        by_cases hl : out.length = 0
        · simp only [hl, if_true] at h ⊢; exact h
        · simp only [hl, if_false] at h ⊢
          exact longestTasksLoop_mono path qual n (fun q m r hm => ih (by omega) _ q m r hm) out _ r h

theorem bestTasksOf_mono {rec rec' : Node → Py (List Node × List Node)} (hr : ∀ m r, rec m = .ok r → rec' m = .ok r)
    (ns best b : List Node) (h : bestTasksOf rec ns best = .ok b) : bestTasksOf rec' ns best = .ok b := by
  induction ns generalizing best with
  | nil => exact h
  | cons n ns ih =>
    simp only [bestTasksOf] at h ⊢
    cases hm : rec n with
    | error e => rw [hm] at h; simp at h
    | ok r =>
      rw [hm] at h
      rw [hr n r hm]
      simp only [except_bind_ok] at h ⊢
      exact ih _ h

theorem computeLongestPathTasks_mono {f g : Nat} (hfg : f ≤ g) {r} (h : computeLongestPathTasks f d = .ok r) :
    computeLongestPathTasks g d = .ok r := by
  unfold computeLongestPathTasks at h ⊢
  cases hn : noIncoming d.getNodes with
  | error e => rw [hn] at h; simp at h
  | ok ns =>
    rw [hn] at h
    simp only [except_bind_ok] at h ⊢
    cases hb : bestTasksOf (findLongestPathTasks d f [] []) ns [] with
    | error e => rw [hb] at h; simp at h
    | ok b =>
      rw [hb] at h
      rw [bestTasksOf_mono (fun m r hm => findLongestPathTasks_mono hfg [] [] m r hm) ns [] b hb]
      exact h

end Bpmn.LayoutMetrics

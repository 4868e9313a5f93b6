import Verif.Model.Metrics
import Verif.Lemmas.Query
import Mathlib.Data.List.Nodup
import Mathlib.Data.List.Perm.Subperm
import Mathlib.Data.List.Sort
import Mathlib.Tactic.Linarith
/-!
Counting lemmas for the metrics.
-/
set_option linter.unusedSimpArgs false
set_option linter.unusedVariables false

namespace Bpmn.Metrics
open Bpmn

/-- Number of nodes with exactly this type. -/
def typeCount (d : Diagram) (t : String) : Nat := (d.getNodes.filter fun n => n.2.type = some t).length

theorem getNodesOfType_typed {d : Diagram} (h : ∀ n ∈ d.getNodes, n.2.type.isSome) (t : String) (ht : t ≠ "") :
    d.getNodesOfType (some t) = .ok (d.getNodes.filter fun n => n.2.type = some t) := by
  unfold Diagram.getNodesOfType
  rw [if_neg (by simpa using ht)]
  apply pyFilter_eq_filter
  intro n hn
  obtain ⟨ty, hty⟩ := Option.isSome_iff_exists.1 (h n hn)
  simp [hty, Bool.beq_eq_decide_eq]

theorem getNodesCount_typed {d : Diagram} (h : ∀ n ∈ d.getNodes, n.2.type.isSome) (t : String) (ht : t ≠ "") :
    getNodesCount d (some t) = .ok (typeCount d t) := by
  simp [getNodesCount, getNodesOfType_typed h t ht, typeCount]

theorem countsOf_typed {d : Diagram} (h : ∀ n ∈ d.getNodes, n.2.type.isSome) (S : List String) (hS : "" ∉ S) :
    countsOf d S = .ok (S.map fun t => (t, typeCount d t)) := by
  induction S with
  | nil => rfl
  | cons t S ih =>
    simp only [List.mem_cons, not_or] at hS
    simp [countsOf, getNodesCount_typed h t (Ne.symm hS.1), ih hS.2]

/-- Nodes whose type is in a list of types. -/
def kindCount (d : Diagram) (S : List String) : Nat := (d.getNodes.filter fun n => ∃ t ∈ S, n.2.type = some t).length

theorem sum_typeCount (d : Diagram) (S : List String) (nd : S.Nodup) :
    (S.map (typeCount d)).sum = kindCount d S := by
  unfold typeCount kindCount
  generalize d.getNodes = l
  induction l with
  | nil => simp
  | cons n l ih =>
    have step : ∀ S : List String, S.Nodup → (S.map fun t => ((n :: l).filter fun n => n.2.type = some t).length).sum =
        (S.map fun t => (l.filter fun n => n.2.type = some t).length).sum + (if ∃ t ∈ S, n.2.type = some t then 1 else 0) := by
      intro S
      induction S with
      | nil => simp
      | cons t S ihS =>
        intro nd
        simp only [List.nodup_cons] at nd
        have := ihS nd.2
        simp only [List.map_cons, List.sum_cons, this]
        by_cases ht : n.2.type = some t
        · have hno : ¬∃ t' ∈ S, n.2.type = some t' := by
            rintro ⟨t', h1, h2⟩
            rw [ht] at h2; simp at h2; subst h2; exact nd.1 h1
          have hyes : ∃ t' ∈ t :: S, n.2.type = some t' := ⟨t, List.mem_cons_self, ht⟩
          simp only [List.filter_cons, ht, decide_true, if_true, List.length_cons]
          rw [if_neg (by rw [← ht]; exact hno), if_pos (by rw [← ht]; exact hyes)]
          omega
        · have e : (∃ t' ∈ t :: S, n.2.type = some t') ↔ ∃ t' ∈ S, n.2.type = some t' := by
            simp [ht]
          simp only [List.filter_cons, ht, decide_false, if_false, Bool.false_eq_true, e]
          omega
    rw [step S nd, ih]
    by_cases hx : ∃ t ∈ S, n.2.type = some t
    · simp [List.filter_cons, hx]
    · simp [List.filter_cons, hx]

theorem sumCounts_map (d : Diagram) (S : List String) :
    sumCounts (S.map fun t => (t, typeCount d t)) = (S.map (typeCount d)).sum := by
  simp [sumCounts, Function.comp_def]

theorem kindCount_append (d : Diagram) (S T : List String) (nd : (S ++ T).Nodup) :
    kindCount d (S ++ T) = kindCount d S + kindCount d T := by
  rw [← sum_typeCount d _ nd, List.map_append, List.sum_append, sum_typeCount d S (List.nodup_append.1 nd).1,
    sum_typeCount d T (List.nodup_append.1 nd).2.1]

theorem kindCount_le (d : Diagram) (S : List String) : kindCount d S ≤ d.getNodes.length := List.length_filter_le _ _

theorem allActivities_typed {d : Diagram} (h : ∀ n ∈ d.getNodes, n.2.type.isSome) :
    allActivitiesCount d = .ok (kindCount d ["task", "subProcess"]) := by
  unfold allActivitiesCount getActivitiesCounts
  rw [countsOf_typed h _ (by decide)]
  simp only [except_bind_ok, except_pure]
  rw [sumCounts_map, sum_typeCount d _ (by decide)]

theorem allGateways_typed {d : Diagram} (h : ∀ n ∈ d.getNodes, n.2.type.isSome) :
    allGatewaysCount d = .ok (kindCount d gatewayTypes) := by
  unfold allGatewaysCount getGatewayCounts
  rw [countsOf_typed h _ (by decide)]
  simp only [except_bind_ok, except_pure]
  rw [sumCounts_map, sum_typeCount d _ (by decide)]

theorem allEvents_typed {d : Diagram} (h : ∀ n ∈ d.getNodes, n.2.type.isSome) :
    allEventsCount d = .ok (kindCount d eventTypes) ∧ tne d = .ok (kindCount d eventTypes) := by
  unfold allEventsCount tne getEventsCounts
  rw [countsOf_typed h _ (by decide)]
  simp only [except_bind_ok, except_pure]
  rw [sumCounts_map, sum_typeCount d _ (by decide)]
  exact ⟨rfl, rfl⟩

theorem controlFlow_typed {d : Diagram} (h : ∀ n ∈ d.getNodes, n.2.type.isSome) :
    allControlFlowElementsCount d = .ok (kindCount d (gatewayTypes ++ eventTypes)) := by
  unfold allControlFlowElementsCount getGatewayCounts getEventsCounts
  rw [countsOf_typed h _ (by decide), countsOf_typed h _ (by decide)]
  simp only [except_bind_ok, except_pure]
  rw [← sum_typeCount d _ (by decide), ← sumCounts_map]
  simp [gatewayTypes, eventTypes, Dict.set]

/-! ### `Counter` -/

/-- The type strings of the nodes, empty ones dropped. -/
def typesOf (l : List Node) : List String := (l.filterMap fun n => n.2.type).filter (· ≠ "")

theorem nodeTypes_typed {l : List Node} (h : ∀ n ∈ l, n.2.type.isSome) : nodeTypes l = .ok (typesOf l) := by
  induction l with
  | nil => rfl
  | cons n l ih =>
    obtain ⟨t, ht⟩ := Option.isSome_iff_exists.1 (h n List.mem_cons_self)
    have ih := ih (fun m hm => h m (List.mem_cons_of_mem _ hm))
    simp only [nodeTypes, ht, need_some, except_bind_ok, ih, except_pure, typesOf, List.filterMap_cons, List.filter_cons]
    by_cases he : t = "" <;> simp [he]

theorem counter_spec (l : List String) :
    (counter l).keys.Nodup ∧ (∀ x, x ∈ (counter l).keys ↔ x ∈ l) ∧ ∀ x c, (x, c) ∈ counter l → c = l.count x := by
  have gen : ∀ (r done : List String) (c : Dict String Nat),
      (c.keys.Nodup ∧ (∀ x, x ∈ c.keys ↔ x ∈ done) ∧ ∀ x k, (x, k) ∈ c → k = done.count x) →
      ((r.foldl (fun c x => c.set x ((c.get? x).getD 0 + 1)) c).keys.Nodup ∧
       (∀ x, x ∈ (r.foldl (fun c x => c.set x ((c.get? x).getD 0 + 1)) c).keys ↔ x ∈ done ++ r) ∧
       ∀ x k, (x, k) ∈ r.foldl (fun c x => c.set x ((c.get? x).getD 0 + 1)) c → k = (done ++ r).count x) := by
    intro r
    induction r with
    | nil => intro done c h; simpa using h
    | cons y r ih =>
      intro done c ⟨h1, h2, h3⟩
      have := ih (done ++ [y]) (c.set y ((c.get? y).getD 0 + 1)) ⟨Dict.nodup_keys_set h1 _ _, ?_, ?_⟩
      · simpa using this
      · intro x; rw [Dict.mem_keys_set, h2]; simp [or_comm]
      · intro x k hk
        have hg := Dict.get?_of_mem (Dict.nodup_keys_set h1 _ _) hk
        rw [Dict.get?_set] at hg
        split at hg
        · rename_i e
          subst e
          simp at hg
          subst hg
          rw [List.count_append, List.count_singleton_self]
          congr 1
          cases hc : c.get? y with
          | none =>
            have : y ∉ done := by rw [← h2]; exact (Dict.get?_eq_none_iff _ _).1 hc
            simp [List.count_eq_zero_of_not_mem this]
          | some v => simpa using h3 y v (Dict.mem_of_get? hc)
        · rename_i hne
          rw [List.count_append]
          rw [h3 x k (Dict.mem_of_get? hg)]
          simp [List.count_singleton, hne]
  have := gen l [] [] (by simp)
  simpa [counter] using this

theorem count_typesOf (d : Diagram) (t : String) (ht : t ≠ "") : (typesOf d.getNodes).count t = typeCount d t := by
  unfold typesOf typeCount
  generalize d.getNodes = l
  rw [List.count_filter (by simpa using ht)]
  induction l with
  | nil => rfl
  | cons n l ih =>
    cases hty : n.2.type with
    | none => simp [List.filterMap_cons, hty, List.filter_cons, ih]
    | some u =>
      by_cases e : u = t
      · subst e; simp [List.filterMap_cons, hty, List.filter_cons, ih]
      · simp [List.filterMap_cons, hty, List.filter_cons, ih, List.count_cons, e]

/-- The counter of the types of a diagram as a list of (type, number of nodes). -/
theorem counter_typesOf (d : Diagram) :
    counter (typesOf d.getNodes) = (counter (typesOf d.getNodes)).keys.map fun t => (t, typeCount d t) := by
  obtain ⟨h1, h2, h3⟩ := counter_spec (typesOf d.getNodes)
  conv => lhs; rw [← List.map_id (counter (typesOf d.getNodes))]
  unfold Dict.keys
  rw [List.map_map]
  apply List.map_congr_left
  rintro ⟨x, c⟩ hx
  have hmem : x ∈ typesOf d.getNodes := (h2 x).1 (Dict.mem_keys_of_mem hx)
  have hne : x ≠ "" := by
    have := (List.mem_filter.1 hmem).2
    simpa using this
  simp [h3 x c hx, count_typesOf d x hne]

/-- The distinct non-empty types in use. -/
def usedTypes (d : Diagram) : List String := (counter (typesOf d.getNodes)).keys

theorem usedTypes_nodup (d : Diagram) : (usedTypes d).Nodup := (counter_spec _).1

theorem mem_usedTypes (d : Diagram) (t : String) : t ∈ usedTypes d ↔ t ≠ "" ∧ 0 < typeCount d t := by
  unfold usedTypes
  rw [(counter_spec _).2.1]
  by_cases ht : t = ""
  · simp [typesOf, ht]
  · rw [← count_typesOf d t ht, List.count_pos_iff]
    simp [ht]

/-! ### Durfee square -/

/-- Histogram after counting `cs`. -/
theorem histogram_spec (L : Nat) (cs : List Nat) (h0 : List Nat) (hl : h0.length = L + 1) :
    (cs.foldl (fun h c => h.modify (min c L) (· + 1)) h0).length = L + 1 ∧
    ∀ i, i ≤ L → (cs.foldl (fun h c => h.modify (min c L) (· + 1)) h0)[i]? =
      (h0[i]?).map (· + (cs.filter fun c => min c L = i).length) := by
  induction cs generalizing h0 with
  | nil => exact ⟨by simpa using hl, by intro i hi; simp⟩
  | cons c cs ih =>
    have := ih (h0.modify (min c L) (· + 1)) (by simpa using hl)
    refine ⟨this.1, ?_⟩
    intro i hi
    have hlt : i < h0.length := by omega
    rw [List.foldl_cons, this.2 i hi, List.getElem?_modify, List.getElem?_eq_getElem hlt]
    by_cases e : min c L = i
    · simp [e, List.filter_cons]; omega
    · simp [e, List.filter_cons]

/-- Number of counts that are at least `i`. -/
def atLeast (cs : List Nat) (i : Nat) : Nat := (cs.filter fun c => i ≤ c).length

theorem atLeast_succ (cs : List Nat) (L i : Nat) (hi : i ≤ L) :
    atLeast cs i = (cs.filter fun c => min c L = i).length + (if i < L then atLeast cs (i + 1) else 0) := by
  unfold atLeast
  induction cs with
  | nil => simp
  | cons c cs ih =>
    simp only [List.filter_cons]
    by_cases h1 : i ≤ c
    · by_cases h2 : i < L
      · by_cases h3 : i + 1 ≤ c
        · have : ¬min c L = i := by omega
          simp [h1, h2, h3, this] at ih ⊢; omega
        · have : min c L = i := by omega
          simp [h1, h2, h3, this] at ih ⊢; omega
      · have : min c L = i := by omega
        simp [h1, h2, this] at ih ⊢; omega
    · have : ¬min c L = i := by omega
      have h3 : ¬i + 1 ≤ c := by omega
      simp [h1, h3, this] at ih ⊢; exact ih

/-- The loop walking down from index `n`, provided the running sum is the number of counts above. -/
theorem durfeeLoop_spec (cs : List Nat) (L : Nat) (hist : List Nat) (hl : hist.length = L + 1)
    (hh : ∀ i, i ≤ L → hist[i]? = some (cs.filter fun c => min c L = i).length) (n : Nat) (hn : n ≤ L + 1)
    (s : Nat) (hs : s = if n ≤ L then atLeast cs n else 0) (hup : ∀ j, n ≤ j → j ≤ L → atLeast cs j < j) :
    let r := durfeeLoop ((hist.take n).zipIdx.reverse) s
    r ≤ atLeast cs r ∧ r ≤ L ∧ ∀ j, r < j → j ≤ L → atLeast cs j < j := by
  induction n generalizing s with
  | zero =>
    simp [durfeeLoop]
    intro j hj hjl; exact hup j (by omega) hjl
  | succ n ih =>
    have hlt : n < hist.length := by omega
    have hget : hist[n] = (cs.filter fun c => min c L = n).length := by
      have := hh n (by omega)
      rw [List.getElem?_eq_getElem hlt] at this
      simpa using this
    have htake : hist.take (n + 1) = hist.take n ++ [hist[n]] := (List.take_append_getElem hlt).symm
    have hz : (hist.take (n + 1)).zipIdx.reverse = (hist[n], n) :: (hist.take n).zipIdx.reverse := by
      rw [htake, List.zipIdx_append]
      simp [List.length_take, Nat.min_eq_left (Nat.le_of_lt hlt)]
    have hsum : s + hist[n] = atLeast cs n := by
      rw [hget, atLeast_succ cs L n (by omega), hs]
      by_cases h : n + 1 ≤ L
      · simp [h, Nat.lt_of_succ_le h]; omega
      · have : ¬n < L := by omega
        simp [h, this]
    simp only [hz, durfeeLoop, hsum]
    by_cases hc : atLeast cs n ≥ n
    · simp only [hc, if_true]
      refine ⟨trivial, by omega, ?_⟩
      intro j hj hjl; exact hup j (by omega) hjl
    · simp only [hc, if_false]
      apply ih (by omega) (atLeast cs n)
      · simp [show n ≤ L by omega]
      · intro j hj hjl
        by_cases e : j = n
        · subst e; omega
        · exact hup j (by omega) hjl

theorem durfeeSquare_typed {d : Diagram} (h : ∀ n ∈ d.getNodes, n.2.type.isSome) :
    ∃ r, durfeeSquare d = .ok r ∧ r ≤ atLeast ((usedTypes d).map (typeCount d)) r ∧
      ∀ j, r < j → j ≤ (usedTypes d).length → atLeast ((usedTypes d).map (typeCount d)) j < j := by
  unfold durfeeSquare
  rw [nodeTypes_typed h]
  simp only [except_bind_ok, except_pure]
  have hc := counter_typesOf d
  have hvals : (counter (typesOf d.getNodes)).map Prod.snd = (usedTypes d).map (typeCount d) := by
    rw [hc]; simp [usedTypes, Function.comp_def]
  have hlen : (counter (typesOf d.getNodes)).length = (usedTypes d).length := by simp [usedTypes, Dict.keys]
  rw [hvals, hlen]
  generalize hcs : (usedTypes d).map (typeCount d) = cs
  generalize hL : (usedTypes d).length = L
  have hist := histogram_spec L cs (List.replicate (L + 1) 0) (by simp)
  generalize hH : cs.foldl (fun h count => h.modify (min count L) (· + 1)) (List.replicate (L + 1) 0) = H at hist ⊢
  have hlookup : ∀ i, i ≤ L → H[i]? = some (cs.filter fun c => min c L = i).length := by
    intro i hi
    rw [hist.2 i hi, List.getElem?_replicate]
    simp [show i < L + 1 by omega]
  have := durfeeLoop_spec cs L H hist.1 hlookup (L + 1) (le_refl _) 0 (by simp) (by intro j h1 h2; omega)
  simp only at this
  rw [List.take_of_length_le (by omega)] at this
  exact ⟨_, rfl, this.1, this.2.2⟩

/-! ### Perfect square -/

theorem sum_take_le_cons (a : Nat) (l : List Nat) (k : Nat) (h : ∀ x ∈ l, x ≤ a) :
    (l.take k).sum ≤ ((a :: l).take k).sum := by
  cases k with
  | zero => simp
  | succ k =>
    simp only [List.take_succ_cons, List.sum_cons]
    by_cases hk : k < l.length
    · rw [List.take_succ_eq_append_getElem hk, List.sum_append]
      have := h l[k] (List.getElem_mem hk)
      simp; omega
    · rw [List.take_of_length_le (by omega), List.take_of_length_le (by omega)]
      omega

/-- In a descending list the first elements have the largest sum. -/
theorem sublist_sum_le {s l : List Nat} (h : s.Sublist l) (hd : l.Pairwise fun a b => b ≤ a) :
    s.sum ≤ (l.take s.length).sum := by
  induction h with
  | slnil => simp
  | cons a h ih =>
    rename_i s l
    rw [List.pairwise_cons] at hd
    exact le_trans (ih hd.2) (sum_take_le_cons a l _ hd.1)
  | cons_cons a h ih =>
    rename_i s l
    rw [List.pairwise_cons] at hd
    simpa using ih hd.2

theorem squareLoop_spec (cs : List Nat) (n : Nat) :
    let r := squareLoop cs n
    r ≤ n ∧ r * r ≤ (cs.take r).sum ∧ ∀ j, r < j → j ≤ n → (cs.take j).sum < j * j := by
  induction n with
  | zero => simp [squareLoop]; intro j h1 h2; omega
  | succ n ih =>
    simp only [squareLoop]
    split
    · rename_i h
      exact ⟨le_refl _, h, by intro j h1 h2; omega⟩
    · rename_i h
      refine ⟨by have := ih.1; omega, ih.2.1, ?_⟩
      intro j h1 h2
      by_cases e : j = n + 1
      · subst e; omega
      · exact ih.2.2 j h1 (by omega)

/-- The list of type counts in decreasing order. -/
theorem perfectSquare_typed {d : Diagram} (h : ∀ n ∈ d.getNodes, n.2.type.isSome) :
    ∃ (r : Nat) (cs : List Nat), perfectSquare d = .ok r ∧ cs.Perm ((usedTypes d).map (typeCount d)) ∧ (cs.Pairwise fun a b => b ≤ a) ∧
      r ≤ cs.length ∧ r * r ≤ (cs.take r).sum ∧ ∀ j, r < j → j ≤ cs.length → (cs.take j).sum < j * j := by
  unfold perfectSquare
  rw [nodeTypes_typed h]
  simp only [except_bind_ok, except_pure]
  have hc := counter_typesOf d
  have hvals : (counter (typesOf d.getNodes)).map Prod.snd = (usedTypes d).map (typeCount d) := by
    rw [hc]; simp [usedTypes, Function.comp_def]
  rw [hvals]
  have hperm := List.mergeSort_perm ((usedTypes d).map (typeCount d)) (fun a b => decide (b ≤ a))
  have hsort := List.pairwise_mergeSort (le := fun a b : Nat => decide (b ≤ a))
    (by intro a b c; simp; omega) (by intro a b; simp; omega) ((usedTypes d).map (typeCount d))
  generalize (List.mergeSort ((usedTypes d).map (typeCount d)) fun a b => decide (b ≤ a)) = cs at hperm hsort
  have hsort' : cs.Pairwise fun a b => b ≤ a := by simpa using hsort
  obtain ⟨h1, h2, h3⟩ := squareLoop_spec cs (min cs.length cs.sum.sqrt)
  refine ⟨_, cs, rfl, hperm, hsort', by omega, h2, ?_⟩
  intro j hj hjl
  by_cases hle : j ≤ min cs.length cs.sum.sqrt
  · exact h3 j hj hle
  · have hs : cs.sum.sqrt < j := by omega
    have h4 : cs.sum < j * j := Nat.sqrt_lt.1 hs
    have h5 : (cs.take j).sum ≤ cs.sum := by
      conv => rhs; rw [← List.take_append_drop j cs, List.sum_append]
      omega
    omega

/-- Choosing `p` distinct used types: their total is at most the total of the `p` largest counts. -/
theorem chosen_types_sum_le {d : Diagram} {cs : List Nat} (hperm : cs.Perm ((usedTypes d).map (typeCount d)))
    (hsort : cs.Pairwise fun a b => b ≤ a) {L : List String} (nd : L.Nodup) (hL : ∀ t ∈ L, t ∈ usedTypes d) :
    (L.map (typeCount d)).sum ≤ (cs.take L.length).sum := by
  have hsub : L.Subperm (usedTypes d) := List.subperm_of_subset nd hL
  obtain ⟨M, hM1, hM2⟩ := hsub
  have h1 : (L.map (typeCount d)).Subperm cs :=
    List.Subperm.trans ⟨M.map (typeCount d), hM1.map _, hM2.map _⟩ hperm.symm.subperm
  obtain ⟨N, hN1, hN2⟩ := h1
  have h2 := sublist_sum_le hN2 hsort
  rw [hN1.sum_nat, hN1.length_eq, List.length_map] at h2
  exact h2

end Bpmn.Metrics

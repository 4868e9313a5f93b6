import Verif.Model.Classify
import Verif.Spec.Classes
import Verif.Lemmas.Dict
import Verif.Lemmas.Consistent
/-!
Closed forms of the two classification functions.
-/
set_option linter.unusedSimpArgs false
set_option linter.unusedVariables false

namespace Bpmn
open Spec Classify

/-- The record that the layouter should make of a node. -/
def ncOf (n : Node) : NC := ⟨n.1, ins n, outs n, Spec.labels n⟩

theorem getNodesOfType_eq {d : Diagram} (h : ∀ n ∈ d.getNodes, n.2.type.isSome) {ty : String} (hty : ty ≠ "") :
    d.getNodesOfType (some ty) = .ok (d.getNodes.filter fun n => n.2.type == some ty) := by
  unfold Diagram.getNodesOfType
  rw [if_neg (by simpa using hty)]
  apply pyFilter_eq_filter
  intro n hn
  obtain ⟨t, ht⟩ := Option.isSome_iff_exists.1 (h n hn)
  simp [ht, need]

/-- The labels that the loops give to a node, starting from `base`. -/
def withBase (base : List String) (n : Node) : List String :=
  base ++ (if 2 ≤ (ins n).length then ["Join"] else []) ++ (if 2 ≤ (outs n).length then ["Split"] else [])

theorem classifyElement_eq {n : Node} (hi : n.2.incoming.isSome) (ho : n.2.outgoing.isSome) (base : List String) :
    classifyElement base n = .ok ⟨n.1, ins n, outs n, withBase base n⟩ := by
  obtain ⟨i, hi⟩ := Option.isSome_iff_exists.1 hi
  obtain ⟨o, ho⟩ := Option.isSome_iff_exists.1 ho
  simp only [classifyElement, hi, ho, need, withBase, ins, outs, Option.getD_some, ge_iff_le, pure, Except.pure, bind, Except.bind]
  split <;> split <;> simp

theorem splitJoin_eq {n : Node} (hi : n.2.incoming.isSome) (ho : n.2.outgoing.isSome) (base : List String) (t) :
    splitJoin n base t = .ok (t.set n.1 (withBase base n)) := by
  obtain ⟨i, hi⟩ := Option.isSome_iff_exists.1 hi
  obtain ⟨o, ho⟩ := Option.isSome_iff_exists.1 ho
  simp only [splitJoin, hi, ho, need, withBase, ins, outs, Option.getD_some, ge_iff_le, pure, Except.pure, bind, Except.bind]
  split <;> split <;> simp

theorem classifyElements_eq {l : List Node} (h : ∀ n ∈ l, n.2.incoming.isSome ∧ n.2.outgoing.isSome) (base : List String) :
    classifyElements base l = .ok (l.map fun n => ⟨n.1, ins n, outs n, withBase base n⟩) := by
  induction l with
  | nil => rfl
  | cons n r ih =>
    rw [classifyElements, classifyElement_eq (h n (by simp)).1 (h n (by simp)).2, ih (fun m hm => h m (by simp [hm]))]
    rfl

theorem elementsLoop_eq {d : Diagram} (h : Complete d) (ts : List (String × List String)) (hts : ∀ t ∈ ts, t.1 ≠ "") :
    elementsLoop d ts = .ok (ts.flatMap fun t =>
      (d.getNodes.filter fun n => n.2.type == some t.1).map fun n => ⟨n.1, ins n, outs n, withBase t.2 n⟩) := by
  induction ts with
  | nil => rfl
  | cons t r ih =>
    obtain ⟨ty, base⟩ := t
    rw [elementsLoop, getNodesOfType_eq (fun n hn => (h n hn).1) (hts (ty, base) (by simp)), ih (fun t ht => hts t (by simp [ht]))]
    simp only [bind, Except.bind]
    rw [classifyElements_eq (fun n hn => (h n (List.mem_of_mem_filter hn)).2)]
    simp [pure, Except.pure]

/-- Splitting a list by a key and putting the parts together gives a permutation. -/
theorem flatMap_filter_perm {α β : Type} [BEq β] [LawfulBEq β] [DecidableEq β] (f : α → β) (ts : List β) (hn : ts.Nodup) (l : List α) :
    (ts.flatMap fun t => l.filter fun a => f a == t).Perm (l.filter fun a => decide (f a ∈ ts)) := by
  induction ts with
  | nil => simp
  | cons t r ih =>
    rw [List.flatMap_cons]
    refine ((ih (List.nodup_cons.1 hn).2).append_left _).trans ?_
    have hnt := (List.nodup_cons.1 hn).1
    clear ih
    induction l with
    | nil => simp
    | cons a l ihl =>
      by_cases h1 : f a = t
      · have : f a ∉ r := h1 ▸ hnt
        subst h1
        simpa [List.filter_cons, this] using ihl
      · by_cases h2 : f a ∈ r
        · have hb : (f a == t) = false := by simpa using h1
          simp only [List.filter_cons, hb, List.mem_cons, h1, h2, or_true, decide_true, if_true, Bool.false_eq_true, if_false]
          exact (List.perm_middle).trans (by simpa [h1] using ihl)
        · simpa [List.filter_cons, h1, h2] using ihl

theorem withBase_labels {n : Node} {t : String × List String} (ht : t ∈ elementTypes) (hn : n.2.type = some t.1) :
    withBase t.2 n = Spec.labels n := by
  simp only [elementTypes, List.mem_cons, List.not_mem_nil, or_false] at ht
  rcases ht with rfl | rfl | rfl | rfl | rfl | rfl | rfl | rfl | rfl | rfl | rfl <;>
    simp only at hn <;> simp [withBase, Spec.labels, hn]

/-- The nodes of the diagram in the order of the classification. -/
def byType (d : Diagram) : List Node := supportedTypes.flatMap fun t => d.getNodes.filter fun n => n.2.type == some t

theorem byType_perm (d : Diagram) : (byType d).Perm (d.getNodes.filter fun n => decide (Supported n)) := by
  have h := flatMap_filter_perm (fun n : Node => n.2.type) (supportedTypes.map some)
    (by decide) d.getNodes
  simp only [List.flatMap_map] at h
  refine h.trans (List.Perm.of_eq ?_)
  apply List.filter_congr
  intro n hn
  apply decide_eq_decide.2
  simp only [List.mem_map, Supported]
  constructor
  · rintro ⟨t, h1, h2⟩; exact ⟨t, h1, h2.symm⟩
  · rintro ⟨t, h1, h2⟩; exact ⟨t, h1, h2.symm⟩

theorem mem_byType {d : Diagram} {n : Node} : n ∈ byType d ↔ n ∈ d.getNodes ∧ Supported n := by
  rw [(byType_perm d).mem_iff]; simp

theorem elements_eq {d : Diagram} (h : Complete d) : elementsLoop d elementTypes = .ok ((byType d).map ncOf) := by
  rw [elementsLoop_eq h elementTypes (by decide)]
  congr 1
  have e1 : supportedTypes = elementTypes.map (·.1) := by decide
  rw [byType, e1, List.flatMap_map, List.map_flatMap, List.flatMap_def, List.flatMap_def]
  congr 1
  apply List.map_congr_left
  intro t ht
  apply List.map_congr_left
  intro n hn
  rw [withBase_labels ht (by simpa using (List.mem_filter.1 hn).2)]
  rfl

theorem classifyAll_eq {l : List Node} (h : ∀ n ∈ l, n.2.incoming.isSome ∧ n.2.outgoing.isSome) (base : List String)
    (t : Dict String (List String)) :
    classifyAll base l t = .ok (l.foldl (fun t n => t.set n.1 (withBase base n)) t) := by
  induction l generalizing t with
  | nil => rfl
  | cons n r ih =>
    rw [classifyAll, splitJoin_eq (h n (by simp)).1 (h n (by simp)).2]
    exact ih (fun m hm => h m (by simp [hm])) _

theorem nodesLoop_eq {d : Diagram} (h : Complete d) (ts : List (String × List String)) (hts : ∀ t ∈ ts, t.1 ≠ "") (t) :
    nodesLoop d ts t = .ok ((ts.flatMap fun t =>
      (d.getNodes.filter fun n => n.2.type == some t.1).map fun n => (n.1, withBase t.2 n)).foldl (fun t p => t.set p.1 p.2) t) := by
  induction ts generalizing t with
  | nil => rfl
  | cons t' r ih =>
    obtain ⟨ty, base⟩ := t'
    rw [nodesLoop, getNodesOfType_eq (fun n hn => (h n hn).1) (hts (ty, base) (by simp))]
    simp only [bind, Except.bind]
    rw [classifyAll_eq (fun n hn => (h n (List.mem_of_mem_filter hn)).2)]
    simp only [List.flatMap_cons, List.foldl_append, List.foldl_map]
    exact ih (fun t ht => hts t (by simp [ht])) _

theorem foldl_set_eq {κ α : Type} [DecidableEq κ] (l : Dict κ α) (t : Dict κ α) (hn : ((t ++ l).map (·.1)).Nodup) :
    l.foldl (fun t p => t.set p.1 p.2) t = t ++ l := by
  induction l generalizing t with
  | nil => simp
  | cons p r ih =>
    simp only [List.foldl_cons]
    have : p.1 ∉ t.keys := by
      intro hm
      simp only [List.map_append, List.map_cons] at hn
      exact (List.nodup_append.1 hn).2.2 _ hm p.1 (by simp) rfl
    rw [Dict.set_of_not_mem _ _ this, ih _ (by simpa using hn)]
    simp

theorem nodes_eq {d : Diagram} (h : Complete d) (hid : (d.getNodes.map (·.1)).Nodup) :
    generateNodesClassification d = .ok ((byType d).map fun n => (n.1, Spec.labels n)) := by
  unfold generateNodesClassification
  rw [nodesLoop_eq h nodeTypes (by decide)]
  have e : (nodeTypes.flatMap fun t =>
      (d.getNodes.filter fun n => n.2.type == some t.1).map fun n => (n.1, withBase t.2 n)) =
      (byType d).map fun n => (n.1, Spec.labels n) := by
    have e1 : supportedTypes = nodeTypes.map (·.1) := by decide
    rw [byType, e1, List.flatMap_map, List.map_flatMap, List.flatMap_def, List.flatMap_def]
    congr 1
    apply List.map_congr_left
    intro t ht
    apply List.map_congr_left
    intro n hn
    have : nodeTypes = elementTypes := by decide
    rw [withBase_labels (this ▸ ht) (by simpa using (List.mem_filter.1 hn).2)]
  rw [e, foldl_set_eq _ []]
  · rfl
  · simp only [List.nil_append, List.map_map]
    have := ((byType_perm d).map (·.1)).nodup_iff.2 (hid.sublist (List.filter_sublist.map _))
    exact this

theorem Spec.Consistent.complete {d : Diagram} (h : Consistent d) : Complete d := fun n hn =>
  ⟨h.typed n hn, (h.lists n hn).1, (h.lists n hn).2.1⟩

theorem byType_ids {d : Diagram} (hid : (d.getNodes.map (·.1)).Nodup) : ((byType d).map (·.1)).Nodup :=
  ((byType_perm d).map (·.1)).nodup_iff.2 (hid.sublist (List.filter_sublist.map _))

theorem join_mem_labels (n : Node) : "Join" ∈ Spec.labels n ↔ 2 ≤ (ins n).length := by
  unfold Spec.labels
  by_cases h1 : n.2.type = some "startEvent" <;> by_cases h2 : n.2.type = some "endEvent" <;>
    by_cases h3 : 2 ≤ (ins n).length <;> by_cases h4 : 2 ≤ (outs n).length <;> simp [h1, h2, h3, h4]

theorem split_mem_labels (n : Node) : "Split" ∈ Spec.labels n ↔ 2 ≤ (outs n).length := by
  unfold Spec.labels
  by_cases h1 : n.2.type = some "startEvent" <;> by_cases h2 : n.2.type = some "endEvent" <;>
    by_cases h3 : 2 ≤ (ins n).length <;> by_cases h4 : 2 ≤ (outs n).length <;> simp [h1, h2, h3, h4]

end Bpmn

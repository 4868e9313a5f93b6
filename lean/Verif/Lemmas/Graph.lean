import Verif.Model.Graph
import Verif.Lemmas.Dict
/-! Lemmas about the graph: iteration over edges reports every edge exactly once. -/
set_option linter.unusedSimpArgs false

namespace Bpmn

namespace Edge
theorem joins_iff (e : Edge) (a b : String) :
    e.joins a b = true ↔ (e.u = a ∧ e.v = b) ∨ (e.u = b ∧ e.v = a) := by
  simp [joins]

theorem joins_comm (e : Edge) (a b : String) : e.joins a b = e.joins b a := by
  rw [Bool.eq_iff_iff, joins_iff, joins_iff]
  constructor <;> rintro (⟨h, k⟩ | ⟨h, k⟩) <;> simp [h, k]

@[simp] theorem joins_self (e : Edge) : e.joins e.u e.v = true := by simp [joins]
end Edge

namespace Graph

/-- The edge has an end among `seen`. -/
def touches (seen : List String) (e : Edge) : Bool := decide (e.u ∈ seen) || decide (e.v ∈ seen)

theorem filter_partition_perm {α : Type} (p q : α → Bool) (l : List α) :
    ((l.filter fun x => p x && q x) ++ (l.filter fun x => p x && !q x)).Perm (l.filter p) := by
  induction l with
  | nil => simp
  | cons x l ih =>
    by_cases hp : p x <;> by_cases hq : q x
    · simpa [hp, hq] using ih
    · simp only [List.filter_cons, hp, hq, Bool.true_and]
      refine List.Perm.trans ?_ (List.Perm.cons x ih)
      simp only [Bool.not_false, Bool.false_eq_true, if_false, if_true, Bool.not_eq_true] at *
      simp [hq]
    · simpa [hp, hq] using ih
    · simpa [hp, hq] using ih

theorem incident_attrs (es : List Edge) (seen : List String) (n : String) (hn : n ∉ seen) :
    (incident es seen n).map (·.2.2) =
      (es.filter fun e => (!touches seen e) && (decide (e.u = n) || decide (e.v = n))).map (·.attrs) := by
  induction es with
  | nil => rfl
  | cons e es ih =>
    simp only [incident, List.filterMap_cons, List.filter_cons, touches] at ih ⊢
    by_cases hu : e.u = n
    · by_cases hv : e.v ∈ seen
      · simpa [hu, hv] using ih
      · simpa [hu, hv, hn] using ih
    · by_cases hv : e.v = n
      · by_cases hs : e.u ∈ seen
        · simpa [hu, hv, hs] using ih
        · simpa [hu, hv, hs, hn] using ih
      · simpa [hu, hv] using ih

theorem iterFrom_attrs_perm (es : List Edge) (ns seen : List String) (nd : ns.Nodup) (dj : ∀ n ∈ ns, n ∉ seen)
    (ends : ∀ e ∈ es, (e.u ∈ seen ∨ e.u ∈ ns) ∧ (e.v ∈ seen ∨ e.v ∈ ns)) :
    ((iterFrom es seen ns).map (·.2.2)).Perm ((es.filter fun e => !touches seen e).map (·.attrs)) := by
  induction ns generalizing seen with
  | nil =>
    have : es.filter (fun e => !touches seen e) = [] := by
      rw [List.filter_eq_nil_iff]
      intro e he
      have := ends e he
      simp at this
      simp [touches, this.1]
    simp [iterFrom, this]
  | cons n ns ih =>
    rw [List.nodup_cons] at nd
    have hn := dj n (by simp)
    have h1 := ih (n :: seen) nd.2
      (fun m hm => by
        simp only [List.mem_cons, not_or]
        exact ⟨fun e => nd.1 (e ▸ hm), dj m (by simp [hm])⟩)
      (fun e he => by
        have := ends e he
        simp only [List.mem_cons] at this ⊢
        constructor
        · rcases this.1 with h | h | h <;> simp [h]
        · rcases this.2 with h | h | h <;> simp [h])
    simp only [iterFrom, List.map_append]
    rw [incident_attrs es seen n hn]
    have h2 : (es.filter fun e => !touches (n :: seen) e) =
        es.filter fun e => (!touches seen e) && !(decide (e.u = n) || decide (e.v = n)) := by
      apply List.filter_congr
      intro e _
      by_cases a : e.u = n <;> by_cases b : e.v = n <;> by_cases c : e.u ∈ seen <;> by_cases d : e.v ∈ seen <;>
        simp_all [touches]
    rw [h2] at h1
    refine List.Perm.trans (List.Perm.append_left _ h1) ?_
    rw [← List.map_append]
    exact (filter_partition_perm _ _ es).map _

theorem mem_incident {es : List Edge} {seen : List String} {n a b : String} {at' : EdgeAttrs}
    (h : (a, b, at') ∈ incident es seen n) :
    ∃ e ∈ es, e.attrs = at' ∧ ((e.u = a ∧ e.v = b) ∨ (e.u = b ∧ e.v = a)) := by
  simp only [incident, List.mem_filterMap] at h
  obtain ⟨e, he, h⟩ := h
  refine ⟨e, he, ?_⟩
  split at h
  · split at h
    · simp at h
    · rename_i hu _
      simp at h
      obtain ⟨rfl, rfl, rfl⟩ := h
      simp [hu]
  · split at h
    · split at h
      · simp at h
      · rename_i _ hv _
        simp at h
        obtain ⟨rfl, rfl, rfl⟩ := h
        simp [hv]
    · simp at h

theorem mem_iterFrom {es : List Edge} {ns seen : List String} {a b : String} {at' : EdgeAttrs}
    (h : (a, b, at') ∈ iterFrom es seen ns) :
    ∃ e ∈ es, e.attrs = at' ∧ ((e.u = a ∧ e.v = b) ∨ (e.u = b ∧ e.v = a)) := by
  induction ns generalizing seen with
  | nil => simp [iterFrom] at h
  | cons n ns ih =>
    simp only [iterFrom, List.mem_append] at h
    rcases h with h | h
    · exact mem_incident h
    · exact ih h

/-- Structural well-formedness of the graph itself: the node dictionary has unique keys and edges join existing nodes. -/
structure WF (g : Graph) : Prop where
  nodup : g.nodes.keys.Nodup
  ends : ∀ e ∈ g.edges, e.u ∈ g.nodes.keys ∧ e.v ∈ g.nodes.keys

theorem flows_attrs_perm {g : Graph} (h : g.WF) : (g.flows.map (·.2.2)).Perm (g.edges.map (·.attrs)) := by
  have := iterFrom_attrs_perm g.edges g.nodes.keys [] h.nodup (by simp)
    (fun e he => by simp [h.ends e he])
  rwa [List.filter_eq_self.2 (by simp [touches])] at this

theorem length_flows {g : Graph} (h : g.WF) : g.flows.length = g.edges.length := by
  simpa using (flows_attrs_perm h).length_eq

theorem mem_flows {g : Graph} {a b : String} {at' : EdgeAttrs} (h : (a, b, at') ∈ g.flows) :
    ∃ e ∈ g.edges, e.attrs = at' ∧ ((e.u = a ∧ e.v = b) ∨ (e.u = b ∧ e.v = a)) := mem_iterFrom h

theorem exists_flow_of_attrs {g : Graph} (h : g.WF) {e : Edge} (he : e ∈ g.edges) :
    ∃ a b, (a, b, e.attrs) ∈ g.flows := by
  have : e.attrs ∈ g.flows.map (·.2.2) := (flows_attrs_perm h).mem_iff.2 (List.mem_map_of_mem he)
  obtain ⟨⟨a, b, c⟩, hf, hc⟩ := List.mem_map.1 this
  simp at hc; subst hc
  exact ⟨a, b, hf⟩

/-! ### Effect of the elementary operations -/

theorem addNode_of_mem {g : Graph} {n : String} (h : n ∈ g.nodes.keys) : g.addNode n = g := by
  simp [addNode, (Dict.has_iff _ _).2 h]

theorem addNode_of_not_mem {g : Graph} {n : String} (h : n ∉ g.nodes.keys) :
    g.addNode n = { g with nodes := g.nodes ++ [(n, {})] } := by
  simp [addNode, (Dict.has_false_iff _ _).2 h]

@[simp] theorem addNode_edges (g : Graph) (n : String) : (g.addNode n).edges = g.edges := by
  unfold addNode; split <;> rfl

theorem mem_keys_addNode (g : Graph) (n x : String) : x ∈ (g.addNode n).nodes.keys ↔ x = n ∨ x ∈ g.nodes.keys := by
  by_cases h : n ∈ g.nodes.keys
  · rw [addNode_of_mem h]
    constructor
    · exact Or.inr
    · rintro (rfl | h') <;> assumption
  · rw [addNode_of_not_mem h]; simp [or_comm]

theorem get?_addNode (g : Graph) (n x : String) :
    (g.addNode n).nodes.get? x = if x ∈ g.nodes.keys then g.nodes.get? x else if x = n then some {} else none := by
  by_cases h : n ∈ g.nodes.keys
  · rw [addNode_of_mem h]
    by_cases hx : x ∈ g.nodes.keys
    · simp [hx]
    · have : x ≠ n := fun e => hx (e ▸ h)
      simp [hx, this, (Dict.get?_eq_none_iff _ _).2 hx]
  · rw [addNode_of_not_mem h]
    simp only [Dict.get?_append]
    by_cases hx : x ∈ g.nodes.keys
    · have := (Dict.get?_isSome_iff g.nodes x).2 hx
      obtain ⟨v, hv⟩ := Option.isSome_iff_exists.1 this
      simp [hx, hv]
    · have h0 := (Dict.get?_eq_none_iff g.nodes x).2 hx
      by_cases e : x = n
      · subst e; simp [hx, h0, Dict.get?_cons]
      · simp [hx, h0, e, Dict.get?_cons, Ne.symm e]

theorem WF.addNode {g : Graph} (h : g.WF) (n : String) : (g.addNode n).WF := by
  by_cases hn : n ∈ g.nodes.keys
  · rw [addNode_of_mem hn]; exact h
  · constructor
    · rw [addNode_of_not_mem hn]
      simp only [Dict.keys_append, Dict.keys_cons, Dict.keys_nil]
      rw [List.nodup_append]
      refine ⟨h.nodup, by simp, ?_⟩
      intro a ha b hb e
      simp at hb; subst hb; subst e; exact hn ha
    · intro e he
      simp only [addNode_edges] at he
      simp [mem_keys_addNode, h.ends e he]

@[simp] theorem modifyNode_edges (g : Graph) (n : String) (f) : (g.modifyNode n f).edges = g.edges := rfl
@[simp] theorem modifyNode_keys (g : Graph) (n : String) (f) : (g.modifyNode n f).nodes.keys = g.nodes.keys := by
  simp [modifyNode]
@[simp] theorem modifyEdge_nodes (g : Graph) (u v : String) (f) : (g.modifyEdge u v f).nodes = g.nodes := rfl

theorem WF.modifyNode {g : Graph} (h : g.WF) (n : String) (f) : (g.modifyNode n f).WF := by
  constructor
  · simpa using h.nodup
  · simpa using h.ends

theorem WF.modifyEdge {g : Graph} (h : g.WF) (u v : String) (f) : (g.modifyEdge u v f).WF := by
  constructor
  · exact h.nodup
  · intro e he
    simp only [Graph.modifyEdge, List.mem_map] at he
    obtain ⟨e', he', rfl⟩ := he
    have := h.ends e' he'
    split <;> simpa using this

theorem hasEdge_iff (g : Graph) (u v : String) : g.hasEdge u v = true ↔ ∃ e ∈ g.edges, e.joins u v = true := by
  simp [hasEdge]

theorem WF.addEdge {g : Graph} (h : g.WF) (u v : String) : (g.addEdge u v).WF := by
  have h2 := (h.addNode u).addNode v
  unfold Graph.addEdge
  simp only
  split
  · exact h2
  · constructor
    · exact h2.nodup
    · intro e he
      simp only [List.mem_append, List.mem_singleton] at he
      rcases he with he | rfl
      · exact h2.ends e he
      · simp [mem_keys_addNode]

@[simp] theorem addEdge_nodes (g : Graph) (u v : String) :
    (g.addEdge u v).nodes = ((g.addNode u).addNode v).nodes := by
  unfold addEdge; simp only; split <;> rfl

theorem addEdge_edges (g : Graph) (u v : String) :
    (g.addEdge u v).edges = if g.hasEdge u v then g.edges else g.edges ++ [⟨u, v, {}⟩] := by
  have : ((g.addNode u).addNode v).hasEdge u v = g.hasEdge u v := by simp [hasEdge]
  unfold addEdge; simp only [this]
  split <;> simp

end Graph
end Bpmn

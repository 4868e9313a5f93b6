import Verif.Lemmas.MergeFrame
import Verif.Lemmas.ImportEvents
import Verif.Spec.Again
set_option linter.unusedSimpArgs false
set_option linter.unusedVariables false
/-!
# Loading the same document once more
-/
namespace Bpmn.Import
open Bpmn Bpmn.Spec

/-! ## Lists of keys -/

/-- The second list is the final one with keys of the first list added. -/
structure KeysToward {κ : Type} (e D E : List κ) : Prop where
  grow : ∃ new, E = e ++ new ∧ ∀ k ∈ new, k ∈ D
  once : E.Nodup

theorem KeysToward.done {κ : Type} {e D E : List κ} (h : KeysToward e D E) (hD : ∀ k ∈ D, k ∈ e) : E = e := by
  obtain ⟨new, h1, h2⟩ := h.grow
  cases new with
  | nil => simpa using h1
  | cons k r =>
    have := h.once
    rw [h1, List.nodup_append] at this
    exact absurd rfl (this.2.2 k (hD k (h2 k (by simp))) k (by simp))

theorem KeysToward.refl {κ : Type} {e : List κ} (D : List κ) (h : e.Nodup) : KeysToward e D e := ⟨⟨[], by simp, by simp⟩, h⟩

theorem KeysToward.more {κ : Type} {e D E D' : List κ} (h : KeysToward e D E) (i : ∀ k ∈ D, k ∈ D') : KeysToward e D' E := by
  obtain ⟨new, h1, h2⟩ := h.grow
  exact ⟨⟨new, h1, fun k hk => i k (h2 k hk)⟩, h.once⟩

theorem KeysToward.add {κ : Type} {e D E D' : List κ} (h : KeysToward e D E) (i : ∀ k ∈ D, k ∈ D') {k : κ} (hk : k ∈ D') (hE : k ∉ E) :
    KeysToward e D' (E ++ [k]) := by
  obtain ⟨new, h1, h2⟩ := h.grow
  refine ⟨⟨new ++ [k], by simp [h1], ?_⟩, ?_⟩
  · intro x hx
    rcases List.mem_append.1 hx with hx | hx
    · exact i x (h2 x hx)
    · rw [List.mem_singleton] at hx
      rw [hx]
      exact hk
  · rw [List.nodup_append]
    refine ⟨h.once, by simp, fun a ha b hb => ?_⟩
    rw [List.mem_singleton] at hb
    rw [hb]
    exact fun e => hE (e ▸ ha)

theorem KeysToward.set {κ α β : Type} [DecidableEq κ] {e : List κ} {D : Dict κ α} {E : Dict κ β} (h : KeysToward e D.keys E.keys) (k : κ) (a : α) (b : β) :
    KeysToward e (D.set k a).keys (E.set k b).keys := by
  have i : ∀ x ∈ D.keys, x ∈ (D.set k a).keys := fun x hx => (Dict.mem_keys_set _ _ _ _).2 (.inr hx)
  by_cases c : k ∈ E.keys
  · rw [Dict.keys_set_of_mem _ _ c]
    exact h.more i
  · rw [Dict.keys_set E, if_neg c]
    exact h.add i ((Dict.mem_keys_set _ _ _ _).2 (.inl rfl)) c

theorem keys_addNode_eq (g : Graph) (n : String) : (g.addNode n).nodes.keys = if n ∈ g.nodes.keys then g.nodes.keys else g.nodes.keys ++ [n] := by
  by_cases c : n ∈ g.nodes.keys
  · rw [Graph.addNode_of_mem c, if_pos c]
  · rw [Graph.addNode_of_not_mem c, if_neg c]
    simp

theorem KeysToward.addNode {e : List String} {g g' : Graph} (h : KeysToward e g.nodes.keys g'.nodes.keys) (k : String) :
    KeysToward e (g.addNode k).nodes.keys (g'.addNode k).nodes.keys := by
  have i : ∀ x ∈ g.nodes.keys, x ∈ (g.addNode k).nodes.keys := fun x hx => (Graph.mem_keys_addNode _ _ _).2 (.inr hx)
  rw [keys_addNode_eq g']
  by_cases c : k ∈ g'.nodes.keys
  · rw [if_pos c]
    exact h.more i
  · rw [if_neg c]
    exact h.add i ((Graph.mem_keys_addNode _ _ _).2 (.inl rfl)) c

theorem Dict.ext_get? {κ α : Type} [DecidableEq κ] : ∀ {d e : Dict κ α}, d.keys = e.keys → d.keys.Nodup → (∀ k, d.get? k = e.get? k) → d = e
  | [], [], _, _, _ => rfl
  | [], _ :: _, h, _, _ => by simp at h
  | _ :: _, [], h, _, _ => by simp at h
  | (k, v) :: d, (k', v') :: e, h, nd, g => by
    simp only [Dict.keys_cons, List.cons.injEq] at h
    obtain ⟨rfl, h⟩ := h
    have h0 := g k
    simp only [Dict.get?, if_pos, Option.some.injEq] at h0
    simp only [Dict.keys_cons, List.nodup_cons] at nd
    rw [h0, Dict.ext_get? h nd.2 fun x => ?_]
    by_cases c : k = x
    · subst c
      rw [(Dict.get?_eq_none_iff d k).2 nd.1, (Dict.get?_eq_none_iff e k).2 (h ▸ nd.1)]
    · have := g x
      simpa only [Dict.get?, if_neg c] using this

/-! ## Edges -/

/-- The attributes of the edge between two nodes. -/
def eview (es : List Edge) (u v : String) : EdgeAttrs := ((es.find? (·.joins u v)).map (·.attrs)).getD {}

/-- The ends of an edge. -/
def ends (e : Edge) : String × String := (e.u, e.v)

/-- The edges after an edge was written. -/
def written (es : List Edge) (s t : String) (f : EdgeAttrs → EdgeAttrs) : List Edge :=
  (if es.any (·.joins s t) then es else es ++ [⟨s, t, {}⟩]).map fun e => if e.joins s t then { e with attrs := f e.attrs } else e

theorem edges_written (g : Graph) (s t : String) (f : EdgeAttrs → EdgeAttrs) : ((g.addEdge s t).modifyEdge s t f).edges = written g.edges s t f := by
  unfold written Graph.modifyEdge Graph.addEdge
  simp only [Graph.hasEdge, Graph.addNode_edges]
  split <;> simp

theorem eview_add (es : List Edge) (s t u v : String) : eview (es ++ [⟨s, t, {}⟩]) u v = eview es u v := by
  unfold eview
  rw [List.find?_append]
  cases es.find? (·.joins u v) with
  | some e => simp
  | none =>
    simp only [Option.none_or, List.find?_cons, List.find?_nil]
    split <;> simp

theorem joins_pair {e : Edge} {a b c d : String} (h : e.joins a b = true) (h' : e.joins c d = true) : SamePair a b c d := by
  rw [joins_samePair] at h h'
  simp only [SamePair] at h h' ⊢
  grind

theorem joins_of_pair {e : Edge} {a b c d : String} (h : e.joins a b = true) (h' : SamePair a b c d) : e.joins c d = true := by
  rw [joins_samePair] at h ⊢
  simp only [SamePair] at h h' ⊢
  grind

theorem joins_congr {a b c d : String} (h : SamePair a b c d) (e : Edge) : e.joins a b = e.joins c d := by
  rw [Bool.eq_iff_iff]
  exact ⟨fun g => joins_of_pair g h, fun g => joins_of_pair g (by simp only [SamePair] at h ⊢; grind)⟩

/-- Changes of the edge between `s` and `t`. -/
def touched (es : List Edge) (s t : String) (f : EdgeAttrs → EdgeAttrs) : List Edge :=
  es.map fun e => if e.joins s t then { e with attrs := f e.attrs } else e

theorem ends_touched (es : List Edge) (s t : String) (f : EdgeAttrs → EdgeAttrs) : (touched es s t f).map ends = es.map ends := by
  unfold touched
  rw [List.map_map]
  refine List.map_congr_left fun e _ => ?_
  simp only [Function.comp]
  split <;> rfl

theorem find?_touched (es : List Edge) (s t u v : String) (f : EdgeAttrs → EdgeAttrs) :
    (touched es s t f).find? (·.joins u v) = (es.find? (·.joins u v)).map fun e => if e.joins s t then { e with attrs := f e.attrs } else e := by
  unfold touched
  rw [List.find?_map]
  congr 1
  have : ((fun x : Edge => x.joins u v) ∘ fun e => if e.joins s t = true then { e with attrs := f e.attrs } else e) = fun x => x.joins u v := by
    funext e
    simp only [Function.comp]
    split <;> rfl
  rw [this]

theorem eview_touched {es : List Edge} {s t : String} (u v : String) (f : EdgeAttrs → EdgeAttrs) (h : es.any (·.joins s t) = true) :
    eview (touched es s t f) u v = if SamePair s t u v then f (eview es u v) else eview es u v := by
  unfold eview
  rw [find?_touched]
  by_cases c : SamePair s t u v
  · rw [if_pos c]
    have h' : es.any (·.joins u v) = true := by
      have : (fun e : Edge => e.joins s t) = fun e => e.joins u v := funext fun e => joins_congr c e
      rw [← this]
      exact h
    cases e : es.find? (·.joins u v) with
    | none =>
      rw [List.find?_eq_none] at e
      simp only [List.any_eq_true] at h'
      obtain ⟨x, hx, hj⟩ := h'
      exact absurd hj (e x hx)
    | some x =>
      have := List.find?_some e
      rw [← joins_congr c x] at this
      simp [this]
  · rw [if_neg c]
    cases e : es.find? (·.joins u v) with
    | none => rfl
    | some x =>
      have := List.find?_some e
      have hn : x.joins s t ≠ true := fun g => c (joins_pair g this)
      simp [hn]

/-- Two lists of edges on the way to the final one. -/
structure EdgesToward (e D E : List Edge) : Prop where
  grow : ∃ new, E.map ends = e.map ends ++ new ∧ ∀ p ∈ new, D.any (·.joins p.1 p.2) = true
  once : E.Pairwise fun a b => ¬ SamePair a.u a.v b.u b.v
  view : ∀ u v, EToward (eview e u v) (eview D u v) (eview E u v)

theorem once_touched {es : List Edge} (h : es.Pairwise fun a b => ¬ SamePair a.u a.v b.u b.v) (s t : String) (f : EdgeAttrs → EdgeAttrs) :
    (touched es s t f).Pairwise fun a b => ¬ SamePair a.u a.v b.u b.v := by
  unfold touched
  rw [List.pairwise_map]
  refine h.imp fun {a b} g => ?_
  split <;> split <;> exact g

theorem any_touched (es : List Edge) (s t u v : String) (f : EdgeAttrs → EdgeAttrs) :
    (touched es s t f).any (·.joins u v) = es.any (·.joins u v) := by
  unfold touched
  rw [List.any_map]
  congr 1
  funext e
  simp only [Function.comp]
  split <;> rfl

theorem EdgesToward.touch {e D E : List Edge} (h : EdgesToward e D E) {s t : String} (hD : D.any (·.joins s t) = true) (hE : E.any (·.joins s t) = true)
    (f : EdgeAttrs → EdgeAttrs) (hf : ETame f) : EdgesToward e (touched D s t f) (touched E s t f) := by
  obtain ⟨new, h1, h2⟩ := h.grow
  refine ⟨⟨new, by rw [ends_touched, h1], fun p hp => by rw [any_touched]; exact h2 p hp⟩, once_touched h.once s t f, fun u v => ?_⟩
  rw [eview_touched u v f hD, eview_touched u v f hE]
  split
  · exact hf _ _ _ (h.view u v)
  · exact h.view u v

theorem EdgesToward.written {e D E : List Edge} (h : EdgesToward e D E) (s t : String) (f : EdgeAttrs → EdgeAttrs) (hf : ETame f) :
    EdgesToward e (written D s t f) (written E s t f) := by
  have hD : ∀ (es : List Edge), (es ++ [(⟨s, t, {}⟩ : Edge)]).any (·.joins s t) = true := fun es => by simp [Edge.joins]
  have h1 : EdgesToward e (if D.any (·.joins s t) then D else D ++ [⟨s, t, {}⟩]) E := by
    obtain ⟨new, g1, g2⟩ := h.grow
    split
    · exact h
    · refine ⟨⟨new, g1, fun p hp => ?_⟩, h.once, fun u v => by rw [eview_add]; exact h.view u v⟩
      rw [List.any_append, g2 p hp]
      rfl
  have h2 : EdgesToward e (if D.any (·.joins s t) then D else D ++ [⟨s, t, {}⟩]) (if E.any (·.joins s t) then E else E ++ [⟨s, t, {}⟩]) := by
    obtain ⟨new, g1, g2⟩ := h1.grow
    by_cases c : E.any (·.joins s t) = true
    · rw [if_pos c]
      exact h1
    · rw [if_neg c]
      refine ⟨⟨new ++ [(s, t)], by simp [g1, ends], ?_⟩, ?_, fun u v => by rw [eview_add]; exact h1.view u v⟩
      · intro p hp
        rcases List.mem_append.1 hp with hp | hp
        · exact g2 p hp
        · rw [List.mem_singleton] at hp
          rw [hp]
          split
          · assumption
          · exact hD D
      · rw [List.pairwise_append]
        refine ⟨h1.once, by simp, fun a ha b hb => ?_⟩
        rw [List.mem_singleton] at hb
        rw [hb]
        intro g
        refine c (List.any_eq_true.2 ⟨a, ha, ?_⟩)
        rw [joins_samePair]
        exact g
  refine h2.touch ?_ ?_ f hf
  · split
    · assumption
    · exact hD D
  · split
    · assumption
    · exact hD E

theorem eview_cons_self (x : Edge) (r : List Edge) : eview (x :: r) x.u x.v = x.attrs := by
  simp [eview, Edge.joins]

theorem edges_ext : ∀ {l m : List Edge}, l.map ends = m.map ends → (l.Pairwise fun a b => ¬ SamePair a.u a.v b.u b.v) →
    (∀ u v, eview l u v = eview m u v) → l = m
  | [], [], _, _, _ => rfl
  | [], _ :: _, h, _, _ => by simp at h
  | _ :: _, [], h, _, _ => by simp at h
  | x :: l, y :: m, h, nd, g => by
    simp only [List.map_cons, List.cons.injEq, ends, Prod.mk.injEq] at h
    obtain ⟨⟨hu, hv⟩, h⟩ := h
    have h0 := g x.u x.v
    rw [eview_cons_self, hu, hv, eview_cons_self] at h0
    have hxy : x = y := by
      cases x; cases y
      simp_all
    subst hxy
    rw [List.pairwise_cons] at nd
    have nd' : ∀ a ∈ m, ¬ SamePair x.u x.v a.u a.v := by
      intro a ha
      have : ends a ∈ m.map ends := List.mem_map_of_mem ha
      have hm : m.map ends = l.map ends := h.symm
      rw [hm, List.mem_map] at this
      obtain ⟨b, hb, e⟩ := this
      simp only [ends, Prod.mk.injEq] at e
      rw [← e.1, ← e.2]
      exact nd.1 b hb
    rw [edges_ext h nd.2 fun u v => ?_]
    by_cases c : x.joins u v = true
    · have none_of : ∀ (k : List Edge), (∀ a ∈ k, ¬ SamePair x.u x.v a.u a.v) → eview k u v = {} := by
        intro k hk
        unfold eview
        have : k.find? (·.joins u v) = none := by
          rw [List.find?_eq_none]
          intro a ha j
          refine hk a ha ?_
          rw [joins_samePair] at c j
          simp only [SamePair] at c j ⊢
          grind
        rw [this]
        rfl
      rw [none_of l nd.1, none_of m nd']
    · have := g u v
      unfold eview at this ⊢
      simpa [List.find?_cons, c] using this

/-! ## Up to the plane -/

/-- The second pass of the import: everything is as in the first pass or as at the end of the first pass. -/
structure Again (e : Diagram) (A : Fact → Prop) (D E : Diagram) : Prop where
  keys : KeysToward e.graph.nodes.keys D.graph.nodes.keys E.graph.nodes.keys
  view : ∀ n, Toward (Import.view e n) (Import.view D n) (Import.view E n)
  edges : EdgesToward e.graph.edges D.graph.edges E.graph.edges
  tableKeys : KeysToward e.sequenceFlows.keys D.sequenceFlows.keys E.sequenceFlows.keys
  table : ∀ k, E.sequenceFlows.get? k = D.sequenceFlows.get? k ∨ E.sequenceFlows.get? k = e.sequenceFlows.get? k
  procKeys : KeysToward e.processElements.keys D.processElements.keys E.processElements.keys
  procs : ∀ k, E.processElements.get? k = D.processElements.get? k ∨ E.processElements.get? k = e.processElements.get? k
  collab : E.collaboration = D.collaboration ∨ E.collaboration = e.collaboration
  header : E.diagramId = D.diagramId ∧ E.diagramName = D.diagramName ∧ E.planeId = D.planeId ∧ E.planeElement = D.planeElement
  here : ∀ n, A (.here n) → n ∈ D.graph.nodes.keys ∧ n ∈ E.graph.nodes.keys
  sameNode : ∀ n, A (.sameNode n) → (Import.view E n).nodeIds = (Import.view D n).nodeIds
  sameProcess : ∀ p, A (.sameProcess p) → E.processElements.get? p = D.processElements.get? p

/-- A change of one node. -/
theorem Again.updNode {e : Diagram} {A B : Fact → Prop} {D E : Diagram} (q : Again e A D E) {k : String} (hk : A (.here k)) (f : NodeAttrs → NodeAttrs)
    (hf : Toward (Import.view e k) (f (Import.view D k)) (f (Import.view E k))) (h1 : ∀ n, B (.here n) → A (.here n))
    (h2 : ∀ n, B (.sameNode n) → (A (.sameNode n) ∧ n ≠ k) ∨ (n = k ∧ (f (Import.view E k)).nodeIds = (f (Import.view D k)).nodeIds))
    (h3 : ∀ p, B (.sameProcess p) → A (.sameProcess p)) : Again e B (D.updNode k f) (E.updNode k f) := by
  obtain ⟨k1, k2⟩ := q.here k hk
  refine ⟨?_, ?_, q.edges, q.tableKeys, q.table, q.procKeys, q.procs, q.collab, q.header, ?_, ?_, fun p hp => q.sameProcess p (h3 p hp)⟩
  · rw [keys_updNode, keys_updNode]
    exact q.keys
  · intro n
    rw [view_updNode _ _ _ _ k1, view_updNode _ _ _ _ k2]
    split
    · rename_i c
      rw [← c]
      exact hf
    · exact q.view n
  · intro n hn
    rw [keys_updNode, keys_updNode]
    exact q.here n (h1 n hn)
  · intro n hn
    rw [view_updNode _ _ _ _ k1, view_updNode _ _ _ _ k2]
    rcases h2 n hn with ⟨h, c⟩ | ⟨c, h⟩
    · rw [if_neg (Ne.symm c), if_neg (Ne.symm c)]
      exact q.sameNode n h
    · subst c
      rw [if_pos rfl, if_pos rfl]
      exact h

theorem view_written (D : Diagram) (s t : String) (f : EdgeAttrs → EdgeAttrs) (n : String) :
    view { D with graph := (D.graph.addEdge s t).modifyEdge s t f } n = view D n := by
  rw [← view_addNode D s n, ← view_addNode { D with graph := D.graph.addNode s } t n]
  simp only [view, Graph.modifyEdge_nodes, Graph.addEdge_nodes]

theorem Again.kept (e : Diagram) : Kept (fun _ => True) (Again e) where
  less := fun q h => { q with here := fun n hn => q.here n (h _ hn), sameNode := fun n hn => q.sameNode n (h _ hn), sameProcess := fun n hn => q.sameProcess n (h _ hn) }
  upd := by
    intro A D E q k _ hk f hf
    refine q.updNode hk f (hf.1 _ _ _ (q.view k)) (fun n h => h) (fun n h => ?_) fun p h => h
    by_cases c : n = k
    · right
      refine ⟨c, ?_⟩
      rw [hf.2, hf.2, ← c]
      exact q.sameNode n h
    · exact .inl ⟨h, c⟩
  sub := by
    intro A D E q k _ hk v
    refine q.updNode hk _ ?_ (fun n h => ?_) (fun n h => ?_) (fun p h => ?_)
    · have h := q.view k
      toward_fields h
    · rcases h with h | h
      · cases h
      · exact h
    · by_cases c : n = k
      · exact .inr ⟨c, rfl⟩
      · rcases h with h | h
        · cases h
          exact absurd rfl c
        · exact .inl ⟨h, c⟩
    · rcases h with h | h
      · cases h
      · exact h
  node := by
    intro A D E q k _
    refine ⟨q.keys.addNode k, fun n => ?_, ?_, q.tableKeys, q.table, q.procKeys, q.procs, q.collab, q.header, ?_, ?_, ?_⟩
    · rw [view_addNode, view_addNode]
      exact q.view n
    · simp only [Graph.addNode_edges]
      exact q.edges
    · intro n hn
      simp only [Graph.mem_keys_addNode]
      rcases hn with h | h
      · cases h
        exact ⟨.inl rfl, .inl rfl⟩
      · exact ⟨.inr (q.here n h).1, .inr (q.here n h).2⟩
    · intro n hn
      rw [view_addNode, view_addNode]
      rcases hn with h | h
      · cases h
      · exact q.sameNode n h
    · intro n hn
      rcases hn with h | h
      · cases h
      · exact q.sameProcess n h
  recordNode := by
    intro A D E q k _ hk hs i
    have hn := q.sameNode k hs
    refine q.updNode hk _ ?_ (fun n h => h) (fun n h => ?_) fun p h => h
    · have h := q.view k
      constructor
      case nodeIds =>
        left
        show some _ = some _
        rw [hn]
      all_goals first
        | exact h.id | exact h.type | exact h.nodeName | exact h.incoming | exact h.outgoing | exact h.process
        | exact h.width | exact h.height | exact h.x | exact h.y | exact h.isExpanded | exact h.triggeredByEvent
        | exact h.parallelMultiple | exact h.isInterrupting | exact h.cancelActivity | exact h.attachedToRef
        | exact h.eventDefinitions | exact h.gatewayDirection | exact h.default | exact h.instantiate | exact h.eventGatewayType
        | exact h.isCollection
    · by_cases c : n = k
      · refine .inr ⟨c, ?_⟩
        show some _ = some _
        rw [hn]
      · exact .inl ⟨h, c⟩
  recordProcess := by
    intro A D E q k _ hs i
    have hn := q.sameProcess k hs
    refine { q with procKeys := ?_, procs := ?_, sameProcess := ?_ }
    · simp only [record, Dict.keys_modify]
      exact q.procKeys
    · intro p
      simp only [record, Dict.get?_modify]
      split
      · rename_i c
        subst c
        rw [hn]
        exact .inl rfl
      · exact q.procs p
    · intro p hp
      simp only [record, Dict.get?_modify]
      rw [q.sameProcess p hp]
  lanes := by
    intro A D E q k _ hs i ls _
    have hn := q.sameProcess k hs
    refine { q with procKeys := ?_, procs := ?_, sameProcess := ?_ }
    · simp only [Dict.keys_modify]
      exact q.procKeys
    · intro p
      simp only [Dict.get?_modify]
      split
      · rename_i c
        subst c
        rw [hn]
        exact .inl rfl
      · exact q.procs p
    · intro p hp
      simp only [Dict.get?_modify]
      rw [q.sameProcess p hp]
  newProcess := by
    intro A D E q k _ a _
    refine { q with procKeys := q.procKeys.set k a a, procs := ?_, here := ?_, sameNode := ?_, sameProcess := ?_ }
    · intro p
      simp only [Dict.get?_set]
      split
      · exact .inl rfl
      · exact q.procs p
    · intro n hn
      rcases hn with h | h
      · cases h
      · exact q.here n h
    · intro n hn
      rcases hn with h | h
      · cases h
      · exact q.sameNode n h
    · intro p hp
      simp only [Dict.get?_set]
      by_cases c : k = p
      · rw [if_pos c, if_pos c]
      · rw [if_neg c, if_neg c]
        rcases hp with h | h
        · cases h
          exact absurd rfl c
        · exact q.sameProcess p h
  entry := by
    intro A D E q k _ f _ _
    refine { q with tableKeys := q.tableKeys.set k f f, table := ?_ }
    intro p
    simp only [Dict.get?_set]
    split
    · exact .inl rfl
    · exact q.table p
  edge := by
    intro A D E q s t _ _ f hf
    refine ⟨?_, fun n => ?_, ?_, q.tableKeys, q.table, q.procKeys, q.procs, q.collab, q.header, ?_, ?_, ?_⟩
    · simp only [Graph.modifyEdge_nodes, Graph.addEdge_nodes]
      exact (q.keys.addNode s).addNode t
    · rw [view_written, view_written]
      exact q.view n
    · show EdgesToward _ ((D.graph.addEdge s t).modifyEdge s t f).edges ((E.graph.addEdge s t).modifyEdge s t f).edges
      rw [edges_written, edges_written]
      exact q.edges.written s t f hf
    · intro n hn
      simp only [Graph.modifyEdge_nodes, Graph.addEdge_nodes, Graph.mem_keys_addNode]
      rcases hn with h | h | h
      · cases h
        exact ⟨.inl rfl, .inl rfl⟩
      · cases h
        exact ⟨.inr (.inl rfl), .inr (.inl rfl)⟩
      · exact ⟨.inr (.inr (q.here n h).1), .inr (.inr (q.here n h).2)⟩
    · intro n hn
      rw [view_written, view_written]
      rcases hn with h | h | h
      · cases h
      · cases h
      · exact q.sameNode n h
    · intro n hn
      rcases hn with h | h | h
      · cases h
      · cases h
      · exact q.sameProcess n h
  collab := fun q c _ => { q with collab := .inl rfl }

end Bpmn.Import

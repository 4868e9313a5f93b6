import Verif.Lemmas.CsvAccept
import Verif.Lemmas.Again
import Verif.Lemmas.CsvHead
import Verif.Lemmas.Restore
/-! Importing a table into an object that is already in use. -/
set_option linter.unusedSimpArgs false
set_option linter.unusedVariables false

namespace Bpmn.Csv
open Bpmn.Spec Bpmn.Spec.Csv

/-! ### Nodes of the object that are not in the table -/

theorem keys_addNodeInfo (o : String) (ty : Option String) (act : String) (d : Diagram) (x : String) :
    x ∈ (addNodeInfo o ty act d).graph.nodes.keys ↔ x = o ∨ x ∈ d.graph.nodes.keys := by
  obtain ⟨f, h, -⟩ := addNodeInfo_eq o ty act d
  rw [h]
  simp only [Graph.modifyNode_keys]
  exact Graph.mem_keys_addNode _ _ _

theorem keys_importNodes (pd : Dict String Line) (d : Diagram) {x : String} (h : x ∈ d.graph.nodes.keys) : x ∈ (importNodes pd d).graph.nodes.keys := by
  unfold importNodes
  induction pd generalizing d with
  | nil => exact h
  | cons p pd ih => exact ih _ ((keys_addNodeInfo _ _ _ _ _).2 (Or.inr h))

theorem foldlM_each {α β : Type} {f : β → α → Py β} : ∀ {l : List α} {b c : β}, l.foldlM f b = .ok c → ∀ a ∈ l, ∃ b1 b2, f b1 a = .ok b2
  | [], _, _, _, _, ha => by simp at ha
  | x :: l, b, c, h, a, ha => by
    rw [List.foldlM_cons] at h
    obtain ⟨b', h1, h2⟩ := except_bind_eq_ok h
    rcases List.mem_cons.1 ha with rfl | ha
    · exact ⟨_, _, h1⟩
    · exact foldlM_each h2 a ha

/-- Every node that the object has is a key of the dictionary of rows, if the import returns. -/
theorem load_old_nodes {rows : List Row} {d e : Diagram} (h : loadCsv rows d = .ok e) :
    ∃ pd, processDict rows = .ok pd ∧ ∀ x ∈ d.graph.nodes.keys, x ∈ pd.keys := by
  cases hp : processDict rows with
  | error x => rw [loadCsv, hp] at h; cases h
  | ok pd =>
    refine ⟨pd, rfl, fun x hx => ?_⟩
    obtain ⟨d1, pd2, d2, h1, -, -⟩ := loadCsv_stages h hp
    obtain ⟨b1, b2, hb⟩ := foldlM_each h1 x (keys_importNodes pd (populate pd d) hx)
    rw [fillNode] at hb
    obtain ⟨l, hl, -⟩ := except_bind_eq_ok hb
    cases hg : pd.get? x with
    | none => rw [hg] at hl; cases hl
    | some l => exact Dict.mem_keys_of_get? hg

/-- The keys of the dictionary are orders without the white space around them. -/
theorem stripOrders_keys {ls : List (String × Line)} : ∀ {t : Dict String Line} {x : String},
    x ∈ Dict.keys (ls.foldl (fun t p => (Dict.erase t p.1).set (strip p.1) p.2) t) → x ∈ t.keys ∨ ∃ p ∈ ls, x = strip p.1 := by
  induction ls with
  | nil => exact fun h => Or.inl h
  | cons p ls ih =>
    intro t x h
    rcases ih h with h | ⟨q, hq, rfl⟩
    · rcases (Dict.mem_keys_set _ _ _ _).1 h with rfl | h
      · exact Or.inr ⟨p, by simp, rfl⟩
      · rw [Dict.keys_erase] at h
        exact Or.inl (List.mem_of_mem_erase h)
    · exact Or.inr ⟨q, List.mem_cons_of_mem _ hq, rfl⟩

theorem takeWhile_white {l : List Char} {c : Char} (h : c ∈ l.takeWhile isWhite) : White c := by
  refine (isWhite_iff c).1 ?_
  induction l with
  | nil => simp at h
  | cons a l ih =>
    rw [List.takeWhile_cons] at h
    split at h
    · rename_i ha
      rcases List.mem_cons.1 h with rfl | h
      · exact ha
      · exact ih h
    · simp at h

theorem strip_parts (s : String) : ∃ a b, s.toList = a ++ (strip s).toList ++ b ∧ (∀ c ∈ a, White c) ∧ ∀ c ∈ b, White c := by
  refine ⟨s.toList.takeWhile isWhite, ((s.toList.dropWhile isWhite).reverse.takeWhile isWhite).reverse, ?_, ?_, ?_⟩
  · simp only [strip, String.toList_ofList]
    rw [List.append_assoc, ← List.reverse_append, List.takeWhile_append_dropWhile, List.reverse_reverse, List.takeWhile_append_dropWhile]
  · exact fun c hc => takeWhile_white hc
  · exact fun c hc => takeWhile_white (List.mem_reverse.1 hc)

theorem processDict_orders {rows : List Row} {pd : Dict String Line} (h : processDict rows = .ok pd) {x : String} (hx : x ∈ pd.keys) :
    ∃ r ∈ rows, ∃ a b, r.order.toList = a ++ x.toList ++ b ∧ (∀ c ∈ a, White c) ∧ ∀ c ∈ b, White c := by
  unfold processDict at h
  split at h
  · cases h
    rcases stripOrders_keys hx with hx | ⟨p, hp, rfl⟩
    · obtain ⟨p, hp, rfl⟩ := List.mem_map.1 hx
      obtain ⟨r, hr, rfl⟩ := List.mem_map.1 hp
      exact ⟨r, hr, [], [], by simp, by simp, by simp⟩
    · obtain ⟨r, hr, rfl⟩ := List.mem_map.1 hp
      exact ⟨r, hr, strip_parts _⟩
  · cases h

/-! ### The same table again, without branches -/

/-- What `addNodeInfo` writes into the node of a row. -/
def setInfo (o : String) (l : Line) (a : NodeAttrs) : NodeAttrs :=
  if nodeType o l = "startEvent" then
    { Diagram.flowNodeAttrs processId "startEvent" l.activity o a with
      parallelMultiple := some (boolStr false), isInterrupting := some (boolStr true), eventDefinitions := some [] }
  else if nodeType o l = "subProcess" then
    { Diagram.flowNodeAttrs processId "subProcess" l.activity o a with isExpanded := some (boolStr false), triggeredByEvent := some (boolStr false) }
  else if nodeType o l = "endEvent" then { Diagram.flowNodeAttrs processId "endEvent" "" o a with eventDefinitions := some [] }
  else Diagram.flowNodeAttrs processId "task" l.activity o a

theorem nodeType_cases (o : String) (l : Line) : nodeType o l = "startEvent" ∨ nodeType o l = "endEvent" ∨ nodeType o l = "subProcess" ∨ nodeType o l = "task" := by
  unfold nodeType
  split
  · simp
  split
  · simp
  split <;> simp

theorem addNodeInfo_row (o : String) (l : Line) (d : Diagram) :
    addNodeInfo o (some (nodeType o l)) l.activity d = { d with graph := (d.graph.addNode o).modifyNode o (setInfo o l) } := by
  have hs : setInfo o l = fun a => setInfo o l a := rfl
  rcases nodeType_cases o l with h | h | h | h <;> rw [hs] <;> unfold setInfo <;>
    simp [addNodeInfo, h, Diagram.addStartEvent, Diagram.addSubprocess, Diagram.addEndEvent, Diagram.addTask, Diagram.addFlowNode, Diagram.updNode,
      Graph.modifyNode, Dict.modify_modify, Diagram.pickId, Diagram.startEventDefs, Diagram.endEventDefs, Function.comp_def]

/-- The nodes after the first step of the import: every row has been written into its node. -/
theorem get?_importNodes : ∀ (pd : Dict String Line) (d : Diagram), pd.keys.Nodup → ∀ x, (importNodes pd d).graph.nodes.get? x =
    match pd.get? x with
    | some l => some (setInfo x l ((d.graph.nodes.get? x).getD {}))
    | none => d.graph.nodes.get? x
  | [], _, _, _ => rfl
  | (o, l) :: pd, d, nd, x => by
    have nd' := (List.nodup_cons.1 (show (o :: Dict.keys pd).Nodup from nd))
    have ih := get?_importNodes pd (addNodeInfo o (some (nodeType o l)) l.activity d) nd'.2 x
    rw [show importNodes ((o, l) :: pd) d = importNodes pd (addNodeInfo o (some (nodeType o l)) l.activity d) from rfl, ih, Dict.get?_cons,
      addNodeInfo_row]
    simp only [Graph.modifyNode, Dict.get?_modify, Graph.get?_addNode]
    by_cases e : o = x
    · subst e
      have hn : Dict.get? pd o = none := (Dict.get?_eq_none_iff _ _).2 nd'.1
      rw [hn]
      cases hd : d.graph.nodes.get? o with
      | none => simp [(Dict.get?_eq_none_iff _ _).1 hd]
      | some a => simp [Dict.mem_keys_of_get? hd]
    · have e' : ¬ x = o := fun h => e h.symm
      simp only [e, e', if_false]
      cases hd : Dict.get? d.graph.nodes x with
      | none => simp
      | some a => simp [Dict.mem_keys_of_get? hd]

/-- The diagram `a` with the adjustments of the nodes made already, and with other edges and another table of flows. -/
def over (es : List Edge) (fs : Dict String SeqFlow) (a : Diagram) : Diagram :=
  { legacyAdjustment a with graph := { nodes := (legacyAdjustment a).graph.nodes, edges := es }, sequenceFlows := fs }

/-- The flow is there already, and says what a new connection would write. -/
structure Absorbs (pd : Dict String Line) (es : List Edge) (fs : Dict String SeqFlow) (s t : String) : Prop where
  has : ∃ x ∈ es, x.joins s t = true
  good : ∀ x ∈ es, x.joins s t = true → newAttrs pd s t x.attrs = x.attrs
  filed : fs.get? (flowId s t) = some ⟨flowId s t, s, t⟩

def adjust (a : NodeAttrs) : NodeAttrs :=
  { a with incoming := some (a.incoming.getD []), outgoing := some (a.outgoing.getD []), eventDefinitions := some (a.eventDefinitions.getD []) }

theorem over_nodes (es : List Edge) (fs : Dict String SeqFlow) (a : Diagram) : (over es fs a).graph.nodes = a.graph.nodes.map fun n => (n.1, adjust n.2) := rfl

theorem get?_adjust (d : Dict String NodeAttrs) (x : String) : Dict.get? (d.map fun n => (n.1, adjust n.2)) x = (Dict.get? d x).map adjust := by
  induction d with
  | nil => rfl
  | cons p d ih =>
    obtain ⟨k, v⟩ := p
    rw [List.map_cons, Dict.get?_cons, Dict.get?_cons]
    split
    · rfl
    · exact ih

theorem modify_adjust (d : Dict String NodeAttrs) (x : String) (f : NodeAttrs → NodeAttrs) (g : NodeAttrs → NodeAttrs)
    (h : ∀ a, Dict.get? d x = some a → adjust (f a) = g (adjust a)) :
    (Dict.modify d x f).map (fun n => (n.1, adjust n.2)) = Dict.modify (d.map fun n => (n.1, adjust n.2)) x g := by
  induction d with
  | nil => rfl
  | cons p d ih =>
    obtain ⟨k, v⟩ := p
    simp only [List.map_cons, Dict.modify]
    by_cases e : k = x
    · subst e
      have := h v (by simp [Dict.get?_cons])
      simp [this]
    · rw [if_neg e, if_neg e, List.map_cons, ih fun a ha => h a (by rw [Dict.get?_cons, if_neg e]; exact ha)]

theorem updNode_over {es : List Edge} {fs : Dict String SeqFlow} {a : Diagram} {x : String} {f : NodeAttrs → NodeAttrs} (h : ∀ b, adjust (f b) = f (adjust b)) :
    (over es fs a).updNode x f = over es fs (a.updNode x f) := by
  have := modify_adjust a.graph.nodes x f f fun b _ => h b
  unfold over legacyAdjustment Diagram.updNode Graph.modifyNode
  simp only [Diagram.mk.injEq, Graph.mk.injEq, and_true, true_and]
  exact this.symm

theorem nodeAttrs_over {es : List Edge} {fs : Dict String SeqFlow} {a : Diagram} {x : String} {b : NodeAttrs} (h : a.nodeAttrs x = .ok b) :
    (over es fs a).nodeAttrs x = .ok (adjust b) := by
  unfold Diagram.nodeAttrs at *
  rw [over_nodes, get?_adjust]
  cases hg : Dict.get? a.graph.nodes x with
  | none => rw [hg] at h; cases h
  | some c => rw [hg] at h; cases h; rfl

theorem Dict.set_there {κ α : Type} [DecidableEq κ] {d : Dict κ α} {k : κ} {v : α} (h : d.get? k = some v) : d.set k v = d := by
  induction d with
  | nil => cases h
  | cons p d ih =>
    obtain ⟨a, w⟩ := p
    rw [Dict.get?_cons] at h
    unfold Dict.set
    split
    · rename_i e
      rw [if_pos e] at h
      cases h
      rfl
    · rename_i e
      rw [if_neg e] at h
      rw [ih h]

theorem addEdge_over {pd : Dict String Line} {es : List Edge} {fs : Dict String SeqFlow} {s t : String} {a : Diagram} (hs : s ∈ a.graph.nodes.keys)
    (ht : t ∈ a.graph.nodes.keys) (ha : Absorbs pd es fs s t) : addEdge pd s t (over es fs a) = over es fs (addEdge pd s t a) := by
  have hk : (over es fs a).graph.nodes.keys = a.graph.nodes.keys := by rw [over_nodes]; simp [Dict.keys, Function.comp_def]
  have h1 : (a.graph.addNode s).addNode t = a.graph := by rw [Graph.addNode_of_mem hs, Graph.addNode_of_mem ht]
  have h2 : ((over es fs a).graph.addNode s).addNode t = (over es fs a).graph := by
    rw [Graph.addNode_of_mem (n := s) (hk ▸ hs), Graph.addNode_of_mem (n := t) (hk ▸ ht)]
  have h3 : ((over es fs a).graph.addEdge s t) = (over es fs a).graph := by
    unfold Graph.addEdge
    simp only [h2]
    rw [if_pos]
    exact (Graph.hasEdge_iff _ _ _).2 ha.has
  have h4 : (a.graph.addEdge s t).nodes = a.graph.nodes := by
    unfold Graph.addEdge
    simp only [h1]
    split <;> rfl
  have h5 : (es.map fun x => if x.joins s t = true then { x with attrs := newAttrs pd s t x.attrs } else x) = es := by
    conv_rhs => rw [← List.map_id es]
    refine List.map_congr_left fun x hx => ?_
    split
    · rename_i hj
      rw [ha.good x hx hj]; rfl
    · rfl
  have h6 : fs.set (flowId s t) ⟨flowId s t, s, t⟩ = fs := Dict.set_there ha.filed
  unfold addEdge
  simp only [h3]
  unfold over legacyAdjustment
  simp only [Diagram.mk.injEq, Graph.mk.injEq, and_true, true_and, Graph.modifyEdge, h4]
  exact ⟨h5, h6⟩

theorem addConnection_over {pd : Dict String Line} {es : List Edge} {fs : Dict String SeqFlow} {s t : String} {a a' : Diagram}
    (h : addConnection pd s t a = .ok a') (ha : Absorbs pd es fs s t) : addConnection pd s t (over es fs a) = .ok (over es fs a') := by
  have hc := addConnection_connected h
  obtain ⟨a1, h1, h⟩ := except_bind_eq_ok h
  obtain ⟨a2, h2, h⟩ := except_bind_eq_ok h
  cases h
  obtain ⟨b, hb, h1⟩ := except_bind_eq_ok h1
  cases h1
  obtain ⟨c, hc', h2⟩ := except_bind_eq_ok h2
  cases h2
  unfold addConnection addOutgoing addIncoming
  rw [nodeAttrs_over hb, except_bind_ok, except_pure, except_bind_ok]
  have e1 : ∀ (l : List String) (x : Diagram), (over es fs x).updNode s (fun b => { b with outgoing := some l }) = over es fs (x.updNode s fun b => { b with outgoing := some l }) :=
    fun l x => updNode_over fun b => rfl
  have e2 : ∀ (l : List String) (x : Diagram), (over es fs x).updNode t (fun b => { b with incoming := some l }) = over es fs (x.updNode t fun b => { b with incoming := some l }) :=
    fun l x => updNode_over fun b => rfl
  have e3 : (adjust b).outgoing.getD [] = b.outgoing.getD [] := rfl
  rw [e3, e1, nodeAttrs_over hc', except_bind_ok, except_pure, except_bind_ok]
  have e4 : (adjust c).incoming.getD [] = c.incoming.getD [] := rfl
  rw [e4, e2, addEdge_over ?_ ?_ ha]
  · rfl
  · simp only [Diagram.updNode, Graph.modifyNode_keys]; exact hc.src
  · simp only [Diagram.updNode, Graph.modifyNode_keys]; exact hc.tgt

/-- Every row that is not terminated is followed by the next number. -/
def Stepwise (pd : Dict String Line) : Prop :=
  ∀ n l, pd.get? n = some l → l.terminated ≠ "yes" → ∃ m ∈ pd.keys, sequenceSuccessors n = [m]

theorem fillNode_onward {pd : Dict String Line} {n m : String} {l : Line} (hl : pd.get? n = some l) (hx : l.terminated ≠ "yes") (hm : m ∈ pd.keys)
    (hs : sequenceSuccessors n = [m]) (d : Diagram) : fillNode pd pd.keys n d = addConnection pd n m d := by
  unfold fillNode
  rw [hl, need_some, except_bind_ok, if_neg hx, hs, if_pos (by simp [anyPresent, hm])]
  simp [onlyPresent, hm]

theorem fillNode_end {pd : Dict String Line} {n : String} {l : Line} (hl : pd.get? n = some l) (hx : l.terminated = "yes") (d : Diagram) :
    fillNode pd pd.keys n d = .ok d := by
  unfold fillNode
  rw [hl, need_some, except_bind_ok, if_pos hx]
  rfl

theorem newAttrs_twice (pd : Dict String Line) (s t : String) (a : EdgeAttrs) : newAttrs pd s t (newAttrs pd s t a) = newAttrs pd s t a := by
  simp only [newAttrs]
  split <;> rfl

theorem Connected.absorbs {pd : Dict String Line} {d d' : Diagram} {s t : String} (h : Connected pd d d' s t) :
    Absorbs pd d'.graph.edges d'.sequenceFlows s t := by
  refine ⟨?_, ?_, by rw [h.flows, Dict.get?_set_self]⟩
  · rw [h.edges]
    by_cases hh : d.graph.hasEdge s t = true
    · obtain ⟨x, hx, hj⟩ := (Graph.hasEdge_iff _ _ _).1 hh
      refine ⟨_, List.mem_append_left _ (List.mem_map_of_mem hx), ?_⟩
      rw [if_pos hj]
      exact hj
    · rw [if_neg hh]
      exact ⟨⟨s, t, newAttrs pd s t {}⟩, by simp, by simp [Edge.joins]⟩
  · intro x hx hj
    rw [h.edges] at hx
    rcases List.mem_append.1 hx with hx | hx
    · obtain ⟨y, hy, rfl⟩ := List.mem_map.1 hx
      split at hj
      · rename_i hyj
        rw [if_pos hyj]
        exact newAttrs_twice _ _ _ _
      · rename_i hyj
        exact absurd hj hyj
    · split at hx
      · simp at hx
      · simp only [List.mem_singleton] at hx
        subst hx
        exact newAttrs_twice _ _ _ _

theorem Absorbs.step {pd : Dict String Line} {d d' : Diagram} {s t s' t' : String} (h : Connected pd d d' s' t') (ha : Absorbs pd d.graph.edges d.sequenceFlows s t)
    (hne : s ≠ s') (hrev : ¬(s' = t ∧ t' = s)) (ps : Plain s) (ps' : Plain s') : Absorbs pd d'.graph.edges d'.sequenceFlows s t := by
  have key : ∀ x : Edge, x.joins s t = true → x.joins s' t' = true → False := by
    intro x h1 h2
    rw [Edge.joins_iff] at h1 h2
    rcases h1 with ⟨rfl, rfl⟩ | ⟨rfl, rfl⟩ <;> rcases h2 with ⟨rfl, rfl⟩ | ⟨rfl, rfl⟩
    · exact hne rfl
    · exact hrev ⟨rfl, rfl⟩
    · exact hrev ⟨rfl, rfl⟩
    · exact hne rfl
  refine ⟨?_, ?_, ?_⟩
  · obtain ⟨x, hx, hj⟩ := ha.has
    rw [h.edges]
    refine ⟨_, List.mem_append_left _ (List.mem_map_of_mem hx), ?_⟩
    rw [if_neg fun hh => key x hj hh]
    exact hj
  · intro x hx hj
    rw [h.edges] at hx
    rcases List.mem_append.1 hx with hx | hx
    · obtain ⟨y, hy, rfl⟩ := List.mem_map.1 hx
      by_cases hyj : y.joins s' t' = true
      · rw [if_pos hyj] at hj ⊢
        exact (key y hj hyj).elim
      · rw [if_neg hyj] at hj ⊢
        exact ha.good y hy hj
    · split at hx
      · simp at hx
      · simp only [List.mem_singleton] at hx
        subst hx
        exact (key _ hj (by simp [Edge.joins])).elim
  · rw [h.flows, Dict.get?_set_ne]
    · exact ha.filed
    · exact fun e => hne (flowId_inj ps' ps e).1.symm

theorem fold_absorbs {pd : Dict String Line} (ho : Stepwise pd) (hp : ∀ x ∈ pd.keys, Plain x)
    (hr : ∀ n m k, n ∈ pd.keys → sequenceSuccessors n = [m] → sequenceSuccessors m = [k] → k ≠ n) :
    ∀ (ks : List String) {a a' : Diagram} (done : List String), (done ++ ks).Nodup → (∀ n ∈ done ++ ks, n ∈ pd.keys) →
    ks.foldlM (fun e n => fillNode pd pd.keys n e) a = .ok a' →
    (∀ n ∈ done, ∀ l m, pd.get? n = some l → l.terminated ≠ "yes" → sequenceSuccessors n = [m] → Absorbs pd a.graph.edges a.sequenceFlows n m) →
    (∀ n ∈ done ++ ks, ∀ l m, pd.get? n = some l → l.terminated ≠ "yes" → sequenceSuccessors n = [m] → Absorbs pd a'.graph.edges a'.sequenceFlows n m) ∧
      ids a' = ids a ∧ ∀ x, bareOf a' x = bareOf a x
  | [], a, a', done, _, _, h, hd => by cases h; exact ⟨by simpa using hd, rfl, fun _ => rfl⟩
  | n :: ks, a, a', done, nd, hk, h, hd => by
    rw [List.foldlM_cons] at h
    obtain ⟨a1, h1, h2⟩ := except_bind_eq_ok h
    have hn : n ∈ pd.keys := hk n (by simp)
    obtain ⟨l, hl⟩ := Option.isSome_iff_exists.1 ((Dict.get?_isSome_iff _ _).2 hn)
    have step : (∀ x ∈ done ++ [n], ∀ l m, pd.get? x = some l → l.terminated ≠ "yes" → sequenceSuccessors x = [m] → Absorbs pd a1.graph.edges a1.sequenceFlows x m) ∧
        ids a1 = ids a ∧ ∀ x, bareOf a1 x = bareOf a x := by
      by_cases hx : l.terminated = "yes"
      · rw [fillNode_end hl hx] at h1
        cases h1
        refine ⟨fun x hx' l' m hl' ht hm => ?_, rfl, fun _ => rfl⟩
        rcases List.mem_append.1 hx' with hx' | hx'
        · exact hd x hx' l' m hl' ht hm
        · simp only [List.mem_singleton] at hx'
          subst hx'
          rw [hl] at hl'
          cases hl'
          exact absurd hx ht
      · obtain ⟨m, hm, hs⟩ := ho n l hl hx
        rw [fillNode_onward hl hx hm hs] at h1
        have hc := addConnection_connected h1
        refine ⟨fun x hx' l' m' hl' ht hm' => ?_, hc.ids, hc.bare⟩
        rcases List.mem_append.1 hx' with hy | hy
        · have hne : x ≠ n := by
            rintro rfl
            exact (List.nodup_append.1 nd).2.2 x hy x (by simp) rfl
          refine (hd x hy l' m' hl' ht hm').step hc hne ?_ (hp x (hk x (by simp [hy]))) (hp n hn)
          rintro ⟨e1, e2⟩
          subst e1
          exact hr x n m (hk x (by simp [hy])) hm' hs e2
        · simp only [List.mem_singleton] at hy
          subst hy
          rw [hs] at hm'
          cases hm'
          exact hc.absorbs
    have := fold_absorbs ho hp hr ks (done ++ [n]) (by simpa using nd) (by simpa using hk) h2 step.1
    exact ⟨by simpa using this.1, this.2.1.trans step.2.1, fun x => (this.2.2 x).trans (step.2.2 x)⟩

theorem fold_over {pd : Dict String Line} (ho : Stepwise pd) {es : List Edge} {fs : Dict String SeqFlow} : ∀ (ks : List String) {a a' : Diagram},
    (∀ n ∈ ks, n ∈ pd.keys) → ks.foldlM (fun e n => fillNode pd pd.keys n e) a = .ok a' →
    (∀ n ∈ ks, ∀ l m, pd.get? n = some l → l.terminated ≠ "yes" → sequenceSuccessors n = [m] → Absorbs pd es fs n m) →
    ks.foldlM (fun e n => fillNode pd pd.keys n e) (over es fs a) = .ok (over es fs a')
  | [], a, a', _, h, _ => by cases h; rfl
  | n :: ks, a, a', hk, h, hd => by
    rw [List.foldlM_cons] at h ⊢
    obtain ⟨a1, h1, h2⟩ := except_bind_eq_ok h
    obtain ⟨l, hl⟩ := Option.isSome_iff_exists.1 ((Dict.get?_isSome_iff _ _).2 (hk n (by simp)))
    have step : fillNode pd pd.keys n (over es fs a) = .ok (over es fs a1) := by
      by_cases hx : l.terminated = "yes"
      · rw [fillNode_end hl hx] at h1 ⊢
        cases h1; rfl
      · obtain ⟨m, hm, hs⟩ := ho n l hl hx
        rw [fillNode_onward hl hx hm hs] at h1 ⊢
        exact addConnection_over h1 (hd n (by simp) l m hl hx hs)
    rw [step, except_bind_ok]
    exact fold_over ho ks (fun x hx => hk x (List.mem_cons_of_mem _ hx)) h2 fun x hx => hd x (List.mem_cons_of_mem _ hx)

theorem importNodes_rest (pd : Dict String Line) : ∀ d, (importNodes pd d).graph.edges = d.graph.edges ∧ (importNodes pd d).sequenceFlows = d.sequenceFlows := by
  induction pd with
  | nil => exact fun d => ⟨rfl, rfl⟩
  | cons p pd ih =>
    intro d
    obtain ⟨h1, h2⟩ := ih (addNodeInfo p.1 (some (nodeType p.1 p.2)) p.2.activity d)
    rw [addNodeInfo_row] at h1 h2
    refine ⟨Eq.trans ?_ (h1.trans ?_), Eq.trans ?_ h2⟩
    · rw [← addNodeInfo_row]; rfl
    · simp only [Graph.modifyNode, Graph.addNode]; split <;> rfl
    · rw [← addNodeInfo_row]; rfl

theorem importNodes_keys : ∀ (pd : Dict String Line) (d : Diagram), (∀ x ∈ pd.keys, x ∈ d.graph.nodes.keys) →
    (importNodes pd d).graph.nodes.keys = d.graph.nodes.keys
  | [], _, _ => rfl
  | (o, l) :: pd, d, h => by
    have ho : o ∈ d.graph.nodes.keys := h o (by simp [Dict.keys])
    have hk : (addNodeInfo o (some (nodeType o l)) l.activity d).graph.nodes.keys = d.graph.nodes.keys := by
      rw [addNodeInfo_row, Graph.modifyNode_keys, Graph.addNode_of_mem ho]
    have := importNodes_keys pd (addNodeInfo o (some (nodeType o l)) l.activity d) (by
      intro x hx
      rw [hk]
      exact h x (List.mem_cons_of_mem _ hx))
    exact this.trans hk

theorem removeGateways_none : ∀ {ns : List String} {pd : Dict String Line} {d : Diagram}, (∀ n ∈ ns, ∃ a, d.graph.nodes.get? n = some a ∧
    a.type ∉ [some "inclusiveGateway", some "exclusiveGateway", some "parallelGateway"]) → removeGateways ns pd d = .ok d
  | [], _, _, _ => rfl
  | n :: ns, pd, d, h => by
    obtain ⟨a, ha, ht⟩ := h n (by simp)
    unfold removeGateways
    simp only [Diagram.nodeAttrs, ha, need_some, except_bind_ok]
    rw [if_neg ht]
    exact removeGateways_none fun x hx => h x (List.mem_cons_of_mem _ hx)

theorem setInfo_type (o : String) (l : Line) (a : NodeAttrs) : (setInfo o l a).type = some (nodeType o l) := by
  unfold setInfo
  rcases nodeType_cases o l with h | h | h | h <;> simp [h, Diagram.flowNodeAttrs]

/-- Writing a row into the node that the import made of it, wherever it has been moved, gives the node that was made first. -/
theorem setInfo_again {o : String} {l : Line} {b : NodeAttrs} {v : List EventDef} (he : b.eventDefinitions = some v)
    (h : Import.noPlace (norm b) = Import.noPlace (norm (setInfo o l {}))) : setInfo o l b = adjust (setInfo o l {}) := by
  obtain ⟨b1, b2, b3, b4, b5, b6, b7, b8, b9, b10, b11, b12, b13, b14, b15, b16, b17, b18, b19, b20, b21, b22, b23⟩ := b
  simp only at he
  subst he
  unfold setInfo at h ⊢
  rcases nodeType_cases o l with h' | h' | h' | h' <;>
    simp [h', Import.noPlace, norm, Diagram.flowNodeAttrs, adjust] at h ⊢ <;> simp [h]

theorem diagram_ext {d e : Diagram} (h : headOf d = headOf e) (hg : d.graph = e.graph) (hs : d.sequenceFlows = e.sequenceFlows) : d = e := by
  unfold headOf at h
  obtain ⟨a, b, c, d1, e1, f, g, i⟩ := d
  obtain ⟨a', b', c', d1', e1', f', g', i'⟩ := e
  simp only [Diagram.mk.injEq, true_and] at h hg hs ⊢
  exact ⟨hg, hs, h⟩

theorem absorbs_moved {pd : Dict String Line} {es es' : List Edge} {fs : Dict String SeqFlow} {s t : String} (h : Absorbs pd es fs s t)
    (he : es'.map (fun e => { e with attrs := Import.noWay e.attrs }) = es.map fun e => { e with attrs := Import.noWay e.attrs }) :
    Absorbs pd es' fs s t := by
  refine ⟨?_, ?_, h.filed⟩
  · obtain ⟨x, hx, hj⟩ := h.has
    have := he ▸ List.mem_map_of_mem (f := fun e : Edge => { e with attrs := Import.noWay e.attrs }) hx
    obtain ⟨y, hy, hxy⟩ := List.mem_map.1 this
    simp only [Edge.mk.injEq] at hxy
    refine ⟨y, hy, ?_⟩
    unfold Edge.joins at hj ⊢
    rw [hxy.1, hxy.2.1]
    exact hj
  · intro y hy hj
    have := he ▸ List.mem_map_of_mem (f := fun e : Edge => { e with attrs := Import.noWay e.attrs }) hy
    obtain ⟨x, hx, hxy⟩ := List.mem_map.1 this
    simp only [Edge.mk.injEq] at hxy
    have g := h.good x hx (by
      unfold Edge.joins at hj ⊢
      rw [hxy.1, hxy.2.1]
      exact hj)
    obtain ⟨-, -, hw⟩ := hxy
    revert hw g
    generalize x.attrs = a
    generalize y.attrs = b
    obtain ⟨a1, a2, a3, a4, a5, a6, a7⟩ := a
    obtain ⟨b1, b2, b3, b4, b5, b6, b7⟩ := b
    intro g hw
    simp only [Import.noWay, EdgeAttrs.mk.injEq, and_true] at hw
    obtain ⟨rfl, rfl, rfl, rfl, rfl, rfl⟩ := hw
    simp only [newAttrs, EdgeAttrs.mk.injEq, and_true, true_and] at g ⊢
    exact g

theorem seq_back {rows : List Row} (t : Table rows) {n m k : String} (hn : n ∈ (dictOf rows).keys) (h1 : sequenceSuccessors n = [m])
    (h2 : sequenceSuccessors m = [k]) : k ≠ n := by
  rw [keys_dictOf] at hn
  obtain ⟨r, hr, rfl⟩ := List.mem_map.1 hn
  unfold sequenceSuccessors at h1
  cases hx : trailingNumber r.order with
  | none => rw [hx] at h1; cases h1
  | some q =>
    obtain ⟨p, i⟩ := q
    rw [hx] at h1
    simp only [List.cons.injEq, and_true] at h1
    have a1 := trailing_succ (t.alnum r hr) hx (i + 1)
    have a2 := trailing_succ (t.alnum r hr) hx (i + 2)
    rw [h1] at a1
    unfold sequenceSuccessors at h2
    rw [a1] at h2
    simp only [List.cons.injEq, and_true] at h2
    rintro rfl
    rw [← h2, a2] at hx
    simp at hx

/-- **The same table again, in which every row is followed by the next number.** The nodes go back to where they were, the flows keep their waypoints. -/
theorem load_line_again {rows : List Row} (t : Table rows) (hn : ∀ r ∈ rows, ¬GotoRow r) (ho : Stepwise (dictOf rows)) {e e' : Diagram}
    (h : loadCsv rows {} = .ok e) (hl : eraseLayout e' = eraseLayout e) :
    loadCsv rows e' = .ok { e with graph := { nodes := e.graph.nodes, edges := e'.graph.edges } } := by
  have sp := Import.samePlaces hl
  have hE : e'.graph.edges.map (fun e => { e with attrs := Import.noWay e.attrs }) = e.graph.edges.map fun e => { e with attrs := Import.noWay e.attrs } := by
    have := congrArg (fun d : Diagram => d.graph.edges) hl
    exact this
  obtain ⟨d1, pd2, d2, h1, h2, h3⟩ := loadCsv_stages h t.dict
  have hP := planted_start t
  have nd : (dictOf rows).keys.Nodup := by rw [keys_dictOf]; exact t.orders
  generalize hA : importNodes (dictOf rows) (populate (dictOf rows) {}) = A at *
  have hk : A.graph.nodes.keys = (dictOf rows).keys := hP.ids
  unfold fillConnections at h1
  rw [hk] at h1
  have hg : ∀ q ∈ dictOf rows, isGoto q.2.activity = false := by
    intro q hq
    obtain ⟨r, hr, rfl⟩ := List.mem_map.1 hq
    have := hn r hr
    rw [← isGoto_iff] at this
    simpa using this
  rw [removeGotos_none hg] at h2
  cases h2
  obtain ⟨habs, hids, hbare⟩ := fold_absorbs ho (fun x hx => plain_of_no_underscore (t.under x hx)) (fun n m k => seq_back t) (dictOf rows).keys []
    (by simpa using nd) (by simp) h1 (by simp)
  simp only [List.nil_append] at habs
  have hget : ∀ x l, (dictOf rows).get? x = some l → ∃ a, d1.graph.nodes.get? x = some a ∧ bare a = bare (setInfo x l {}) := by
    intro x l hx
    have hb := hbare x
    have : A.graph.nodes.get? x = some (setInfo x l {}) := by
      rw [← hA, get?_importNodes _ _ nd, hx]; rfl
    unfold bareOf at hb
    rw [this] at hb
    cases ha : d1.graph.nodes.get? x with
    | none => rw [ha] at hb; cases hb
    | some a => rw [ha] at hb; exact ⟨a, rfl, Option.some.inj hb⟩
  have typed : ∀ {a b : NodeAttrs}, bare a = bare b → a.type = b.type := by
    intro a b h
    have := congrArg (fun c : NodeAttrs => c.type) h
    exact this
  have hleg : ∀ x, (legacyAdjustment d1).graph.nodes.get? x = (d1.graph.nodes.get? x).map adjust := fun x => get?_adjust _ _
  have hlegk : (legacyAdjustment d1).graph.nodes.keys = (dictOf rows).keys := by
    rw [← hk, ← show ids d1 = A.graph.nodes.keys from hids]
    simp [legacyAdjustment, Dict.keys, Function.comp_def]
  rw [removeGateways_none] at h3
  · cases h3
    have hstart : importNodes (dictOf rows) (populate (dictOf rows) e') = over e'.graph.edges d1.sequenceFlows A := by
      refine diagram_ext ?_ ?_ ?_
      · rw [importNodes_head]
        obtain ⟨pd, hpd, hh⟩ := loadCsv_head h
        rw [t.dict] at hpd
        cases hpd
        have hA' : headOf (over e'.graph.edges d1.sequenceFlows A) = headOf (populate (dictOf rows) {}) := by
          rw [← importNodes_head (dictOf rows) (populate (dictOf rows) {}), hA]
          rfl
        rw [hA', ← hh]
        have e1 := congrArg (fun d : Diagram => d.processElements) hh
        have e2 := congrArg (fun d : Diagram => d.diagramId) hh
        have e3 := congrArg (fun d : Diagram => d.diagramName) hh
        have e4 := congrArg (fun d : Diagram => d.planeId) hh
        have e5 := congrArg (fun d : Diagram => d.planeElement) hh
        unfold headOf populate at *
        simp only [Diagram.mk.injEq, true_and] at *
        refine ⟨?_, e2.symm, e3.symm, e4.symm, e5.symm, sp.collab⟩
        rw [sp.procs]
        refine Dict.set_there ?_
        rw [e1, Dict.get?_set_self]
      · have hed := (importNodes_rest (dictOf rows) (populate (dictOf rows) e')).1
        have hks : (populate (dictOf rows) e').graph.nodes.keys = (dictOf rows).keys := sp.keys.trans hlegk
        have hno : (importNodes (dictOf rows) (populate (dictOf rows) e')).graph.nodes = (over e'.graph.edges d1.sequenceFlows A).graph.nodes := by
          have hik := (importNodes_keys (dictOf rows) (populate (dictOf rows) e') (by rw [hks]; exact fun _ h => h)).trans hks
          refine Import.Dict.ext_get? (hik.trans ?_) (hik ▸ nd) fun x => ?_
          · rw [over_nodes, ← hk]; simp [Dict.keys, Function.comp_def]
          · rw [get?_importNodes _ _ nd, over_nodes, get?_adjust]
            cases hx : (dictOf rows).get? x with
            | none =>
              have hx' := (Dict.get?_eq_none_iff _ _).1 hx
              simp only
              rw [(Dict.get?_eq_none_iff _ _).2 (hks ▸ hx'), (Dict.get?_eq_none_iff _ _).2 (hk ▸ hx')]
              rfl
            | some l =>
              have hAx : A.graph.nodes.get? x = some (setInfo x l {}) := by rw [← hA, get?_importNodes _ _ nd, hx]; rfl
              obtain ⟨a, ha, hab⟩ := hget x l hx
              have hv := sp.view x
              have hin : x ∈ e'.graph.nodes.keys := by
                have := Dict.mem_keys_of_get? hx
                rw [← hks] at this
                exact this
              obtain ⟨b, hb⟩ := Option.isSome_iff_exists.1 ((Dict.get?_isSome_iff _ _).2 hin)
              have hb' : (populate (dictOf rows) e').graph.nodes.get? x = some b := hb
              unfold Import.view at hv
              rw [hb, hleg, ha] at hv
              simp only [Option.map_some, Option.getD_some] at hv
              rw [hAx, hb']
              simp only [Option.getD_some, Option.map_some, Option.some.injEq]
              have h4 : Import.noPlace (norm b) = Import.noPlace (norm (setInfo x l {})) := by
                have f1 : ∀ c, Import.noPlace (norm c) = norm (Import.noPlace c) := fun _ => rfl
                have f2 : ∀ c, norm (adjust c) = norm c := fun _ => rfl
                have f3 : ∀ c, norm c = norm (bare c) := fun _ => rfl
                rw [f1, hv, ← f1, f2, f3, hab, ← f3]
              have h5 : b.eventDefinitions = some (a.eventDefinitions.getD []) := congrArg (fun c : NodeAttrs => c.eventDefinitions) hv
              exact setInfo_again h5 h4
        have : ∀ g g' : Graph, g.nodes = g'.nodes → g.edges = g'.edges → g = g' := by
          intro g g' a b
          cases g; cases g'
          simp only [Graph.mk.injEq]
          exact ⟨a, b⟩
        exact this _ _ hno hed
      · exact (importNodes_rest (dictOf rows) (populate (dictOf rows) e')).2.trans sp.table
    have hfill : fillConnections (dictOf rows) (over e'.graph.edges d1.sequenceFlows A) = .ok (over e'.graph.edges d1.sequenceFlows d1) := by
      unfold fillConnections
      have : (over e'.graph.edges d1.sequenceFlows A).graph.nodes.keys = (dictOf rows).keys := by
        rw [over_nodes, ← hk]; simp [Dict.keys, Function.comp_def]
      rw [this]
      exact fold_over ho _ (fun _ h => h) h1 fun n hn' l m a b c => absorbs_moved (habs n hn' l m a b c) hE
    have hleg2 : legacyAdjustment (over e'.graph.edges d1.sequenceFlows d1) = over e'.graph.edges d1.sequenceFlows d1 := by
      unfold over
      have : (legacyAdjustment d1).graph.nodes.map (fun n => (n.1, adjust n.2)) = (legacyAdjustment d1).graph.nodes := by
        show (d1.graph.nodes.map fun n => (n.1, adjust n.2)).map (fun n => (n.1, adjust n.2)) = d1.graph.nodes.map fun n => (n.1, adjust n.2)
        rw [List.map_map]; rfl
      show ({ legacyAdjustment d1 with
          graph := { nodes := (legacyAdjustment d1).graph.nodes.map fun n => (n.1, adjust n.2), edges := e'.graph.edges }
          sequenceFlows := d1.sequenceFlows } : Diagram) = _
      rw [this]
    unfold loadCsv
    rw [t.dict, except_bind_ok, hstart, hfill, except_bind_ok, hleg2]
    simp only [removeGotos_none hg, except_bind_ok]
    rw [removeGateways_none]
    · rfl
    · intro x hx
      have hx : x ∈ (dictOf rows).keys := by rw [← hlegk]; exact hx
      obtain ⟨l, hl'⟩ := Option.isSome_iff_exists.1 ((Dict.get?_isSome_iff _ _).2 hx)
      obtain ⟨a, ha, hab⟩ := hget x l hl'
      refine ⟨adjust a, ?_, ?_⟩
      · rw [over_nodes, get?_adjust, ha]; rfl
      · have : a.type = some (nodeType x l) := by
          rw [← setInfo_type x l {}]; exact typed hab
        show a.type ∉ _
        rw [this]
        rcases nodeType_cases x l with h | h | h | h <;> simp [h]
  · intro x hx
    rw [hlegk] at hx
    obtain ⟨l, hl'⟩ := Option.isSome_iff_exists.1 ((Dict.get?_isSome_iff _ _).2 hx)
    obtain ⟨a, ha, hab⟩ := hget x l hl'
    refine ⟨adjust a, by rw [hleg, ha]; rfl, ?_⟩
    have : a.type = some (nodeType x l) := by
      rw [← setInfo_type x l {}]; exact typed hab
    show a.type ∉ _
    rw [this]
    rcases nodeType_cases x l with h | h | h | h <;> simp [h]

end Bpmn.Csv

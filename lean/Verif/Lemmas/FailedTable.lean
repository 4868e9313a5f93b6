import Verif.Lemmas.CsvImportState
import Verif.Lemmas.CsvAccept
import Verif.Lemmas.CsvHead
set_option linter.unusedSimpArgs false
set_option linter.unusedVariables false
/-!
# What a CSV import that raises leaves behind
-/
namespace Bpmn.Csv
open Bpmn Bpmn.Spec Bpmn.Spec.Csv

theorem Call.next_of {α β : Type} {P : Diagram → Prop} {x : Call α} {f : α → Diagram → Call β} (h : P x.1) (hf : ∀ a d, P d → P (f a d).1) : P (x.next f).1 := by
  obtain ⟨d, a | a⟩ := x
  · exact h
  · exact hf a d h

theorem look_of {α β : Type} {P : Diagram → Prop} {x : Py α} {d : Diagram} {f : α → Call β} (h : P d) (hf : ∀ a, x = .ok a → P (f a).1) : P (look x d f).1 := by
  cases x with
  | error e => exact h
  | ok a => exact hf a rfl

theorem eachS_of {α : Type} {P : Diagram → Prop} {f : α → Diagram → Call Unit} (hf : ∀ a d, P d → P (f a d).1) : ∀ (l : List α) (d : Diagram), P d → P (eachS f l d).1
  | [], d, h => h
  | a :: r, d, h => Call.next_of (hf a d h) fun _ d hd => eachS_of hf r d hd

/-- The kinds of gateways that the import removes when they are superfluous. -/
def gates : List (Option String) := [some "inclusiveGateway", some "exclusiveGateway", some "parallelGateway"]

/-- The head of the diagram is `H`, the nodes of `S` are there, and those of `K` are there and are no gateways. -/
structure Holds (H : Diagram) (S K : String → Prop) (d : Diagram) : Prop where
  head : headOf d = H
  there : ∀ x, S x → x ∈ ids d
  row : ∀ x, K x → x ∈ ids d ∧ kind d x ∉ gates

variable {H : Diagram} {S K : String → Prop} {d : Diagram}

theorem Holds.upd (h : Holds H S K d) (n : String) {f : NodeAttrs → NodeAttrs} (hf : ∀ a, (f a).type = a.type) : Holds H S K (d.updNode n f) := by
  have hi : ids (d.updNode n f) = ids d := Graph.modifyNode_keys _ _ _
  have hk : ∀ x, kind (d.updNode n f) x = kind d x := by
    intro x
    simp only [kind, Diagram.updNode, Graph.modifyNode, Dict.get?_modify]
    split
    · rename_i e
      cases d.graph.nodes.get? x <;> simp [hf]
    · rfl
  refine ⟨h.head, fun x hx => by rw [hi]; exact h.there x hx, fun x hx => ?_⟩
  rw [hi, hk]
  exact h.row x hx

theorem Holds.info (h : Holds H S K d) (o : String) (ty : Option String) (act : String) (ho : ¬K o) : Holds H S K (addNodeInfo o ty act d) := by
  refine ⟨(addNodeInfo_head _ _ _ _).trans h.head, fun x hx => (keys_addNodeInfo o ty act d x).2 (Or.inr (h.there x hx)), fun x hx => ?_⟩
  obtain ⟨h1, h2⟩ := h.row x hx
  refine ⟨(keys_addNodeInfo o ty act d x).2 (Or.inr h1), ?_⟩
  obtain ⟨f, e, -⟩ := addNodeInfo_eq o ty act d
  have : x ≠ o := fun e => ho (e ▸ hx)
  have hk : kind (addNodeInfo o ty act d) x = kind d x := by
    rw [e]
    simp only [kind, Graph.modifyNode, Dict.get?_modify, Graph.get?_addNode]
    rw [if_neg (fun e => this e.symm), if_pos h1]
  rw [hk]
  exact h2

theorem Holds.edge (h : Holds H S K d) (pd : Dict String Line) (s t : String) : Holds H S K (addEdge pd s t d) := by
  have hg : ∀ x, x ∈ ids d → x ∈ ids (addEdge pd s t d) ∧ (addEdge pd s t d).graph.nodes.get? x = d.graph.nodes.get? x := by
    intro x hx
    have e : (addEdge pd s t d).graph.nodes = ((d.graph.addNode s).addNode t).nodes := by
      simp only [addEdge, Graph.modifyEdge, Graph.addEdge]
      split <;> rfl
    unfold ids
    rw [e]
    have h1 : x ∈ (d.graph.addNode s).nodes.keys := (Graph.mem_keys_addNode _ _ _).2 (Or.inr hx)
    refine ⟨(Graph.mem_keys_addNode _ _ _).2 (Or.inr h1), ?_⟩
    rw [Graph.get?_addNode, if_pos h1, Graph.get?_addNode, if_pos hx]
  refine ⟨h.head, fun x hx => (hg x (h.there x hx)).1, fun x hx => ?_⟩
  obtain ⟨h1, h2⟩ := h.row x hx
  refine ⟨(hg x h1).1, ?_⟩
  unfold kind
  rw [(hg x h1).2]
  exact h2

theorem Holds.flows (h : Holds H S K d) (fs : Dict String SeqFlow) : Holds H S K { d with sequenceFlows := fs } := ⟨h.head, h.there, h.row⟩

theorem Holds.edges (h : Holds H S K d) {g : Graph} (hg : g.nodes = d.graph.nodes) : Holds H S K { d with graph := g } :=
  ⟨h.head, fun x hx => by show x ∈ g.nodes.keys; rw [hg]; exact h.there x hx, fun x hx => by
    obtain ⟨h1, h2⟩ := h.row x hx
    unfold ids kind
    simp only [hg]
    exact ⟨h1, h2⟩⟩

theorem Holds.connection (h : Holds H S K d) (pd : Dict String Line) (s t : String) : Holds H S K (addConnectionS pd s t d).1 := by
  refine Call.next_of (P := Holds H S K) ?_ fun _ d h => Call.next_of (P := Holds H S K) ?_ fun _ d h => h.edge pd s t
  · exact look_of h fun a _ => h.upd _ fun _ => rfl
  · exact look_of h fun a _ => h.upd _ fun _ => rfl

theorem Holds.fillNode (h : Holds H S K d) (pd : Dict String Line) (nodes : List String) (n : String) (hk : ∀ x, K x → '_' ∉ x.toList) :
    Holds H S K (fillNodeS pd nodes n d).1 := by
  refine look_of h fun l _ => ?_
  split
  · exact h
  split
  · exact look_of h fun s _ => h.connection pd n s
  split
  · refine look_of h fun ty _ => Call.next_of (P := Holds H S K) ?_ fun _ d h => look_of h fun succ _ => eachS_of (fun a d h => h.connection pd _ a) succ d h
    exact (h.info _ _ _ fun hh => hk _ hh (underscore_split n)).connection pd _ _
  · refine look_of h fun cs _ => ?_
    split
    · refine look_of h fun s _ => ?_
      dsimp only
      split
      · exact h.connection pd _ _
      · refine look_of h fun ty _ => Call.next_of (P := Holds H S K) ?_ fun _ d h => h.connection pd _ _
        exact (h.info _ _ _ fun hh => hk _ hh (underscore_join s)).connection pd _ _
    · exact h

theorem Holds.fill (h : Holds H S K d) (pd : Dict String Line) (hk : ∀ x, K x → '_' ∉ x.toList) : Holds H S K (fillConnectionsS pd d).1 :=
  eachS_of (fun n d h => h.fillNode pd _ n hk) _ d h

theorem Holds.legacy (h : Holds H S K d) : Holds H S K (legacyAdjustment d) := by
  have hi : ids (legacyAdjustment d) = ids d := by simp [ids, legacyAdjustment, Dict.keys, Function.comp_def]
  have hk : ∀ x, kind (legacyAdjustment d) x = kind d x := by
    intro x
    have := get?_adjust d.graph.nodes x
    unfold kind
    rw [show (legacyAdjustment d).graph.nodes.get? x = (d.graph.nodes.get? x).map adjust from this]
    cases d.graph.nodes.get? x <;> rfl
  refine ⟨h.head, fun x hx => by rw [hi]; exact h.there x hx, fun x hx => ?_⟩
  rw [hi, hk]
  exact h.row x hx

theorem Holds.removeIncoming (h : Holds H S K d) (n : String) : Holds H S K (removeIncomingS n d).1 := by
  refine look_of h fun a _ => look_of h fun inc _ => look_of h fun f _ => look_of h fun sf _ => look_of h fun b _ => look_of h fun out _ => look_of h fun out' _ => ?_
  have h' := (h.upd sf.sourceRef (f := fun c => { c with outgoing := some out' }) fun _ => rfl).flows (d.sequenceFlows.erase f)
  refine look_of h' fun g hg => h'.edges ?_
  unfold Graph.removeEdge at hg
  split at hg
  · cases hg; rfl
  · cases hg

theorem Holds.removeOutgoing (h : Holds H S K d) (n : String) : Holds H S K (removeOutgoingS n d).1 := by
  refine look_of h fun a _ => look_of h fun out _ => look_of h fun f _ => look_of h fun sf _ => look_of h fun b _ => look_of h fun inc _ => look_of h fun inc' _ => ?_
  have h' := (h.upd sf.targetRef (f := fun c => { c with incoming := some inc' }) fun _ => rfl).flows (d.sequenceFlows.erase f)
  refine look_of h' fun g hg => h'.edges ?_
  unfold Graph.removeEdge at hg
  split at hg
  · cases hg; rfl
  · cases hg

theorem Holds.removeNode (h : Holds H S K d) (n : String) (hs : ¬S n) (hk : ¬K n) : Holds H S K (removeNodeS n d).1 := by
  refine Call.next_of (P := Holds H S K) (h.removeIncoming n) fun _ d h => Call.next_of (P := Holds H S K) (h.removeOutgoing n) fun _ d h => look_of h fun g hg => ?_
  unfold Graph.removeNode at hg
  split at hg
  · cases hg
    have mem : ∀ x, x ≠ n → x ∈ ids d → x ∈ (d.graph.nodes.erase n).keys := by
      intro x hx hm
      rw [Dict.keys_erase]
      exact (List.mem_erase_of_ne hx).2 hm
    refine ⟨h.head, fun x hx => mem x (fun e => hs (e ▸ hx)) (h.there x hx), fun x hx => ?_⟩
    have hne : x ≠ n := fun e => hk (e ▸ hx)
    obtain ⟨h1, h2⟩ := h.row x hx
    refine ⟨mem x hne h1, ?_⟩
    unfold kind
    simp only
    rw [Dict.get?_erase_ne _ hne.symm]
    exact h2
  · cases hg

theorem Holds.gotos : ∀ (l : List (String × Line)) (pd : Dict String Line) {d : Diagram}, Holds H S K d →
    (∀ p ∈ l, isGoto p.2.activity = true → ¬S p.1 ∧ ¬K p.1) → Holds H S K (removeGotosS l pd d).1
  | [], pd, d, h, _ => h
  | (o, l) :: r, pd, d, h, hg => by
    unfold removeGotosS
    split
    · rename_i hh
      obtain ⟨h1, h2⟩ := hg (o, l) (by simp) hh
      exact Call.next_of (P := Holds H S K) (h.removeNode o h1 h2) fun p d h => look_of h fun t _ => Call.next_of (P := Holds H S K) (h.connection _ _ _)
        fun _ d h => Holds.gotos r _ h fun p hp => hg p (List.mem_cons_of_mem _ hp)
    · exact Holds.gotos r _ h fun p hp => hg p (List.mem_cons_of_mem _ hp)

theorem Holds.gateways : ∀ (l : List String) (pd : Dict String Line) {d : Diagram}, Holds H (fun _ => False) K d → Holds H (fun _ => False) K (removeGatewaysS l pd d).1
  | [], pd, d, h => h
  | n :: r, pd, d, h => by
    unfold removeGatewaysS
    refine look_of h fun a ha => ?_
    split
    · rename_i hg
      refine look_of h fun inc _ => ?_
      split
      · refine look_of h fun out _ => ?_
        split
        · refine Call.next_of (P := Holds H (fun _ => False) K) (h.removeNode n (fun h => h) fun hk => ?_) fun p d h =>
            Call.next_of (P := Holds H (fun _ => False) K) (h.connection _ _ _) fun _ d h => Holds.gateways r _ h
          have := (h.row n hk).2
          unfold kind at this
          have e := need_ok ha
          rw [e] at this
          exact this hg
        · exact Holds.gateways r _ h
      · exact Holds.gateways r _ h
    · exact Holds.gateways r _ h

/-- How a call ends and what it leaves, from what it gives without the object. -/
theorem call_ok {x : Call Unit} {e : Diagram} (h : x.fine = .ok e) : x = (e, .ok ()) := by
  obtain ⟨d, a | a⟩ := x
  · cases h
  · cases h; rfl

theorem call_error {α : Type} {x : Call α} {e : PyErr} (h : x.fine = .error e) : x.2 = .error e := by
  obtain ⟨d, a | a⟩ := x
  · cases h; rfl
  · cases h

/-- What every call leaves, whether it raises or not, once the table has been read. -/
theorem holds_load {rows : List Row} (t : Table rows) (d : Diagram) :
    Holds (headOf (populate (dictOf rows) d)) (fun _ => False) (fun x => ∃ r ∈ rows, ¬GotoRow r ∧ r.order = x) (loadCsvObject rows d).1 := by
  have hk : ∀ x, (∃ r ∈ rows, ¬GotoRow r ∧ r.order = x) → '_' ∉ x.toList := by
    rintro x ⟨r, hr, -, rfl⟩
    exact tableUnder t _ (List.mem_map_of_mem hr)
  have nd : (dictOf rows).keys.Nodup := by rw [keys_dictOf]; exact t.orders
  have h0 : Holds (headOf (populate (dictOf rows) d)) (fun _ => False) (fun x => ∃ r ∈ rows, ¬GotoRow r ∧ r.order = x)
      (importNodes (dictOf rows) (populate (dictOf rows) d)) := by
    refine ⟨importNodes_head _ _, fun _ h => h.elim, ?_⟩
    rintro x ⟨r, hr, -, rfl⟩
    have hg := get?_importNodes (dictOf rows) (populate (dictOf rows) d) nd r.order
    rw [get?_dictOf t hr] at hg
    refine ⟨Dict.mem_keys_of_get? hg, ?_⟩
    unfold kind
    rw [hg, Option.bind_some, setInfo_type]
    rcases nodeType_cases r.order ⟨r.activity, r.condition, r.who, r.subprocess, r.terminated⟩ with e | e | e | e <;> rw [e] <;> decide
  unfold loadCsvObject
  rw [t.dict]
  simp only [look]
  refine Call.next_of (P := Holds _ _ _) (h0.fill _ hk) fun _ d h => Call.next_of (P := Holds _ _ _) (h.legacy.gotos _ _ ?_) fun _ d h => h.gateways _ _
  rintro p hp hg
  obtain ⟨r, hr, rfl⟩ := List.mem_map.1 hp
  refine ⟨fun h => h, ?_⟩
  rintro ⟨r', hr', hn, e⟩
  have : r' = r := List.inj_on_of_nodup_map t.orders hr' hr e
  subst this
  exact hn ((isGoto_iff r').1 hg)

/-- Nodes that the object had are still there after an exception, unless they have the order of a `goto` row. -/
theorem left_nodes {rows : List Row} (t : Table rows) (d : Diagram) {e : PyErr} (h : (loadCsvObject rows d).2 = .error e) {x : String} (hx : x ∈ ids d)
    (hg : ∀ r ∈ rows, GotoRow r → r.order ≠ x) : x ∈ ids (loadCsvObject rows d).1 := by
  have h0 : Holds (headOf (populate (dictOf rows) d)) (fun y => y = x) (fun _ => False) (importNodes (dictOf rows) (populate (dictOf rows) d)) :=
    ⟨importNodes_head _ _, fun y hy => by subst hy; exact keys_importNodes (dictOf rows) (populate (dictOf rows) d) hx, fun _ h => h.elim⟩
  have h1 := h0.fill (dictOf rows) (fun _ h => h.elim)
  have hf := fine_fillConnectionsS (dictOf rows) (importNodes (dictOf rows) (populate (dictOf rows) d))
  cases hc : fillConnections (dictOf rows) (importNodes (dictOf rows) (populate (dictOf rows) d)) with
  | error e' =>
    rw [hc] at hf
    have := call_error hf
    unfold loadCsvObject
    rw [t.dict]
    simp only [look, Call.next, this]
    exact h1.there x rfl
  | ok d1 =>
    obtain ⟨b1, b2, hb⟩ := foldlM_each hc x (keys_importNodes (dictOf rows) (populate (dictOf rows) d) hx)
    rw [fillNode] at hb
    obtain ⟨l, hl, -⟩ := except_bind_eq_ok hb
    have hk := Dict.mem_keys_of_get? (need_ok hl)
    rw [keys_dictOf] at hk
    obtain ⟨r, hr, rfl⟩ := List.mem_map.1 hk
    exact ((holds_load t d).row r.order ⟨r, hr, fun hh => hg r hr hh rfl, rfl⟩).1

/-! ### The first row that cannot be handled -/

theorem mergeScan_mem : ∀ (l s ds : List Char), ∀ x ∈ mergeScan s ds l, x.2.2 ∈ l
  | [], _, _, x, h => by simp [mergeScan] at h
  | c :: l, s, ds, x, h => by
    unfold mergeScan at h
    split at h
    · exact List.mem_cons_of_mem _ (mergeScan_mem l _ _ x h)
    split at h
    · rcases List.mem_cons.1 h with rfl | h
      · simp
      · exact List.mem_cons_of_mem _ (mergeScan_mem l _ _ x h)
    · exact List.mem_cons_of_mem _ (mergeScan_mem l _ _ x h)

theorem mergeLoop_ok : ∀ {l : List (List Char × List Char × Char)}, (∀ x ∈ l, x.2.2 ≠ '|') → ∃ r, mergeLoop l = .ok r
  | [], _ => ⟨[], rfl⟩
  | (p, ds, c) :: l, h => by
    obtain ⟨r, hr⟩ := mergeLoop_ok fun x hx => h x (List.mem_cons_of_mem _ hx)
    unfold mergeLoop
    rw [if_neg (h (p, ds, c) (by simp)), hr]
    exact ⟨_, rfl⟩

theorem mergeSuccessors_ok {r : String} (h : '|' ∉ r.toList) : ∃ cs, mergeSuccessors r = .ok cs := by
  have key : ∀ s : String, '|' ∉ s.toList → ∃ cs, (if hasInnerLetter s = true then mergeLoop (mergeScan [] [] s.toList) else .ok []) = .ok cs := by
    intro s hs
    split
    · exact mergeLoop_ok fun x hx e => hs (e ▸ mergeScan_mem _ _ _ x hx)
    · exact ⟨[], rfl⟩
  unfold mergeSuccessors
  dsimp only
  split
  · rename_i pre n e
    refine key pre ?_
    unfold trailingNumber at e
    dsimp only at e
    split at e
    · cases e
      rw [String.toList_ofList]
      intro hm
      have := (List.dropWhile_sublist _).subset (List.mem_reverse.1 hm)
      exact h (List.mem_reverse.1 this)
    · cases e
  · exact key r h

theorem onlyPresent_error {cs nodes : List String} {e : PyErr} (h : onlyPresent cs nodes = .error e) : e = .bpmnError := by
  unfold onlyPresent at h
  split at h
  · cases h; rfl
  · split at h
    · cases h
    · cases h; rfl

/-- A row that cannot be handled raises `BpmnPythonError` and changes nothing. -/
theorem fillNodeS_stuck {pd : Dict String Line} {nodes : List String} {r : String} {d : Diagram} {l : Line} (hl : pd.get? r = some l) (ht : l.terminated ≠ "yes")
    (hg : ¬GoesOn nodes r) (hb : '|' ∉ r.toList) (hj : ∀ s, s ++ "_join" ∈ ids d → ∀ pre n, trailingNumber s = some (pre, n) → 2 ≤ n) :
    fillNodeS pd nodes r d = (d, .error .bpmnError) := by
  unfold fillNodeS
  rw [hl, need_some]
  simp only [look]
  rw [if_neg ht, if_neg fun h => hg (.sequence h), if_neg fun h => hg (.split h)]
  obtain ⟨cs, hc⟩ := mergeSuccessors_ok hb
  rw [hc]
  simp only
  split
  · unfold fillMergeS
    cases ho : onlyPresent cs nodes with
    | error e =>
      cases onlyPresent_error ho
      rfl
    | ok s =>
      simp only [look]
      have hn : ∃ pre n, trailingNumber s = some (pre, n) ∧ n < 2 := by
        refine Classical.byContradiction fun hh => hg (.merge hc ho fun pre n e => ?_)
        refine Classical.byContradiction fun h2 => hh ⟨pre, n, e, by omega⟩
      obtain ⟨pre, n, e, h2⟩ := hn
      rw [if_neg]
      · unfold mergeNodeType
        rw [e]
        simp only
        rw [if_pos h2]
      · intro hh
        have := hj s ((Dict.has_iff _ _).1 hh) pre n e
        omega
  · rfl

theorem Rounds.joins {pd : Dict String Line} {nodes : List String} {rs : List String} {d d' : Diagram} {F : List (String × String)}
    (h : Rounds pd nodes rs d F d') : (∀ s, s ++ "_join" ∈ ids d → ∀ pre n, trailingNumber s = some (pre, n) → 2 ≤ n) →
      ∀ s, s ++ "_join" ∈ ids d' → ∀ pre n, trailingNumber s = some (pre, n) → 2 ≤ n := by
  induction h with
  | nil => exact fun h => h
  | @cons r rs d d1 d2 g l F hR _ ih =>
    intro hj
    refine ih ?_
    obtain ⟨hP, dm, hc, hch⟩ := hR
    intro s hs
    rw [hch.ids] at hs
    rcases hc with ⟨rfl, rfl⟩ | ⟨n, ty, rfl, hno, ha⟩
    · exact hj s hs
    · rw [ha.ids] at hs
      simp only [List.mem_append, List.mem_singleton] at hs
      rcases hs with hs | hs
      · exact hj s hs
      · cases hP with
        | split => exact absurd hs.symm (split_ne_join _ _)
        | newJoin _ _ _ _ _ _ _ h8 =>
          have := join_inj hs
          subst this
          intro pre n e
          unfold mergeNodeType at h8
          rw [e] at h8
          simp only at h8
          split at h8
          · cases h8
          · omega

theorem eachS_append {α : Type} (f : α → Diagram → Call Unit) : ∀ (l m : List α) (d : Diagram), eachS f (l ++ m) d = (eachS f l d).next fun _ d => eachS f m d
  | [], m, d => rfl
  | a :: l, m, d => by
    simp only [List.cons_append, eachS]
    obtain ⟨d', x | x⟩ := f a d
    · rfl
    · exact eachS_append f l m d'

/-- The import into a new object, up to the first row that cannot be handled. -/
theorem load_stuck {A B : List Row} {r : Row} (t : Table (A ++ r :: B))
    (hA : ∀ a ∈ A, a.terminated ≠ "yes" → GoesOn ((A ++ r :: B).map Row.order) a.order) (hr : r.terminated ≠ "yes")
    (hg : ¬GoesOn ((A ++ r :: B).map Row.order) r.order) : ∃ d F,
      Rounds (dictOf (A ++ r :: B)) ((A ++ r :: B).map Row.order) (A.map Row.order)
        (importNodes (dictOf (A ++ r :: B)) (populate (dictOf (A ++ r :: B)) {})) F d ∧
      (A.map Row.order).foldlM (fun e n => fillNode (dictOf (A ++ r :: B)) ((A ++ r :: B).map Row.order) n e)
        (importNodes (dictOf (A ++ r :: B)) (populate (dictOf (A ++ r :: B)) {})) = .ok d ∧
      loadCsvObject (A ++ r :: B) {} = (d, .error .bpmnError) := by
  have hu := tableUnder t
  have hP := planted_start t
  have n0 : ∀ x ∈ ids (importNodes (dictOf (A ++ r :: B)) (populate (dictOf (A ++ r :: B)) {})), Named ((A ++ r :: B).map Row.order) [] x := by
    intro x hx
    rw [hP.ids, keys_dictOf] at hx
    exact Or.inl hx
  have key : (importNodes (dictOf (A ++ r :: B)) (populate (dictOf (A ++ r :: B)) {})).graph.nodes.keys = (A ++ r :: B).map Row.order := by
    have := hP.ids
    rw [keys_dictOf] at this
    exact this
  have sub : ∀ x ∈ A.map Row.order, x ∈ (A ++ r :: B).map Row.order := fun x hx => by rw [List.map_append]; exact List.mem_append_left _ hx
  have nd : (A.map Row.order).Nodup := by
    have := t.orders
    rw [List.map_append] at this
    exact (List.nodup_append.1 this).1
  obtain ⟨d, h1⟩ := fill_ok hu (tableAlnum t) (keys_dictOf _) hP.inv n0 (fun x hx => by rw [hP.ids, keys_dictOf]; exact hx)
    (fun x hx => by rw [hP.ids, keys_dictOf] at hx; exact Or.inl hx) sub nd (by simp) (by
      intro x hx l hl
      obtain ⟨a, ha, rfl⟩ := List.mem_map.1 hx
      rw [get?_dictOf t (List.mem_append_left _ ha)] at hl
      cases hl
      exact hA a ha)
  obtain ⟨F, hF⟩ := fill_rounds hu h1 hP.inv n0 sub nd (by simp)
  refine ⟨d, F, hF, h1, ?_⟩
  have hr' : r ∈ A ++ r :: B := by simp
  have hst := fillNodeS_stuck (d := d) (get?_dictOf t hr') hr hg (fun h => by
      have := t.alnum r hr' _ h
      revert this; decide) (hF.joins (by
      intro s hs
      rw [hP.ids] at hs
      exact absurd (underscore_join s) (t.under _ hs)))
  have h2 := call_ok ((fine_eachS (fun n d => fine_fillNodeS (dictOf (A ++ r :: B)) ((A ++ r :: B).map Row.order) n d) (A.map Row.order) _).trans h1)
  unfold loadCsvObject
  rw [t.dict]
  simp only [look]
  unfold fillConnectionsS
  rw [key]
  have e : eachS (fillNodeS (dictOf (A ++ r :: B)) ((A ++ r :: B).map Row.order)) ((A ++ r :: B).map Row.order)
      (importNodes (dictOf (A ++ r :: B)) (populate (dictOf (A ++ r :: B)) {})) = (d, .error .bpmnError) := by
    have e1 : ((A ++ r :: B).map Row.order) = A.map Row.order ++ r.order :: B.map Row.order := by simp
    conv_lhs => rw [show eachS (fillNodeS (dictOf (A ++ r :: B)) ((A ++ r :: B).map Row.order)) ((A ++ r :: B).map Row.order)
      (importNodes (dictOf (A ++ r :: B)) (populate (dictOf (A ++ r :: B)) {})) = eachS (fillNodeS (dictOf (A ++ r :: B)) ((A ++ r :: B).map Row.order)) (A.map Row.order ++ r.order :: B.map Row.order)
      (importNodes (dictOf (A ++ r :: B)) (populate (dictOf (A ++ r :: B)) {})) from by rw [← e1]]
    rw [eachS_append, h2]
    simp only [Call.next, eachS, hst]
  rw [e]
  rfl

end Bpmn.Csv

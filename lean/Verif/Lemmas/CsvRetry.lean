import Verif.Lemmas.FailedTable
set_option linter.unusedSimpArgs false
set_option linter.unusedVariables false
/-!
# Importing a corrected table into the object that an exception left
-/
namespace Bpmn.Csv
open Bpmn Bpmn.Spec Bpmn.Spec.Csv

/-- The diagram `a` with other edges and another table of flows. -/
def swap (es : List Edge) (fs : Dict String SeqFlow) (a : Diagram) : Diagram :=
  { a with graph := { nodes := a.graph.nodes, edges := es }, sequenceFlows := fs }

theorem addEdge_swap {pd : Dict String Line} {es : List Edge} {fs : Dict String SeqFlow} {s t : String} {a : Diagram} (hs : s ∈ a.graph.nodes.keys)
    (ht : t ∈ a.graph.nodes.keys) (ha : Absorbs pd es fs s t) : addEdge pd s t (swap es fs a) = swap es fs (addEdge pd s t a) := by
  have h1 : (a.graph.addNode s).addNode t = a.graph := by rw [Graph.addNode_of_mem hs, Graph.addNode_of_mem ht]
  have h2 : ((swap es fs a).graph.addNode s).addNode t = (swap es fs a).graph := by
    rw [Graph.addNode_of_mem (g := (swap es fs a).graph) (n := s) hs, Graph.addNode_of_mem (g := (swap es fs a).graph) (n := t) ht]
  have h3 : ((swap es fs a).graph.addEdge s t) = (swap es fs a).graph := by
    unfold Graph.addEdge
    simp only [h2]
    rw [if_pos]
    exact (Graph.hasEdge_iff _ _ _).2 ha.has
  have h4 : (a.graph.addEdge s t).nodes = a.graph.nodes := by
    unfold Graph.addEdge
    simp only [h1]
    split <;> rfl
  have h5 : (es.map fun x => if x.joins s t = true then { x with attrs := newAttrs pd s t x.attrs } else x) = es := by
    conv_rhs => rw [← List.map_id es]
    refine List.map_congr_left fun x hx => ?_
    split
    · rename_i hj
      rw [ha.good x hx hj]; rfl
    · rfl
  have h6 : fs.set (flowId s t) ⟨flowId s t, s, t⟩ = fs := Dict.set_there ha.filed
  unfold addEdge
  simp only [h3]
  unfold swap
  simp only [Diagram.mk.injEq, Graph.mk.injEq, and_true, true_and, Graph.modifyEdge, h4]
  exact ⟨h5, h6⟩

theorem addConnection_swap {pd : Dict String Line} {es : List Edge} {fs : Dict String SeqFlow} {s t : String} {a a' : Diagram}
    (h : addConnection pd s t a = .ok a') (ha : Absorbs pd es fs s t) : addConnection pd s t (swap es fs a) = .ok (swap es fs a') := by
  have hc := addConnection_connected h
  obtain ⟨a1, h1, h⟩ := except_bind_eq_ok h
  obtain ⟨a2, h2, h⟩ := except_bind_eq_ok h
  cases h
  obtain ⟨b, hb, h1⟩ := except_bind_eq_ok h1
  cases h1
  obtain ⟨c, hc', h2⟩ := except_bind_eq_ok h2
  cases h2
  have e0 : ∀ (x : Diagram) n, (swap es fs x).nodeAttrs n = x.nodeAttrs n := fun _ _ => rfl
  have e1 : ∀ n f (x : Diagram), (swap es fs x).updNode n f = swap es fs (x.updNode n f) := fun _ _ _ => rfl
  unfold addConnection addOutgoing addIncoming
  simp only [e0, hb, except_bind_ok, except_pure, e1, hc']
  rw [addEdge_swap ?_ ?_ ha]
  · simp only [Diagram.updNode, Graph.modifyNode_keys]; exact hc.src
  · simp only [Diagram.updNode, Graph.modifyNode_keys]; exact hc.tgt

/-- Connections one after the other. -/
def connectAll (pd : Dict String Line) (l : List (String × String)) (d : Diagram) : Py Diagram := l.foldlM (fun d p => addConnection pd p.1 p.2 d) d

theorem connectAll_cons (pd : Dict String Line) (p : String × String) (l : List (String × String)) (d : Diagram) :
    connectAll pd (p :: l) d = (addConnection pd p.1 p.2 d >>= connectAll pd l) := rfl

theorem connectAll_swap {pd : Dict String Line} {es : List Edge} {fs : Dict String SeqFlow} : ∀ {l : List (String × String)} {a a' : Diagram},
    connectAll pd l a = .ok a' → (∀ p ∈ l, Absorbs pd es fs p.1 p.2) → connectAll pd l (swap es fs a) = .ok (swap es fs a')
  | [], a, a', h, _ => by cases h; rfl
  | p :: l, a, a', h, ha => by
    rw [connectAll_cons] at h ⊢
    obtain ⟨a1, h1, h2⟩ := except_bind_eq_ok h
    rw [addConnection_swap h1 (ha p (by simp)), except_bind_ok]
    exact connectAll_swap h2 fun q hq => ha q (List.mem_cons_of_mem _ hq)

theorem connectAll_bare {pd : Dict String Line} : ∀ {l : List (String × String)} {a a' : Diagram}, connectAll pd l a = .ok a' →
    ids a' = ids a ∧ ∀ x, bareOf a' x = bareOf a x
  | [], a, a', h => by cases h; exact ⟨rfl, fun _ => rfl⟩
  | p :: l, a, a', h => by
    rw [connectAll_cons] at h
    obtain ⟨a1, h1, h2⟩ := except_bind_eq_ok h
    have hc := addConnection_connected h1
    obtain ⟨i1, i2⟩ := connectAll_bare h2
    exact ⟨i1.trans hc.ids, fun x => (i2 x).trans (hc.bare x)⟩

theorem connectAll_absorbs {pd : Dict String Line} : ∀ {l : List (String × String)} {a a' : Diagram} (done : List (String × String)),
    connectAll pd l a = .ok a' → ((done ++ l).map Prod.fst).Nodup → (∀ p ∈ done ++ l, Plain p.1) → (∀ p ∈ done ++ l, ∀ q ∈ done ++ l, ¬(q.1 = p.2 ∧ q.2 = p.1)) →
    (∀ p ∈ done, Absorbs pd a.graph.edges a.sequenceFlows p.1 p.2) → ∀ p ∈ done ++ l, Absorbs pd a'.graph.edges a'.sequenceFlows p.1 p.2
  | [], a, a', done, h, _, _, _, hd => by cases h; simpa using hd
  | p :: l, a, a', done, h, nd, hp, hr, hd => by
    rw [connectAll_cons] at h
    obtain ⟨a1, h1, h2⟩ := except_bind_eq_ok h
    have hc := addConnection_connected h1
    have e : done ++ p :: l = (done ++ [p]) ++ l := by simp
    rw [e]
    refine connectAll_absorbs (done ++ [p]) h2 (e ▸ nd) (e ▸ hp) (e ▸ hr) fun q hq => ?_
    rcases List.mem_append.1 hq with hq | hq
    · have hne : q.1 ≠ p.1 := by
        intro hh
        rw [List.map_append] at nd
        exact (List.nodup_append.1 nd).2.2 q.1 (List.mem_map_of_mem hq) p.1 (by simp) hh
      exact (hd q hq).step hc hne (fun hh => hr q (by simp [hq]) p (by simp) hh) (hp q (by simp [hq])) (hp p (by simp))
    · simp only [List.mem_singleton] at hq
      subst hq
      exact hc.absorbs

theorem connectAll_same {pd : Dict String Line} : ∀ {l : List (String × String)} {a a' b b' : Diagram}, connectAll pd l a = .ok a' → connectAll pd l b = .ok b' →
    a.graph.edges = b.graph.edges → a.sequenceFlows = b.sequenceFlows → a'.graph.edges = b'.graph.edges ∧ a'.sequenceFlows = b'.sequenceFlows
  | [], a, a', b, b', h, h', e, f => by cases h; cases h'; exact ⟨e, f⟩
  | p :: l, a, a', b, b', h, h', e, f => by
    rw [connectAll_cons] at h h'
    obtain ⟨a1, h1, h2⟩ := except_bind_eq_ok h
    obtain ⟨b1, h1', h2'⟩ := except_bind_eq_ok h'
    have c := addConnection_connected h1
    have c' := addConnection_connected h1'
    refine connectAll_same h2 h2' ?_ ?_
    · have hh : a.graph.hasEdge p.1 p.2 = b.graph.hasEdge p.1 p.2 := by
        unfold Graph.hasEdge; rw [e]
      rw [c.edges, c'.edges, hh, e]
    · rw [c.flows, c'.flows, f]

theorem addConnection_cond {pd pd' : Dict String Line} {s t : String} (h : (pd.get? t).map (·.condition) = (pd'.get? t).map (·.condition)) (d : Diagram) :
    addConnection pd s t d = addConnection pd' s t d := by
  have : addEdge pd s t = addEdge pd' s t := by
    funext d
    unfold addEdge
    simp only [h]
  unfold addConnection
  rw [this]

theorem connectAll_cond {pd pd' : Dict String Line} : ∀ {l : List (String × String)}, (∀ p ∈ l, (pd.get? p.2).map (·.condition) = (pd'.get? p.2).map (·.condition)) →
    ∀ d, connectAll pd l d = connectAll pd' l d
  | [], _, _ => rfl
  | p :: l, h, d => by
    rw [connectAll_cons, connectAll_cons, addConnection_cond (h p (by simp))]
    congr 1
    funext d
    exact connectAll_cond (fun q hq => h q (List.mem_cons_of_mem _ hq)) d

/-- The row goes on with the next number. -/
def stepTo (r : Row) : Option (String × String) := if r.terminated = "yes" then none else (sequenceSuccessors r.order).head?.map fun m => (r.order, m)

theorem fill_steps {rows : List Row} (t : Table rows) : ∀ {A : List Row}, (∀ a ∈ A, a ∈ rows) →
    (∀ a ∈ A, a.terminated ≠ "yes" → ∃ m ∈ rows.map Row.order, sequenceSuccessors a.order = [m]) → ∀ d,
    (A.map Row.order).foldlM (fun e n => fillNode (dictOf rows) (rows.map Row.order) n e) d = connectAll (dictOf rows) (A.filterMap stepTo) d
  | [], _, _, _ => rfl
  | a :: A, hm, hs, d => by
    have ih := fill_steps t (A := A) (fun x hx => hm x (List.mem_cons_of_mem _ hx)) (fun x hx => hs x (List.mem_cons_of_mem _ hx))
    have hl := get?_dictOf t (hm a (by simp))
    rw [List.map_cons, List.foldlM_cons]
    by_cases hx : a.terminated = "yes"
    · have := fillNode_end hl hx d
      rw [keys_dictOf] at this
      rw [this, except_bind_ok, ih, List.filterMap_cons]
      simp only [stepTo, hx, if_true]
    · obtain ⟨m, hm', e⟩ := hs a (by simp) hx
      have := fillNode_onward hl hx (m := m) (by rw [keys_dictOf]; exact hm') e d
      rw [keys_dictOf] at this
      rw [this, List.filterMap_cons]
      simp only [stepTo, hx, if_false, e, List.head?_cons, Option.map_some]
      rw [connectAll_cons]
      congr 1
      funext d
      exact ih d

theorem importNodes_order : ∀ (pd : Dict String Line) (d : Diagram), pd.keys.Nodup →
    (importNodes pd d).graph.nodes.keys = d.graph.nodes.keys ++ pd.keys.filter (· ∉ d.graph.nodes.keys)
  | [], d, _ => by simp [importNodes, Dict.keys]
  | (o, l) :: pd, d, nd => by
    have nd' := (List.nodup_cons.1 (show (o :: Dict.keys pd).Nodup from nd))
    have ih := importNodes_order pd (addNodeInfo o (some (nodeType o l)) l.activity d) nd'.2
    rw [show importNodes ((o, l) :: pd) d = importNodes pd (addNodeInfo o (some (nodeType o l)) l.activity d) from rfl, ih]
    rw [show Dict.keys ((o, l) :: pd) = o :: Dict.keys pd from rfl, addNodeInfo_row]
    simp only [Graph.modifyNode_keys]
    by_cases ho : o ∈ d.graph.nodes.keys
    · rw [Graph.addNode_of_mem ho, List.filter_cons_of_neg (by simpa using ho)]
    · rw [Graph.addNode_of_not_mem ho, List.filter_cons_of_pos (by simpa using ho)]
      have e : Dict.keys (d.graph.nodes ++ [(o, ({} : NodeAttrs))]) = d.graph.nodes.keys ++ [o] := by simp [Dict.keys]
      simp only [e, List.append_assoc, List.singleton_append, List.cons.injEq, List.append_cancel_left_eq, true_and]
      refine List.filter_congr fun x hx => ?_
      have : x ≠ o := fun e => nd'.1 (e ▸ hx)
      simp [this]

/-- Writing a row into the node of a task, or into the node of the same row, gives the node that a new object would have. -/
theorem setInfo_over {o : String} {l l' : Line} {b : NodeAttrs} (h : bare b = bare (setInfo o l {})) (hl : l' = l ∨ nodeType o l = "task" ∨ o = "0") :
    setInfo o l' b = setInfo o l' {} := by
  have hb : ∀ c : NodeAttrs, setInfo o l' c = setInfo o l' (bare c) := by
    intro c
    unfold setInfo
    rcases nodeType_cases o l' with h' | h' | h' | h' <;> simp [h', Diagram.flowNodeAttrs, bare]
  rw [hb b, h, ← hb]
  rcases hl with rfl | hl | rfl
  · unfold setInfo
    rcases nodeType_cases o l' with h' | h' | h' | h' <;> simp [h', Diagram.flowNodeAttrs]
  · rw [show setInfo o l {} = Diagram.flowNodeAttrs processId "task" l.activity o {} from by unfold setInfo; simp [hl]]
    unfold setInfo
    rcases nodeType_cases o l' with h' | h' | h' | h' <;> simp [h', Diagram.flowNodeAttrs]
  · have h1 : ∀ l, nodeType "0" l = "startEvent" := fun l => rfl
    unfold setInfo
    simp [h1, Diagram.flowNodeAttrs]

theorem connectAll_ok {pd : Dict String Line} : ∀ {l : List (String × String)} {d : Diagram}, (∀ p ∈ l, p.1 ∈ ids d ∧ p.2 ∈ ids d) → ∃ d', connectAll pd l d = .ok d'
  | [], d, _ => ⟨d, rfl⟩
  | p :: l, d, h => by
    obtain ⟨d1, h1⟩ := addConnection_ok (pd := pd) (h p (by simp)).1 (h p (by simp)).2
    have c := addConnection_connected h1
    obtain ⟨d2, h2⟩ := connectAll_ok (pd := pd) (l := l) (d := d1) fun q hq => by
      rw [c.ids]; exact h q (List.mem_cons_of_mem _ hq)
    exact ⟨d2, by rw [connectAll_cons, h1]; exact h2⟩

theorem steps_sources : ∀ (A : List Row), ((A.filterMap stepTo).map Prod.fst).Sublist (A.map Row.order)
  | [] => List.Sublist.slnil
  | a :: A => by
    rw [List.filterMap_cons, List.map_cons]
    cases h : stepTo a with
    | none => exact (steps_sources A).cons _
    | some p =>
      have : p.1 = a.order := by
        unfold stepTo at h
        split at h
        · cases h
        · cases hh : (sequenceSuccessors a.order).head? with
          | none => rw [hh] at h; cases h
          | some m => rw [hh] at h; cases h; rfl
      simp only [List.map_cons, this]
      exact (steps_sources A).cons_cons _

theorem stepTo_eq {a : Row} {p : String × String} (h : stepTo a = some p) : a.terminated ≠ "yes" ∧ p.1 = a.order ∧ ∃ l, sequenceSuccessors a.order = p.2 :: l := by
  unfold stepTo at h
  split at h
  · cases h
  · rename_i ht
    cases hh : sequenceSuccessors a.order with
    | nil => rw [hh] at h; cases h
    | cons m l => rw [hh] at h; cases h; exact ⟨ht, rfl, l, rfl⟩

/-- **The corrected table.** The object that was left when the import of `A ++ r :: B` stopped at `r` takes the table in which `r` was corrected and rows were added at
the end, exactly as a new object does. -/
theorem load_corrected {A B Y : List Row} {r r' : Row} (t : Table (A ++ r :: B)) (t' : Table (A ++ r' :: (B ++ Y))) (ho : r'.order = r.order)
    (hc : r'.condition = r.condition) (hk : r' = r ∨ r.subprocess ≠ "yes")
    (hA : ∀ a ∈ A, a.terminated ≠ "yes" → ∃ m ∈ (A ++ r :: B).map Row.order, sequenceSuccessors a.order = [m])
    (hr : r.terminated ≠ "yes") (hg : ¬GoesOn ((A ++ r :: B).map Row.order) r.order) :
    ∃ L, loadCsvObject (A ++ r :: B) {} = (L, .error .bpmnError) ∧ loadCsvObject (A ++ r' :: (B ++ Y)) L = loadCsvObject (A ++ r' :: (B ++ Y)) {} := by
  obtain ⟨L, F, -, hL, he⟩ := load_stuck t (fun a ha hx => by
    obtain ⟨m, hm, e⟩ := hA a ha hx
    exact .sequence (anyPresent_iff.2 ⟨m, by rw [e]; simp, hm⟩)) hr hg
  refine ⟨L, he, ?_⟩
  rw [fill_steps t (fun a ha => List.mem_append_left _ ha) hA] at hL
  have hP := planted_start t
  have hP' := planted_start t'
  generalize hR : A ++ r :: B = R at *
  generalize hQ : A ++ r' :: (B ++ Y) = Q at *
  generalize hD : importNodes (dictOf R) (populate (dictOf R) {}) = D at *
  generalize hE : importNodes (dictOf Q) (populate (dictOf Q) {}) = E at *
  have AR : ∀ a ∈ A, a ∈ R := fun a ha => hR ▸ List.mem_append_left _ ha
  have AQ : ∀ a ∈ A, a ∈ Q := fun a ha => hQ ▸ List.mem_append_left _ ha
  have orders : Q.map Row.order = R.map Row.order ++ Y.map Row.order := by
    rw [← hR, ← hQ]; simp [ho]
  have RQ : ∀ x ∈ R.map Row.order, x ∈ Q.map Row.order := fun x hx => by rw [orders]; exact List.mem_append_left _ hx
  have line : ∀ x ∈ R, ∃ y ∈ Q, y.order = x.order ∧ y.condition = x.condition ∧ (y = x ∨ (x = r ∧ y = r')) := by
    intro x hx
    rw [← hR] at hx
    rw [← hQ]
    rcases List.mem_append.1 hx with hx | hx
    · exact ⟨x, by simp [hx], rfl, rfl, Or.inl rfl⟩
    · rcases List.mem_cons.1 hx with rfl | hx
      · exact ⟨r', by simp, ho, hc, Or.inr ⟨rfl, rfl⟩⟩
      · exact ⟨x, by simp [hx], rfl, rfl, Or.inl rfl⟩
  have pair : ∀ p ∈ A.filterMap stepTo, p.1 ∈ R.map Row.order ∧ p.2 ∈ R.map Row.order ∧ sequenceSuccessors p.1 = [p.2] := by
    intro p hp
    obtain ⟨a, ha, e⟩ := List.mem_filterMap.1 hp
    obtain ⟨h1, h2, l, h3⟩ := stepTo_eq e
    obtain ⟨m, hm, e'⟩ := hA a ha h1
    rw [h2]
    rw [e'] at h3
    cases h3
    exact ⟨List.mem_map_of_mem (AR a ha), hm, e'⟩
  have cond : ∀ p ∈ A.filterMap stepTo, ((dictOf Q).get? p.2).map (·.condition) = ((dictOf R).get? p.2).map (·.condition) := by
    intro p hp
    obtain ⟨-, h2, -⟩ := pair p hp
    obtain ⟨x, hx, e⟩ := List.mem_map.1 h2
    obtain ⟨y, hy, e1, e2, -⟩ := line x hx
    rw [← e, get?_dictOf t hx, ← e1, get?_dictOf t' hy]
    simp [e2]
  rw [← connectAll_cond cond] at hL
  have kE : E.graph.nodes.keys = Q.map Row.order := by
    have := hP'.ids
    rw [keys_dictOf] at this
    exact this
  have kD : D.graph.nodes.keys = R.map Row.order := by
    have := hP.ids
    rw [keys_dictOf] at this
    exact this
  obtain ⟨Z, hZ⟩ := connectAll_ok (pd := dictOf Q) (l := A.filterMap stepTo) (d := E) fun p hp => by
    obtain ⟨h1, h2, -⟩ := pair p hp
    unfold ids
    rw [kE]
    exact ⟨RQ _ h1, RQ _ h2⟩
  obtain ⟨s1, s2⟩ := connectAll_same hL hZ (hP.edges.trans hP'.edges.symm) (hP.flows.trans hP'.flows.symm)
  obtain ⟨b1, b2⟩ := connectAll_bare hL
  have habs := connectAll_absorbs (pd := dictOf Q) (l := A.filterMap stepTo) [] hZ
    (by
      have : (A.map Row.order).Nodup := by
        have := t.orders
        rw [← hR, List.map_append] at this
        exact (List.nodup_append.1 this).1
      simpa using this.sublist (steps_sources A))
    (fun p hp => plain_of_no_underscore (tableUnder t _ (pair p (by simpa using hp)).1))
    (fun p hp q hq hh => by
      obtain ⟨p1, p2, p3⟩ := pair p (by simpa using hp)
      obtain ⟨q1, q2, q3⟩ := pair q (by simpa using hq)
      rw [hh.1] at q3
      exact seq_back t (n := p.1) (by rw [keys_dictOf]; exact p1) p3 q3 hh.2) (by simp)
  simp only [List.nil_append] at habs
  have nd' : (dictOf Q).keys.Nodup := by rw [keys_dictOf]; exact t'.orders
  have hB : importNodes (dictOf Q) (populate (dictOf Q) L) = swap Z.graph.edges Z.sequenceFlows E := by
    refine diagram_ext ?_ ?_ ?_
    · rw [importNodes_head, show headOf (swap Z.graph.edges Z.sequenceFlows E) = headOf E from rfl, ← hE, importNodes_head]
      have hh : headOf L = headOf (populate (dictOf R) {}) := by
        have := (holds_load t {}).head
        rw [he] at this
        exact this
      have e1 := congrArg (fun d : Diagram => d.processElements) hh
      have e2 := congrArg (fun d : Diagram => d.collaboration) hh
      unfold headOf populate at *
      simp only [Diagram.mk.injEq, true_and, and_true] at *
      refine ⟨?_, e2⟩
      rw [e1]
      simp [Dict.set]
    · have hed := (importNodes_rest (dictOf Q) (populate (dictOf Q) L)).1
      have hno : (importNodes (dictOf Q) (populate (dictOf Q) L)).graph.nodes = (swap Z.graph.edges Z.sequenceFlows E).graph.nodes := by
        have hik : (importNodes (dictOf Q) (populate (dictOf Q) L)).graph.nodes.keys = Q.map Row.order := by
          rw [importNodes_order _ _ nd', show (populate (dictOf Q) L).graph.nodes.keys = R.map Row.order from b1.trans kD, keys_dictOf, orders, List.filter_append]
          have f1 : (R.map Row.order).filter (fun x => decide (x ∉ R.map Row.order)) = [] := by
            rw [List.filter_eq_nil_iff]
            intro x hx
            simpa using hx
          have f2 : (Y.map Row.order).filter (fun x => decide (x ∉ R.map Row.order)) = Y.map Row.order := by
            rw [List.filter_eq_self]
            intro x hx
            have := t'.orders
            rw [orders] at this
            have := (List.nodup_append.1 this).2.2
            simp only [decide_eq_true_eq]
            exact fun hm => this x hm x hx rfl
          rw [f1, f2, List.nil_append]
        refine Import.Dict.ext_get? (hik.trans kE.symm) (by rw [hik]; exact t'.orders) fun x => ?_
        show _ = E.graph.nodes.get? x
        rw [get?_importNodes _ _ nd', ← hE, get?_importNodes _ _ nd']
        cases hx : (dictOf Q).get? x with
        | none =>
          have hx' := (Dict.get?_eq_none_iff _ _).1 hx
          rw [keys_dictOf] at hx'
          simp only
          have : x ∉ L.graph.nodes.keys := by
            rw [show L.graph.nodes.keys = R.map Row.order from b1.trans kD]
            exact fun hm => hx' (RQ x hm)
          rw [show (populate (dictOf Q) L).graph.nodes.get? x = none from (Dict.get?_eq_none_iff _ _).2 this]
          rfl
        | some l =>
          simp only [Option.some.injEq]
          show setInfo x l ((L.graph.nodes.get? x).getD {}) = setInfo x l {}
          cases hb : L.graph.nodes.get? x with
          | none => rfl
          | some b =>
            have hin := Dict.mem_keys_of_get? hb
            rw [show L.graph.nodes.keys = R.map Row.order from b1.trans kD] at hin
            obtain ⟨w, hw, rfl⟩ := List.mem_map.1 hin
            have hbb := b2 w.order
            have hDx : D.graph.nodes.get? w.order = some (setInfo w.order ⟨w.activity, w.condition, w.who, w.subprocess, w.terminated⟩ {}) := by
              rw [← hD, get?_importNodes _ _ (by rw [keys_dictOf]; exact t.orders), get?_dictOf t hw]; rfl
            unfold bareOf at hbb
            rw [hb, hDx] at hbb
            obtain ⟨y, hy, e1, -, e3⟩ := line w hw
            have hy' := get?_dictOf t' hy
            rw [e1, hx] at hy'
            cases hy'
            refine setInfo_over (Option.some.inj hbb) ?_
            rcases e3 with rfl | ⟨rfl, rfl⟩
            · exact Or.inl rfl
            · rcases hk with rfl | hk
              · exact Or.inl rfl
              · by_cases h0 : w.order = "0"
                · exact Or.inr (Or.inr h0)
                · refine Or.inr (Or.inl ?_)
                  unfold nodeType
                  rw [if_neg h0, if_neg hr, if_neg hk]
      have : ∀ g g' : Graph, g.nodes = g'.nodes → g.edges = g'.edges → g = g' := by
        intro g g' a b
        cases g; cases g'
        simp only [Graph.mk.injEq]
        exact ⟨a, b⟩
      exact this _ _ hno (hed.trans s1)
    · exact (importNodes_rest (dictOf Q) (populate (dictOf Q) L)).2.trans s2
  have hfill : fillConnectionsS (dictOf Q) (swap Z.graph.edges Z.sequenceFlows E) = fillConnectionsS (dictOf Q) E := by
    unfold fillConnectionsS
    have k2 : (swap Z.graph.edges Z.sequenceFlows E).graph.nodes.keys = Q.map Row.order := kE
    rw [k2, kE]
    have hs : ∀ a ∈ A, a.terminated ≠ "yes" → ∃ m ∈ Q.map Row.order, sequenceSuccessors a.order = [m] := fun a ha hx => by
      obtain ⟨m, hm, e⟩ := hA a ha hx
      exact ⟨m, RQ m hm, e⟩
    have step : ∀ d d', connectAll (dictOf Q) (A.filterMap stepTo) d = .ok d' →
        eachS (fillNodeS (dictOf Q) (Q.map Row.order)) (A.map Row.order) d = (d', .ok ()) := by
      intro d d' h
      refine call_ok ((fine_eachS (fun n d => fine_fillNodeS (dictOf Q) (Q.map Row.order) n d) (A.map Row.order) d).trans ?_)
      rw [fill_steps t' AQ hs, h]
    have e1 : ∃ rest, Q.map Row.order = A.map Row.order ++ rest := ⟨(r' :: (B ++ Y)).map Row.order, by rw [← hQ, List.map_append]⟩
    obtain ⟨rest, e1⟩ := e1
    generalize Q.map Row.order = qs at *
    subst e1
    rw [eachS_append, eachS_append, step _ _ hZ, step _ _ (connectAll_swap hZ habs)]
    rfl
  unfold loadCsvObject
  rw [t'.dict]
  simp only [look]
  rw [hB, hfill, hE]

end Bpmn.Csv

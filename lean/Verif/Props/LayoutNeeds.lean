import Verif.Lemmas.SortNeeds
import Verif.Props.GotoConsistent
import Verif.Props.Construction
import Verif.Lemmas.CsvRun
/-!
# C112: diagrams whose lists and flows disagree are never laid out
-/
set_option linter.unusedSimpArgs false
set_option linter.unusedVariables false

namespace Bpmn.Props
open Bpmn.Spec Bpmn.Layouter

/-- **C112 (what a layout needs).** Whatever the diagram: if `generate_layout` returns, every node has its two lists; every id in an outgoing list is the id of a flow, and the node
this flow leads to has the id in its incoming list; every id in an incoming list is the id of a flow to this node, and is in an outgoing list. -/
theorem C112_lists (d d' : Diagram) (hid : (d.getNodes.map (·.1)).Nodup) (fuel : Nat) (h : generateLayout fuel d = .ok d') :
    (∀ n ∈ d.getNodes, n.2.incoming.isSome ∧ n.2.outgoing.isSome) ∧
    (∀ n ∈ d.getNodes, ∀ i ∈ outs n, ∃ m ∈ d.getNodes, i ∈ ins m ∧ ∃ f, d.getFlowById i = .ok (some f) ∧ f.2.2.targetRef = some m.1) ∧
    (∀ m ∈ d.getNodes, ∀ i ∈ ins m, (∃ f, d.getFlowById i = .ok (some f) ∧ f.2.2.targetRef = some m.1) ∧ ∃ n ∈ d.getNodes, i ∈ outs n) :=
  layout_lists hid h

theorem saneIds {d : Diagram} (h : Sane d) : (d.getNodes.map (·.1)).Nodup := h.nodesUnique

/-- The call is neither a new beginning, nor does it add the node `n` again or a flow with the id `g`. -/
def Spares (n g : String) : Op → Prop
  | .createNew _ _ => False
  | .addSequenceFlow _ _ _ _ uid => uid ≠ g
  | op => ∀ a, declaredNode op = some a → a.id ≠ n

/-- The node `n` lists the flow `g`, which is gone. -/
structure Lost (d : Diagram) (n g : String) : Prop where
  sane : Sane d
  gone : d.getFlowById g = .ok none
  listed : ∃ a l, d.getNodeById n = some (n, a) ∧ a.outgoing = some l ∧ g ∈ l

theorem Lost.exec {d : Diagram} {n g : String} (h : Lost d n g) {op : Op} (ho : Spares n g op) : Lost (op.exec d).1 n g := by
  have node : ∀ {op : Op} {a : ANode}, declaredNode op = some a → a.id ≠ n → Lost (op.exec d).1 n g := by
    intro op a ha hne
    obtain ⟨f, he, -⟩ := nodeOp_effect d ha
    refine ⟨h.sane.exec op, ?_, ?_⟩
    · rw [getFlowById_none_iff (h.sane.exec op), he]
      have := (getFlowById_none_iff h.sane g).1 h.gone
      simpa using this
    · obtain ⟨b, l, h1, h2⟩ := h.listed
      refine ⟨b, l, ?_, h2⟩
      rw [getNodeById_eq] at h1 ⊢
      rw [he, get?_addNode_modify, if_neg (Ne.symm hne)]
      exact h1
  cases op with
  | createNew => exact ho.elim
  | addProcess => exact ⟨h.sane.exec _, h.gone, h.listed⟩
  | addSequenceFlow p s t nm uid =>
    have sane' : Sane (d.addSequenceFlow p s t nm uid).1 := h.sane.exec (.addSequenceFlow p s t nm uid)
    refine ⟨sane', ?_, ?_⟩
    · obtain ⟨f, hf, he, -⟩ := addSequenceFlow_effect d p s t nm uid
      show (d.addSequenceFlow p s t nm uid).1.getFlowById g = _
      rw [getFlowById_none_iff sane', he]
      have old := (getFlowById_none_iff h.sane g).1 h.gone
      intro x hx hid
      rw [edges_addEdge_modify, List.mem_append] at hx
      rcases hx with hx | hx
      · obtain ⟨y, hy, rfl⟩ := List.mem_map.1 hx
        split at hid
        · simp [hf] at hid; exact ho hid
        · exact old y hy hid
      · split at hx
        · simp at hx
        · simp at hx; subst hx; simp [hf] at hid; exact ho hid
    · obtain ⟨b, l, h1, h2, h3⟩ := h.listed
      rw [getNodeById_eq] at h1
      cases hx : d.graph.nodes.get? n with
      | none => rw [hx] at h1; simp at h1
      | some a0 =>
        rw [hx] at h1; simp at h1; subst h1
        obtain ⟨a2, k1, k2, -⟩ := addSequenceFlow_lists d p s t nm uid n hx
        obtain ⟨l', hl'⟩ := k2 l h2
        exact ⟨a2, l ++ l', by show (d.addSequenceFlow p s t nm uid).1.getNodeById n = _; rw [getNodeById_eq, k1]; rfl, hl', List.mem_append_left _ h3⟩
  | _ => exact node rfl (ho _ rfl)

theorem Lost.run {n g : String} : ∀ (ops : List Op) {d : Diagram}, Lost d n g → (∀ op ∈ ops, Spares n g op) → Lost (Op.run d ops) n g
  | [], d, h, _ => h
  | op :: ops, d, h, ho => Lost.run ops (h.exec (ho op (by simp))) fun o hm => ho o (by simp [hm])

theorem Lost.never {d : Diagram} {n g : String} (h : Lost d n g) (fuel : Nat) (d' : Diagram) : generateLayout fuel d ≠ .ok d' := by
  intro hl
  obtain ⟨a, l, h1, h2, h3⟩ := h.listed
  have hm : (n, a) ∈ d.getNodes := List.mem_of_find?_eq_some h1
  obtain ⟨m, -, -, f, hf, -⟩ := (C112_lists d d' (saneIds h.sane) fuel hl).2.1 _ hm g (by simp [outs, h2, h3])
  rw [h.gone] at hf
  cases hf

/-- **C112 (connected twice).** Two nodes are joined by a flow `g`, listed by its source, and a second flow is added between them, in either direction. From then on
`generate_layout` never returns, whatever calls follow, unless the diagram is begun anew, the source is added again or `g` is used as an id again. -/
theorem C112_connected_twice (d : Diagram) (hs : Sane d) (hu : (d.getFlows.map (·.2.2.id)).Nodup) (p s t nm uid g : String) (hg : g ≠ uid) (a b : String) (e : EdgeAttrs)
    (hfind : d.getFlowById g = .ok (some (a, b, e))) (hpair : SamePair a b s t) (n : String) (na : NodeAttrs) (l : List String)
    (hn : d.getNodeById n = some (n, na)) (hl : na.outgoing = some l) (hgl : g ∈ l) (ops : List Op) (ho : ∀ op ∈ ops, Spares n g op) :
    ∀ fuel d', generateLayout fuel (Op.run (d.addSequenceFlow p s t nm uid).1 ops) ≠ .ok d' := by
  obtain ⟨h1, -, h2⟩ := C02_reconnecting_loses_flow d hs hu p s t nm uid g hg a b e hfind hpair
  obtain ⟨at2, h3, h4, -⟩ := h2 n na hn
  obtain ⟨l', h5, h6⟩ := h4 l hl hgl
  exact (Lost.run ops ⟨hs.exec (.addSequenceFlow p s t nm uid), h1, at2, l', h3, h5, h6⟩ ho).never

/-- **C112 (added again).** A node of a consistent diagram has a flow to or from another node, and a node is added under the same id. Then `generate_layout` does not return. -/
theorem C112_added_again (d : Diagram) (h : Consistent d) (op : Op) (a : ANode) (ha : declaredNode op = some a) (hdir : ∀ dir, directionArg op = some dir → dir ∈ directions)
    (i : String) (m m' : Node) (hm : m ∈ d.getNodes) (hm' : m' ∈ d.getNodes) (hf : FlowFromTo d i m.1 m'.1) (hi : i ∈ outs m) (hne : m.1 ≠ m'.1)
    (he : a.id = m.1 ∨ a.id = m'.1) : ∀ fuel d', generateLayout fuel (op.exec d).1 ≠ .ok d' := by
  intro fuel d' hl
  have hold : d.getNodeById a.id ≠ none := by
    rcases he with e | e
    · rw [e, h.getNodeById hm]; simp
    · rw [e, h.getNodeById hm']; simp
  obtain ⟨-, hids, hflows, hother, na, hna, hin, hout⟩ := C05_readding_empties_lists d op a ha hdir hold
  have nd : ((op.exec d).1.getNodes.map (·.1)).Nodup := by rw [hids]; exact h.ids
  obtain ⟨-, l1, l2⟩ := C112_lists _ _ nd fuel hl
  have hfl : ∀ j, (op.exec d).1.getFlowById j = d.getFlowById j := by
    intro j
    unfold Diagram.getFlowById
    have : (op.exec d).1.graph.flows = d.graph.flows := hflows
    rw [this]
  -- a node of the new diagram is the one that was added or an old one
  have lookup : ∀ {n : Node}, n ∈ (op.exec d).1.getNodes → n = (a.id, na) ∨ n.1 ≠ a.id ∧ n ∈ d.getNodes := by
    intro n hn
    have e : (op.exec d).1.getNodeById n.1 = some n := by
      obtain ⟨i, b⟩ := n
      rw [getNodeById_eq]
      have : (op.exec d).1.graph.nodes.get? i = some b := Dict.get?_of_mem nd hn
      simp [this]
    by_cases c : n.1 = a.id
    · rw [c, hna] at e
      exact Or.inl (Option.some.inj e).symm
    · rw [hother n.1 c] at e
      exact Or.inr ⟨c, (Consistent.mem_of_getNodeById e).1⟩
  have keeps : ∀ {n : Node}, n ∈ d.getNodes → n.1 ≠ a.id → n ∈ (op.exec d).1.getNodes := by
    intro n hn c
    have e := h.getNodeById hn
    rw [← hother n.1 c] at e
    exact (Consistent.mem_of_getNodeById e).1
  obtain ⟨u, v, w, hg, -, hsrc, htgt⟩ := hf
  rcases he with e | e
  · -- the source is added again
    obtain ⟨x, hx, hf', hx'⟩ := h.outFlow m hm i hi
    obtain ⟨u', v', w', hg', -, -, htgt'⟩ := hf'
    rw [hg] at hg'
    cases hg'
    have : x = m' := List.inj_on_of_nodup_map h.ids hx hm' (Option.some.inj (htgt'.symm.trans htgt))
    subst this
    obtain ⟨-, n, hn, hin'⟩ := l2 x (keeps hx (by rw [e]; exact Ne.symm hne)) i hx'
    rcases lookup hn with rfl | ⟨c, hn'⟩
    · simp [outs, hout] at hin'
    · obtain ⟨y, -, ⟨u2, v2, w2, hg2, -, hs2, -⟩, -⟩ := h.outFlow n hn' i hin'
      rw [hg] at hg2
      cases hg2
      rw [hsrc] at hs2
      exact c (by rw [e]; exact (Option.some.inj hs2).symm)
  · -- the target is added again
    obtain ⟨x, hx, hxi, f, hf', ht'⟩ := l1 m (keeps hm (by rw [e]; exact hne)) i hi
    rw [hfl, hg] at hf'
    cases hf'
    simp only [htgt, Option.some.injEq] at ht'
    rcases lookup hx with rfl | ⟨c, -⟩
    · simp [ins, hin] at hxi
    · exact c (by rw [e]; exact ht'.symm)

/-- **C112 (loops in tables).** A table with `goto` rows one of which asks for a flow against an existing one, for example goes back to the row directly before the split: it is
imported, but `generate_layout` does not return. -/
theorem C112_goto (rows : List Csv.Row) (T : Spec.Csv.GotoTable rows) (S : Spec.Csv.SplitTable rows) (hn : ¬Spec.Csv.NoWayBack rows) (d : Diagram)
    (h : Csv.loadCsv rows {} = .ok d) : ∀ fuel d', generateLayout fuel d ≠ .ok d' := by
  intro fuel d' hl
  obtain ⟨d0, F, d1, d2, s⟩ := Csv.stages T.table h
  refine hn (T.turns S h ?_).1
  intro n hn i hi
  obtain ⟨m, -, -, f, hf, -⟩ := (C112_lists d d' s.keep.inv.sane.nodesUnique fuel hl).2.1 n hn i hi
  exact ⟨f, hf⟩

/-- **C112 (the CSV export of such diagrams).** If the diagram has one node without incoming flows, this is a start event, and the first flow it lists is gone, the CSV export raises `TypeError`. -/
theorem C112_csv (d : Diagram) (hc : Complete d) (s : Node) (hs : Spec.Csv.starts d = [s]) (ht : s.2.type = some "startEvent") (name : String) (hn : s.2.nodeName = some name) (i : String) (is : List String)
    (ho : s.2.outgoing = some (i :: is)) (hg : d.getFlowById i = .ok none) : ∀ fuel, Csv.exportRows d (fuel + 1) = .error .typeError := by
  intro fuel
  obtain ⟨cls, hcls⟩ : ∃ cls, Classify.generateNodesClassification d = .ok cls := by
    rw [Classify.generateNodesClassification, nodesLoop_eq hc _ (by decide)]
    exact ⟨_, rfl⟩
  rw [Csv.exportRows, Csv.startNodes_eq fun n hn => (hc n hn).2.1, show d.getNodes.filter (fun n => (ins n).length = 0) = [s] from hs]
  simp only [bind, Except.bind, hcls, Csv.exportNode, Csv.found, ht, need, if_true, Csv.exportStart, hn, ho, pyIndex, List.getElem?_cons_zero, Csv.flowTarget, hg]

/-! ## Concrete cases -/

/-- The demo diagram, its first flow added a second time, and another task. -/
def twiceOps : List Op := [.addTask "P" "t3" (some "t3") "u6", .addSequenceFlow "P" "t1" "t3" "" "f6"]

/-- The flow from the start event is added a second time; `C112_connected_twice` applies, also after further calls. -/
example : ∀ fuel d', generateLayout fuel (Op.run ((Op.run {} demoOps).addSequenceFlow "P" "s" "g" "" "f5").1 twiceOps) ≠ .ok d' := by
  have hc := consistent_of_allowed _ demo_allowed
  have hsane : Sane (Op.run {} demoOps) := C10_graph_stays_simple demoOps
  obtain ⟨a, b, e, h1, h2, h3⟩ : ∃ a b e, (Op.run {} demoOps).getFlowById "f1" = .ok (some (a, b, e)) ∧ a = "s" ∧ b = "g" := ⟨_, _, _, rfl, rfl, rfl⟩
  subst h2 h3
  refine C112_connected_twice _ hsane hc.flowIds "P" "s" "g" "" "f5" "f1" (by decide) _ _ _ h1 (Or.inl ⟨rfl, rfl⟩) "s" _ ["f1"] rfl rfl (by simp) twiceOps ?_
  intro op hop
  simp only [twiceOps, List.mem_cons, List.not_mem_nil, or_false] at hop
  rcases hop with rfl | rfl
  · intro a ha
    simp [declaredNode, chosen] at ha
    subst ha
    decide
  · show "f6" ≠ "f1"
    decide

/-- The gateway is added again; `C112_added_again` applies. -/
example : ∀ fuel d', generateLayout fuel (Op.exec (Op.run {} demoOps) (.addParallelGateway "P" "again" "Mixed" (some "g") "u")).1 ≠ .ok d' := by
  have hc := consistent_of_allowed _ demo_allowed
  refine C112_added_again _ hc _ _ rfl (by decide) "f1" _ _ (Consistent.mem_of_getNodeById (i := "s") rfl).1 (Consistent.mem_of_getNodeById (i := "g") rfl).1
    ⟨_, _, _, rfl, rfl, rfl, rfl⟩ (by decide) (by decide) (Or.inr rfl)

/-- The check that is repeated; `C112_goto` applies. -/
example : ¬Spec.Csv.NoWayBack checkTable ∧ ∃ d, Csv.loadCsv checkTable {} = .ok d ∧ ∀ fuel d', generateLayout fuel d ≠ .ok d' := by
  have hn : ¬Spec.Csv.NoWayBack checkTable := fun N =>
    N.branch (Csv.Row.mk "2a" "goto 1" "no" "" "" "") (by decide) ⟨'g', 'o', 't', 'o', " 1".toList, rfl, by simp⟩ (Csv.Row.mk "1" "check" "" "clerk" "" "") (by decide)
      check_goesTo (Csv.Row.mk "1" "check" "" "clerk" "" "") (by decide) (by decide) _ check_opens ⟨'a', [], by decide, by decide, by simp⟩ rfl
  obtain ⟨d, hd, -⟩ := ok_of_check (x := Csv.loadCsv checkTable {}) (fun _ => true) (by decide +kernel)
  exact ⟨hn, d, hd, C112_goto _ check_gotoTable check_splitTable hn d hd⟩

/-- The flow from the start event is added a second time; `C112_csv` applies. -/
example : ∀ fuel, Csv.exportRows ((Op.run {} demoOps).addSequenceFlow "P" "s" "g" "" "f5").1 (fuel + 1) = .error .typeError :=
  C112_csv _ (by unfold Complete; decide +kernel) _ rfl rfl "s" rfl "f1" ["f5"] rfl rfl

end Bpmn.Props

import Verif.Lemmas.CsvFlatExport
import Verif.Lemmas.Saved
import Verif.Spec.CsvFiled
import Verif.Props.CsvResult
/-! The CSV export of the diagram of a flat table whose flows are named after their conditions. -/
set_option linter.unusedSimpArgs false
set_option linter.unusedVariables false

namespace Bpmn.Csv
open Bpmn.Spec Bpmn.Spec.Csv Bpmn.Props

/-- The diagram with the flows named after their conditions. -/
def renamed (d : Diagram) : Diagram := { d with graph := { d.graph with edges := d.graph.edges.map savedEdge } }

/-- The flow named after its condition. -/
def renameFlow (f : Flow) : Flow := (f.1, f.2.1, savedFlow f.2.2)

theorem incident_renamed (es : List Edge) (seen : List String) (n : String) :
    Graph.incident (es.map savedEdge) seen n = (Graph.incident es seen n).map renameFlow := by
  induction es with
  | nil => rfl
  | cons e es ih =>
    simp only [Graph.incident] at ih ⊢
    rw [List.map_cons, List.filterMap_cons, List.filterMap_cons, ih]
    simp only [savedEdge]
    by_cases h1 : e.u = n
    · by_cases h2 : e.v ∈ seen <;> simp [h1, h2, renameFlow]
    · by_cases h2 : e.v = n
      · by_cases h3 : e.u ∈ seen <;> simp [h1, h2, h3, renameFlow]
      · simp [h1, h2]

theorem iterFrom_renamed (es : List Edge) : ∀ (ns seen : List String), Graph.iterFrom (es.map savedEdge) seen ns = (Graph.iterFrom es seen ns).map renameFlow
  | [], seen => rfl
  | n :: ns, seen => by simp only [Graph.iterFrom, incident_renamed, iterFrom_renamed es ns, List.map_append]

theorem flows_renamed (d : Diagram) : (renamed d).getFlows = d.getFlows.map renameFlow := iterFrom_renamed d.graph.edges _ _

theorem flowById_renamed (d : Diagram) (i : String) : (renamed d).getFlowById i = (d.getFlowById i).map (Option.map renameFlow) := by
  have key : ∀ l : List Flow, pyFind (fun f : Flow => do let j ← need f.2.2.id; pure (j == i)) (l.map renameFlow) =
      (pyFind (fun f : Flow => do let j ← need f.2.2.id; pure (j == i)) l).map (Option.map renameFlow) := by
    intro l
    induction l with
    | nil => rfl
    | cons f l ih =>
      simp only [List.map_cons, pyFind, ih]
      rw [show (renameFlow f).2.2.id = f.2.2.id from (savedFlow_fields f.2.2).1]
      cases need f.2.2.id with
      | error e => rfl
      | ok j =>
        simp only [bind, Except.bind, pure, Except.pure]
        split <;> rfl
  have := flows_renamed d
  unfold Diagram.getFlows at this
  unfold Diagram.getFlowById
  rw [this]
  exact key _

theorem FlowFromTo.renamed {d : Diagram} {i s t : String} (h : FlowFromTo d i s t) : FlowFromTo (renamed d) i s t := by
  obtain ⟨a, b, e, h1, h2, h3, h4⟩ := h
  refine ⟨a, b, savedFlow e, by rw [flowById_renamed, h1]; rfl, ?_, ?_, ?_⟩
  · rw [(savedFlow_fields e).1, h2]
  · rw [(savedFlow_fields e).2.2.1, h3]
  · rw [(savedFlow_fields e).2.2.2.1, h4]

theorem Consistent.renamed {d : Diagram} (h : Consistent d) : Consistent (renamed d) := by
  refine ⟨h.ids, h.lists, h.typed, ?_, ?_, ?_, ?_⟩
  · intro n hn i hi
    obtain ⟨m, h1, h2, h3⟩ := h.outFlow n hn i hi
    exact ⟨m, h1, FlowFromTo.renamed h2, h3⟩
  · intro n hn i hi
    obtain ⟨m, h1, h2, h3⟩ := h.inFlow n hn i hi
    exact ⟨m, h1, FlowFromTo.renamed h2, h3⟩
  · rw [flows_renamed, List.map_map]
    have := h.flowIds
    have e : d.getFlows.map ((fun x : Flow => x.2.2.id) ∘ renameFlow) = d.getFlows.map fun x : Flow => x.2.2.id :=
      List.map_congr_left fun (f : Flow) _ => (savedFlow_fields f.2.2).1
    rw [e]
    exact this
  · intro f hf
    rw [flows_renamed] at hf
    obtain ⟨f, hf', rfl⟩ := List.mem_map.1 hf
    obtain ⟨i, n, h1, h2, h3, h4⟩ := h.listed f hf'
    exact ⟨i, n, h1, by rw [← h2]; exact (savedFlow_fields f.2.2).1, by rw [← h3]; exact (savedFlow_fields f.2.2).2.2.1, h4⟩

theorem savedFlow_name (a : EdgeAttrs) (h : a.name.isSome) : (savedFlow a).name.isSome := by
  unfold savedFlow; split
  · rfl
  · exact h

theorem Sane.renamed {d : Diagram} (h : Sane d) : Sane (renamed d) := by
  refine ⟨h.nodesUnique, ?_, ?_, ?_⟩
  · intro e he
    obtain ⟨e, he', rfl⟩ := List.mem_map.1 he
    exact h.endsKnown e he'
  · exact List.pairwise_map.2 h.onePerPair
  · intro e he
    obtain ⟨e, he', rfl⟩ := List.mem_map.1 he
    obtain ⟨h1, h2, s, t, h3, h4, h5⟩ := h.described e he'
    obtain ⟨f1, f2, f3, f4, -⟩ := savedFlow_fields e.attrs
    exact ⟨by rw [← f1] at h1; exact h1, savedFlow_name _ h2, s, t, f3.trans h3, f4.trans h4, h5⟩

theorem Wired.renamed {d : Diagram} {s t : String} (h : Wired d s t) : Wired (renamed d) s t := ⟨h.src, h.tgt, h.out, h.inn, h.flow⟩

theorem savedFlow_waypoints (a : EdgeAttrs) : (savedFlow a).waypoints = a.waypoints := by
  unfold savedFlow; split <;> rfl

theorem Inv.renamed {d : Diagram} (h : Inv d) : Inv (renamed d) := by
  refine ⟨Sane.renamed h.sane, h.plain, h.outI, h.inI, h.keysI, h.flowI, ?_⟩
  intro e he
  obtain ⟨e, he', rfl⟩ := List.mem_map.1 he
  obtain ⟨s, t, h1, h2, h3, h4, h5, h6⟩ := h.edgeI e he'
  obtain ⟨f1, f2, f3, f4, -⟩ := savedFlow_fields e.attrs
  exact ⟨s, t, f1.trans h1, f3.trans h2, f4.trans h3, (savedFlow_waypoints _).trans h4, h5, h6.renamed⟩

theorem Looks.renamed {d : Diagram} {x : String} {ty : Option String} {act : String} (h : Looks d x ty act) : Looks (renamed d) x ty act :=
  ⟨h.kind, h.title, h.events, h.default, h.whole⟩

section
variable {t : FlatTable} {d : Diagram} {F : List (String × String)}

theorem Formed.renamed (m : Formed t d F) : Formed t (renamed d) F :=
  ⟨m.out, m.inn, m.nodup, m.flows, m.fork, Consistent.renamed m.consistent, Inv.renamed m.inv, fun p c b h => ⟨(m.rows p c b h).1, (m.rows p c b h).2.renamed⟩,
    m.nodes, m.default⟩

open Classical in
/-- The condition of the first step of a branch, unless the block has no conditions. -/
noncomputable def condAt (t : FlatTable) (k j : Nat) : String :=
  match t.items[k - 1]? with
  | some (.block legs) => if Unconditional legs then "" else (((legs[j]?).bind (·.steps.head?)).map (·.condition)).getD ""
  | _ => ""

theorem says_blank (r : Row) : Says r "" ↔ ∀ x ∈ r.condition.toList, White x := by
  constructor
  · rintro ⟨a, b, h1, h2, h3⟩ x hx
    rw [h1] at hx
    simp only [String.toList_empty, List.append_nil, List.mem_append] at hx
    exact hx.elim (h2 x) (h3 x)
  · intro h
    exact ⟨r.condition.toList, [], by simp, h, by simp⟩

/-- The first cell of a branch. -/
theorem head_cell (g : t.Good) {k j : Nat} {legs : List Leg} {leg : Leg} (hk : t.items[k]? = some (.block legs)) (hj : legs[j]? = some leg) :
    ∃ c b, leg.steps.head? = some c ∧ cell t (.leg (k + 1) j 1) = some (c, b) := by
  have := (g.short legs (List.mem_of_getElem? hk) leg (List.mem_of_getElem? hj)).1
  obtain ⟨c, r, e⟩ := List.exists_cons_of_length_pos (by omega : 0 < leg.steps.length)
  exact ⟨c, _, by rw [e]; rfl, by simp [cell, hk, hj, e]; rfl⟩

/-- The split of a block is parallel exactly when the block has no conditions. -/
theorem split_parallel (g : t.Good) (h : loadCsv t.rows {} = .ok d) (m : Formed t d F) {k : Nat} {legs : List Leg} (hk : t.items[k]? = some (.block legs)) :
    kind d (Id.split k).name = some "parallelGateway" ↔ Unconditional legs := by
  have tb := flat_table g
  obtain ⟨c, hc, -⟩ := block_before g hk
  have hr := mem_rows.2 ⟨_, _, _, hc, rfl⟩
  have hlt := (List.getElem?_eq_some_iff.1 hk).1
  have ndr : t.rows.Nodup := List.Pairwise.of_map _ (fun a b h e => h (by rw [e])) tb.orders
  have htwo := g.two legs (List.mem_of_getElem? hk)
  have hle := List.length_filter_le (fun l : Leg => !l.stops) legs
  classical
  have hlen : 2 ≤ (t.rows.filter fun r => BranchStart (decimal (k + 1)) r.order.toList).length := by
    have sub : ((List.range legs.length).map fun j => String.ofList (Pos.leg (k + 1) j 1).order) ⊆
        (t.rows.filter fun r => BranchStart (decimal (k + 1)) r.order.toList).map Row.order := by
      intro x hx
      rw [← starts_eq g hk] at hx
      obtain ⟨h3, h4⟩ := List.mem_filter.1 hx
      obtain ⟨r, hr, rfl⟩ := List.mem_map.1 h3
      exact List.mem_map_of_mem (List.mem_filter.2 ⟨hr, by rw [decide_eq_true_eq]; exact (matchesSplit_start tb hr).1 h4⟩)
    have nd : ((List.range legs.length).map fun j => String.ofList (Pos.leg (k + 1) j 1).order).Nodup := by
      rw [← starts_eq g hk]; exact tb.orders.filter _
    have := (List.subperm_of_subset nd sub).length_le
    simp at this
    omega
  obtain ⟨nd, hnd, e1, -, h2, -⟩ := C46_gateway_type t.rows tb d h _ hr (by simp [Cell.row]) [] k (Or.inl rfl) (by simp [Cell.row, Pos.order])
    (by
      show ¬HasOrder t.rows (Pos.main (k + 1)).order
      rw [hasOrder_pos g (p := .main (k + 1)) trivial]
      simp [cell, hk]; omega)
    (Or.inr (by
      show HasOrder t.rows (decimal (k + 1) ++ ['a', '1'])
      rw [← first_branch, hasOrder_pos g (p := .leg (k + 1) 0 1) (by show 0 < 26; omega)]
      exact branch_cell g hk (by omega)))
    (t.rows.filter fun r => BranchStart (decimal (k + 1)) r.order.toList)
    ⟨ndr.filter _, fun b => by simp [List.mem_filter]⟩ hlen
  · have ek : kind d (Id.split k).name = nd.2.type := by
      rw [(id_of_node m.inv hnd).2.2.2.1, e1]; rfl
    rw [ek, h2]
    have all : (∀ b ∈ t.rows.filter (fun r => BranchStart (decimal (k + 1)) r.order.toList), Says b "") ↔ Unconditional legs := by
      constructor
      · intro hb leg hleg c hcc
        obtain ⟨j, hj⟩ := List.getElem?_of_mem hleg
        obtain ⟨c', b, h3, h4⟩ := head_cell g hk hj
        rw [hcc] at h3; cases h3
        refine (says_blank (c.row (Pos.leg (k + 1) j 1).order b)).1 (hb _ (List.mem_filter.2 ⟨mem_rows.2 ⟨_, _, _, h4, rfl⟩, ?_⟩))
        rw [decide_eq_true_eq, show (c.row (Pos.leg (k + 1) j 1).order b).order.toList = (Pos.leg (k + 1) j 1).order by simp [Cell.row]]
        exact (branchStart_pos g (by rw [h4]; rfl)).2 ⟨j, rfl⟩
      · intro hu b hb
        obtain ⟨hb1, hb2⟩ := List.mem_filter.1 hb
        obtain ⟨p, c, s, hp, rfl⟩ := mem_rows.1 hb1
        rw [decide_eq_true_eq, show (c.row p.order s).order.toList = p.order by simp [Cell.row]] at hb2
        obtain ⟨j, rfl⟩ := (branchStart_pos g (by rw [hp]; rfl)).1 hb2
        obtain ⟨i, n, legs', leg, e2, e3, h3, h4, h5, -⟩ := cell_leg hp
        obtain rfl : k = i := by omega
        obtain rfl : n = 0 := by omega
        rw [hk] at h3; cases h3
        exact (says_blank _).2 (hu leg (List.mem_of_getElem? h4) c (by rw [← h5, List.head?_eq_getElem?]))
    rw [all]
    constructor
    · exact fun h => h.2
    · intro hu
      refine ⟨?_, hu⟩
      have hb := all.2 hu
      have no : ∀ w : String, w ≠ "" → (∀ c ∈ w.toList, isWhite c = false) →
          ¬∃ b ∈ t.rows.filter (fun r => BranchStart (decimal (k + 1)) r.order.toList), Says b w := by
        rintro w hw hwc ⟨b, hb1, hb2⟩
        have e1 := (says_iff b w hwc).1 hb2
        have e2 := (says_iff b "" (by simp)).1 (hb b hb1)
        exact hw (e1.symm.trans e2)
      rintro ⟨-, ⟨h3, -⟩ | h3⟩
      · exact no "yes" (by decide) (by decide) h3
      · exact no "else" (by decide) (by decide) h3

/-- What the export writes as conditions, when the flows are named after them. -/
theorem Made.labels (m : Made t d F) (g : t.Good) (h : loadCsv t.rows {} = .ok d) : Labels t (renamed d) (condAt t) := by
  classical
  have tb := flat_table g
  intro k legs j hk hj ty hty e he hid
  obtain ⟨e, he', rfl⟩ := List.mem_map.1 he
  have hid : e.attrs.id = some (flowId (Id.split k).name (Id.row (.leg (k + 1) j 1)).name) := (savedFlow_fields e.attrs).1.symm.trans hid
  have hp := split_parallel g h m.toFormed hk
  have hty : kind d (Id.split k).name = some ty := hty
  rw [hty] at hp
  have ec : condAt t (k + 1) j = if Unconditional legs then "" else (((legs[j]?).bind (·.steps.head?)).map (·.condition)).getD "" := by
    unfold condAt
    rw [Nat.add_sub_cancel, hk]
  rw [ec]
  by_cases hu : Unconditional legs
  · rw [if_pos hu, if_neg (by rw [not_not]; exact Option.some.inj (hp.2 hu))]
  · rw [if_neg hu, if_pos (fun h => hu (hp.1 (by rw [h])))]
    obtain ⟨leg, hleg⟩ : ∃ leg, legs[j]? = some leg := ⟨_, List.getElem?_eq_getElem hj⟩
    obtain ⟨c, b, h1, h2⟩ := head_cell g hk hleg
    simp only [hleg, Option.bind_some, h1, Option.map_some, Option.getD_some]
    have hrow := mem_rows.2 ⟨_, _, _, h2, rfl⟩
    obtain ⟨s, u, l1, l2, l3, -, -, w⟩ := m.inv.edgeI e he'
    rw [l1] at hid
    have hl := Link.branch hk hj
    have px : Plain (Id.split k).name := by
      have ho : flowId (Id.split k).name (Id.row (.leg (k + 1) j 1)).name ∈ outOf d (Id.split k).name := by
        rw [m.out]; exact mem_leaving.2 ⟨_, m.flow hl, rfl⟩
      exact m.inv.plain _ (outOf_mem ho)
    obtain ⟨rfl, rfl⟩ := flowId_inj (m.inv.plain _ w.src) px (Option.some.inj hid)
    obtain ⟨d0, F', d1, d2, st⟩ := stages tb h
    have hcond : conditionOf (dictOf t.rows) (Id.row (.leg (k + 1) j 1)).name = c.condition := by
      have := get?_dictOf tb hrow
      rw [show (c.row (Pos.leg (k + 1) j 1).order b).order = (Id.row (.leg (k + 1) j 1)).name from rfl] at this
      simp [conditionOf, this, Cell.row]
    by_cases hne : c.condition = ""
    · have : e.attrs.conditionExpression = none := by
        cases hce : e.attrs.conditionExpression with
        | none => rfl
        | some ce =>
          exfalso
          have hmem : e.attrs ∈ d.getFlows.map (·.2.2) := (d.graph.flows_attrs_perm m.inv.sane.wf).mem_iff.2 (List.mem_map_of_mem he')
          obtain ⟨f, hf, e2⟩ := List.mem_map.1 hmem
          obtain ⟨h3, r, hr, -, h4, h5⟩ := C58_conditions t.rows tb d h f hf ce (by rw [e2]; exact hce)
          rw [e2, l2, l3] at h5
          rcases h5 with h5 | h5
          · have := tableUnder tb r.order (by rw [← keys_dictOf]; exact keys_dictOf _ ▸ List.mem_map_of_mem hr)
            rw [← Option.some.inj h5] at this
            exact this (underscore_split _)
          · have : conditionOf (dictOf t.rows) r.order = r.condition := by simp [conditionOf, get?_dictOf tb hr]
            rw [← Option.some.inj h5, hcond, hne] at this
            exact h3 (h4.symm.trans this.symm)
      have hs : savedFlow e.attrs = e.attrs := by unfold savedFlow; rw [this]
      show (savedFlow e.attrs).name.getD "" = _
      rw [hs, m.names e he', hne]
    · have := st.conditioned e he' _ _ l2 l3 (by rw [hcond]; exact hne)
      show (savedFlow e.attrs).name.getD "" = _
      unfold savedFlow
      rw [this]
      simp only [Option.getD_some, hcond]

theorem setFirst_eq (c : String) (rows : List Row) : setFirst c (rows.map kept) = rows.mapIdx fun m r => if m = 0 then { kept r with condition := c } else kept r := by
  cases rows with
  | nil => rfl
  | cons r rs =>
    have : rs.mapIdx (fun _ r => kept r) = rs.map kept := by
      refine List.ext_getElem (by simp) fun i h1 h2 => by simp
    simp [setFirst, withCond, List.mapIdx_cons, this]

theorem itemShown_filed (g : t.Good) {k : Nat} {x : Item} (hx : t.items[k]? = some x) : itemShown (condAt t) (k + 1) x = itemFiled (k + 1) x := by
  cases x with
  | step c => rfl
  | block legs =>
    simp only [itemShown, itemFiled]
    by_cases hu : Unconditional legs
    · rw [if_pos hu]
      have : ∀ j, condAt t (k + 1) j = "" := by intro j; unfold condAt; rw [Nat.add_sub_cancel, hx]; simp [hu]
      simp only [this, setFirst_kept, itemRows, List.map_flatten, map_mapIdx_list]
    · rw [if_neg hu]
      congr 1
      refine List.ext_getElem (by simp) ?_
      intro j h1 h2
      simp only [List.length_mapIdx] at h1
      simp only [List.getElem_mapIdx]
      have hleg : legs[j]? = some legs[j] := List.getElem?_eq_getElem h1
      obtain ⟨c, b, h3, h4⟩ := head_cell g hx hleg
      have : condAt t (k + 1) j = c.condition := by
        unfold condAt
        rw [Nat.add_sub_cancel, hx]
        simp only [if_neg hu, hleg, Option.bind_some, h3, Option.map_some, Option.getD_some]
      rw [this, setFirst_eq, legFiled]
      have hr : (legRows (decimal (k + 1) ++ [letter j]) legs[j])[0]? = some (c.row (decimal (k + 1) ++ [letter j] ++ decimal 1) (legs[j].stops && decide (1 = legs[j].steps.length))) := by
        rw [legRows, List.getElem?_mapIdx, ← List.head?_eq_getElem?, h3]; rfl
      refine List.ext_getElem (by simp) ?_
      intro i h5 h6
      simp only [List.getElem_mapIdx]
      by_cases hi : i = 0
      · subst hi
        simp only [if_true]
        have h7 : 0 < (legRows (decimal (k + 1) ++ [letter j]) legs[j]).length := by simpa using h5
        have : (legRows (decimal (k + 1) ++ [letter j]) legs[j])[0]'h7 = _ := Option.some.inj ((List.getElem?_eq_getElem h7).symm.trans hr)
        rw [this]; rfl
      · simp only [hi, if_false]

theorem linesShown_filed (g : t.Good) : ∀ (l : List Item) (k : Nat), t.items.drop k = l → linesShown (condAt t) (k + 1) l = linesFiled (k + 1) l
  | [], k, _ => rfl
  | x :: l, k, h => by
    have hx : t.items[k]? = some x := by
      have := congrArg (·[0]?) h
      simpa using this
    rw [linesShown, linesFiled, itemShown_filed g hx, linesShown_filed g l (k + 1) (by rw [← List.drop_drop, h]; rfl)]

/-- The export of the diagram with the flows named after their conditions. -/
theorem Made.rows_filed (m : Made t d F) (g : t.Good) (h : loadCsv t.rows {} = .ok d) : ∃ N, ∀ fuel ≥ N, exportRows (renamed d) fuel = .ok t.filed := by
  obtain ⟨N, hN⟩ := m.toFormed.renamed.rows_shown g (m.labels g h)
  refine ⟨N, fun fuel hf => ?_⟩
  rw [hN fuel hf, linesShown_filed g t.items 0 rfl]
  rfl

end

end Bpmn.Csv

import Verif.Props.Analyses
import Verif.Props.CsvDrawn
import Verif.Lemmas.CsvFiled
/-!
# Conditions survive in a file, not in a table (C93)
-/
set_option linter.unusedSimpArgs false
set_option linter.unusedVariables false

namespace Bpmn.Props
open Bpmn Spec Layouter Csv Spec.Csv Classify

/-- The diagram loaded from the file corresponds to the imported one with the flows named after their conditions. -/
theorem filed_twin {rows : List Row} (t : Table rows) {d d' e : Diagram} (hd : loadCsv rows {} = .ok d) (hcon : Consistent d) (hs : Sane d) (hb : SameBut d d') (ha : SavedAs d' e) :
    ∃ φ, Twin (renamed d) e φ ∧ SameNames (renamed d) e ∧ SameDefs (renamed d) φ := by
  have say := C82_nodes_say rows t d hd
  have hcr := Consistent.renamed hcon
  have hc : Complete (renamed d) := Spec.Consistent.complete hcr
  have hn0 : ∀ n ∈ d.getNodes, ∃ b, (n.1, b) ∈ d'.getNodes ∧ Alike n.2 b ∧ b.eventDefinitions = n.2.eventDefinitions := by
    intro n hn
    have : bareNode n ∈ d'.getNodes.map bareNode := by
      show bareNode n ∈ d'.graph.nodes.map bareNode
      rw [hb.nodes]; exact List.mem_map_of_mem hn
    obtain ⟨m, hm, e1⟩ := List.mem_map.1 this
    have e2 : m.1 = n.1 := by have := congrArg (fun x : Node => x.1) e1; exact this
    refine ⟨m.2, by rw [← e2]; exact hm, ⟨?_, ?_, ?_, ?_, ?_⟩, ?_⟩
    · have := congrArg (fun x : Node => x.2.type) e1; exact this
    · have := congrArg (fun x : Node => x.2.nodeName) e1; exact this
    · have := congrArg (fun x : Node => x.2.incoming) e1; exact this
    · have := congrArg (fun x : Node => x.2.outgoing) e1; exact this
    · have := congrArg (fun x : Node => x.2.default.join) e1; exact this
    · have := congrArg (fun x : Node => x.2.eventDefinitions) e1; exact this
  have hn : ∀ n ∈ (renamed d).getNodes, ∃ b, (n.1, b) ∈ e.getNodes ∧ Alike n.2 b ∧ b.eventDefinitions.getD [] = [] := by
    intro n hn
    obtain ⟨b, h1, h2, h3⟩ := hn0 n hn
    obtain ⟨c, h4, h5⟩ := ha.nodes _ _ h1
    have hev : (savedNode b).eventDefinitions.getD [] = [] := by
      unfold savedNode
      split
      · rw [h3]
        obtain ⟨ty, nm, e1⟩ := say n hn
        rw [e1]; rfl
      · rfl
    refine ⟨c, h4, ?_, ?_⟩
    · have h6 := SameNode.alike h5
      rw [savedNode_eq] at h6
      exact ⟨h6.type.trans h2.type, h6.name.trans h2.name, h6.incoming.trans h2.incoming, h6.outgoing.trans h2.outgoing, h6.default.trans h2.default⟩
    · have := h5.defs.2
      rw [hev] at this
      exact this.symm.eq_nil
  have hp : (e.getNodes.map (·.1)).Perm ((renamed d).getNodes.map (·.1)) := by
    refine ha.nodeIds.trans (List.Perm.of_eq ?_)
    have := congrArg (List.map Prod.fst) hb.nodes
    rw [List.map_map, List.map_map] at this
    exact this
  have hf : ∀ g : EdgeAttrs → Option String, (∀ a, g (savedFlow (bareAttrs a)) = g (savedFlow a)) →
      (e.getFlows.map fun f => (f.2.2.id, g f.2.2)).Perm ((renamed d).getFlows.map fun f => (f.2.2.id, g f.2.2)) := by
    intro g hg
    have := ha.flows.map fun a => (a.id, g a)
    rw [List.map_map, List.map_map] at this
    refine this.trans (List.Perm.of_eq ?_)
    rw [flows_renamed, List.map_map]
    have hh := congrArg (List.map fun f : Flow => ((savedFlow f.2.2).id, g (savedFlow f.2.2))) hb.flows
    rw [List.map_map, List.map_map] at hh
    have key : ∀ f : Flow, ((savedFlow (bareFlow f).2.2).id, g (savedFlow (bareFlow f).2.2)) = ((savedFlow f.2.2).id, g (savedFlow f.2.2)) := by
      intro f
      show ((savedFlow (bareAttrs f.2.2)).id, g (savedFlow (bareAttrs f.2.2))) = _
      rw [hg, (savedFlow_fields _).1, (savedFlow_fields _).1]; rfl
    have e1 : ∀ l : List Flow, l.map ((fun f : Flow => ((savedFlow f.2.2).id, g (savedFlow f.2.2))) ∘ bareFlow) = l.map fun f : Flow => ((savedFlow f.2.2).id, g (savedFlow f.2.2)) :=
      fun l => List.map_congr_left fun (f : Flow) _ => key f
    rw [e1, e1] at hh
    exact hh
  have hid : ∀ f ∈ (renamed d).getFlows, f.2.2.id.isSome := by
    intro f hf
    obtain ⟨i, n, -, h2, -⟩ := hcr.listed f hf
    rw [h2]; rfl
  obtain ⟨φ, tw, hφ⟩ := twin_of (d := renamed d) (e := e) hcon.ids hc hp (fun n h' => (hn n h').imp fun b hb => ⟨hb.1, hb.2.1⟩) hid hcr.flowIds
    (hf (·.targetRef) fun a => by simp [(savedFlow_fields _).2.2.2.1]; rfl)
  refine ⟨φ, tw, flowView_same (·.name) hid hcr.flowIds (hf (·.name) fun a => ?_), fun n h' _ => ?_⟩
  · unfold savedFlow
    simp only [show (bareAttrs a).conditionExpression = a.conditionExpression from rfl]
    split <;> rfl
  · obtain ⟨b, e1, e2⟩ := hφ n h'
    obtain ⟨b', e3, -, e4⟩ := hn n h'
    have : b' = b := by
      have g1 := Dict.get?_of_mem tw.ids' e2
      rw [Dict.get?_of_mem tw.ids' e3] at g1
      exact Option.some.inj g1
    rw [e1, ← this, e4]
    obtain ⟨ty, nm, e5⟩ := say n h'
    rw [e5]; rfl

theorem filed_rows {t : FlatTable} (g : t.Good) {d d' e : Diagram} (h : loadCsv t.rows {} = .ok d) (hb : SameBut d d') (ha : SavedAs d' e) :
    ∃ N, ∀ fuel ≥ N, exportRows e fuel = .ok t.filed := by
  obtain ⟨F, m⟩ := flat_made g h
  obtain ⟨φ, tw, hm, hd⟩ := filed_twin (flat_table g) h m.consistent m.inv.sane hb ha
  obtain ⟨N, hN⟩ := m.rows_filed g h
  exact ⟨N, fun fuel hf => (exportRows_twin tw hm hd fuel).trans (hN fuel hf)⟩

/-! ## C93 -/

/-- **C93.** If the diagram of a flat table can be laid out, it can be saved, and the CSV export of the loaded file writes the rows of the table with the
conditions of the branches. -/
theorem C93_filed (t : FlatTable) (g : t.Good) (d d' : Diagram) (h : loadCsv t.rows {} = .ok d) {n : Nat} (hl : generateLayout n d = .ok d') :
    ∃ x N, (∀ fuel ≥ N, Export.exportXmlFile fuel d' = .ok x) ∧ ∀ ord : List String → List String, (∀ l, (ord l).Perm l) →
      ∃ e, Import.load ord x.toDom {} = .ok e ∧ ∃ N, ∀ fuel ≥ N, exportRows e fuel = .ok t.filed := by
  obtain ⟨x, N, h1, h2⟩ := C89_saved t.rows (flat_table g) d d' h hl
  refine ⟨x, N, h1, fun ord ho => ?_⟩
  obtain ⟨e, h3, h4⟩ := h2 ord ho
  exact ⟨e, h3, filed_rows g h (layout_sameBut hl) h4⟩

/-- A table with a terminated branch and two conditions is laid out. -/
example : sample.Good ∧ ∃ d d', loadCsv sample.rows {} = .ok d ∧ generateLayout 40 d = .ok d' := ⟨sample_good, sample_drawn.2⟩

/-- **C93, without terminated branches.** Every such table can be imported, drawn, saved, loaded and written again, with its conditions; writing it
without saving it loses them. -/
theorem C93_flat (t : FlatTable) (g : t.Good) (meets : t.Meets) :
    ∃ d d', loadCsv t.rows {} = .ok d ∧ (∃ N, ∀ fuel ≥ N, generateLayout fuel d = .ok d' ∧ exportRows d' fuel = .ok (t.rows.map kept)) ∧
      ∃ x N, (∀ fuel ≥ N, Export.exportXmlFile fuel d' = .ok x) ∧ ∀ ord : List String → List String, (∀ l, (ord l).Perm l) →
        ∃ e, Import.load ord x.toDom {} = .ok e ∧ ∃ N, ∀ fuel ≥ N, exportRows e fuel = .ok t.filed := by
  obtain ⟨d, d', h, ⟨N, hN⟩, -⟩ := C90_flat_workflow t g meets
  obtain ⟨F, m⟩ := flat_made g h
  obtain ⟨M, hM⟩ := m.rows_eq g
  refine ⟨d, d', h, ⟨max N M, fun fuel hf => ⟨hN fuel (by omega), ?_⟩⟩, C93_filed t g d d' h (hN N (Nat.le_refl _))⟩
  rw [((C92_layout_silent d d' m.consistent.ids (Spec.Consistent.complete m.consistent) (hN N (Nat.le_refl _))).1 fuel).1]
  exact hM fuel (by omega)

example : meeting.Good ∧ meeting.Meets := ⟨meeting_good, meeting_meets⟩

theorem filed_item {k : Nat} {x : Item} (hf : ∀ r ∈ itemRows k x, { kept r with condition := r.condition } = r)
    (hstep : ∀ c, x = .step c → c.condition = "")
    (hlater : ∀ legs, x = .block legs → ∀ leg ∈ legs, ∀ c ∈ leg.steps.tail, c.condition = "")
    (hstart : ∀ legs, x = .block legs → ∀ leg ∈ legs, ∀ c, leg.steps.head? = some c → (∀ x ∈ c.condition.toList, White x) → c.condition = "") :
    itemFiled k x = itemRows k x := by
  have full : ∀ r ∈ itemRows k x, r.condition = "" → kept r = r := by
    intro r hr hc
    have := hf r hr
    rw [hc] at this
    exact this
  cases x with
  | step c =>
    have := full _ (List.mem_singleton.2 rfl) (hstep c rfl)
    rw [itemFiled, this]; rfl
  | block legs =>
    have legc : ∀ (p : List Char) (leg : Leg) i (hi : i < (legRows p leg).length), ∃ hi' : i < leg.steps.length, (legRows p leg)[i].condition = leg.steps[i].condition := by
      intro p leg i hi
      have hi' : i < leg.steps.length := by simpa [legRows] using hi
      exact ⟨hi', by simp [legRows, Csv.Cell.row]⟩
    have tail0 : ∀ leg ∈ legs, ∀ i (hi : i < leg.steps.length), i ≠ 0 → leg.steps[i].condition = "" := by
      intro leg hleg i hi h0
      refine hlater legs rfl leg hleg _ ?_
      obtain ⟨i, rfl⟩ := Nat.exists_eq_succ_of_ne_zero h0
      have : leg.steps[i + 1] = leg.steps.tail[i]'(by simp; omega) := by simp
      rw [this]; exact List.getElem_mem _
    simp only [itemFiled]
    split
    · rename_i hu
      refine (List.map_congr_left fun r hr => full r hr ?_).trans (List.map_id _)
      obtain ⟨l, hl, hr⟩ := List.mem_flatten.1 hr
      obtain ⟨j, hj, rfl⟩ := List.mem_mapIdx.1 hl
      obtain ⟨i, hi, rfl⟩ := List.getElem_of_mem hr
      obtain ⟨hi', e⟩ := legc _ _ i hi
      rw [e]
      by_cases h0 : i = 0
      · subst h0
        have hh : legs[j].steps.head? = some legs[j].steps[0] := by rw [List.head?_eq_getElem?, List.getElem?_eq_getElem hi']
        exact hstart legs rfl _ (List.getElem_mem _) _ hh (hu _ (List.getElem_mem _) _ hh)
      · exact tail0 _ (List.getElem_mem _) i hi' h0
    · rw [itemRows]
      congr 1
      refine List.ext_getElem (by simp) fun j h1 h2 => ?_
      simp only [List.length_mapIdx] at h1
      simp only [List.getElem_mapIdx, legFiled]
      refine List.ext_getElem (by simp) fun i h3 h4 => ?_
      simp only [List.getElem_mapIdx]
      have hmem : (legRows (decimal k ++ [letter j]) legs[j])[i] ∈ itemRows k (.block legs) := by
        rw [itemRows]
        exact List.mem_flatten.2 ⟨_, List.mem_mapIdx.2 ⟨j, h1, rfl⟩, List.getElem_mem _⟩
      split
      · exact hf _ hmem
      · rename_i h0
        refine full _ hmem ?_
        obtain ⟨hi', e⟩ := legc _ _ i h4
        rw [e]; exact tail0 _ (List.getElem_mem _) i hi' h0

theorem filed_lines : ∀ (l : List Item) (k : Nat), (∀ r ∈ linesFrom k l, { kept r with condition := r.condition } = r) →
    (∀ c, Item.step c ∈ l → c.condition = "") → (∀ legs, Item.block legs ∈ l → ∀ leg ∈ legs, ∀ c ∈ leg.steps.tail, c.condition = "") →
    (∀ legs, Item.block legs ∈ l → ∀ leg ∈ legs, ∀ c, leg.steps.head? = some c → (∀ x ∈ c.condition.toList, White x) → c.condition = "") →
    linesFiled k l = linesFrom k l
  | [], k, _, _, _, _ => rfl
  | x :: l, k, h1, h2, h3, h4 => by
    rw [linesFiled, linesFrom, filed_item, filed_lines l (k + 1)]
    · exact fun r hr => h1 r (List.mem_append_right _ hr)
    · exact fun c hc => h2 c (List.mem_cons_of_mem _ hc)
    · exact fun c hc => h3 c (List.mem_cons_of_mem _ hc)
    · exact fun c hc => h4 c (List.mem_cons_of_mem _ hc)
    · exact fun r hr => h1 r (List.mem_append_left _ hr)
    · exact fun c hc => h2 c (hc ▸ List.mem_cons_self)
    · exact fun c hc => h3 c (hc ▸ List.mem_cons_self)
    · exact fun c hc => h4 c (hc ▸ List.mem_cons_self)

/-- **C93.** A flat table that names nobody and has conditions only where branches start comes back unchanged. -/
theorem C93_fixed (t : FlatTable) (g : t.Good) (hk : t.Faithful) (d d' : Diagram) (h : loadCsv t.rows {} = .ok d) {n : Nat} (hl : generateLayout n d = .ok d') :
    ∃ x N, (∀ fuel ≥ N, Export.exportXmlFile fuel d' = .ok x) ∧ ∀ ord : List String → List String, (∀ l, (ord l).Perm l) →
      ∃ e, Import.load ord x.toDom {} = .ok e ∧ ∃ N, ∀ fuel ≥ N, exportRows e fuel = .ok t.rows := by
  have : t.filed = t.rows := by
    unfold FlatTable.filed FlatTable.rows
    have e1 := hk.fields
    have full : ∀ r ∈ t.rows, r.condition = "" → kept r = r := by
      intro r hr hc
      have := e1 r hr
      rw [hc] at this
      exact this
    rw [full (t.first.row (decimal 0) false) (by simp [FlatTable.rows]) hk.ends.1, full (t.last.row (decimal (t.items.length + 1)) true) (by simp [FlatTable.rows]) hk.ends.2,
      filed_lines t.items 1 (fun r hr => e1 r (by simp [FlatTable.rows, hr])) hk.steps hk.later hk.starts]
  rw [← this]
  exact C93_filed t g d d' h hl

/-- A start, a step, a block of two branches with conditions, and an end. -/
def conditional : FlatTable :=
  ⟨⟨"ordered", "", "", ""⟩,
   [.step ⟨"check", "", "", ""⟩, .block [⟨[⟨"bill", "paid", "", ""⟩, ⟨"pack", "", "", "yes"⟩], false⟩, ⟨[⟨"refuse", "not paid", "", ""⟩], false⟩]],
   ⟨"", "", "", ""⟩⟩

theorem conditional_good : conditional.Good ∧ conditional.Meets ∧ conditional.Faithful := by
  refine ⟨⟨?_, ?_, ?_, ?_, ?_⟩, ?_, ?_, ?_, ?_, ?_, ?_⟩
  · intro legs h
    simp [conditional] at h
    subst h; decide
  · intro legs h
    simp [conditional] at h
    subst h; decide
  · intro legs h
    simp [conditional] at h
    subst h; simp
  · intro i legs legs' h h'
    match i with
    | 0 => simp [conditional] at h
    | 1 => simp [conditional] at h'
    | i + 2 => simp [conditional] at h
  · intro r hr hg
    have : ∀ r ∈ conditional.rows, isGoto r.activity = false := by decide
    rw [← isGoto_iff, this r hr] at hg
    cases hg
  · intro legs h
    simp [conditional] at h
    subst h; simp
  · decide
  · decide
  · intro c h
    simp [conditional] at h
    subst h; rfl
  · intro legs h
    simp [conditional] at h
    subst h; decide
  · intro legs h
    simp [conditional] at h
    subst h
    intro leg hl c hc
    simp at hl
    rcases hl with rfl | rfl <;> (simp at hc; subst hc; simp [White])

/-- The conditions of this table survive being drawn, saved and loaded. -/
example : ∃ d d' x, loadCsv conditional.rows {} = .ok d ∧ (∃ N, generateLayout N d = .ok d') ∧ (∃ N, Export.exportXmlFile N d' = .ok x) ∧
    ∃ e, Import.load id x.toDom {} = .ok e ∧ ∃ N, exportRows e N = .ok conditional.rows ∧ (conditional.rows.map (·.condition) == ["", "", "paid", "", "not paid", ""]) = true := by
  obtain ⟨g, m, f⟩ := conditional_good
  obtain ⟨d, d', h, ⟨N, hN⟩, -⟩ := C93_flat conditional g m
  obtain ⟨x, M, h1, h2⟩ := C93_fixed conditional g f d d' h (hN N (Nat.le_refl _)).1
  obtain ⟨e, h3, K, h4⟩ := h2 id fun l => List.Perm.refl _
  exact ⟨d, d', x, h, ⟨N, (hN N (Nat.le_refl _)).1⟩, ⟨M, h1 M (Nat.le_refl _)⟩, e, h3, K, h4 K (Nat.le_refl _), by decide⟩

end Bpmn.Props

import Verif.Props.OptionalExport
import Verif.Props.TreeFiled
/-!
# Tables with optional steps, drawn, saved, loaded and exported (C138)
-/
set_option linter.unusedSimpArgs false
set_option linter.unusedVariables false

namespace Bpmn.Props
open Bpmn Spec Csv Spec.Csv

theorem fits_renamed {d : Diagram} (l : Strand) : ∀ meets j, l.Fits d meets j → l.Fits (renamed d) meets j := by
  induction l using Strand.rec (motive_2 := fun bs => ∀ j fs, bs.Fit d j fs → bs.Fit (renamed d) j fs) with
  | stop e => exact fun _ _ h => h
  | meet => exact fun _ _ h => h
  | step n rest ih =>
    intro m j h
    rw [Strand.Fits] at h ⊢
    obtain ⟨h1, h2, h3, ⟨i, hi, h4⟩, h5, h6⟩ := h
    exact ⟨h1, h2, h3, ⟨i, hi, leads_renamed.2 h4⟩, ih _ _ h5, h6⟩
  | block s bs rest ih1 ih2 =>
    intro m j h
    rw [Strand.Fits] at h ⊢
    obtain ⟨h1, h2, h3, h4, h5, h6, h7⟩ := h
    exact ⟨h1, h2, h3, h4, ih1 _ _ h5, h6, ih2 _ _ h7⟩
  | fork s bs ih =>
    intro m j h
    rw [Strand.Fits] at h ⊢
    obtain ⟨h1, h2, h3, h4, h5⟩ := h
    exact ⟨h1, h2, h3, h4, ih _ _ h5⟩
  | nil => rename_i h; exact h
  | cons l r ih1 ih2 =>
    rename_i j fs h
    rw [Spec.Branches.Fit] at h ⊢
    obtain ⟨i, gs, h1, h2, h3, h4⟩ := h
    exact ⟨i, gs, h1, leads_renamed.2 h2, ih1 _ _ h3, ih2 _ _ h4⟩

theorem structured_renamed {d : Diagram} {l : Strand} (h : Structured d l) : Structured (renamed d) l :=
  ⟨h.nodes, h.supported, h.named, h.start, fits_renamed _ _ _ h.fits⟩

namespace OptRows
variable {rows : List Row} {items : List Entry} (T : OptionalTable rows items)

include T in
theorem gate_branches {n : Nat} {x g : Row} (h : items[n]? = some (.optional x g)) : Spec.Csv.Branches rows (decimal n) [x, g] := by
  obtain ⟨h1, h2, h3, h4, h5⟩ := start_of T h
  refine ⟨by simp [h5], fun b => ⟨fun hb => ?_, fun hb => ?_⟩⟩
  · simp only [List.mem_cons, List.not_mem_nil, or_false] at hb
    rcases hb with rfl | rfl
    · exact ⟨h1, h2⟩
    · exact ⟨h3, h4⟩
  · obtain ⟨m, y, e, k⟩ := starts_at T hb.1 hb.2
    obtain rfl := decimal_inj e
    rw [h] at k
    simp only [Option.some.injEq, Entry.optional.injEq] at k
    rcases k with ⟨rfl, -⟩ | ⟨-, rfl⟩ <;> simp

include T in
/-- The condition that the saved flow from the gateway to a row has. -/
theorem flow_cell {d : Diagram} (hd : loadCsv rows {} = .ok d) {n : Nat} {w x g : Row} (h1 : items[n]? = some (.line w)) (h2 : items[n + 1]? = some (.optional x g)) {i : String}
    (hi : i ∈ outs (nodeNamed d (w.order ++ "_split"))) {r : Row} (hr : r ∈ rows) (hg : ¬GotoRow r) (hl : LeadsTo d i (some (nodeNamed d r.order))) :
    ∃ f, d.getFlowById i = .ok (some f) ∧ (savedFlow f.2.2).name = some r.condition := by
  have K := known T hd
  have TT := (goto_table T).table
  have c := ((goto_table T).ground (split_table T) (no_turn T) hd).1.consistent
  obtain ⟨m, hm, em, f, hf, ht⟩ := hl
  injection em with em
  subst em
  rw [(K.named _ (.row hr hg)).2] at ht
  refine ⟨f, hf, ?_⟩
  have hmem := (getFlowById_mem hf).1
  unfold savedFlow
  by_cases hc : r.condition = ""
  · cases hx : f.2.2.conditionExpression with
    | none =>
      simp only
      rw [K.blank i f hf, hc]
    | some z =>
      exfalso
      obtain ⟨k1, r', hr', hg', k2, k3⟩ := C58_conditions rows TT d hd f hmem z hx
      rcases k3 with k3 | k3
      · have n1 : TableNode rows (w.order ++ "_split") := (node_iff T _).2 (.inr ⟨_, _, _, _, h1, h2, .inl rfl⟩)
        obtain ⟨q, -, ⟨a, b, e, hf', -, hs, -⟩, -⟩ := c.outFlow _ (K.named _ n1).1 i hi
        rw [hf] at hf'
        simp only [Except.ok.injEq, Option.some.injEq] at hf'
        subst hf'
        rw [hs, (K.named _ n1).2, Option.some.injEq] at k3
        exact absurd (k3 ▸ underscore_split w.order) (tableUnder TT _ (List.mem_map_of_mem hr'))
      · rw [ht, Option.some.injEq] at k3
        obtain rfl := same T hr hr' k3
        exact k1 (k2 ▸ hc)
  · obtain ⟨j, -, k⟩ := C58_carried rows TT d hd f hmem r hr ht hc
    rw [k]

include T in
theorem gate_parallel {d : Diagram} (hd : loadCsv rows {} = .ok d) {n : Nat} {w x g : Row} (h1 : items[n]? = some (.line w)) (h2 : items[n + 1]? = some (.optional x g))
    (hp : (nodeNamed d (w.order ++ "_split")).2.type = some "parallelGateway") : ∀ c ∈ x.condition.toList, White c := by
  have K := known T hd
  have c := ((goto_table T).ground (split_table T) (no_turn T) hd).1.consistent
  obtain ⟨hw, ht, p, m, hpre, hm, ho, no, yes⟩ := opens_here T h1 h2
  have n1 : TableNode rows (w.order ++ "_split") := (node_iff T _).2 (.inr ⟨_, _, _, _, h1, h2, .inl rfl⟩)
  have hB := gate_branches T h2
  rw [ho] at hB no yes
  obtain ⟨q, hq, e1, -, e2, -⟩ := C46_gateway_type rows (goto_table T).table d hd w hw ht p m (.inl (splits T hpre yes).1) hm no yes _ hB (by simp)
  have := c.node_eq hq (K.named _ n1).1 (e1.trans (K.named _ n1).2.symm)
  rw [this] at e2
  obtain ⟨a, b, e, wa, wb⟩ := (e2.1 hp).2 x (by simp)
  intro z hz
  rw [e] at hz
  simp only [List.append_assoc, List.mem_append] at hz
  rcases hz with hz | hz | hz
  · exact wa z hz
  · simp at hz
  · exact wb z hz

theorem plain_again {items : List Entry} (P : PlainCells items) (first : Nat → Bool) : PlainCells (Entry.again (·.condition) first 0 items) := by
  constructor
  · intro n r h
    rw [again_get] at h
    cases e : items[n]? with
    | none => simp [e] at h
    | some a =>
      cases a with
      | line s => simp [e, Entry.written] at h; rw [← h]; rfl
      | optional x g => simp [e, Entry.written] at h
  · intro n x g h hw
    rw [again_get] at h
    cases e : items[n]? with
    | none => simp [e] at h
    | some a =>
      cases a with
      | line s => simp [e, Entry.written] at h
      | optional y z =>
        simp only [e, Entry.written, Option.map_some, Option.some.injEq, Entry.optional.injEq] at h
        obtain ⟨rfl, -⟩ := h
        exact P.step n y z e hw

end OptRows

open OptRows in
/-- **C138.** A table with optional steps, none directly before the end, is imported, drawn, saved as XML, loaded and exported. The result is a table of the same form in which the steps have their
conditions; the `goto` rows have lost theirs. (The rows of the line have no conditions, and a condition is not only white space.) -/
theorem C138_filed (rows : List Row) (items : List Entry) (T : OptionalTable rows items) (E : EndsApart items) (P : PlainCells items) :
    ∃ d bound, loadCsv rows {} = .ok d ∧ ∀ n ≥ bound, ∃ d', Layouter.generateLayout n d = .ok d' ∧ ∃ x N, (∀ fuel ≥ N, Export.exportXmlFile fuel d' = .ok x) ∧
      ∀ ord : List String → List String, (∀ l, (ord l).Perm l) → ∃ e, Import.load ord x.toDom {} = .ok e ∧ ∃ (first : Nat → Bool) (rows' : List Row),
        (∃ N, ∀ fuel ≥ N, exportRows e fuel = .ok rows') ∧ OptionalTable rows' (Entry.again (·.condition) first 0 items) ∧
        EndsApart (Entry.again (·.condition) first 0 items) ∧ PlainCells (Entry.again (·.condition) first 0 items) := by
  obtain ⟨d, hd, bound, hl⟩ := C136_drawn rows items T
  refine ⟨d, bound, hd, fun n hn => ?_⟩
  obtain ⟨d', hl, -⟩ := hl n hn
  have tb := (OptRows.goto_table T).table
  obtain ⟨x, N, k1, k2⟩ := C89_saved _ tb d d' hd hl
  refine ⟨d', hl, x, N, k1, fun ord ho => ?_⟩
  obtain ⟨e, k3, k4⟩ := k2 ord ho
  have c := ((OptRows.goto_table T).ground (OptRows.split_table T) (OptRows.no_turn T) hd).1.consistent
  obtain ⟨_, _, _, _, st⟩ := stages tb hd
  obtain ⟨ψ, tw, hm, hdf⟩ := filed_twin tb hd c st.keep.inv.sane (Layouter.layout_sameBut hl) k4
  obtain ⟨p, es, rfl, ht⟩ := whole T
  have S := structured_renamed (structured T hd E ht)
  have K := known T hd
  refine ⟨e, k3, firstOf (.line p :: es) d, rowsFrom (·.condition) (firstOf (.line p :: es) d) 0 (.line p :: es), ?_, again_table T _ _ (rowsFrom_perm _ _ _ _), again_apart T E _ _, ?_⟩
  · rw [← strand_table (D := renamed d) T hd E (fun k p x g q h1 h2 h3 i hi => ?_) es 0 p ht false (by simp)]
    · obtain ⟨M, hM⟩ := C96_rows (renamed d) _ (Consistent.renamed c) S
      exact ⟨M, fun fuel hf => (exportRows_twin tw hm hdf fuel).trans (hM fuel hf)⟩
    · have n1 : TableNode rows (p.order ++ "_split") := (node_iff T _).2 (.inr ⟨_, _, _, _, h1, h2, .inl rfl⟩)
      have si := (K.silent _ (K.named _ n1).1).2
      constructor
      · intro l
        obtain ⟨f, hf, hc⟩ := flow_cell T hd h1 h2 hi (start_of T h2).1 (T.optional _ _ _ h2).2.1 l
        unfold splitCondition
        rw [flowById_renamed, hf]
        show branchCondition _ i (renameFlow f) = _
        unfold branchCondition
        rw [if_neg fun k => si i k.2]
        unfold flowCondition
        split_ifs with hp
        · exact (P.step _ _ _ h2 (gate_parallel T hd h1 h2 hp)).symm
        · show (savedFlow f.2.2).name.getD "" = _
          rw [hc]
          rfl
      · intro l
        obtain ⟨f, hf, hc⟩ := flow_cell T hd h1 h2 hi (sp_order T (.line h3)).1 (T.line _ _ h3).2.1 l
        unfold skipCondition
        rw [flowById_renamed, hf]
        show flowCondition _ (renameFlow f) = _
        unfold flowCondition
        split_ifs with hp
        · rfl
        · show (savedFlow f.2.2).name.getD "" = _
          rw [hc, P.line _ _ h3]
          rfl
  · exact plain_again P _

open OptRows in
/-- **C138 (again and again).** However often this is done, the table has the same numbers, activities, optional steps and conditions of steps. -/
theorem C138_again (ord : List String → List String) (ho : ∀ l, (ord l).Perm l) (k : Nat) : ∀ (rows : List Row) (items : List Entry), OptionalTable rows items → EndsApart items → PlainCells items →
    ∃ rows' items', Filed ord k rows rows' ∧ OptionalTable rows' items' ∧ SameItems items items' ∧
      ∀ (n : Nat) (x g : Row), items[n]? = some (.optional x g) → ∃ x' g', items'[n]? = some (.optional x' g') ∧ x'.condition = x.condition ∧ (0 < k ∨ g.condition = "" → g'.condition = "") := by
  induction k with
  | zero => exact fun rows items T E P => ⟨rows, items, .none rows, T, ⟨rfl, fun n h h' => by cases items[n] <;> simp⟩, fun n x g h => ⟨x, g, h, rfl, fun a => a.resolve_left (by omega)⟩⟩
  | succ k ih =>
    intro rows items T E P
    obtain ⟨d, bound, hd, h⟩ := C138_filed rows items T E P
    obtain ⟨d', hl, x, N, hx, h'⟩ := h bound (le_refl _)
    obtain ⟨e, he, first, rows', ⟨M, hM⟩, T', E', P'⟩ := h' ord ho
    obtain ⟨rows'', items'', h1, h2, h3, h4⟩ := ih rows' _ T' E' P'
    refine ⟨rows'', items'', .more (bound := max bound (max N M)) hd (fun fuel hf => ?_) (fun fuel hf => hx fuel (by omega)) he (fun fuel hf => hM fuel (by omega)) h1, h2,
      same_trans T T' (same_written T _ first) h3, fun n y z hy => ?_⟩
    · rw [Layouter.generateLayout_later d (fuel := bound) (by omega) (by rw [hl]; simp), hl]
    · obtain ⟨y', z', k1, k2, k3⟩ := h4 n _ _ (by rw [again_get, hy]; rfl)
      exact ⟨y', z', k1, k2, fun _ => k3 (.inr rfl)⟩

theorem parcel_plain : PlainCells parcelItems := by
  constructor
  · intro n r h
    have hn : n < 6 := (List.getElem?_eq_some_iff.1 h).1
    interval_cases n <;> simp [parcelItems] at h <;> subst h <;> rfl
  · intro n x g h hw
    have hn : n < 6 := (List.getElem?_eq_some_iff.1 h).1
    interval_cases n <;> simp [parcelItems] at h <;> obtain ⟨rfl, rfl⟩ := h
    · rfl
    · have := hw 'd' (by simp)
      revert this
      unfold White
      decide

/-- The condition `dear` survives, the condition `known` of a `goto` row does not. -/
example : ∃ rows' items' x g x' g', Filed id 2 parcelRows rows' ∧ OptionalTable rows' items' ∧ items'[3]? = some (.optional x g) ∧ x.condition = "dear" ∧
    parcelItems[1]? = some (.optional (Row.mk "1b1" "ask" "" "" "" "") (Row.mk "1a1" "goto 2" "known" "" "" "")) ∧ items'[1]? = some (.optional x' g') ∧ g'.condition = "" := by
  obtain ⟨rows', items', h1, h2, -, h⟩ := C138_again id (fun _ => List.Perm.refl _) 2 _ _ parcel_table parcel_apart parcel_plain
  obtain ⟨x, g, k1, k2, -⟩ := h 3 _ _ rfl
  obtain ⟨x', g', j1, -, j2⟩ := h 1 _ _ rfl
  exact ⟨rows', items', x, g, x', g', h1, h2, k1, k2, rfl, j1, j2 (.inl (by omega))⟩

example : ∃ d bound, loadCsv parcelRows {} = .ok d ∧ ∀ n ≥ bound, ∃ d', Layouter.generateLayout n d = .ok d' := by
  obtain ⟨d, bound, h1, h2⟩ := C138_filed _ _ parcel_table parcel_apart parcel_plain
  exact ⟨d, bound, h1, fun n hn => (h2 n hn).imp fun _ h => h.1⟩

end Bpmn.Props

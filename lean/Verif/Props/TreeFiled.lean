import Verif.Props.TreeAgain
import Verif.Props.CsvFiled
import Verif.Spec.Named
/-! # C133: the conditions of a process without joins survive the way through a table and a file -/
set_option linter.unusedSimpArgs false
set_option linter.unusedVariables false

namespace Bpmn.Csv
open Bpmn.Spec Bpmn.Spec.Csv Bpmn.Props

theorem blank_condition {d : Diagram} (h : NoBlankNames d) (n : Node) (a : String) (hw : ∀ x ∈ (splitCondition d n a).toList, White x) : splitCondition d n a = "" := by
  unfold splitCondition at hw ⊢
  split at hw
  · rename_i f hf
    unfold branchCondition at hw ⊢
    split_ifs at hw ⊢ with h1
    · have := hw 'e' (by simp)
      revert this
      simp [White]
    · unfold flowCondition at hw ⊢
      split_ifs at hw ⊢ with h2
      · rfl
      · cases hn : f.2.2.name with
        | none => rfl
        | some x =>
          rw [hn] at hw
          exact h f (Props.getFlowById_mem hf).1 x hn hw
  · rfl

theorem tree_gateway {d : Diagram} {l : Strand} (h : l.IsTree) : l.Fits d false none → ∀ n ∈ l.nodes, 2 ≤ (outs n).length → IsGateway n := by
  induction l using Strand.rec (motive_2 := fun bs => bs.AreTrees → ∀ fs, bs.Fit d none fs → ∀ n ∈ bs.nodes, 2 ≤ (outs n).length → IsGateway n) with
  | stop e =>
    intro f n hn hl
    rw [Strand.Fits] at f
    simp only [Strand.nodes, List.mem_singleton] at hn
    subst hn
    rw [f.2.2.1] at hl
    simp at hl
  | meet => simp [Strand.IsTree] at h
  | step m rest ih =>
    intro f n hn hl
    rw [Strand.Fits] at f
    rw [Strand.IsTree] at h
    rw [Strand.nodes, List.mem_cons] at hn
    rcases hn with rfl | hn
    · obtain ⟨i, hi, -⟩ := f.2.2.2.1
      rw [hi] at hl
      simp at hl
    · exact ih h.2 f.2.2.2.2.1 n hn hl
  | block s bs rest _ _ => simp [Strand.IsTree] at h
  | fork s bs ih =>
    intro f n hn hl
    rw [Strand.Fits] at f
    rw [Strand.IsTree] at h
    rw [Strand.nodes, List.mem_cons] at hn
    rcases hn with rfl | hn
    · exact h.1
    · exact ih h.2 _ f.2.2.2.2 n hn hl
  | nil => rename_i hn _; simp [Branches.nodes] at hn
  | cons l r ih1 ih2 =>
    rename_i h fs f n hn hl
    rw [Branches.AreTrees] at h
    rw [Branches.Fit] at f
    obtain ⟨i, fs', rfl, -, f2, f3⟩ := f
    rw [Branches.nodes, List.mem_append] at hn
    rcases hn with hn | hn
    · exact ih1 h.1 f2 n hn hl
    · exact ih2 h.2.2.2 fs' f3 n hn hl

theorem process_gateway {d : Diagram} {s : Node} {l : Strand} (T : TreeProcess d s l) {n : Node} (hn : n ∈ d.getNodes) (hl : 2 ≤ (outs n).length) : IsGateway n := by
  have f := T.structured.fits
  rw [Strand.Fits] at f
  have hm := T.structured.nodes.mem_iff.2 hn
  rw [Strand.nodes, List.mem_cons] at hm
  rcases hm with rfl | hm
  · obtain ⟨i, hi, -⟩ := f.2.2.2.1
    rw [hi] at hl
    simp at hl
  · exact tree_gateway T.tree f.2.2.2.2.1 n hm hl

theorem leads_renamed {d : Diagram} {i : String} {m : Option Node} : LeadsTo (renamed d) i m ↔ LeadsTo d i m := by
  unfold LeadsTo
  constructor
  · rintro ⟨q, hq, e, f, hf, ht⟩
    rw [flowById_renamed] at hf
    cases hx : d.getFlowById i with
    | error _ => rw [hx] at hf; cases hf
    | ok o =>
      rw [hx] at hf
      cases o with
      | none => cases hf
      | some f0 =>
        simp only [Except.map, Option.map_some, Except.ok.injEq, Option.some.injEq] at hf
        subst hf
        exact ⟨q, hq, e, f0, rfl, by rw [← ht]; exact ((savedFlow_fields f0.2.2).2.2.2.1).symm⟩
  · rintro ⟨q, hq, e, f, hf, ht⟩
    refine ⟨q, hq, e, renameFlow f, by rw [flowById_renamed, hf]; rfl, ?_⟩
    rw [← ht]
    exact (savedFlow_fields f.2.2).2.2.2.1

theorem TreeCopy.renamed {d d' : Diagram} {φ : Node → Node} (C : TreeCopy d d' φ) : TreeCopy d (renamed d') φ := by
  refine ⟨C.con, Consistent.renamed C.con', C.perm, C.kept, fun n hn m hm i => (C.goes n hn m hm i).trans ?_, C.silent⟩
  unfold Goes
  simp only [leads_renamed]

/-- The conditions are kept, if the flows have the names of their conditions. -/
theorem TreeCopy.conditions {d d' : Diagram} {φ : Node → Node} (C : TreeCopy d d' φ) {s : Node} {l : Strand} (T : TreeProcess d s l) (hb : NoBlankNames d)
    (blank : ∀ i f, d'.getFlowById i = .ok (some f) → f.2.2.name = some "")
    (hg : ∀ n ∈ d.getNodes, IsGateway n → ((φ n).2.type = some "parallelGateway" ↔ ∀ a ∈ Spec.outs n, ∀ x ∈ (splitCondition d n a).toList, White x) ∧
        ∀ (i : Nat) (a : String), (Spec.outs n)[i]? = some a → ∃ b fl, (Spec.outs (φ n))[i]? = some b ∧ d'.getFlowById b = .ok (some fl) ∧
          fl.2.2.conditionExpression.map (·.expr) = if splitCondition d n a = "" then none else some (splitCondition d n a)) :
    Conds d (Csv.renamed d') φ id := by
  intro n hn hl i a b ha hb'
  obtain ⟨g1, g2⟩ := hg n hn (process_gateway T hn hl)
  obtain ⟨b', fl, k1, k2, k3⟩ := g2 i a ha
  rw [hb'] at k1
  cases k1
  unfold splitCondition
  rw [flowById_renamed, k2]
  show branchCondition (φ n) b (renameFlow fl) = id (splitCondition d n a)
  unfold branchCondition
  rw [if_neg (fun k => (C.silent _ (C.mem hn)).2.2 b k.2)]
  unfold flowCondition
  split_ifs with hp
  · exact (blank_condition hb n a (g1.1 hp a (List.mem_of_getElem? ha))).symm
  · show (savedFlow fl.2.2).name.getD "" = _
    unfold savedFlow
    by_cases he : splitCondition d n a = ""
    · rw [if_pos he, Option.map_eq_none_iff] at k3
      rw [k3, blank b fl k2]
      exact he.symm
    · rw [if_neg he] at k3
      obtain ⟨z, e1, e2⟩ := Option.map_eq_some_iff.1 k3
      rw [e1]
      exact e2

end Bpmn.Csv

namespace Bpmn.Props
open Bpmn Spec Spec.Csv Csv Layouter Classify

/-- **C133.** A process without joins goes through a table, and the result, if it can be drawn, through a file. The table that the loaded diagram is exported to is the first one
without the texts of ends, but with all the conditions. -/
theorem C133_filed (d : Diagram) (s : Node) (l : Strand) (c : Consistent d) (T : TreeProcess d s l) (hb : NoBlankNames d) :
    ∃ rows d', (∃ N, ∀ fuel ≥ N, exportRows d fuel = .ok rows) ∧ loadCsv rows {} = .ok d' ∧ ∀ n d1, generateLayout n d' = .ok d1 →
      ∃ x N, (∀ fuel ≥ N, Export.exportXmlFile fuel d1 = .ok x) ∧ ∀ ord : List String → List String, (∀ l, (ord l).Perm l) →
        ∃ e, Import.load ord x.toDom {} = .ok e ∧ ∃ N, ∀ fuel ≥ N, exportRows e fuel = .ok (rows.map fun r => { kept r with condition := r.condition }) := by
  obtain ⟨d', φ, C, h1, h2, h3⟩ := tree_copy c T
  refine ⟨_, d', C96_rows d _ c T.structured, h1, fun n d1 hl => ?_⟩
  have tb := TreeP.table T c
  obtain ⟨x, N, k1, k2⟩ := C89_saved _ tb d' d1 h1 hl
  refine ⟨x, N, k1, fun ord ho => ?_⟩
  obtain ⟨e, k3, k4⟩ := k2 ord ho
  obtain ⟨_, _, _, _, st⟩ := stages tb h1
  obtain ⟨ψ, tw, hm, hd⟩ := filed_twin tb h1 C.con' st.keep.inv.sane (layout_sameBut hl) k4
  have R := C.renamed
  obtain ⟨M, hM⟩ := C96_rows (renamed d') _ R.con' (R.again T).structured
  rw [R.table rfl (C.conditions T hb h2 h3) T] at hM
  exact ⟨e, k3, M, fun fuel hf => (exportRows_twin tw hm hd fuel).trans (hM fuel hf)⟩

/-- **C133 (decisions).** For a series of decisions this always works: the process is drawn. -/
theorem C133_series (d : Diagram) (s : Node) (l : Strand) (c : Consistent d) (T : TreeProcess d s l) (hl : l.IsSeries) (hb : NoBlankNames d) :
    ∃ rows d', (∃ N, ∀ fuel ≥ N, exportRows d fuel = .ok rows) ∧ loadCsv rows {} = .ok d' ∧ ∃ N, ∀ fuel ≥ N, ∃ d1, generateLayout fuel d' = .ok d1 ∧
      ∃ x N, (∀ fuel ≥ N, Export.exportXmlFile fuel d1 = .ok x) ∧ ∀ ord : List String → List String, (∀ l, (ord l).Perm l) →
        ∃ e, Import.load ord x.toDom {} = .ok e ∧ ∃ N, ∀ fuel ≥ N, exportRows e fuel = .ok (rows.map fun r => { kept r with condition := r.condition }) := by
  obtain ⟨rows, d', ⟨N, hN⟩, h1, h2⟩ := C133_filed d s l c T hb
  obtain ⟨rows', d'', ⟨M, hM⟩, h1', order, row, col, B, -, -, -, hB⟩ := C131_drawn d s l c T hl
  have e1 : rows' = rows := by
    have a := hN (max N M) (Nat.le_max_left _ _)
    rw [hM (max N M) (Nat.le_max_right _ _)] at a
    exact Except.ok.inj a
  subst e1
  rw [h1] at h1'
  cases h1'
  refine ⟨rows', d', ⟨N, hN⟩, h1, B, fun fuel hf => ?_⟩
  obtain ⟨d1, hd, -⟩ := hB fuel hf
  exact ⟨d1, hd, h2 fuel d1 hd⟩

set_option maxRecDepth 8000 in
/-- The example of C129. -/
example : Consistent (Op.run {} branchyOps) ∧ TreeProcess (Op.run {} branchyOps) (nodeOf (Op.run {} branchyOps) "s") (branchyLine (Op.run {} branchyOps)) ∧
    (branchyLine (Op.run {} branchyOps)).IsSeries ∧ NoBlankNames (Op.run {} branchyOps) := by
  refine ⟨consistent_of_allowed _ branchy_allowed, branchy_example, by have := branchy_series (Op.run {} branchyOps); rwa [Strand.IsSeries] at this, ?_⟩
  intro f hf x hx hw
  have : ∀ f ∈ (Op.run {} branchyOps).getFlows, f.2.2.name.getD "" ∈ ["", "large", "odd", "small"] := by decide +kernel
  have := this f hf
  rw [hx] at this
  simp only [Option.getD_some, List.mem_cons, List.not_mem_nil, or_false] at this
  rcases this with rfl | rfl | rfl | rfl
  · rfl
  · exact absurd (hw 'l' (by simp)) (by simp [White])
  · exact absurd (hw 'o' (by simp)) (by simp [White])
  · exact absurd (hw 's' (by simp)) (by simp [White])

end Bpmn.Props

import Verif.Model.LayoutState
import Verif.Lemmas.Layout
import Verif.Lemmas.GridLog
import Verif.Props.Layouter
/-! The object after `generate_layout`. -/
set_option linter.unusedSimpArgs false
set_option linter.unusedVariables false

namespace Bpmn.Layouter
open Bpmn Spec Classify

variable {d : Diagram}

/-! ## The two models agree -/

theorem moveNodes_eq (grid : List Cell) : ∀ l : List Node, setCoordinates grid l = (moveNodes grid l).2.map fun _ => (moveNodes grid l).1
  | [] => rfl
  | n :: r => by
    rw [setCoordinates, moveNodes]
    cases grid.find? (fun c => c.nodeId == n.1) with
    | none => rfl
    | some c =>
      have ih := moveNodes_eq grid r
      simp only [ih]
      cases h : (moveNodes grid r).2 with
      | error e => rfl
      | ok u => rfl

theorem drawFlows_eq (d : Diagram) : ∀ (l : List Flow) (g : Graph), setWaypoints d l g = (drawFlows d l g).2.map fun _ => (drawFlows d l g).1
  | [], g => rfl
  | f :: r, g => by
    have e : newPoints d f = waypointsOf d f := rfl
    rw [setWaypoints_cons, drawFlows, e]
    cases waypointsOf d f with
    | error e => rfl
    | ok w => exact drawFlows_eq d r _

theorem layoutObject_eq (fuel : Nat) (d : Diagram) : generateLayout fuel d = (layoutObject fuel d).2.map fun _ => (layoutObject fuel d).1 := by
  have e : generateLayout fuel d = (computeGrid fuel d).bind fun grid => (setCoordinates grid d.graph.nodes).bind fun ns =>
      setFlowsWaypoints { d with graph := { d.graph with nodes := ns } } := by
    simp only [generateLayout, computeGrid, bind, Except.bind]
    cases generateElementsClassification d with
    | error e => rfl
    | ok p =>
      cases h : topologicalSort fuel d p.1 with
      | error e => simp only [h]
      | ok q => simp only [h]
  rw [e, layoutObject]
  cases computeGrid fuel d with
  | error e => rfl
  | ok grid =>
    simp only [Except.bind, moveNodes_eq]
    cases h : (moveNodes grid d.graph.nodes).2 with
    | error e => rfl
    | ok u =>
      simp only [Except.map, setFlowsWaypoints, drawFlows_eq, bind, Except.bind, pure, Except.pure]
      cases (drawFlows { d with graph := { d.graph with nodes := (moveNodes grid d.graph.nodes).1 } }
        (Diagram.getFlows { d with graph := { d.graph with nodes := (moveNodes grid d.graph.nodes).1 } }) _).2 with
      | error e => rfl
      | ok u => rfl

/-! ## Which nodes have cells -/

theorem grid_ids (h : Consistent d) {fuel : Nat} {grid : List Cell} (hg : computeGrid fuel d = .ok grid) :
    (∃ sorted back, topologicalSort fuel d ((byType d).map ncOf) = .ok (sorted, back) ∧ gridLayout fuel d sorted = .ok grid) ∧
    (grid.map (·.nodeId)).Perm ((byType d).map (·.1)) := by
  simp only [computeGrid, generateElementsClassification, elements_eq h.complete, bind, Except.bind, pure, Except.pure] at hg
  cases hs : topologicalSort fuel d ((byType d).map ncOf) with
  | error e => rw [hs] at hg; cases hg
  | ok q =>
    obtain ⟨sorted, back⟩ := q
    rw [hs] at hg
    refine ⟨⟨sorted, back, rfl, hg⟩, ?_⟩
    have g := good_of_consistent h
    have hp := Props.perm_of_inv g (sortLoop_inv g fuel (inv_start g) hs)
    have hids : (((byType d).map ncOf).map (·.id)).Nodup := by
      have := byType_ids h.ids
      simpa [List.map_map, Function.comp_def, ncOf] using this
    obtain ⟨L, roots, h1, h2, -⟩ := gridLoop_log hids fuel fuel (p := ⟨[], gridColumnWidth, 1, sorted⟩) (fun x hx => hp.mem_iff.1 hx)
      ((hp.map (·.id)).nodup_iff.2 hids) hg
    rw [h1]
    refine ((h2.symm.trans (hp.map (·.id))).trans ?_)
    simp [List.map_map, Function.comp_def, ncOf]

end Bpmn.Layouter

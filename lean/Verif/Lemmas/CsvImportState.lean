import Verif.Model.CsvImportState
import Verif.Lemmas.CsvReload
set_option linter.unusedSimpArgs false
set_option linter.unusedVariables false
/-!
# What a CSV import leaves: agreement with the model without the object
-/
namespace Bpmn.Csv
open Bpmn

/-- The result of a call together with the object, or the exception alone. -/
def Call.both {α : Type} (x : Call α) : Py (α × Diagram) :=
  match x.2 with
  | .ok a => .ok (a, x.1)
  | .error e => .error e

/-- The object after a call without exception. -/
def Call.fine {α : Type} (x : Call α) : Py Diagram :=
  match x.2 with
  | .ok _ => .ok x.1
  | .error e => .error e

theorem both_next {α β : Type} (x : Call α) (f : α → Diagram → Call β) : (x.next f).both = (x.both >>= fun p => (f p.1 p.2).both) := by
  obtain ⟨d, a | a⟩ := x <;> rfl

theorem fine_next {α β : Type} (x : Call α) (f : α → Diagram → Call β) : (x.next f).fine = (x.both >>= fun p => (f p.1 p.2).fine) := by
  obtain ⟨d, a | a⟩ := x <;> rfl

theorem both_look {α β : Type} (x : Py α) (d : Diagram) (f : α → Call β) : (look x d f).both = (x >>= fun a => (f a).both) := by
  cases x <;> rfl

theorem fine_look {α β : Type} (x : Py α) (d : Diagram) (f : α → Call β) : (look x d f).fine = (x >>= fun a => (f a).fine) := by
  cases x <;> rfl

theorem both_unit (x : Call Unit) {β : Type} (k : Diagram → Py β) : (x.both >>= fun p => k p.2) = (x.fine >>= k) := by
  obtain ⟨d, a | a⟩ := x <;> rfl

theorem both_ok {α : Type} (d : Diagram) (a : α) : Call.both (d, .ok a) = .ok (a, d) := rfl
theorem fine_ok {α : Type} (d : Diagram) (a : α) : Call.fine (d, (.ok a : Py α)) = .ok d := rfl
theorem fine_error {α : Type} (d : Diagram) (e : PyErr) : Call.fine (d, (.error e : Py α)) = .error e := rfl

theorem fine_addOutgoingS (s t : String) (d : Diagram) : (addOutgoingS s t d).fine = addOutgoing s t d := by
  unfold addOutgoingS addOutgoing; rw [fine_look]; rfl

theorem fine_addIncomingS (s t : String) (d : Diagram) : (addIncomingS s t d).fine = addIncoming s t d := by
  unfold addIncomingS addIncoming; rw [fine_look]; rfl

theorem fine_addConnectionS (pd : Dict String Line) (s t : String) (d : Diagram) : (addConnectionS pd s t d).fine = addConnection pd s t d := by
  unfold addConnectionS addConnection
  simp only [fine_next, both_unit _ (fun d => Call.fine (addEdge pd s t d, (.ok () : Py Unit)))]
  rw [both_unit (addOutgoingS s t d) (fun d => (addIncomingS s t d).fine >>= fun d => Call.fine (addEdge pd s t d, (.ok () : Py Unit)))]
  simp only [fine_addOutgoingS, fine_addIncomingS]
  rfl

theorem fine_eachS {α : Type} {f : α → Diagram → Call Unit} {g : Diagram → α → Py Diagram} (h : ∀ a d, (f a d).fine = g d a) :
    ∀ (l : List α) (d : Diagram), (eachS f l d).fine = l.foldlM g d
  | [], d => rfl
  | a :: r, d => by
    unfold eachS
    rw [fine_next, both_unit (f a d) (fun d => (eachS f r d).fine), h, List.foldlM_cons]
    congr 1
    funext d
    exact fine_eachS h r d

theorem fine_fillSplitS (pd : Dict String Line) (ids : List String) (n : String) (d : Diagram) : (fillSplitS pd ids n d).fine = fillSplit pd ids n d := by
  unfold fillSplitS fillSplit
  rw [fine_look]
  congr 1
  funext ty
  simp only [fine_next, fine_look]
  rw [both_unit (addConnectionS pd n (n ++ "_split") _) (fun d => splitSuccessors n ids >>= fun succ => (eachS (addConnectionS pd (n ++ "_split")) succ d).fine),
    fine_addConnectionS]
  congr 1
  funext d
  congr 1
  funext s
  exact fine_eachS (fun a d => fine_addConnectionS pd _ a d) s d

theorem fine_fillMergeS (pd : Dict String Line) (ids : List String) (n : String) (cs : List String) (d : Diagram) :
    (fillMergeS pd ids n cs d).fine = fillMerge pd ids n cs d := by
  unfold fillMergeS fillMerge
  rw [fine_look]
  congr 1
  funext s
  dsimp only
  split
  · exact fine_addConnectionS _ _ _ _
  rw [fine_look]
  congr 1
  funext ty
  rw [fine_next, both_unit _ (fun d => (addConnectionS pd n (s ++ "_join") d).fine), fine_addConnectionS]
  congr 1
  funext d
  exact fine_addConnectionS _ _ _ _

theorem fine_fillNodeS (pd : Dict String Line) (ids : List String) (n : String) (d : Diagram) : (fillNodeS pd ids n d).fine = fillNode pd ids n d := by
  unfold fillNodeS fillNode
  rw [fine_look]
  congr 1
  funext l
  split
  · rfl
  split
  · rw [fine_look]
    congr 1
    funext s
    exact fine_addConnectionS _ _ _ _
  split
  · exact fine_fillSplitS _ _ _ _
  rw [fine_look]
  congr 1
  funext cs
  split
  · exact fine_fillMergeS _ _ _ _ _
  · rfl

theorem fine_fillConnectionsS (pd : Dict String Line) (d : Diagram) : (fillConnectionsS pd d).fine = fillConnections pd d :=
  fine_eachS (fun a d' => fine_fillNodeS pd _ a d') _ _

theorem both_removeIncomingS (n : String) (d : Diagram) : (removeIncomingS n d).both = removeIncoming n d := by
  unfold removeIncomingS removeIncoming
  simp only [both_look]
  rfl

theorem both_removeOutgoingS (n : String) (d : Diagram) : (removeOutgoingS n d).both = removeOutgoing n d := by
  unfold removeOutgoingS removeOutgoing
  simp only [both_look]
  rfl

theorem both_removeNodeS (n : String) (pd : Dict String Line) (d : Diagram) :
    removeNode n pd d = ((removeNodeS n d).both >>= fun p => .ok (p.1.1, p.1.2, pd.erase n, p.2)) := by
  unfold removeNodeS removeNode
  simp only [both_next, both_look, both_removeIncomingS, both_removeOutgoingS, bind_assoc]
  rfl

theorem both_removeGotosS : ∀ (l : List (String × Line)) (pd : Dict String Line) (d : Diagram), (removeGotosS l pd d).both = removeGotos l pd d
  | [], pd, d => rfl
  | (o, l) :: r, pd, d => by
    unfold removeGotosS removeGotos
    split
    · rw [both_removeNodeS, both_next]
      cases (removeNodeS o d).both with
      | error e => rfl
      | ok p =>
      simp only [except_bind_ok, both_look]
      congr 1
      funext tgt
      rw [both_next, both_unit _ (fun d => (removeGotosS r (pd.erase o) d).both), fine_addConnectionS]
      congr 1
      funext d
      exact both_removeGotosS r _ d
    · exact both_removeGotosS r pd d

theorem fine_removeGatewaysS : ∀ (l : List String) (pd : Dict String Line) (d : Diagram), (removeGatewaysS l pd d).fine = removeGateways l pd d
  | [], pd, d => rfl
  | n :: r, pd, d => by
    unfold removeGatewaysS removeGateways
    rw [fine_look]
    congr 1
    funext a
    split
    · rw [fine_look]
      congr 1
      funext inc
      split
      · rw [fine_look]
        congr 1
        funext out
        split
        · rw [both_removeNodeS, fine_next]
          cases (removeNodeS n d).both with
          | error e => rfl
          | ok p =>
          simp only [except_bind_ok]
          rw [fine_next, both_unit _ (fun d => (removeGatewaysS r (pd.erase n) d).fine), fine_addConnectionS]
          congr 1
          funext d
          exact fine_removeGatewaysS r _ d
        · exact fine_removeGatewaysS r pd d
      · exact fine_removeGatewaysS r pd d
    · exact fine_removeGatewaysS r pd d

/-- **The two models agree.** -/
theorem fine_loadCsvObject (rows : List Row) (d : Diagram) : (loadCsvObject rows d).fine = loadCsv rows d := by
  unfold loadCsvObject loadCsv
  rw [fine_look]
  congr 1
  funext pd
  rw [fine_next, both_unit _ (fun d => ((removeGotosS pd pd (legacyAdjustment d)).next fun pd d => removeGatewaysS d.graph.nodes.keys pd d).fine),
    fine_fillConnectionsS]
  congr 1
  funext d
  rw [fine_next, both_removeGotosS]
  congr 1
  funext p
  exact fine_removeGatewaysS _ _ _

end Bpmn.Csv

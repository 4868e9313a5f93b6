import Verif.Model.Layouter
/-!
A larger budget never changes the result of `generate_layout`.
-/
namespace Bpmn.Layouter
open Bpmn Classify

/-- The second result is the first one unless that ran out of budget. -/
def Later {α : Type} (a b : Py α) : Prop := a ≠ .error .outOfFuel → b = a

theorem Later.rfl' {α : Type} {a : Py α} : Later a a := fun _ => rfl

theorem Later.bind {α β : Type} {a b : Py α} {f g : α → Py β} (h : Later a b) (k : ∀ v, Later (f v) (g v)) : Later (a >>= f) (b >>= g) := by
  intro hne
  have ha : a ≠ .error .outOfFuel := by
    rintro rfl
    exact hne rfl
  rw [h ha]
  cases a with
  | error e => rfl
  | ok v => exact k v hne

theorem sortLoop_later (d : Diagram) (all : List NC) : ∀ (fuel fuel' : Nat), fuel ≤ fuel' → ∀ tmp sorted back,
    Later (sortLoop d all fuel tmp sorted back) (sortLoop d all fuel' tmp sorted back)
  | 0, _, _, _, _, _ => fun h => absurd rfl h
  | fuel + 1, 0, h, _, _, _ => by omega
  | fuel + 1, fuel' + 1, h, tmp, sorted, back => by
    simp only [sortLoop]
    split
    · exact Later.rfl'
    · split
      · exact Later.rfl'.bind fun v => sortLoop_later d all fuel fuel' (by omega) _ _ _
      · exact Later.rfl'.bind fun v => sortLoop_later d all fuel fuel' (by omega) _ _ _

theorem placeSuccessors_later {f g : NC → Place → Option Int → Py Place} (h : ∀ x p e, Later (f x p e) (g x p e)) (succs : List NC) :
    ∀ l p, Later (placeSuccessors f succs l p) (placeSuccessors g succs l p)
  | [], _ => Later.rfl'
  | (k, row) :: r, p => by
    simp only [placeSuccessors]
    exact Later.rfl'.bind fun s => (h _ _ _).bind fun p => Later.rfl'.bind fun rest => placeSuccessors_later h succs r _

theorem placeElement_later (d : Diagram) : ∀ (fuel fuel' : Nat), fuel ≤ fuel' → ∀ x p e, Later (placeElement d fuel x p e) (placeElement d fuel' x p e)
  | 0, _, _, _, _, _ => fun h => absurd rfl h
  | fuel + 1, 0, h, _, _, _ => by omega
  | fuel + 1, fuel' + 1, h, x, p, e => by
    simp only [placeElement]
    refine Later.rfl'.bind fun v => ?_
    split
    · exact Later.rfl'.bind fun ids => placeSuccessors_later (fun x p e => placeElement_later d fuel fuel' (by omega) x p e) _ _ _
    · exact Later.rfl'

theorem gridLoop_later (d : Diagram) {fuel fuel' : Nat} (hf : fuel ≤ fuel') : ∀ (n n' : Nat), n ≤ n' → ∀ p, Later (gridLoop d fuel n p) (gridLoop d fuel' n' p)
  | 0, _, _, _ => fun h => absurd rfl h
  | n + 1, 0, h, _ => by omega
  | n + 1, n' + 1, h, p => by
    simp only [gridLoop]
    split
    · exact Later.rfl'
    · exact (placeElement_later d fuel fuel' hf _ _ _).bind fun p => gridLoop_later d hf n n' (by omega) p

/-- A larger budget gives the same result. -/
theorem generateLayout_later (d : Diagram) {fuel fuel' : Nat} (hf : fuel ≤ fuel') (h : generateLayout fuel d ≠ .error .outOfFuel) :
    generateLayout fuel' d = generateLayout fuel d := by
  have : Later (generateLayout fuel d) (generateLayout fuel' d) := by
    unfold generateLayout topologicalSort gridLayout
    exact Later.rfl'.bind fun v => (sortLoop_later d _ fuel fuel' hf _ _ _).bind fun s => (gridLoop_later d hf fuel fuel' hf _).bind fun g => Later.rfl'
  exact this h

end Bpmn.Layouter

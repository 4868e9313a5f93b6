/-!
# Python primitives used by the model

Exceptions, insertion ordered dictionaries, and list helpers.  Nothing here is specific to bpmn-python.
-/
namespace Bpmn

/-- The Python exception classes that the modelled code can raise. -/
inductive PyErr where
  | keyError
  | typeError
  | indexError
  | valueError
  | stopIteration
  | zeroDivision
  | attributeError
  | networkXError
  /-- `BpmnPythonError` of `bpmn_python/bpmn_diagram_exception.py:7-15`. -/
  | bpmnError
  /-- Not an exception: the step budget (`fuel`) of a modelled `while` loop or recursion was used up.  "Terminates" always means
  that the result is different from this one for every large enough budget. -/
  | outOfFuel
deriving DecidableEq, Repr

/-- Result of a Python computation: a value or a raised exception. -/
abbrev Py (α : Type) := Except PyErr α

deriving instance DecidableEq for Except

/-- `d[k]` on an attribute dictionary whose entry is `o` (`none` = key absent). -/
def need {α : Type} : Option α → Py α
  | some a => .ok a
  | none => .error .keyError

/-- A Python `dict`: association list in insertion order (Python >= 3.7). -/
abbrev Dict (κ α : Type) := List (κ × α)

namespace Dict
variable {κ α : Type} [DecidableEq κ]

/-- `d.get(k)`. -/
def get? : Dict κ α → κ → Option α
  | [], _ => none
  | (k, v) :: r, x => if k = x then some v else get? r x

/-- `d[k] = v`: replaces the value in place or appends a new entry. -/
def set : Dict κ α → κ → α → Dict κ α
  | [], x, a => [(x, a)]
  | (k, v) :: r, x, a => if k = x then (k, a) :: r else (k, v) :: set r x a

/-- In place change of the value stored under an existing key (nothing if absent). -/
def modify : Dict κ α → κ → (α → α) → Dict κ α
  | [], _, _ => []
  | (k, v) :: r, x, f => if k = x then (k, f v) :: r else (k, v) :: modify r x f

/-- `del d[k]` (nothing if absent). -/
def erase : Dict κ α → κ → Dict κ α
  | [], _ => []
  | (k, v) :: r, x => if k = x then r else (k, v) :: erase r x

/-- `list(d.keys())`. -/
def keys (d : Dict κ α) : List κ := d.map Prod.fst

/-- `k in d`. -/
def has (d : Dict κ α) (k : κ) : Bool := (get? d k).isSome

end Dict

/-- Python's `[x for x in xs if p(x)]` where evaluating `p` may raise. -/
def pyFilter {α : Type} (p : α → Py Bool) : List α → Py (List α)
  | [] => .ok []
  | x :: xs => do
    let b ← p x
    let r ← pyFilter p xs
    pure (if b then x :: r else r)

/-- A `for` loop that returns the first element satisfying `p`, `none` if the loop ends; evaluating `p` may raise. -/
def pyFind {α : Type} (p : α → Py Bool) : List α → Py (Option α)
  | [] => .ok none
  | x :: xs => do
    let b ← p x
    if b then pure (some x) else pyFind p xs

/-- `list.remove(x)`: removes the first occurrence, `ValueError` if there is none. -/
def pyRemove {α : Type} [DecidableEq α] (l : List α) (x : α) : Py (List α) :=
  if x ∈ l then .ok (l.erase x) else .error .valueError

/-- `l[i]` for a natural index. -/
def pyIndex {α : Type} (l : List α) (i : Nat) : Py α :=
  match l[i]? with
  | some a => .ok a
  | none => .error .indexError

/-- `"true" if b else "false"`. -/
def boolStr (b : Bool) : String := if b then "true" else "false"

end Bpmn

import Verif.Spec.Structured
/-!
# Flat processes: a main line of activities and blocks
-/
namespace Bpmn.Spec
open Bpmn.Csv Bpmn.Spec.Csv

/-- A branch: its nodes, and whether the last one is an end event. -/
structure FlatLeg where
  steps : List Node
  stops : Bool

/-- A part of the main line: an activity, or a gateway, the branches behind its flows, and the gateway where they meet. -/
inductive FlatPart where
  | step (n : Node)
  | block (s : Node) (legs : List FlatLeg) (j : Node)

/-- A start event, the parts, and an end event. -/
structure FlatProcess where
  first : Node
  parts : List FlatPart
  last : Node

/-- A branch as a line. -/
def legStrand (stops : Bool) : List Node → Strand
  | [] => .meet
  | [n] => if stops then .stop n else .step n .meet
  | n :: m :: r => .step n (legStrand stops (m :: r))

def legBranches : List FlatLeg → Branches
  | [] => .nil
  | leg :: r => .cons (legStrand leg.stops leg.steps) (legBranches r)

/-- The main line from some part on. -/
def partsStrand (last : Node) : List FlatPart → Strand
  | [] => .stop last
  | .step n :: r => .step n (partsStrand last r)
  | .block s legs j :: r => .block s (legBranches legs) (.step j (partsStrand last r))

def FlatProcess.strand (p : FlatProcess) : Strand := .step p.first (partsStrand p.last p.parts)

def IsGateway (n : Node) : Prop :=
  n.2.type ∈ [some "exclusiveGateway", some "inclusiveGateway", some "parallelGateway", some "complexGateway", some "eventBasedGateway"]

/-- The diagram is this flat process: at least two branches of a block are not terminated, they have one to ten nodes, all of them activities but for an end
event at the end; there is an activity between two blocks; no activity or event has a text that begins with `goto`. -/
structure FlatProcess.Flat (p : FlatProcess) (d : Diagram) : Prop where
  structured : Structured d p.strand
  begins : p.first.2.type = some "startEvent"
  ends : p.last.2.type = some "endEvent"
  steps : ∀ n, FlatPart.step n ∈ p.parts → IsActivity n
  gateways : ∀ s legs j, FlatPart.block s legs j ∈ p.parts → IsGateway s ∧ IsGateway j
  two : ∀ s legs j, FlatPart.block s legs j ∈ p.parts → 2 ≤ (legs.filter fun l => !l.stops).length
  short : ∀ s legs j, FlatPart.block s legs j ∈ p.parts → ∀ leg ∈ legs, 1 ≤ leg.steps.length ∧ leg.steps.length ≤ 10
  inside : ∀ s legs j, FlatPart.block s legs j ∈ p.parts → ∀ leg ∈ legs, ∀ (m : Nat) (n : Node), leg.steps[m]? = some n →
    if leg.stops = true ∧ m + 1 = leg.steps.length then n.2.type = some "endEvent" else IsActivity n
  apart : ∀ i s legs j s' legs' j', p.parts[i]? = some (.block s legs j) → p.parts[i + 1]? ≠ some (.block s' legs' j')
  plain : ∀ n ∈ d.getNodes, HasRow n → ¬GotoRow (Row.mk "" (caption n).1 "" "" "" "")

/-- The id that a node gets when the process is exported to a table and imported from it. -/
inductive FlatProcess.At (p : FlatProcess) : Node → String → Prop where
  | first : p.At p.first "0"
  | step {k : Nat} {n : Node} : p.parts[k]? = some (.step n) → p.At n (toString (k + 1))
  | split {k : Nat} {s j : Node} {legs : List FlatLeg} : p.parts[k]? = some (.block s legs j) → p.At s (toString k ++ "_split")
  | inside {k i m : Nat} {s j n : Node} {legs : List FlatLeg} {leg : FlatLeg} : p.parts[k]? = some (.block s legs j) → legs[i]? = some leg →
      leg.steps[m]? = some n → p.At n (legOrder (k + 1) i (m + 1))
  | join {k : Nat} {s j : Node} {legs : List FlatLeg} : p.parts[k]? = some (.block s legs j) → p.At j (toString (k + 2) ++ "_join")
  | last : p.At p.last (toString (p.parts.length + 1))

/-- What a node has become in the table and back: activities, start and end events keep their type, ends lose their name, events their triggers, but a message or
timer start event has it in its name; gateways become gateways. -/
def Kept (n n' : Node) : Prop :=
  if HasRow n then n'.2.type = n.2.type ∧ n'.2.nodeName = some (if n.2.type = some "endEvent" then "" else (caption n).1)
  else IsGateway n'

/-- The outgoing flow of `n` with the number `i`, counted from 0, leads to `m`. -/
def Goes (d : Diagram) (n : Node) (i : Nat) (m : Node) : Prop := ∃ a, (outs n)[i]? = some a ∧ LeadsTo d a (some m)

end Bpmn.Spec

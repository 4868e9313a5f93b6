import Verif.Spec.CsvFlat
/-!
# Block-structured processes and their tables

A process that is a line of nodes in which some nodes split: the branches of a split are lines again, which come to an end or meet again.
-/
namespace Bpmn.Spec
open Bpmn.Csv Bpmn.Spec.Csv

mutual
/-- A line of nodes. -/
inductive Strand where
  /-- this node, the last one of the process -/
  | stop (e : Node)
  /-- nothing more: here is the node where the branches of the split around this line meet -/
  | meet
  /-- this node, and behind its only flow the rest -/
  | step (n : Node) (rest : Strand)
  /-- this split with its branches, which meet at the first node of the rest -/
  | block (s : Node) (branches : Branches) (rest : Strand)
  /-- this split with its branches, which do not meet again -/
  | fork (s : Node) (branches : Branches)

/-- The branches of a split. -/
inductive Branches where
  | nil
  | cons (l : Strand) (r : Branches)
end

def IsActivity (n : Node) : Prop := n.2.type = some "task" ∨ n.2.type = some "subProcess"

instance (n : Node) : Decidable (IsActivity n) := by unfold IsActivity; infer_instance

instance (n : Node) : Decidable (HasRow n) := by unfold HasRow; infer_instance

/-- The first node of a line, where `j` is the node behind it. -/
def Strand.first (j : Option Node) : Strand → Option Node
  | .stop e => some e
  | .meet => j
  | .step n _ => some n
  | .block s _ _ => some s
  | .fork s _ => some s

def Strand.IsMeet : Strand → Prop
  | .meet => True
  | _ => False

/-- The line leads to the node behind it. -/
def Strand.GoesOn : Strand → Prop
  | .stop _ => False
  | .meet => True
  | .step _ rest => rest.GoesOn
  | .block _ _ rest => rest.GoesOn
  | .fork _ _ => False

/-- One of the branches has a node and leads to the node behind the branches. -/
def Branches.SomeGoOn : Branches → Prop
  | .nil => False
  | .cons l r => (l.GoesOn ∧ ¬l.IsMeet) ∨ r.SomeGoOn

/-- `get_flow_by_id(i)` leads to the node `m`. -/
def LeadsTo (d : Diagram) (i : String) (m : Option Node) : Prop :=
  ∃ n ∈ d.getNodes, m = some n ∧ ∃ f, d.getFlowById i = .ok (some f) ∧ f.2.2.targetRef = some n.1

/-- How the first node of a line is entered: where branches meet there are several flows into it, and it is no event at the border of the process. -/
def Entered (meets : Bool) (n : Node) : Prop :=
  if meets then 2 ≤ (ins n).length ∧ n.2.type ≠ some "startEvent" ∧ n.2.type ≠ some "endEvent" else (ins n).length ≤ 1

/-- A split: an inner node with 2 to 26 outgoing flows. -/
def IsSplit (s : Node) : Prop := s.2.type ≠ some "startEvent" ∧ s.2.type ≠ some "endEvent" ∧ 2 ≤ (outs s).length ∧ (outs s).length ≤ 26

mutual
/-- The flows of the diagram are those of the line: `j` is the node behind it, and `meets` says whether branches meet at its beginning. Where branches
meet, there is an activity, or a node that does not split and is not at the end of a branch. -/
def Strand.Fits (d : Diagram) (meets : Bool) (j : Option Node) : Strand → Prop
  | .stop e => e ∈ d.getNodes ∧ Entered meets e ∧ outs e = [] ∧ e.2.type ≠ some "startEvent" ∧ (meets = true → IsActivity e)
  | .meet => meets = false ∧ j.isSome
  | .step n rest => n ∈ d.getNodes ∧ Entered meets n ∧ n.2.type ≠ some "endEvent" ∧ (∃ i, outs n = [i] ∧ LeadsTo d i (rest.first j)) ∧
      rest.Fits d false j ∧ (meets = true → ¬IsActivity n → ¬rest.IsMeet)
  | .block s bs rest => s ∈ d.getNodes ∧ Entered meets s ∧ IsSplit s ∧ (meets = true → IsActivity s) ∧ bs.Fit d (rest.first none) (outs s) ∧
      bs.SomeGoOn ∧ rest.Fits d true j
  | .fork s bs => s ∈ d.getNodes ∧ Entered meets s ∧ IsSplit s ∧ (meets = true → IsActivity s) ∧ bs.Fit d none (outs s)

/-- The flows `fs` lead to the branches, one to each in this order; the branches meet at `j`. -/
def Branches.Fit (d : Diagram) (j : Option Node) : Branches → List String → Prop
  | .nil, fs => fs = []
  | .cons l r, fs => ∃ i gs, fs = i :: gs ∧ LeadsTo d i (l.first j) ∧ l.Fits d false j ∧ r.Fit d j gs
end

mutual
/-- The nodes of a line. -/
def Strand.nodes : Strand → List Node
  | .stop e => [e]
  | .meet => []
  | .step n rest => n :: rest.nodes
  | .block s bs rest => s :: (bs.nodes ++ rest.nodes)
  | .fork s bs => s :: bs.nodes

def Branches.nodes : Branches → List Node
  | .nil => []
  | .cons l r => l.nodes ++ r.nodes
end

mutual
/-- The number of branches without nodes. -/
def Strand.skips : Strand → Nat
  | .stop _ => 0
  | .meet => 0
  | .step _ rest => rest.skips
  | .block _ bs rest => bs.skips + rest.skips
  | .fork _ bs => bs.skips

def Branches.skips : Branches → Nat
  | .nil => 0
  | .cons .meet r => 1 + r.skips
  | .cons l r => l.skips + r.skips
end

/-- The row of a node, if it has one. -/
def nodeRow (n : Node) (order condition : String) : List Row :=
  if HasRow n then [Row.mk order (caption n).1 condition "" (caption n).2.1 (caption n).2.2] else []

/-- The condition of a flow that leaves a split, for the first node of the branch. -/
def splitCondition (d : Diagram) (s : Node) (i : String) : String :=
  match d.getFlowById i with
  | .ok (some f) => branchCondition s i f
  | _ => ""

/-- The condition of a flow that leaves a split and leads directly to the node where the branches meet. -/
def skipCondition (d : Diagram) (s : Node) (i : String) : String :=
  match d.getFlowById i with
  | .ok (some f) => flowCondition s f
  | _ => ""

mutual
/-- The table of a line: its nodes are numbered from `o` on, behind the prefix `pre`. The branches of a split with the number `o` have the prefixes `oa`,
`ob`, ... A node where branches meet takes a number only if it has a row. The first row has the condition `c`. -/
def Strand.table (d : Diagram) (meets : Bool) (pre : String) (o : Nat) (c : String) : Strand → List Row
  | .stop e => nodeRow e (pre ++ toString o) c
  | .meet => []
  | .step n rest =>
    if meets ∧ ¬IsActivity n then rest.table d false pre o ""
    else nodeRow n (pre ++ toString o) c ++ rest.table d false pre (o + 1) ""
  | .block s bs rest => nodeRow s (pre ++ toString o) c ++ bs.table d s pre o (outs s) 0 ++ rest.table d true pre (o + 1) ""
  | .fork s bs => nodeRow s (pre ++ toString o) c ++ bs.table d s pre o (outs s) 0

/-- The tables of the branches behind the flows `fs` of the split `s` with the number `o`, from the `k`-th letter on. A branch without nodes has one row that
refers to the number behind the split. -/
def Branches.table (d : Diagram) (s : Node) (pre : String) (o : Nat) : Branches → List String → Nat → List Row
  | .nil, _, _ => []
  | .cons _ _, [], _ => []
  | .cons .meet r, i :: fs, k =>
    Row.mk (pre ++ toString o ++ String.ofList [letter k] ++ "1") ("goto " ++ pre ++ toString (o + 1)) (skipCondition d s i) "" "" "" ::
      r.table d s pre o fs (k + 1)
  | .cons l r, i :: fs, k => l.table d false (pre ++ toString o ++ String.ofList [letter k]) 1 (splitCondition d s i) ++ r.table d s pre o fs (k + 1)
end

/-- The diagram is this line: the line has all nodes, of supported types and with names, and begins at the only node without incoming flows. -/
structure Structured (d : Diagram) (l : Strand) : Prop where
  nodes : l.nodes.Perm d.getNodes
  supported : ∀ n ∈ d.getNodes, Supported n
  named : ∀ n ∈ d.getNodes, n.2.nodeName.isSome
  start : ∀ n ∈ d.getNodes, ins n = [] ↔ l.first none = some n
  fits : l.Fits d false none

end Bpmn.Spec

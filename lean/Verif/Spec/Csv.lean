import Verif.Model.CsvExport
import Verif.Spec.Layout
import Mathlib.Logic.Relation
/-!
# What CSV orders and CSV files are
-/
namespace Bpmn.Spec.Csv
open Bpmn.Csv

/-- Decimal notation. -/
def decimal (n : Nat) : List Char := (toString n).toList

/-- The prefix of the orders of a branch: numbers, each followed by the small letter of a branch. -/
inductive BranchPrefix : List Char → Prop where
  | nil : BranchPrefix []
  | step {p : List Char} (n : Nat) {c : Char} : BranchPrefix p → 'a' ≤ c → c ≤ 'z' → BranchPrefix (p ++ decimal n ++ [c])

/-- An order label: the prefix of a branch and a number. -/
def IsOrder (s : String) : Prop := ∃ p n, BranchPrefix p ∧ s.toList = p ++ decimal n

/-- The six fields of a row. -/
def fields (r : Row) : List String := [r.order, r.activity, r.condition, r.who, r.subprocess, r.terminated]

/-- The parts of a text between the occurrences of a character. -/
def partsOf (c : Char) (s : String) : List String := (s.toList.splitOn c).map String.ofList

/-- The table that a naive CSV reader (lines, then commas) sees in a text whose last line is terminated. -/
def readTable (text : String) : List (List String) := ((partsOf '\n' text).dropLast).map (partsOf ',')

/-- The column names. -/
def header : List String := ["Order", "Activity", "Condition", "Who", "Subprocess", "Terminated"]

/-- The nodes without incoming flows. -/
def starts (d : Diagram) : List Node := d.getNodes.filter fun n => (ins n).length = 0

/-- What the CSV format asks of a diagram: one start, supported and named elements, at most 26 branches at a split, and something after
every start event and every join that is not an activity or an end event. -/
structure Tabular (d : Diagram) : Prop where
  start : (starts d).length = 1
  supported : ∀ n ∈ d.getNodes, Supported n
  named : ∀ n ∈ d.getNodes, n.2.nodeName.isSome
  few : ∀ n ∈ d.getNodes, (outs n).length ≤ 26
  begins : ∀ n ∈ d.getNodes, n.2.type = some "startEvent" → outs n ≠ []
  joins : ∀ n ∈ d.getNodes, 2 ≤ (ins n).length →
    n.2.type ≠ some "task" → n.2.type ≠ some "subProcess" → n.2.type ≠ some "endEvent" → outs n ≠ []

/-- Activities, start events and end events have a row of their own. -/
def HasRow (n : Node) : Prop := n.2.type ∈ [some "task", some "subProcess", some "startEvent", some "endEvent"]

/-- The type of the first event definition. -/
def trigger (n : Node) : Option String := ((n.2.eventDefinitions.getD []).head?).map (·.defType)

/-- Activity, Subprocess and Terminated of the row of a node. -/
def caption (n : Node) : String × String × String :=
  let name := n.2.nodeName.getD ""
  if n.2.type = some "startEvent" then
    (if trigger n = some "messageEventDefinition" then "message " ++ name
      else if trigger n = some "timerEventDefinition" then "timer " ++ name else name, "", "")
  else if n.2.type = some "endEvent" then
    (if trigger n = some "messageEventDefinition" then "message " ++ name else name, "", "yes")
  else if n.2.type = some "subProcess" then (name, "yes", "") else (name, "", "")

/-- Activity, Subprocess and Terminated of a row. -/
def content (r : Row) : String × String × String := (r.activity, r.subprocess, r.terminated)

/-- A diagram without joins, in which start events have one outgoing flow and end events none. -/
structure Treelike (d : Diagram) : Prop where
  noJoin : ∀ n ∈ d.getNodes, (ins n).length ≤ 1
  begins : ∀ n ∈ d.getNodes, n.2.type = some "startEvent" → (outs n).length = 1
  ends : ∀ n ∈ d.getNodes, n.2.type = some "endEvent" → outs n = []

/-- `b` can be reached from `a` along the flows. -/
def Reaches (d : Diagram) (a b : Node) : Prop := Relation.ReflTransGen (Next d) a b

/-- The flow `f` with the id `i` leaves the split `g` for `n`. -/
def Branch (d : Diagram) (g : Node) (i : String) (f : Flow) (n : Node) : Prop :=
  2 ≤ (outs g).length ∧ i ∈ outs g ∧ d.getFlowById i = .ok (some f) ∧ f.2.2.targetRef = some n.1 ∧ n ∈ d.getNodes

/-- The condition that a split writes for one of its flows: nothing at a parallel gateway, otherwise the name. -/
def flowCondition (g : Node) (f : Flow) : String := if g.2.type = some "parallelGateway" then "" else f.2.2.name.getD ""

/-- The same with the word for the default flow. -/
def branchCondition (g : Node) (i : String) (f : Flow) : String :=
  if g.2.type ≠ some "parallelGateway" ∧ g.2.default = some (some i) then "else" else flowCondition g f

/-- What the row of the node `n` may have as condition: nothing if it is the start, if it follows a node that is no split (or is a start
event or a join), or if it is a join; the condition of the flow if it is the first step behind a split. -/
inductive ConditionOf (d : Diagram) (s n : Node) : String → Prop where
  | start : n = s → ConditionOf d s n ""
  | after (g : Node) : Reaches d s g → Next d g n → (outs g).length = 1 ∨ g.2.type = some "startEvent" ∨ 2 ≤ (ins g).length → ConditionOf d s n ""
  | join : 2 ≤ (ins n).length → ConditionOf d s n ""
  | branch (g : Node) (i : String) (f : Flow) : Reaches d s g → Branch d g i f n → (ins n).length ≤ 1 → ConditionOf d s n (branchCondition g i f)

/-- The row of a node that can be reached from the start. -/
structure NodeRow (d : Diagram) (s : Node) (r : Row) : Prop where
  node : ∃ n, Reaches d s n ∧ HasRow n ∧ content r = caption n ∧ ConditionOf d s n r.condition
  who : r.who = ""

/-- The row for a flow, the `k`-th (from 0) of a split, that leads directly to a join: its order is that of the first step of the branch,
and it refers to the order behind the split. -/
structure SkipRow (d : Diagram) (s : Node) (r : Row) : Prop where
  flow : ∃ (g : Node) (k : Nat) (i : String) (f : Flow) (j : Node), Reaches d s g ∧ Branch d g i f j ∧ (outs g)[k]? = some i ∧ 2 ≤ (ins j).length ∧ r.condition = flowCondition g f ∧
    ∃ p m c, BranchPrefix p ∧ "abcdefghijklmnopqrstuvwxyz".toList[k]? = some c ∧ r.order.toList = p ++ decimal m ++ [c] ++ ['1'] ∧
      r.activity.toList = "goto ".toList ++ p ++ decimal (m + 1)
  who : r.who = ""
  marks : r.subprocess = "" ∧ r.terminated = ""

end Bpmn.Spec.Csv

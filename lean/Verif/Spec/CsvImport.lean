import Verif.Spec.Csv
import Verif.Model.CsvImport
/-!
# What a CSV table says
-/
namespace Bpmn.Spec.Csv
open Bpmn.Csv

/-- Different orders, made of the ASCII letters and digits. -/
structure Table (rows : List Row) : Prop where
  orders : (rows.map Row.order).Nodup
  alnum : ∀ r ∈ rows, ∀ c ∈ r.order.toList, c.isAlphanum = true

/-- The activity starts with `goto`, in capital or small letters. -/
def GotoRow (r : Row) : Prop :=
  ∃ a b c e rest, r.activity.toList = a :: b :: c :: e :: rest ∧
    (a = 'g' ∨ a = 'G') ∧ (b = 'o' ∨ b = 'O') ∧ (c = 't' ∨ c = 'T') ∧ (e = 'o' ∨ e = 'O')

/-- The element that a row stands for. -/
def rowType (r : Row) : String :=
  if r.order = "0" then "startEvent" else if r.terminated = "yes" then "endEvent" else if r.subprocess = "yes" then "subProcess" else "task"

/-- The names of the three types of gateways. -/
def gatewayTypes : List (Option String) := [some "exclusiveGateway", some "inclusiveGateway", some "parallelGateway"]

/-- A sequence flow from one node to another: listed by both nodes, and in the dictionary of sequence flows. -/
def Leads (d : Diagram) (s t : String) : Prop :=
  ∃ i sf, ∃ n ∈ d.getNodes, ∃ m ∈ d.getNodes, n.1 = s ∧ m.1 = t ∧ i ∈ outs n ∧ i ∈ ins m ∧
    d.sequenceFlows.get? i = some sf ∧ sf.sourceRef = s ∧ sf.targetRef = t

/-- The last character of a branch prefix is a letter; the main line has no prefix. -/
def Prefix (p : List Char) : Prop := p = [] ∨ ∃ q c, p = q ++ [c] ∧ c.isAlpha = true

/-- There is a row with this order. -/
def HasOrder (rows : List Row) (o : List Char) : Prop := ∃ r ∈ rows, r.order.toList = o

/-- The order of the first step of a branch of the split with order `o`: a letter behind it, or a letter and the number 1 (as the import
reads it: any number written with ones only). -/
def BranchStart (o s : List Char) : Prop := ∃ c ones, s = o ++ c :: ones ∧ c.isAlpha = true ∧ ∀ x ∈ ones, x = '1'

/-- White space: the controls from tabulator to carriage return, the separators 28 to 31, the blank, and the other spaces of Unicode. -/
def White (c : Char) : Prop :=
  c.toNat ∈ [9, 10, 11, 12, 13, 28, 29, 30, 31, 32, 133, 160, 5760, 8192, 8193, 8194, 8195, 8196, 8197, 8198, 8199, 8200, 8201, 8202, 8232, 8233, 8239, 8287, 12288]

/-- The condition of a row is a word, apart from white space around it. -/
def Says (r : Row) (w : String) : Prop :=
  ∃ a b, r.condition.toList = a ++ w.toList ++ b ∧ (∀ c ∈ a, White c) ∧ ∀ c ∈ b, White c

/-- The second word of the activity. -/
def GoesTo (r : Row) (target : String) : Prop :=
  ∃ a b c, r.activity.toList = a ++ b ++ target.toList ++ c ∧ a ≠ [] ∧ (∀ x ∈ a, ¬White x) ∧ b ≠ [] ∧ (∀ x ∈ b, White x) ∧
    target ≠ "" ∧ (∀ x ∈ target.toList, ¬White x) ∧ ∀ w ∈ c.head?, White w

/-- The rows that start the branches of the split with order `o`. -/
def Branches (rows : List Row) (o : List Char) (bs : List Row) : Prop := bs.Nodup ∧ ∀ b, b ∈ bs ↔ b ∈ rows ∧ BranchStart o b.order.toList

/-- Two branches, one for `yes` and one for `no`, or one of them for `else`. -/
def Decision (bs : List Row) : Prop :=
  bs.length = 2 ∧ ((∃ b ∈ bs, Says b "yes") ∧ (∃ b ∈ bs, Says b "no") ∨ ∃ b ∈ bs, Says b "else")

/-- What a node made by the import has, apart from its two lists of flows: an id, a type, a name, the one process, the size and position
that every new node gets, no event definitions, and what the default arguments of the method for its type say. -/
def csvNode (i ty nm : String) : NodeAttrs :=
  { id := some i, type := some ty, nodeName := some nm, process := some "process_1"
    width := some "100", height := some "100", x := some "100", y := some "100", eventDefinitions := some []
    isExpanded := if ty = "subProcess" then some "false" else none
    triggeredByEvent := if ty = "subProcess" then some "false" else none
    parallelMultiple := if ty = "startEvent" then some "false" else none
    isInterrupting := if ty = "startEvent" then some "true" else none
    gatewayDirection := if some ty ∈ gatewayTypes then some "Unspecified" else none
    default := if ty = "exclusiveGateway" ∨ ty = "inclusiveGateway" then some none else none }

/-- The same row but for blanks around the order. -/
structure Padded (r r' : Row) : Prop where
  order : ∃ a b, r'.order.toList = a ++ r.order.toList ++ b ∧ (∀ c ∈ a, c = ' ' ∨ c = '\t') ∧ ∀ c ∈ b, c = ' ' ∨ c = '\t'
  other : (fields r').tail = (fields r).tail

/-- The order of the last step of a branch with prefix `p`: the only step, or a numbered step without a next one and without a nested
split behind it. -/
def LastStep (rows : List Row) (p o : List Char) : Prop :=
  o = p ∨ ∃ m, o = p ++ decimal m ∧ ¬HasOrder rows (p ++ decimal (m + 1)) ∧ ¬HasOrder rows (p ++ decimal (m + 1) ++ ['a']) ∧
    ¬HasOrder rows (p ++ decimal (m + 1) ++ ['a', '1'])

/-- The number `k` stands before a letter in the prefix `p` of a branch: one of the splits around the branch is numbered `k`, in its line. -/
def NumberIn (p : List Char) (k : Nat) : Prop :=
  ∃ q c rest, BranchPrefix q ∧ BranchPrefix rest ∧ 'a' ≤ c ∧ c ≤ 'z' ∧ p = q ++ decimal k ++ c :: rest

/-- A number with the value `k` stands directly before a letter in an order. -/
def NumberBefore (o : List Char) (k : Nat) : Prop :=
  ∃ u ds c v, o = u ++ ds ++ c :: v ∧ ds ≠ [] ∧ (∀ x ∈ ds, x.isDigit = true) ∧ c.isAlpha = true ∧ (∀ w x, u = w ++ [x] → x.isDigit = false) ∧
    Nat.ofDigitChars 10 ds 0 = k

/-- An order in the branch (or main line) with prefix `p`: its only step or a numbered step. -/
def StepOf (p o : List Char) : Prop := BranchPrefix p ∧ (o = p ∨ ∃ n, o = p ++ decimal n)

/-- The table says what comes after the row with order `o`: the next number, the first branch of a split, or one row of the main line
whose number follows a number in the prefix. -/
inductive Continues (rows : List Row) (o : List Char) : Prop where
  | next {p : List Char} {n : Nat} : BranchPrefix p → o = p ++ decimal n →
      HasOrder rows (p ++ decimal (n + 1)) ∨ HasOrder rows (p ++ decimal (n + 1) ++ ['a']) ∨ HasOrder rows (p ++ decimal (n + 1) ++ ['a', '1']) →
      Continues rows o
  | back {p : List Char} {k : Nat} : StepOf p o → NumberIn p k → 1 ≤ k → HasOrder rows (decimal (k + 1)) →
      (∀ j, NumberIn p j → HasOrder rows (decimal (j + 1)) → j = k) → Continues rows o

end Bpmn.Spec.Csv

import Verif.Model.Classify
/-!
# CSV export (`bpmn_python/bpmn_process_csv_export.py`)

The file system part (`:67-75`) is left out: the result is the list of rows, and the text that is written.  When an exception is
raised nothing is written, so the rows collected until then are dropped.
-/
namespace Bpmn.Csv

/-- One exported row (`:151-155`, `:242-243`, ...). -/
structure Row where
  order : String
  activity : String
  condition : String
  who : String
  subprocess : String
  terminated : String
deriving DecidableEq, Repr

/-- `x[2]`, `x[1]`, `x[0]` where `x` is the result of a query that returns `None` for "not found" (`TypeError`). -/
def found {α : Type} : Option α → Py α
  | some a => .ok a
  | none => .error .typeError

/-- `get_node_by_id(get_flow_by_id(i)[2]["targetRef"])`: the flow and its target node
(`:146-147`, `:161-162`, `:199-200`, `:246-247`). -/
def flowTarget (d : Diagram) (flowId : String) : Py (Flow × Option Node) := do
  let f ← d.getFlowById flowId
  let f ← found f
  let t ← need f.2.2.targetRef
  pure (f, d.getNodeById t)

/-- A call of `export_node` (`:78-79`): node, order, prefix, condition, who, add_join, and the rows so far.  The node is an option
because the code passes on what `get_node_by_id` returns. -/
abbrev Rec := Option Node → Nat → String → String → String → Bool → List Row → Py (List Row × Option Node)

/-- `export_start_event` (`:208-249`).  The recursive call passes `who` in the place of `condition` (`:248-249`). -/
def exportStart (d : Diagram) (rec : Rec) (node : Node) (order : Nat) (pre condition who : String) (rows : List Row) :
    Py (List Row × Option Node) := do
  let name ← need node.2.nodeName
  let activity := match node.2.eventDefinitions with
    | some (ev :: _) =>
      if ev.defType = "messageEventDefinition" then "message " ++ name
      else if ev.defType = "timerEventDefinition" then "timer " ++ name
      else name
    | _ => name
  let rows := rows ++ [Row.mk (pre ++ toString order) activity condition who "" ""]
  let out ← need node.2.outgoing
  let flowId ← pyIndex out 0
  let (_, target) ← flowTarget d flowId
  rec target (order + 1) pre who "" false rows

/-- `export_end_event` (`:252-284`). -/
def exportEnd (node : Node) (order : Nat) (pre condition who : String) (rows : List Row) : Py (List Row × Option Node) := do
  let name ← need node.2.nodeName
  let activity := match node.2.eventDefinitions with
    | some (ev :: _) => if ev.defType = "messageEventDefinition" then "message " ++ name else name
    | _ => name
  pure (rows ++ [Row.mk (pre ++ toString order) activity condition who "" "yes"], none)

/-- `string.ascii_lowercase[i]` (`:165`). -/
def asciiLower (i : Nat) : Py String := do
  let c ← pyIndex "abcdefghijklmnopqrstuvwxyz".toList i
  pure (String.ofList [c])

/-- The loop over the outgoing flows of a split (`:160-190`); `i` is `alphabet_suffix_index`. -/
def splitLoop (d : Diagram) (cls : Dict String (List String)) (rec : Rec) (nodeType : String) (defaultFlow : Option String)
    (order : Nat) (pre who : String) : List String → Nat → List Row → Option Node → Py (List Row × Option Node)
  | [], _, rows, next => .ok (rows, next)
  | flowId :: r, i, rows, next => do
    let (flow, target) ← flowTarget d flowId
    let suffix ← asciiLower i
    let nextPre := pre ++ toString order ++ suffix
    let condition := if nodeType ≠ "parallelGateway" then flow.2.2.name.getD "" else ""
    let target ← found target
    let labels ← need (cls.get? target.1)
    if "Join" ∈ labels then
      let row := Row.mk (nextPre ++ toString 1) ("goto " ++ pre ++ toString (order + 1)) condition who "" ""
      splitLoop d cls rec nodeType defaultFlow order pre who r (i + 1) (rows ++ [row]) next
    else
      let condition := if some flowId = defaultFlow then "else" else condition
      let (rows, tmp) ← rec (some target) 1 nextPre condition who false rows
      splitLoop d cls rec nodeType defaultFlow order pre who r (i + 1) rows (match tmp with | some n => some n | none => next)

/-- `default_flow_id` (`:131-135`). -/
def defaultFlow (node : Node) (nodeType : String) : Option String :=
  if nodeType ≠ "parallelGateway" then (match node.2.default with | some (some f) => some f | _ => none) else none

/-- `export_element` at a join reached for the first time: what is returned (`:137-147`). -/
def retract (d : Diagram) (node : Node) (nodeType : String) : Py (Option Node) :=
  if nodeType = "task" ∨ nodeType = "subProcess" then .ok (some node)
  else do
    let out ← found node.2.outgoing
    let flowId ← pyIndex out 0
    let (_, target) ← flowTarget d flowId
    pure target

/-- The row of the element itself (`:149-155`); gateways and other elements have none. -/
def ownRow (node : Node) (nodeType : String) (order : Nat) (pre condition who : String) : Py (List Row) :=
  if nodeType = "task" then do
    let name ← need node.2.nodeName
    pure [Row.mk (pre ++ toString order) name condition who "" ""]
  else if nodeType = "subProcess" then do
    let name ← need node.2.nodeName
    pure [Row.mk (pre ++ toString order) name condition who "yes" ""]
  else .ok []

/-- What follows the element (`:157-205`). -/
def exportNext (d : Diagram) (cls : Dict String (List String)) (rec : Rec) (node : Node) (nodeType : String)
    (labels : List String) (order : Nat) (pre who : String) (rows : List Row) : Py (List Row × Option Node) := do
  let out ← found node.2.outgoing
  if "Split" ∈ labels then
    let (rows, next) ← splitLoop d cls rec nodeType (defaultFlow node nodeType) order pre who out 0 rows none
    match next with
    | some n => rec (some n) (order + 1) pre "" who true rows
    | none => pure (rows, none)
  else if out.length = 1 then
    let flowId ← pyIndex out 0
    let (_, target) ← flowTarget d flowId
    rec target (order + 1) pre "" who false rows
  else pure (rows, none)

/-- `export_element` (`:110-205`). -/
def exportElement (d : Diagram) (cls : Dict String (List String)) (rec : Rec) (node : Node) (order : Nat)
    (pre condition who : String) (addJoin : Bool) (rows : List Row) : Py (List Row × Option Node) := do
  let nodeType ← need node.2.type
  let labels ← need (cls.get? node.1)
  if "Join" ∈ labels ∧ addJoin = false then do
    let next ← retract d node nodeType
    pure (rows, next)
  else do
    let own ← ownRow node nodeType order pre condition who
    exportNext d cls rec node nodeType labels order pre who (rows ++ own)

/-- `export_node` (`:78-107`), with a budget for the depth of the recursion. -/
def exportNode (d : Diagram) (cls : Dict String (List String)) : Nat → Rec
  | 0, _, _, _, _, _, _, _ => .error .outOfFuel
  | fuel + 1, node, order, pre, condition, who, addJoin, rows => do
    let node ← found node
    let nodeType ← need node.2.type
    if nodeType = "startEvent" then exportStart d (exportNode d cls fuel) node order pre condition who rows
    else if nodeType = "endEvent" then exportEnd node order pre condition who rows
    else exportElement d cls (exportNode d cls fuel) node order pre condition who addJoin rows

/-- The loop of `:56-59`. -/
def startNodes : List Node → Py (List Node)
  | [] => .ok []
  | n :: r => do
    let inc ← found n.2.incoming
    let rest ← startNodes r
    pure (if inc.length = 0 then n :: rest else rest)

/-- `export_process_to_csv` (`:44-65`): the rows. -/
def exportRows (d : Diagram) (fuel : Nat) : Py (List Row) := do
  let starts ← startNodes d.getNodes
  match starts with
  | [start] =>
    let cls ← Classify.generateNodesClassification d
    let (rows, _) ← exportNode d cls fuel (some start) 0 "" "" "" false []
    pure rows
  | _ => .error .bpmnError

/-- One written line without its line end (`:297-299`). -/
def Row.line (r : Row) : String :=
  r.order ++ "," ++ r.activity ++ "," ++ r.condition ++ "," ++ r.who ++ "," ++ r.subprocess ++ "," ++ r.terminated

/-- `write_export_node_to_file` after the header (`:73`, `:287-299`): the text of the file. -/
def fileText (rows : List Row) : String :=
  "Order,Activity,Condition,Who,Subprocess,Terminated\n" ++ String.join (rows.map fun r => r.line ++ "\n")

/-- `export_process_to_csv`: the text of the written file. -/
def exportText (d : Diagram) (fuel : Nat) : Py String := do
  let rows ← exportRows d fuel
  pure (fileText rows)

end Bpmn.Csv

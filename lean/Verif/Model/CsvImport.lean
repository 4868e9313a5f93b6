import Verif.Model.CsvExport
/-!
# CSV import (`bpmn_python/bpmn_process_csv_import.py`)

`pandas.read_csv(...).fillna("").to_dict('index')` (`:612`) is not modelled: the input is the table it stands for, a list of rows whose
cells are all strings ("" for an empty cell).  Orders are taken to contain no line break and, where one is made into a regular expression
(`:206`), no character with a special meaning there.  An exception loses the state: the functions return the new diagram or the
exception, not the half changed diagram (that is in `Model/CsvImportState.lean`).
-/
namespace Bpmn.Csv

/-- The entry of `process_dict` for one order: the other columns (`bpmn_python_consts.py:40-44`). -/
structure Line where
  activity : String
  condition : String
  who : String
  subprocess : String
  terminated : String
deriving DecidableEq, Repr

/-! ## Strings -/

/-- A character that `str.strip` and `str.split` treat as white space (`str.isspace`). -/
def isWhite (c : Char) : Bool :=
  let n := c.toNat
  (0x09 ≤ n && n ≤ 0x0D) || (0x1C ≤ n && n ≤ 0x20) || n == 0x85 || n == 0xA0 || n == 0x1680 || (0x2000 ≤ n && n ≤ 0x200A) ||
    n == 0x2028 || n == 0x2029 || n == 0x202F || n == 0x205F || n == 0x3000

/-- `s.strip()`. -/
def strip (s : String) : String := String.ofList (((s.toList.dropWhile isWhite).reverse.dropWhile isWhite).reverse)

/-- The words of a text, `word` being the part of the current word that was already read. -/
def wordsFrom (word : List Char) : List Char → List String
  | [] => if word = [] then [] else [String.ofList word]
  | c :: r =>
    if isWhite c then (if word = [] then wordsFrom [] r else String.ofList word :: wordsFrom [] r)
    else wordsFrom (word ++ [c]) r

/-- `s.split()`. -/
def words (s : String) : List String := wordsFrom [] s.toList

/-- `s.lower().startswith("goto")` (`:572`). -/
def isGoto (s : String) : Bool := (s.toList.take 4).map Char.toLower == ['g', 'o', 't', 'o']

/-- The class `[a-z|A-Z]` of the regular expressions (`:17-22`); the bar is part of it. -/
def isLetter (c : Char) : Bool := (decide ('a' ≤ c) && decide (c ≤ 'z')) || c == '|' || (decide ('A' ≤ c) && decide (c ≤ 'Z'))

/-- `re.match(r'^(.*[a-z|A-Z]|[^0-9]?)([0-9]+)$', s)` (`:17`): both groups, the second as a number.  The digits of the second group must
be all digits at the end of the string, because the first group ends in a non-digit or is empty. -/
def trailingNumber (s : String) : Option (String × Nat) :=
  let r := s.toList.reverse
  let digits := (r.takeWhile Char.isDigit).reverse
  let pre := (r.dropWhile Char.isDigit).reverse
  if digits ≠ [] ∧ (pre = [] ∨ pre.length = 1 ∨ (pre.getLast?.any isLetter) = true) then
    some (String.ofList pre, Nat.ofDigitChars 10 digits 0)
  else none

/-- `re.match(r'(.+)([a-z|A-Z])', s)` (`:18`): some letter behind the first character. -/
def hasInnerLetter (s : String) : Bool := s.toList.tail.any isLetter

/-- `re.finditer(r'(.*?)([0-9]+[a-z|A-Z])(.*?)', s)` (`:19`): for each match the first group (what was skipped since the last match), the
digits, and the letter.  `skipped` and `digits` are what was read since the last match, `digits` the digits directly before the current
position. -/
def mergeScan (skipped digits : List Char) : List Char → List (List Char × List Char × Char)
  | [] => []
  | c :: r =>
    if c.isDigit then mergeScan skipped (digits ++ [c]) r
    else if isLetter c ∧ digits ≠ [] then (skipped, digits, c) :: mergeScan [] [] r
    else mergeScan (skipped ++ digits ++ [c]) [] r

/-! ## Successors -/

/-- `get_possible_sequence_continuation_successor` (`:97-111`). -/
def sequenceSuccessors (nodeId : String) : List String :=
  match trailingNumber nodeId with
  | some (pre, n) => [pre ++ toString (n + 1)]
  | none => []

/-- `get_possible_split_continuation_successor` (`:114-128`). -/
def splitCandidates (nodeId : String) : List String :=
  match trailingNumber nodeId with
  | some (pre, n) => [pre ++ toString (n + 1) ++ "a", pre ++ toString (n + 1) ++ "a1"]
  | none => []

/-- The loop of `get_possible_merge_continuation_successors` (`:145-151`).  `re.match(r'([0-9]+)([a-z,A-Z])', ...)` fails for a bar; the
access to its group then raises `AttributeError`. -/
def mergeLoop : List (List Char × List Char × Char) → Py (List String)
  | [] => .ok []
  | (pre, digits, c) :: r => do
    if c = '|' then .error .attributeError
    else
      let rest ← mergeLoop r
      pure ((String.ofList pre ++ toString (Nat.ofDigitChars 10 digits 0 + 1)) :: rest)

/-- `get_possible_merge_continuation_successors` (`:131-154`). -/
def mergeSuccessors (nodeId : String) : Py (List String) :=
  let nodeId := match trailingNumber nodeId with
    | some (pre, _) => pre
    | none => nodeId
  if hasInnerLetter nodeId then mergeLoop (mergeScan [] [] nodeId.toList) else .ok []

/-- `is_any_possible_successor_present_in_node_ids` (`:157-164`). -/
def anyPresent (candidates ids : List String) : Bool := candidates.any (· ∈ ids)

/-- `get_possible_successor_present_in_node_ids_or_raise_excp` (`:177-188`): the set of candidates that are ids must have one element. -/
def onlyPresent (candidates ids : List String) : Py String :=
  match candidates.filter (· ∈ ids) with
  | [] => .error .bpmnError
  | x :: r => if r.all (· == x) then .ok x else .error .bpmnError

/-- `re.match('^' + next + '([a-z|A-Z]|[a-z|A-Z][1]+)$', elem)` (`:21-22`, `:206-209`). -/
def matchesSplit (next elem : String) : Bool :=
  next.toList.isPrefixOf elem.toList &&
    match elem.toList.drop next.toList.length with
    | c :: r => isLetter c && r.all (· == '1')
    | [] => false

/-- `get_all_split_successors` (`:191-211`). -/
def splitSuccessors (nodeId : String) (ids : List String) : Py (List String) :=
  match trailingNumber nodeId with
  | none => .error .bpmnError
  | some (pre, n) => .ok (ids.filter (matchesSplit (pre ++ toString (n + 1))))

/-! ## Nodes -/

/-- `get_node_type` (`:28-42`). -/
def nodeType (order : String) (l : Line) : String :=
  if order = "0" then "startEvent"
  else if l.terminated = "yes" then "endEvent"
  else if l.subprocess = "yes" then "subProcess"
  else "task"

/-- `default_process_id` (`:24`). -/
def processId : String := "process_1"

/-- `add_node_info_to_diagram_graph` (`:45-67`), with the default arguments of the methods of the diagram.  The node id is always given, so
no id is generated. `type = none` is the Python value `None`. -/
def addNodeInfo (order : String) (type : Option String) (activity : String) (d : Diagram) : Diagram :=
  if type = some "startEvent" then d.addStartEvent processId activity none false true (some order) "" ""
  else if type = some "subProcess" then d.addSubprocess processId activity false false (some order) ""
  else if type = some "endEvent" then d.addEndEvent processId "" none (some order) "" ""
  else if type = some "inclusiveGateway" then (d.addInclusiveGateway processId "" "Unspecified" none (some order) "").1
  else if type = some "exclusiveGateway" then (d.addExclusiveGateway processId "" "Unspecified" none (some order) "").1
  else if type = some "parallelGateway" then (d.addParallelGateway processId "" "Unspecified" (some order) "").1
  else d.addTask processId activity (some order) ""

/-- `import_nodes_info` (`:70-80`). -/
def importNodes (pd : Dict String Line) (d : Diagram) : Diagram :=
  pd.foldl (fun d p => addNodeInfo p.1 (some (nodeType p.1 p.2)) p.2.activity d) d

/-- `remove_white_spaces_in_orders` (`:83-94`): the loop over the copy. -/
def stripOrders (pd : Dict String Line) : Dict String Line := pd.foldl (fun t p => (t.erase p.1).set (strip p.1) p.2) pd

/-! ## Flows -/

/-- `get_flow_id` (`:292-299`). -/
def flowId (src tgt : String) : String := src ++ "__" ++ tgt

/-- `add_outgoing_flow` (`:257-266`). -/
def addOutgoing (src tgt : String) (d : Diagram) : Py Diagram := do
  let a ← d.nodeAttrs src
  pure (d.updNode src fun b => { b with outgoing := some (a.outgoing.getD [] ++ [flowId src tgt]) })

/-- `add_incoming_flow` (`:269-278`). -/
def addIncoming (src tgt : String) (d : Diagram) : Py Diagram := do
  let a ← d.nodeAttrs tgt
  pure (d.updNode tgt fun b => { b with incoming := some (a.incoming.getD [] ++ [flowId src tgt]) })

/-- `add_edge` (`:302-325`) with `get_connection_condition_if_present` (`:281-289`): the condition expression is set when the row of the
target has a non-empty condition. -/
def addEdge (pd : Dict String Line) (src tgt : String) (d : Diagram) : Diagram :=
  let condition := ((pd.get? tgt).map (·.condition)).getD ""
  { d with
    graph := (d.graph.addEdge src tgt).modifyEdge src tgt fun a =>
      { a with
        id := some (flowId src tgt), process := some processId, name := some "", sourceRef := some src, targetRef := some tgt
        conditionExpression :=
          if condition ≠ "" then some ⟨flowId src tgt ++ "_cond", condition⟩ else a.conditionExpression }
    sequenceFlows := d.sequenceFlows.set (flowId src tgt) ⟨flowId src tgt, src, tgt⟩ }

/-- `add_connection` (`:328-339`). -/
def addConnection (pd : Dict String Line) (src tgt : String) (d : Diagram) : Py Diagram := do
  let d ← addOutgoing src tgt d
  let d ← addIncoming src tgt d
  pure (addEdge pd src tgt d)

/-! ## Gateways -/

/-- `get_node_conditions` (`:342-352`). -/
def nodeConditions (pd : Dict String Line) : List String → Py (List String)
  | [] => .ok []
  | s :: r => do
    let l ← need (pd.get? s)
    let rest ← nodeConditions pd r
    pure (strip l.condition :: rest)

/-- `set(conditions) == {"yes", "no"}` (`:361`). -/
def yesNo (conditions : List String) : Bool := conditions.all (fun c => c == "yes" || c == "no") && "yes" ∈ conditions && "no" ∈ conditions

/-- `get_gateway_type` (`:385-400`). -/
def gatewayType (pd : Dict String Line) (nodeId : String) (ids : List String) : Py String := do
  let succ ← splitSuccessors nodeId ids
  let conditions ← nodeConditions pd succ
  if succ.length = 2 ∧ (yesNo conditions = true ∨ "else" ∈ conditions) then pure "exclusiveGateway"
  else if conditions.all (· == "") then pure "parallelGateway"
  else pure "inclusiveGateway"

/-- `get_merge_node_type` (`:420-439`); `none` is the implicit return value `None`. -/
def mergeNodeType (succ : String) (d : Diagram) : Py (Option String) :=
  match trailingNumber succ with
  | none => .ok none
  | some (pre, n) =>
    if n < 2 then .error .bpmnError
    else match d.graph.nodes.get? (pre ++ toString (n - 2) ++ "_split") with
      | none => .ok (some "inclusiveGateway")
      | some a => do
        let t ← need a.type
        pure (some (if t ≠ "" then t else "inclusiveGateway"))

/-- The split branch of the loop of `fill_graph_connections` (`:480-485`) with `add_split_gateway` (`:403-417`). -/
def fillSplit (pd : Dict String Line) (ids : List String) (nodeId : String) (d : Diagram) : Py Diagram := do
  let gateway := nodeId ++ "_split"
  let type ← gatewayType pd nodeId ids
  let d := addNodeInfo gateway (some type) "" d
  let d ← addConnection pd nodeId gateway d
  let succ ← splitSuccessors nodeId ids
  succ.foldlM (fun d s => addConnection pd gateway s d) d

/-- The merge branch of the loop (`:486-493`) with `add_merge_gateway_if_not_exists` (`:442-459`). -/
def fillMerge (pd : Dict String Line) (ids : List String) (nodeId : String) (candidates : List String) (d : Diagram) : Py Diagram := do
  let succ ← onlyPresent candidates ids
  let gateway := succ ++ "_join"
  if d.graph.nodes.has gateway then addConnection pd nodeId gateway d
  else do
    let type ← mergeNodeType succ d
    let d := addNodeInfo gateway type "" d
    let d ← addConnection pd gateway succ d
    addConnection pd nodeId gateway d

/-- One round of the loop of `fill_graph_connections` (`:472-495`). -/
def fillNode (pd : Dict String Line) (ids : List String) (nodeId : String) (d : Diagram) : Py Diagram := do
  let l ← need (pd.get? nodeId)
  if l.terminated = "yes" then pure d
  else if anyPresent (sequenceSuccessors nodeId) ids then do
    let succ ← onlyPresent (sequenceSuccessors nodeId) ids
    addConnection pd nodeId succ d
  else if anyPresent (splitCandidates nodeId) ids then fillSplit pd ids nodeId d
  else do
    let candidates ← mergeSuccessors nodeId
    if anyPresent candidates ids then fillMerge pd ids nodeId candidates d
    else .error .bpmnError

/-- `fill_graph_connections` (`:462-495`). -/
def fillConnections (pd : Dict String Line) (d : Diagram) : Py Diagram :=
  d.graph.nodes.keys.foldlM (fun e n => fillNode pd d.graph.nodes.keys n e) d

/-! ## Adjustments -/

/-- `legacy_adjustment` (`:672-683`). -/
def legacyAdjustment (d : Diagram) : Diagram :=
  { d with graph := { d.graph with nodes := d.graph.nodes.map fun n =>
      (n.1, { n.2 with
        incoming := some (n.2.incoming.getD []), outgoing := some (n.2.outgoing.getD [])
        eventDefinitions := some (n.2.eventDefinitions.getD []) }) } }

/-- `remove_incoming_connection` (`:514-527`); returns the neighbour. -/
def removeIncoming (base : String) (d : Diagram) : Py (String × Diagram) := do
  let a ← d.nodeAttrs base
  let inc ← need a.incoming
  let f ← pyIndex inc 0
  let sf ← need (d.sequenceFlows.get? f)
  let b ← d.nodeAttrs sf.sourceRef
  let out ← need b.outgoing
  let out ← pyRemove out f
  let d := d.updNode sf.sourceRef fun c => { c with outgoing := some out }
  let g ← d.graph.removeEdge sf.sourceRef base
  pure (sf.sourceRef, { d with graph := g, sequenceFlows := d.sequenceFlows.erase f })

/-- `remove_outgoing_connection` (`:498-511`); returns the neighbour. -/
def removeOutgoing (base : String) (d : Diagram) : Py (String × Diagram) := do
  let a ← d.nodeAttrs base
  let out ← need a.outgoing
  let f ← pyIndex out 0
  let sf ← need (d.sequenceFlows.get? f)
  let b ← d.nodeAttrs sf.targetRef
  let inc ← need b.incoming
  let inc ← pyRemove inc f
  let d := d.updNode sf.targetRef fun c => { c with incoming := some inc }
  let g ← d.graph.removeEdge base sf.targetRef
  pure (sf.targetRef, { d with graph := g, sequenceFlows := d.sequenceFlows.erase f })

/-- `remove_node` (`:530-544`): the two neighbours and the new state.  (`process_dict.pop(node, None)` does nothing for a missing key.) -/
def removeNode (node : String) (pd : Dict String Line) (d : Diagram) : Py (String × String × Dict String Line × Diagram) := do
  let (src, d) ← removeIncoming node d
  let (tgt, d) ← removeOutgoing node d
  let g ← d.graph.removeNode node
  pure (src, tgt, pd.erase node, { d with graph := g })

/-- The loop of `remove_goto_nodes` (`:564-575`) over the copy of `process_dict`. -/
def removeGotos : List (String × Line) → Dict String Line → Diagram → Py (Dict String Line × Diagram)
  | [], pd, d => .ok (pd, d)
  | (order, l) :: r, pd, d =>
    if isGoto l.activity then do
      let (src, _, pd, d) ← removeNode order pd d
      let tgt ← pyIndex (words (strip l.activity)) 1
      let d ← addConnection pd src tgt d
      removeGotos r pd d
    else removeGotos r pd d

/-- The loop of `remove_unnecessary_merge_gateways` (`:547-561`).  The list of nodes is made before the loop, but their attribute
dictionaries are shared with the graph. -/
def removeGateways : List String → Dict String Line → Diagram → Py Diagram
  | [], _, d => .ok d
  | n :: r, pd, d => do
    let a ← d.nodeAttrs n
    if a.type ∈ [some "inclusiveGateway", some "exclusiveGateway", some "parallelGateway"] then do
      let inc ← found a.incoming
      if inc.length < 2 then do
        let out ← found a.outgoing
        if out.length < 2 then do
          let (src, tgt, pd, d) ← removeNode n pd d
          let d ← addConnection pd src tgt d
          removeGateways r pd d
        else removeGateways r pd d
      else removeGateways r pd d
    else removeGateways r pd d

/-- `import_csv_file_as_dict` (`:606-614`) after reading: equal orders raise `ValueError` in `to_dict('index')`. -/
def processDict (rows : List Row) : Py (Dict String Line) :=
  if (rows.map Row.order).Nodup then
    .ok (stripOrders (rows.map fun r => (r.order, ⟨r.activity, r.condition, r.who, r.subprocess, r.terminated⟩)))
  else .error .valueError

/-- The `populate_...` functions (`:637-669`). -/
def populate (pd : Dict String Line) (d : Diagram) : Diagram :=
  { d with
    diagramId := some "diagram1", diagramName := some "diagram_name", planeId := some "plane_1", planeElement := some processId
    processElements := d.processElements.set processId
      { id := some processId, name := some "", isClosed := some "false", isExecutable := some "false", processType := some "None",
        nodeIds := some pd.keys } }

/-- `load_diagram_from_csv` (`:583-603`) with `import_nodes` (`:627-635`) and `representation_adjustment` (`:686-695`). -/
def loadCsv (rows : List Row) (d : Diagram) : Py Diagram := do
  let pd ← processDict rows
  let d ← fillConnections pd (importNodes pd (populate pd d))
  let d := legacyAdjustment d
  let (pd, d) ← removeGotos pd pd d
  removeGateways d.graph.nodes.keys pd d

end Bpmn.Csv

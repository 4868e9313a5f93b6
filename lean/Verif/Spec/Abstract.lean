import Verif.Model.Rep
/-!
# Abstract specification of diagram construction

What a user believes a diagram under construction to be: a list of declared nodes, a list of declared flows (a *directed
multigraph*), a list of processes.  It knows nothing of the undirected `networkx` graph, of per-node flow lists or of the
`sequence_flows` table.  `AllowedHistory` spells out the caller's obligations.
-/
namespace Bpmn.Spec

/-- A declared node: its id and the attributes it was declared with (flow lists are not part of the declaration). -/
structure ANode where
  id : String
  attrs : NodeAttrs
deriving DecidableEq, Repr

/-- A declared sequence flow. -/
structure AFlow where
  id : String
  name : String
  process : String
  src : String
  tgt : String
deriving DecidableEq, Repr

/-- A declared process. -/
structure AProc where
  id : String
  name : String
  isClosed : Bool
  isExecutable : Bool
  processType : String
deriving DecidableEq, Repr

/-- The abstract diagram. -/
structure ADiagram where
  /-- id and name of the diagram -/
  header : Option (String × String) := none
  /-- plane id and the process it shows -/
  plane : Option (String × String) := none
  nodes : List ANode := []
  flows : List AFlow := []
  procs : List AProc := []
deriving DecidableEq, Repr

/-- What every node declaration says: id, kind, name, process; geometry 100/100/100/100. -/
def baseNode (kind name process id : String) : NodeAttrs :=
  { id := some id, type := some kind, nodeName := some name, process := some process,
    width := some "100", height := some "100", x := some "100", y := some "100" }

/-- Event definition elements by short name. -/
def definitionsOf (table : List (String × String)) (short : Option String) (defId : String) : List EventDef :=
  (table.filter fun p => some p.1 == short).map fun p => ⟨defId, p.2⟩

/-- Documented kinds of start events (`bpmn_diagram_rep.py:322-327`). -/
def startKinds : List (String × String) :=
  [("message", "messageEventDefinition"), ("timer", "timerEventDefinition"), ("signal", "signalEventDefinition"),
   ("conditional", "conditionalEventDefinition"), ("escalation", "escalationEventDefinition")]

/-- Documented kinds of end events (`bpmn_diagram_rep.py:367-373`). -/
def endKinds : List (String × String) :=
  [("terminate", "terminateEventDefinition"), ("signal", "signalEventDefinition"), ("error", "errorEventDefinition"),
   ("escalation", "escalationEventDefinition"), ("message", "messageEventDefinition"),
   ("compensate", "compensateEventDefinition")]

/-- The directions a gateway may have (`bpmn_diagram_rep.py:424`). -/
def directions : List String := ["Unspecified", "Converging", "Diverging", "Mixed"]

/-- Textual form of a flag. -/
def flag : Bool → String
  | true => "true"
  | false => "false"

/-- The id a node gets: the given one or the generated one. -/
def chosen : Option String → String → String
  | some i, _ => i
  | none, generated => generated

/-- The node declared by a call, if it declares one. -/
def declaredNode : Op → Option ANode
  | .addFlowNode p kind name n uid => some ⟨chosen n uid, baseNode kind name p (chosen n uid)⟩
  | .addTask p name n uid => some ⟨chosen n uid, baseNode "task" name p (chosen n uid)⟩
  | .addSubprocess p name ex tr n uid =>
    some ⟨chosen n uid, { baseNode "subProcess" name p (chosen n uid) with
      isExpanded := some (flag ex), triggeredByEvent := some (flag tr) }⟩
  | .addStartEvent p name df pm ii n uid du =>
    some ⟨chosen n uid, { baseNode "startEvent" name p (chosen n uid) with
      parallelMultiple := some (flag pm), isInterrupting := some (flag ii),
      eventDefinitions := some (definitionsOf startKinds df du) }⟩
  | .addEndEvent p name df n uid du =>
    some ⟨chosen n uid, { baseNode "endEvent" name p (chosen n uid) with
      eventDefinitions := some (definitionsOf endKinds df du) }⟩
  | .addGateway p kind name dir n uid =>
    some ⟨chosen n uid, { baseNode kind name p (chosen n uid) with gatewayDirection := some dir }⟩
  | .addExclusiveGateway p name dir df n uid =>
    some ⟨chosen n uid, { baseNode "exclusiveGateway" name p (chosen n uid) with
      gatewayDirection := some dir, default := some df }⟩
  | .addInclusiveGateway p name dir df n uid =>
    some ⟨chosen n uid, { baseNode "inclusiveGateway" name p (chosen n uid) with
      gatewayDirection := some dir, default := some df }⟩
  | .addParallelGateway p name dir n uid =>
    some ⟨chosen n uid, { baseNode "parallelGateway" name p (chosen n uid) with gatewayDirection := some dir }⟩
  | .createNew .. => none
  | .addProcess .. => none
  | .addSequenceFlow .. => none

/-- The gateway direction passed to a call, if any. -/
def directionArg : Op → Option String
  | .addGateway _ _ _ dir _ _ => some dir
  | .addExclusiveGateway _ _ dir _ _ _ => some dir
  | .addInclusiveGateway _ _ dir _ _ _ => some dir
  | .addParallelGateway _ _ dir _ _ => some dir
  | _ => none

/-- The flow declared by a call, if it declares one. -/
def declaredFlow : Op → Option AFlow
  | .addSequenceFlow p s t name uid => some ⟨uid, name, p, s, t⟩
  | _ => none

/-- Abstract effect of a call. -/
def step (A : ADiagram) (op : Op) : ADiagram :=
  match op with
  | .createNew name uid => { header := some (uid, name) }
  | .addProcess name c e ty pl pr =>
    { A with procs := A.procs ++ [⟨pr, name, c, e, ty⟩], plane := some (pl, pr) }
  | op => { A with nodes := A.nodes ++ (declaredNode op).toList, flows := A.flows ++ (declaredFlow op).toList }

/-- Abstract effect of a history. -/
def runAbs (A : ADiagram) : List Op → ADiagram
  | [] => A
  | op :: ops => runAbs (step A op) ops

/-- The caller's obligations for one call: node ids are new, flow and process ids generated by `uuid4` are new, both ends of a flow
are declared nodes, the ends of a flow are not yet joined by a flow in either direction, gateway directions are valid. -/
def Allowed (A : ADiagram) (op : Op) : Prop :=
  match op with
  | .createNew .. => True
  | .addProcess _ _ _ _ _ pr => ∀ p ∈ A.procs, p.id ≠ pr
  | op =>
    (∀ n, declaredNode op = some n → ∀ m ∈ A.nodes, m.id ≠ n.id) ∧
    (∀ dir, directionArg op = some dir → dir ∈ directions) ∧
    (∀ f, declaredFlow op = some f →
      (∃ n ∈ A.nodes, n.id = f.src) ∧ (∃ n ∈ A.nodes, n.id = f.tgt) ∧
      ∀ g ∈ A.flows, g.id ≠ f.id ∧ ¬(g.src = f.src ∧ g.tgt = f.tgt) ∧ ¬(g.src = f.tgt ∧ g.tgt = f.src))

/-- Every call of the history meets the obligations at the moment it is made. -/
def AllowedHistory (A : ADiagram) : List Op → Prop
  | [] => True
  | op :: ops => Allowed A op ∧ AllowedHistory (step A op) ops

end Bpmn.Spec

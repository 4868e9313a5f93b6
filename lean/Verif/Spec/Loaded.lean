import Mathlib.Data.List.Forall2
import Verif.Spec.Accept
import Verif.Spec.RoundTrip
/-!
# What a loaded diagram says

The content of a diagram in terms of the document it was loaded from.
-/
namespace Bpmn.Spec
open Bpmn

/-- The text at the beginning of an element. -/
def valueOf (x : Xml) : String :=
  match x.children with
  | .text s :: _ => s
  | .other s :: _ => s
  | _ => ""

/-- The texts of the elements with the given local name. -/
def textsOf (name : String) : List Xml → List String
  | [] => []
  | x :: r =>
    (match x with
      | .elem t _ _ => if removeNamespace t = name then [valueOf x] else []
      | _ => []) ++ textsOf name r

/-- The local name of an element. -/
def localTag : Xml → String
  | .elem t _ _ => removeNamespace t
  | _ => ""

mutual
/-- The elements that become nodes, with the id of the process or sub-process that they belong to. -/
def nodeElements (container : String) : Xml → List (String × Xml)
  | .elem t as ks =>
    if removeNamespace t ∈ nodeTags then
      (container, .elem t as ks) :: (if removeNamespace t = "subProcess" then nodeElementsAll ((Xml.elem t as ks).getAttr "id") ks else [])
    else []
  | _ => []
/-- The same for a list of elements. -/
def nodeElementsAll (container : String) : List Xml → List (String × Xml)
  | [] => []
  | x :: r => nodeElements container x ++ nodeElementsAll container r
end

/-- The elements of the document that become nodes, with the id of their process or sub-process. -/
def allNodeElements (root : Xml) : List (String × Xml) :=
  (Xml.byNameIn "process" [root]).flatMap fun p => nodeElementsAll (p.getAttr "id") p.children

/-- The ids of the elements of a list that become nodes, without those inside sub-processes. -/
def directNodes : List Xml → List String
  | [] => []
  | x :: r => (if localTag x ∈ nodeTags then [x.getAttr "id"] else []) ++ directNodes r

/-- Id, source and target of the flows with the given local name. -/
def endsWithId (name : String) : List Xml → List (String × String × String)
  | [] => []
  | x :: r =>
    (match x with
      | .elem t _ _ => if removeNamespace t = name then [(x.getAttr "id", x.getAttr "sourceRef", x.getAttr "targetRef")] else []
      | _ => []) ++ endsWithId name r

mutual
/-- The sequence flows in a sub-process, and in the sub-processes inside. -/
def innerFlows : Xml → List (String × String × String)
  | .elem t _ ks => if removeNamespace t = "subProcess" then innerFlowsAll ks ++ endsWithId "sequenceFlow" ks else []
  | _ => []
/-- The same for a list of elements. -/
def innerFlowsAll : List Xml → List (String × String × String)
  | [] => []
  | x :: r => innerFlows x ++ innerFlowsAll r
end

/-- Id, source and target of all sequence flows and message flows of the document. -/
def allFlows (root : Xml) : List (String × String × String) :=
  (Xml.byNameIn "process" [root]).flatMap (fun p => innerFlowsAll p.children ++ endsWithId "sequenceFlow" p.children) ++
    endsWithId "messageFlow" (collabKids root)

/-- The last shape in the plane that belongs to `i`. -/
def shapeFor (plane : Xml) (i : String) : Option Xml :=
  (plane.children.filter fun x => localTag x == "BPMNShape" && x.getAttr "bpmnElement" == i).getLast?

/-- The value if the kind of node has the attribute. -/
def given (k : String × List String × Bool × List String) (key v : String) : Option String := if key ∈ k.2.1 then some v else none

/-- The list begins with the texts; what follows are ids of the given flows. -/
def ListSays (l : Option (List String)) (texts : List String) (flow : String → Prop) : Prop :=
  ∃ m, l = some (texts ++ m) ∧ (∀ i ∈ m, i ∉ texts ∧ flow i) ∧ m.Nodup

/-- The node with the attributes `a` says what the element `x` in the process or sub-process `container` says, what the shape of the node
says and which flows begin or end there. -/
structure NodeSays (root plane : Xml) (container : String) (x : Xml) (a : NodeAttrs) : Prop where
  id : a.id = some (x.getAttr "id")
  type : a.type = some (localTag x)
  name : a.nodeName = some (x.attrOr "name" "")
  process : a.process = some container
  attributes : ∃ k ∈ nodeKinds, k.1 = localTag x ∧
    a.triggeredByEvent = given k "triggeredByEvent" (x.attrOr "triggeredByEvent" "false") ∧
    a.parallelMultiple = given k "parallelMultiple" (x.attrOr "parallelMultiple" "false") ∧
    a.isInterrupting = given k "isInterrupting" (x.attrOr "isInterrupting" "true") ∧
    a.cancelActivity = given k "cancelActivity" (x.attrOr "cancelActivity" "true") ∧
    a.attachedToRef = given k "attachedToRef" (x.attrOr "attachedToRef" "") ∧
    a.gatewayDirection = given k "gatewayDirection" (x.attrOr "gatewayDirection" "Unspecified") ∧
    a.instantiate = given k "instantiate" (x.attrOr "instantiate" "false") ∧
    a.eventGatewayType = given k "eventGatewayType" (x.attrOr "eventGatewayType" "Exclusive") ∧
    a.isCollection = given k "isCollection" (x.attrOr "isCollection" "false") ∧
    a.default = (if k.2.2.1 then some (if x.hasAttr "default" then some (x.getAttr "default") else none) else none) ∧
    (if "eventDefinitions" ∈ k.2.1 then ∃ l, a.eventDefinitions = some l ∧
      l.Perm (k.2.2.2.flatMap fun t => (x.byName t).map fun y => ⟨y.getAttr "id", t⟩) else a.eventDefinitions = none)
  incoming : ListSays a.incoming (textsOf "incoming" x.children) fun i => ∃ s, (i, s, x.getAttr "id") ∈ allFlows root
  outgoing : ListSays a.outgoing (textsOf "outgoing" x.children) fun i => ∃ t, (i, x.getAttr "id", t) ∈ allFlows root
  inside : a.nodeIds = if localTag x = "subProcess" then some (directNodes x.children) else none
  drawn : match shapeFor plane (x.getAttr "id") with
    | none => a.width = none ∧ a.height = none ∧ a.x = none ∧ a.y = none ∧ a.isExpanded = none
    | some s => ∃ b, (s.byName "Bounds").head? = some b ∧ a.width = some (b.getAttr "width") ∧ a.height = some (b.getAttr "height") ∧
        a.x = some (b.getAttr "x") ∧ a.y = some (b.getAttr "y") ∧
        a.isExpanded = if localTag x = "subProcess" then some (s.attrOr "isExpanded" "false") else none

/-! ## Processes and lanes -/

/-- The elements of a list with the given local name. -/
def namedIn (name : String) (l : List Xml) : List Xml := l.filter fun x => localTag x == name

/-- The last element with the given id. -/
def lastWithId (i : String) (l : List Xml) : Option Xml := (l.filter fun x => x.getAttr "id" == i).getLast?

/-- The last element of the plane, whatever its name, that belongs to `i`. -/
def drawingOf (plane : Xml) (i : String) : Option Xml :=
  (plane.children.filter fun x => !x.isText && x.getAttr "bpmnElement" == i).getLast?

/-- The id of a lane. -/
def idOfLane : Lane → String
  | .mk i _ _ _ _ _ => i

/-- Place and orientation of a pool or lane are those of the element of the plane, if there is one. -/
def BoxSays (s : Option Xml) (di : Option BoxDi) : Prop :=
  match s with
  | none => di = none
  | some s => ∃ b, (s.byName "Bounds").head? = some b ∧
      di = some ⟨s.getAttr "isHorizontal", b.getAttr "width", b.getAttr "height", b.getAttr "x", b.getAttr "y"⟩

mutual
/-- The lane says what the element `x` says: id, name, references to nodes, the child lane set (the last one), its place. -/
def LaneSays (plane : Xml) : Lane → Xml → Prop
  | .mk i n ci cs refs di, x =>
    i = x.getAttr "id" ∧ n = x.getAttr "name" ∧ refs = textsOf "flowNodeRef" x.children ∧ BoxSays (drawingOf plane i) di ∧
    match (namedIn "childLaneSet" x.children).getLast? with
    | none => ci = none ∧ cs = []
    | some y => ci = some (y.getAttr "id") ∧ cs.map idOfLane = ((namedIn "lane" y.children).map (·.getAttr "id")).eraseDups ∧
        LanesSay plane cs (namedIn "lane" y.children)
/-- Every lane of the list says what the last element with its id says. -/
def LanesSay (plane : Xml) : List Lane → List Xml → Prop
  | [], _ => True
  | l :: r, xs => (∃ x, lastWithId (idOfLane l) xs = some x ∧ LaneSays plane l x) ∧ LanesSay plane r xs
end

/-- The entry of a process says what the element says: its attributes, the nodes directly in the process, the lanes of the first lane
set. -/
structure ProcSays (plane p : Xml) (a : ProcAttrs) : Prop where
  id : a.id = some (p.getAttr "id")
  name : a.name = some (p.attrOr "name" "")
  isClosed : a.isClosed = some (p.attrOr "isClosed" "false")
  isExecutable : a.isExecutable = some (p.attrOr "isExecutable" "false")
  processType : a.processType = some (p.attrOr "processType" "None")
  nodes : a.nodeIds = some (directNodes p.children)
  lanes : match (p.byName "laneSet").head? with
    | none => a.laneSet = none
    | some y => ∃ ls, a.laneSet = some (y.getAttr "id", ls) ∧ ls.map idOfLane = ((namedIn "lane" y.children).map (·.getAttr "id")).eraseDups ∧
        LanesSay plane ls (namedIn "lane" y.children)

/-! ## Flows and pools -/

mutual
/-- The sequence flows in a sub-process and in the sub-processes inside, with the id of the sub-process. -/
def flowElements : Xml → List (Option String × Xml)
  | .elem t as ks =>
    if removeNamespace t = "subProcess" then
      flowElementsAll ks ++ (namedIn "sequenceFlow" ks).map fun x => (some ((Xml.elem t as ks).getAttr "id"), x)
    else []
  | _ => []
/-- The same for a list of elements. -/
def flowElementsAll : List Xml → List (Option String × Xml)
  | [] => []
  | x :: r => flowElements x ++ flowElementsAll r
end

/-- The sequence flows of the document with the id of the process or sub-process that they are in. -/
def sequenceFlowElements (root : Xml) : List (Option String × Xml) :=
  (Xml.byNameIn "process" [root]).flatMap fun p =>
    flowElementsAll p.children ++ (namedIn "sequenceFlow" p.children).map fun x => (some (p.getAttr "id"), x)

/-- The flows of the document: sequence flows, and the message flows of the first collaboration, which are in no process. -/
def flowElementsOf (root : Xml) : List (Option String × Xml) :=
  sequenceFlowElements root ++ (namedIn "messageFlow" (collabKids root)).map fun x => (none, x)

/-- The two flows join the same two nodes, in the same direction or the other. -/
def SameEnds (x y : Xml) : Prop :=
  (x.getAttr "sourceRef" = y.getAttr "sourceRef" ∧ x.getAttr "targetRef" = y.getAttr "targetRef") ∨
  (x.getAttr "sourceRef" = y.getAttr "targetRef" ∧ x.getAttr "targetRef" = y.getAttr "sourceRef")

/-- The condition of a flow: the last one. -/
def conditionOf (x : Xml) : Option CondExpr :=
  (namedIn "conditionExpression" x.children).getLast?.map fun y => ⟨y.getAttr "id", valueOf y⟩

/-- The way points of the last edge in the plane that belongs to `i`. -/
def wayOf (kids : List Xml) (i : String) : Option (List (String × String)) :=
  ((namedIn "BPMNEdge" kids).filter fun e => e.getAttr "bpmnElement" == i).getLast?.map fun e =>
    (e.byName "waypoint").map fun w => (w.getAttr "x", w.getAttr "y")

/-- What the element `x` in the process `container` says about the flow, with the way points in the plane.  A message flow has no process,
and its conditions are not read. -/
def flowSays (plane : Xml) (container : Option String) (x : Xml) : EdgeAttrs where
  id := some (x.getAttr "id")
  name := some (x.attrOr "name" "")
  process := container
  sourceRef := some (x.getAttr "sourceRef")
  targetRef := some (x.getAttr "targetRef")
  conditionExpression := if container.isSome then conditionOf x else none
  waypoints := wayOf plane.children (x.getAttr "id")

/-- The collaboration says what the element `x` says: its id; the pools with name, process and place; the message flows. -/
structure CollabSays (plane x : Xml) (c : Collab) : Prop where
  id : c.id = x.getAttr "id"
  pools : List.Forall₂ (fun y q => q.1 = y.getAttr "id" ∧ q.2.name = y.getAttr "name" ∧ q.2.processRef = y.getAttr "processRef" ∧
    BoxSays (shapeFor plane (y.getAttr "id")) q.2.di) (namedIn "participant" x.children) c.participants
  flows : c.messageFlows = (namedIn "messageFlow" x.children).map fun y =>
    (y.getAttr "id", ⟨y.getAttr "id", y.attrOr "name" "", y.getAttr "sourceRef", y.getAttr "targetRef"⟩)

end Bpmn.Spec

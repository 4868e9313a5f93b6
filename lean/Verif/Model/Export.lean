import Verif.Model.Rep
import Verif.Model.Xml
/-!
# XML export (`bpmn_python/bpmn_diagram_export.py`)

The element tree handed to `tree.write`.  Writing the file is not modelled beyond `ETree.toDom`.  An attribute set to `None` makes
ElementTree raise `TypeError` when the file is written; the model raises it where the attribute is set.
-/
namespace Bpmn.Export
open Bpmn

/-- An element without text and tail (`eTree.SubElement` followed by `set` calls). -/
def el (tag : String) (attrs : List (String × String)) (kids : List ETree) : ETree := .node tag attrs none none kids

/-- An element with a text and no children. -/
def leaf (tag text : String) : ETree := .node tag [] (some text) none []

/-- `for x in xs: ...` building one element from each. -/
def forEach {α : Type} (f : α → Py ETree) : List α → Py (List ETree)
  | [] => .ok []
  | x :: r => do
    let t ← f x
    let ts ← forEach f r
    pure (t :: ts)

/-- `if default in params and params[default] is not None: set(default, ...)` (`:34-35`, `:47-48`, `:84-85`, `:108-109`). -/
def defaultAttr (p : NodeAttrs) : List (String × String) :=
  match p.default with
  | some (some v) => [("default", v)]
  | _ => []

/-- The definitions loops of `:132-138`, `:151-157`, `:167-173`, `:187-193`. -/
def exportDefs (defs : List EventDef) : List ETree :=
  defs.map fun d => el d.defType (if d.id ≠ "" then [("id", d.id)] else []) []

/-- `node_params.get(k)` used as an attribute value (`:148-149`). -/
def getForAttr (o : Option String) : Py String :=
  match o with
  | some s => .ok s
  | none => .error .typeError

/-- `export_flow_process_data` (`:380-402`). -/
def exportFlow (a : EdgeAttrs) : Py ETree := do
  let id ← need a.id
  let name ← need a.name
  let src ← need a.sourceRef
  let tgt ← need a.targetRef
  match a.conditionExpression with
  | none => pure (el "sequenceFlow" [("id", id), ("name", name), ("sourceRef", src), ("targetRef", tgt)] [])
  | some c => pure (el "sequenceFlow" [("id", id), ("name", c.expr), ("sourceRef", src), ("targetRef", tgt)]
      [.node "conditionExpression" [("id", c.id)] (some c.expr) none []])

/-- Task types of `:332-335`. -/
def isTask (t : String) : Bool := t == "task" || t == "userTask" || t == "serviceTask" || t == "manualTask"

/-- `export_node_data` (`:311-356`) with the functions it calls (`:26-193`).  The budget bounds the nesting of sub-processes. -/
def exportNode (d : Diagram) : Nat → Node → Py ETree
  | 0, _ => .error .outOfFuel
  | fuel + 1, (nodeId, p) => do
    let ty ← need p.type
    let name ← need p.nodeName
    let inc ← need p.incoming
    let out ← need p.outgoing
    let attrs := [("id", nodeId), ("name", name)]
    let kids := inc.map (leaf "incoming") ++ out.map (leaf "outgoing")
    if isTask ty then pure (el ty (attrs ++ defaultAttr p) kids)
    else if ty = "subProcess" then do
      let trig ← need p.triggeredByEvent
      let sid ← need p.id
      let nodes ← d.getNodesByProcess sid
      let ns ← forEach (exportNode d fuel) nodes
      let fs ← forEach (fun f => exportFlow f.2.2) (d.getFlowsByProcess sid)
      pure (el ty (attrs ++ [("triggeredByEvent", trig)] ++ defaultAttr p) (kids ++ ns ++ fs))
    else if ty = "dataObject" then do
      let c ← need p.isCollection
      pure (el ty (attrs ++ [("isCollection", c)]) kids)
    else if ty = "complexGateway" then do
      let dir ← need p.gatewayDirection
      pure (el ty (attrs ++ [("gatewayDirection", dir)] ++ defaultAttr p) kids)
    else if ty = "eventBasedGateway" then do
      let dir ← need p.gatewayDirection
      let ins ← need p.instantiate
      let egt ← need p.eventGatewayType
      pure (el ty (attrs ++ [("gatewayDirection", dir), ("instantiate", ins), ("eventGatewayType", egt)]) kids)
    else if ty = "inclusiveGateway" ∨ ty = "exclusiveGateway" then do
      let dir ← need p.gatewayDirection
      pure (el ty (attrs ++ [("gatewayDirection", dir)] ++ defaultAttr p) kids)
    else if ty = "parallelGateway" then do
      let dir ← need p.gatewayDirection
      pure (el ty (attrs ++ [("gatewayDirection", dir)]) kids)
    else if ty = "startEvent" then do
      let pm ← getForAttr p.parallelMultiple
      let ii ← getForAttr p.isInterrupting
      match p.eventDefinitions with
      | none => .error .typeError
      | some defs => pure (el ty (attrs ++ [("parallelMultiple", pm), ("isInterrupting", ii)]) (kids ++ exportDefs defs))
    else if ty = "intermediateCatchEvent" then do
      let pm ← need p.parallelMultiple
      let defs ← need p.eventDefinitions
      pure (el ty (attrs ++ [("parallelMultiple", pm)]) (kids ++ exportDefs defs))
    else if ty = "endEvent" ∨ ty = "intermediateThrowEvent" then do
      let defs ← need p.eventDefinitions
      pure (el ty attrs (kids ++ exportDefs defs))
    else if ty = "boundaryEvent" then do
      let pm ← need p.parallelMultiple
      let ca ← need p.cancelActivity
      let ar ← need p.attachedToRef
      let defs ← need p.eventDefinitions
      pure (el ty (attrs ++ [("parallelMultiple", pm), ("cancelActivity", ca), ("attachedToRef", ar)]) (kids ++ exportDefs defs))
    else pure (el ty attrs kids)

/-- The `BPMNShape` element with its bounds, common to `:279-287`, `:368-377`, `:461-470`. -/
def shape (id : String) (extra : List (String × String)) (w h x y : String) : ETree :=
  el "bpmndi:BPMNShape" ([("id", id ++ "_gui"), ("bpmnElement", id)] ++ extra)
    [el "omgdc:Bounds" [("width", w), ("height", h), ("x", x), ("y", y)] []]

/-- `export_node_di_data` (`:359-378`). -/
def exportNodeDi (n : Node) : Py ETree := do
  let w ← need n.2.width
  let h ← need n.2.height
  let x ← need n.2.x
  let y ← need n.2.y
  let ty ← need n.2.type
  if ty = "subProcess" then do
    let e ← need n.2.isExpanded
    pure (shape n.1 [("isExpanded", e)] w h x y)
  else pure (shape n.1 [] w h x y)

/-- The `BPMNEdge` element, common to `:412-420`, `:445-452`. -/
def edgeDi (id : String) (ws : List (String × String)) : ETree :=
  el "bpmndi:BPMNEdge" [("id", id ++ "_gui"), ("bpmnElement", id)] (ws.map fun w => el "omgdi:waypoint" [("x", w.1), ("y", w.2)] [])

/-- `export_flow_di_data` (`:405-420`). -/
def exportFlowDi (a : EdgeAttrs) : Py ETree := do
  let id ← need a.id
  let ws ← need a.waypoints
  pure (edgeDi id ws)

/-- `export_definitions_element` (`:196-214`): the attributes of the root. -/
def definitionsAttrs : List (String × String) :=
  [("xmlns", "http://www.omg.org/spec/BPMN/20100524/MODEL"), ("xmlns:bpmndi", "http://www.omg.org/spec/BPMN/20100524/DI"),
   ("xmlns:omgdc", "http://www.omg.org/spec/DD/20100524/DC"), ("xmlns:omgdi", "http://www.omg.org/spec/DD/20100524/DI"),
   ("xmlns:xsi", "http://www.w3.org/2001/XMLSchema-instance"), ("targetNamespace", "http://www.signavio.com/bpmn20"),
   ("typeLanguage", "http://www.w3.org/2001/XMLSchema"), ("expressionLanguage", "http://www.w3.org/1999/XPath"),
   ("xmlns:xsd", "http://www.w3.org/2001/XMLSchema")]

/-- `export_process_element` (`:217-231`): the attributes; the name is not among them. -/
def processAttrs (pid : String) (a : ProcAttrs) : Py (List (String × String)) := do
  let c ← need a.isClosed
  let e ← need a.isExecutable
  let t ← need a.processType
  pure [("id", pid), ("isClosed", c), ("isExecutable", e), ("processType", t)]

mutual
/-- `export_lane` (`:262-287`): the `lane` element, and the shapes added to the plane (nested lanes first). -/
def exportLane : Lane → Py (ETree × List ETree)
  | .mk id name childId children refs di => do
    let (sub, shapes) ← match childId with
      | none => .ok ([], [])
      | some _ => do
        -- `export_child_lane_set` (`:247-259`)
        let (ls, shapes) ← exportLanes children
        pure ([el "laneSet" [] ls], shapes)
    let t := el "lane" [("id", id), ("name", name)] (sub ++ refs.map (leaf "flowNodeRef"))
    match di with
    | none => .error .keyError
    | some b => pure (t, shapes ++ [shape id [("isHorizontal", b.isHorizontal)] b.width b.height b.x b.y])
/-- The loops `:243-244`, `:258-259` over the lanes of a lane set. -/
def exportLanes : List Lane → Py (List ETree × List ETree)
  | [] => .ok ([], [])
  | l :: r => do
    let (t, s) ← exportLane l
    let (ts, ss) ← exportLanes r
    pure (t :: ts, s ++ ss)
end

/-- One iteration of the loop over the processes (`:472-490`): the `process` element and the shapes of its lanes. -/
def exportProcess (d : Diagram) (fuel : Nat) (pid : String) (a : ProcAttrs) : Py (ETree × List ETree) := do
  let attrs ← processAttrs pid a
  let (lanes, shapes) ← match a.laneSet with
    | none => .ok ([], [])
    | some (_, ls) => do
      -- `export_lane_set` (`:234-244`); the id is not exported
      let (ts, shapes) ← exportLanes ls
      pure ([el "laneSet" [] ts], shapes)
  let nodes ← d.getNodesByProcess pid
  let ns ← forEach (exportNode d fuel) nodes
  let fs ← forEach (fun f => exportFlow f.2.2) (d.getFlowsByProcess pid)
  pure (el "process" attrs (lanes ++ ns ++ fs), shapes)

/-- The loop over the processes (`:472-490`). -/
def exportProcesses (d : Diagram) (fuel : Nat) : List (String × ProcAttrs) → Py (List ETree × List ETree)
  | [] => .ok ([], [])
  | (pid, a) :: r => do
    let (t, s) ← exportProcess d fuel pid a
    let (ts, ss) ← exportProcesses d fuel r
    pure (t :: ts, s ++ ss)

/-- The loop over the message flows (`:437-452`): elements and edges. -/
def exportMessageFlows (d : Diagram) : List (String × MsgFlow) → Py (List ETree × List ETree)
  | [] => .ok ([], [])
  | (id, m) :: r => do
    match ← d.getFlowById id with
    | none => .error .typeError
    | some f => do
      let ws ← need f.2.2.waypoints
      let (ts, ss) ← exportMessageFlows d r
      pure (el "messageFlow" [("id", id), ("name", m.name), ("sourceRef", m.sourceRef), ("targetRef", m.targetRef)] [] :: ts,
        edgeDi id ws :: ss)

/-- The loop over the participants (`:454-470`): elements and shapes. -/
def exportParticipants : List (String × Participant) → Py (List ETree × List ETree)
  | [] => .ok ([], [])
  | (id, p) :: r => do
    match p.di with
    | none => .error .keyError
    | some b => do
      let (ts, ss) ← exportParticipants r
      pure (el "participant" [("id", id), ("name", p.name), ("processRef", p.processRef)] [] :: ts,
        shape id [("isHorizontal", b.isHorizontal)] b.width b.height b.x b.y :: ss)

/-- The `collaboration` element with the edges and shapes it adds to the plane (`:431-470`). -/
def exportCollaboration (d : Diagram) : Py (List ETree × List ETree) :=
  match d.collaboration with
  | none => .ok ([], [])
  | some c => do
    let (ms, es) ← exportMessageFlows d c.messageFlows
    let (ps, ss) ← exportParticipants c.participants
    pure ([el "collaboration" [("id", c.id)] (ms ++ ps)], es ++ ss)

/-- The tree built by `export_xml_file` (`:423-503`) before it is indented. -/
def definitions (fuel : Nat) (d : Diagram) : Py ETree := do
  -- `export_diagram_plane_elements` (`:290-308`)
  let did ← need d.diagramId
  let dname ← need d.diagramName
  let pid ← need d.planeId
  let pel ← need d.planeElement
  let (coll, s1) ← exportCollaboration d
  let (procs, s2) ← exportProcesses d fuel d.processElements
  let s3 ← forEach exportNodeDi d.getNodes
  let s4 ← forEach (fun f => exportFlowDi f.2.2) d.getFlows
  let plane := el "bpmndi:BPMNPlane" [("id", pid), ("bpmnElement", pel)] (s1 ++ s2 ++ s3 ++ s4)
  let diagram := el "bpmndi:BPMNDiagram" [("id", did), ("name", dname)] [plane]
  pure (el "definitions" definitionsAttrs (diagram :: (coll ++ procs)))

/-- One iteration of the loop of `export_xml_file_no_di` (`:529-545`): all nodes and all flows, whatever their process. -/
def exportProcessNoDi (d : Diagram) (fuel : Nat) (pid : String) (a : ProcAttrs) : Py ETree := do
  let attrs ← processAttrs pid a
  let ns ← forEach (exportNode d fuel) d.getNodes
  let fs ← forEach (fun f => exportFlow f.2.2) d.getFlows
  pure (el "process" attrs (ns ++ fs))

/-- The tree built by `export_xml_file_no_di` (`:518-545`) before it is indented. -/
def definitionsNoDi (fuel : Nat) (d : Diagram) : Py ETree := do
  let ps ← forEach (fun p => exportProcessNoDi d fuel p.1 p.2) d.processElements
  pure (el "definitions" definitionsAttrs ps)

/-! ## Indentation -/

/-- `c.isspace()`. -/
def pySpace (c : Char) : Bool :=
  let n := c.toNat
  (9 ≤ n && n ≤ 13) || (28 ≤ n && n ≤ 32) || n == 0x85 || n == 0xa0 || n == 0x1680 || (0x2000 ≤ n && n ≤ 0x200a) ||
    n == 0x2028 || n == 0x2029 || n == 0x202f || n == 0x205f || n == 0x3000

/-- `not s or not s.strip()`. -/
def blank : Option String → Bool
  | none => true
  | some s => s.toList.all pySpace

/-- `"\n" + n * "  "`; a negative factor gives no spaces. -/
def newline (n : Nat) : String := String.ofList ('\n' :: List.replicate (2 * n) ' ')

mutual
/-- `indent` (`:557-580`).  The first assignment to the tail of an element with children is overwritten at the end of the
function (it assigns white space) and left out. -/
def indent (level : Nat) : ETree → ETree
  | .node tag attrs text tail kids =>
    match kids with
    | [] => .node tag attrs text (if level ≠ 0 ∧ blank tail then some (newline (level - 1)) else tail) []
    | k :: ks =>
      .node tag attrs (if blank text then some (newline (level + 1)) else text)
        (if blank tail then some (newline (level - 1)) else tail) (indentAll (level + 1) (k :: ks))
/-- The loop `for subelem in elem`. -/
def indentAll (level : Nat) : List ETree → List ETree
  | [] => []
  | k :: ks => indent level k :: indentAll level ks
end

/-- `export_xml_file` (`:423-511`): the written tree. -/
def exportXmlFile (fuel : Nat) (d : Diagram) : Py ETree := do
  let t ← definitions fuel d
  pure (indent 0 t)

/-- `export_xml_file_no_di` (`:514-553`): the written tree. -/
def exportXmlFileNoDi (fuel : Nat) (d : Diagram) : Py ETree := do
  let t ← definitionsNoDi fuel d
  pure (indent 0 t)

end Bpmn.Export

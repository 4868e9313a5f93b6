import Verif.Model.Rep
import Verif.Model.Xml
/-!
# XML import (`bpmn_python/bpmn_diagram_import.py`)

The parsed document is given as its root element.  Import either succeeds or raises; the object left behind by a failed import is
described in `Verif/Model/ImportState.lean`.  Python iterates over *sets* of event definition names (`:576`); the order is arbitrary and a parameter `ord` of the model.
-/
namespace Bpmn.Import
open Bpmn

/-- Where the id of a new node is recorded: `process_attributes` is the entry of a process or the attribute dictionary of a
sub-process node. -/
inductive Owner where
  | process (id : String)
  | node (id : String)
deriving DecidableEq, Repr

/-- `process_attributes[node_ids].append(element_id)` (`:355`).  The list is always present: it was set when the owner was imported. -/
def record (o : Owner) (id : String) (d : Diagram) : Diagram :=
  match o with
  | .process p => { d with processElements := d.processElements.modify p fun a => { a with nodeIds := some (a.nodeIds.getD [] ++ [id]) } }
  | .node n => d.updNode n fun a => { a with nodeIds := some (a.nodeIds.getD [] ++ [id]) }

/-- The values of the children with the given tag (`:358-365`, `:368-376`). -/
def values (tag : String) : List Xml → Py (List String)
  | [] => .ok []
  | x :: r =>
    if x.isText then values tag r
    else do
      let t ← x.tagName
      if removeNamespace t = tag then do
        let v ← x.firstValue
        let vs ← values tag r
        pure (v :: vs)
      else values tag r

/-- `import_flow_node_to_graph` (`:331-377`). -/
def importFlowNode (pid : String) (o : Owner) (e : Xml) (d : Diagram) : Py Diagram := do
  let id := e.getAttr "id"
  let tag ← e.tagName
  let d := { d with graph := d.graph.addNode id }
  let d := d.updNode id fun a =>
    { a with id := some id, type := some (removeNamespace tag), nodeName := some (e.attrOr "name" ""), process := some pid }
  let d := record o id d
  let inc ← values "incoming" e.children
  let out ← values "outgoing" e.children
  pure (d.updNode id fun a => { a with incoming := some inc, outgoing := some out })

/-- `e.getAttribute(default) if e.hasAttribute(default) else None`. -/
def defaultOf (e : Xml) : Option String := if e.hasAttr "default" then some (e.getAttr "default") else none

/-- `import_activity_to_graph` (`:453-468`), also `import_task_to_graph` (`:379-392`). -/
def importActivity (pid : String) (o : Owner) (e : Xml) (d : Diagram) : Py Diagram := do
  let d ← importFlowNode pid o e d
  pure (d.updNode (e.getAttr "id") fun a => { a with default := some (defaultOf e) })

/-- `import_data_object_to_graph` (`:433-450`). -/
def importDataObject (pid : String) (o : Owner) (e : Xml) (d : Diagram) : Py Diagram := do
  let d ← importFlowNode pid o e d
  pure (d.updNode (e.getAttr "id") fun a => { a with isCollection := some (e.attrOr "isCollection" "false") })

/-- `import_gateway_to_graph` (`:471-487`), also `import_parallel_gateway_to_graph` (`:549-560`). -/
def importGateway (pid : String) (o : Owner) (e : Xml) (d : Diagram) : Py Diagram := do
  let d ← importFlowNode pid o e d
  pure (d.updNode (e.getAttr "id") fun a => { a with gatewayDirection := some (e.attrOr "gatewayDirection" "Unspecified") })

/-- `import_complex_gateway_to_graph` (`:490-507`), `import_incl_or_excl_gateway_to_graph` (`:532-546`). -/
def importDefaultGateway (pid : String) (o : Owner) (e : Xml) (d : Diagram) : Py Diagram := do
  let d ← importGateway pid o e d
  pure (d.updNode (e.getAttr "id") fun a => { a with default := some (defaultOf e) })

/-- `import_event_based_gateway_to_graph` (`:510-529`). -/
def importEventBasedGateway (pid : String) (o : Owner) (e : Xml) (d : Diagram) : Py Diagram := do
  let d ← importGateway pid o e d
  pure (d.updNode (e.getAttr "id") fun a =>
    { a with instantiate := some (e.attrOr "instantiate" "false"), eventGatewayType := some (e.attrOr "eventGatewayType" "Exclusive") })

/-- The list computed by `import_event_definition_elements` (`:563-581`); `types` is the set in iteration order. -/
def eventDefs (e : Xml) (types : List String) : List EventDef :=
  types.flatMap fun t => (e.byName t).map fun x => ⟨x.getAttr "id", t⟩

/-- `import_event_definition_elements` (`:563-581`). -/
def importEventDefs (ord : List String → List String) (e : Xml) (types : List String) (d : Diagram) : Diagram :=
  d.updNode (e.getAttr "id") fun a => { a with eventDefinitions := some (eventDefs e (ord types)) }

/-- `:600-601`. -/
def startDefs : List String :=
  ["messageEventDefinition", "timerEventDefinition", "conditionalEventDefinition", "escalationEventDefinition", "signalEventDefinition"]
/-- `:627-629`. -/
def catchDefs : List String :=
  ["messageEventDefinition", "timerEventDefinition", "signalEventDefinition", "conditionalEventDefinition", "escalationEventDefinition"]
/-- `:651-652`. -/
def endDefs : List String :=
  ["messageEventDefinition", "signalEventDefinition", "escalationEventDefinition", "errorEventDefinition", "compensateEventDefinition",
   "terminateEventDefinition"]
/-- `:671-672`. -/
def throwDefs : List String :=
  ["messageEventDefinition", "signalEventDefinition", "escalationEventDefinition", "compensateEventDefinition"]
/-- `:691-692`. -/
def boundaryDefs : List String :=
  ["messageEventDefinition", "timerEventDefinition", "signalEventDefinition", "conditionalEventDefinition", "escalationEventDefinition",
   "errorEventDefinition"]

/-- `import_start_event_to_graph` (`:584-609`). -/
def importStartEvent (ord : List String → List String) (pid : String) (o : Owner) (e : Xml) (d : Diagram) : Py Diagram := do
  let d ← importFlowNode pid o e d
  let d := d.updNode (e.getAttr "id") fun a =>
    { a with parallelMultiple := some (e.attrOr "parallelMultiple" "false"), isInterrupting := some (e.attrOr "isInterrupting" "true") }
  pure (importEventDefs ord e startDefs d)

/-- `import_intermediate_catch_event_to_graph` (`:612-635`). -/
def importCatchEvent (ord : List String → List String) (pid : String) (o : Owner) (e : Xml) (d : Diagram) : Py Diagram := do
  let d ← importFlowNode pid o e d
  let d := d.updNode (e.getAttr "id") fun a => { a with parallelMultiple := some (e.attrOr "parallelMultiple" "false") }
  pure (importEventDefs ord e catchDefs d)

/-- `import_end_event_to_graph` (`:638-654`) and `import_intermediate_throw_event_to_graph` (`:657-675`). -/
def importThrowEvent (ord : List String → List String) (types : List String) (pid : String) (o : Owner) (e : Xml) (d : Diagram) :
    Py Diagram := do
  let d ← importFlowNode pid o e d
  pure (importEventDefs ord e types d)

/-- `import_boundary_event_to_graph` (`:678-704`). -/
def importBoundaryEvent (ord : List String → List String) (pid : String) (o : Owner) (e : Xml) (d : Diagram) : Py Diagram := do
  let d ← importFlowNode pid o e d
  let d := d.updNode (e.getAttr "id") fun a =>
    { a with parallelMultiple := some (e.attrOr "parallelMultiple" "false"), cancelActivity := some (e.attrOr "cancelActivity" "true"),
             attachedToRef := some (e.getAttr "attachedToRef") }
  pure (importEventDefs ord e boundaryDefs d)

/-- `if key not in node: node[key] = []`, then append unless present (`:751-761`, `:799-809`). -/
def addOnce (l : Option (List String)) (i : String) : List String :=
  let l := l.getD []
  if i ∈ l then l else l ++ [i]

/-- The condition expressions of a flow (`:737-745`): the last one counts. -/
def conditions : List Xml → Option CondExpr → Py (Option CondExpr)
  | [], c => .ok c
  | x :: r, c =>
    if x.isText then conditions r c
    else do
      let t ← x.tagName
      if removeNamespace t = "conditionExpression" then do
        let v ← x.firstValue
        conditions r (some ⟨x.getAttr "id", v⟩)
      else conditions r c

/-- Add the id of a flow to the lists of its ends (`:747-761`, `:795-809`). -/
def linkEnds (id src tgt : String) (d : Diagram) : Diagram :=
  (d.updNode src fun a => { a with outgoing := some (addOnce a.outgoing id) }).updNode tgt
    fun a => { a with incoming := some (addOnce a.incoming id) }

/-- `import_sequence_flow_to_graph` (`:707-761`). -/
def importSequenceFlow (pid : String) (e : Xml) (d : Diagram) : Py Diagram := do
  let id := e.getAttr "id"
  let name := e.attrOr "name" ""
  let src := e.getAttr "sourceRef"
  let tgt := e.getAttr "targetRef"
  let d := { d with sequenceFlows := d.sequenceFlows.set id ⟨name, src, tgt⟩ }
  let c ← conditions e.children none
  let d := { d with graph := (d.graph.addEdge src tgt).modifyEdge src tgt fun a =>
    { a with id := some id, process := some pid, name := some name, sourceRef := some src, targetRef := some tgt,
             conditionExpression := match c with | none => a.conditionExpression | some c => some c } }
  pure (linkEnds id src tgt d)

/-- The second loop of `import_process_elements` (`:169-174`) and of `import_subprocess_to_graph` (`:424-429`). -/
def importFlows (pid : String) : List Xml → Diagram → Py Diagram
  | [], d => .ok d
  | x :: r, d =>
    if x.isText then importFlows pid r d
    else do
      let t ← x.tagName
      if removeNamespace t = "sequenceFlow" then do
        let d ← importSequenceFlow pid x d
        importFlows pid r d
      else importFlows pid r d

/-- Task types of `:178-181`. -/
def isTask (t : String) : Bool := t == "task" || t == "userTask" || t == "serviceTask" || t == "manualTask"

/-- `__import_element_by_tag_name` (`:177-213`) for the element types without nested elements. -/
def importSimple (ord : List String → List String) (pid : String) (o : Owner) (e : Xml) (tag : String) (d : Diagram) : Py Diagram :=
  if isTask tag then importActivity pid o e d
  else if tag = "dataObject" then importDataObject pid o e d
  else if tag = "inclusiveGateway" ∨ tag = "exclusiveGateway" then importDefaultGateway pid o e d
  else if tag = "parallelGateway" then importGateway pid o e d
  else if tag = "eventBasedGateway" then importEventBasedGateway pid o e d
  else if tag = "complexGateway" then importDefaultGateway pid o e d
  else if tag = "startEvent" then importStartEvent ord pid o e d
  else if tag = "endEvent" then importThrowEvent ord endDefs pid o e d
  else if tag = "intermediateCatchEvent" then importCatchEvent ord pid o e d
  else if tag = "intermediateThrowEvent" then importThrowEvent ord throwDefs pid o e d
  else if tag = "boundaryEvent" then importBoundaryEvent ord pid o e d
  else .ok d

mutual
/-- `__import_element_by_tag_name` (`:177-213`) with `import_subprocess_to_graph` (`:395-430`). -/
def importElement (ord : List String → List String) (pid : String) (o : Owner) : Xml → Diagram → Py Diagram
  | .elem t as ks, d =>
    if removeNamespace t = "subProcess" then do
      let e := Xml.elem t as ks
      let d ← importActivity pid o e d
      let sid := e.getAttr "id"
      let d := d.updNode sid fun a => { a with triggeredByEvent := some (e.attrOr "triggeredByEvent" "false"), nodeIds := some [] }
      let d ← importElements ord sid (.node sid) ks d
      importFlows sid ks d
    else importSimple ord pid o (.elem t as ks) (removeNamespace t) d
  | .text _, d => .ok d
  -- no `tagName` (`:164`, `:419`)
  | .other _, _ => .error .attributeError
/-- The loops `:162-167`, `:417-422` over the children; text is skipped. -/
def importElements (ord : List String → List String) (pid : String) (o : Owner) : List Xml → Diagram → Py Diagram
  | [], d => .ok d
  | x :: r, d => do
    let d ← importElement ord pid o x d
    importElements ord pid o r d
end

/-- The last child of the plane that refers to the lane (`:286-290`). -/
def laneShape (laneId : String) : List Xml → Option Xml → Py (Option Xml)
  | [], s => .ok s
  | x :: r, s =>
    match x with
    | .text _ => laneShape laneId r s
    -- `getAttribute` does not exist
    | .other _ => .error .attributeError
    | .elem _ _ _ => laneShape laneId r (if x.getAttr "bpmnElement" = laneId then some x else s)

/-- `getElementsByTagNameNS("*", "Bounds")[0]`. -/
def boundsOf (e : Xml) : Py Xml := pyIndex (e.byName "Bounds") 0

/-- The five attributes read at `:292-296` and `:844-848`. -/
def boxOf (s b : Xml) : BoxDi :=
  ⟨s.getAttr "isHorizontal", b.getAttr "width", b.getAttr "height", b.getAttr "x", b.getAttr "y"⟩

/-- `lanes_attr[lane_id] = lane_attr` on the list of lanes of a lane set. -/
def setLane : List Lane → Lane → List Lane
  | [], l => [l]
  | (.mk i n ci c r di) :: rest, .mk i' n' ci' c' r' di' =>
    if i = i' then .mk i' n' ci' c' r' di' :: rest else .mk i n ci c r di :: setLane rest (.mk i' n' ci' c' r' di')

mutual
/-- `import_lane_element` (`:265-297`). -/
def importLane (plane : Xml) : Xml → Py Lane
  | .elem t as ks => do
    let (childId, children, refs) ← importLaneKids plane ks (none, [], [])
    let e := Xml.elem t as ks
    let id := e.getAttr "id"
    match ← laneShape id plane.children none with
    | none => pure (.mk id (e.getAttr "name") childId children refs none)
    | some s => do
      let b ← boundsOf s
      pure (.mk id (e.getAttr "name") childId children refs (some (boxOf s b)))
  | _ => .error .attributeError
/-- The loop `:273-280`; accumulates the child lane set and the node references. -/
def importLaneKids (plane : Xml) : List Xml → Option String × List Lane × List String → Py (Option String × List Lane × List String)
  | [], acc => .ok acc
  | .text _ :: r, acc => importLaneKids plane r acc
  | .other _ :: _, _ => .error .attributeError
  | .elem t as ks :: r, (ci, c, refs) =>
    if removeNamespace t = "childLaneSet" then do
      -- `import_child_lane_set_element` (`:240-262`)
      let ls ← importLanes plane ks []
      importLaneKids plane r (some ((Xml.elem t as ks).getAttr "id"), ls, refs)
    else if removeNamespace t = "flowNodeRef" then do
      let v ← (Xml.elem t as ks).firstValue
      importLaneKids plane r (ci, c, refs ++ [v])
    else importLaneKids plane r (ci, c, refs)
/-- The loops `:226-233`, `:250-257` over the children of a lane set. -/
def importLanes (plane : Xml) : List Xml → List Lane → Py (List Lane)
  | [], acc => .ok acc
  | .text _ :: r, acc => importLanes plane r acc
  | .other _ :: _, _ => .error .attributeError
  | .elem t as ks :: r, acc =>
    if removeNamespace t = "lane" then do
      let l ← importLane plane (.elem t as ks)
      importLanes plane r (setLane acc l)
    else importLanes plane r acc
end

/-- `import_process_element` (`:300-328`). -/
def processEntry (e : Xml) : ProcAttrs :=
  { id := some (e.getAttr "id"), name := some (e.attrOr "name" ""), isClosed := some (e.attrOr "isClosed" "false"),
    isExecutable := some (e.attrOr "isExecutable" "false"), processType := some (e.attrOr "processType" "None"), nodeIds := some [] }

/-- The first lane set of a process (`:159-163`, `import_lane_set_element` `:216-237`). -/
def importLaneSet (plane : Xml) (pid : String) : List Xml → Diagram → Py Diagram
  | [], d => .ok d
  | ls :: _, d => do
    let lanes ← importLanes plane ls.children []
    pure { d with processElements := d.processElements.modify pid fun a => { a with laneSet := some (ls.getAttr "id", lanes) } }

/-- The body of the loop of `import_process_elements` (`:153-174`). -/
def importProcess (ord : List String → List String) (plane e : Xml) (d : Diagram) : Py Diagram := do
  let pid := e.getAttr "id"
  let d := { d with processElements := d.processElements.set pid (processEntry e) }
  let d ← importLaneSet plane pid (e.byName "laneSet") d
  let d ← importElements ord pid (.process pid) e.children d
  importFlows pid e.children d

/-- The loop of `import_process_elements` (`:153-174`). -/
def importProcesses (ord : List String → List String) (plane : Xml) : List Xml → Diagram → Py Diagram
  | [], d => .ok d
  | e :: r, d => do
    let d ← importProcess ord plane e d
    importProcesses ord plane r d

/-- `import_participant_element` (`:95-111`). -/
def importParticipant (e : Xml) (d : Diagram) (c : Collab) : Diagram × Collab :=
  let id := e.getAttr "id"
  let ref := e.getAttr "processRef"
  let d := if ref = "" then
      Diagram.updNode { d with graph := d.graph.addNode id } id fun a => { a with type := some "participant", process := some id }
    else d
  (d, { c with participants := c.participants.set id { name := e.getAttr "name", processRef := ref } })

/-- `import_message_flow_to_graph` (`:764-809`). -/
def importMessageFlow (e : Xml) (d : Diagram) (c : Collab) : Diagram × Collab :=
  let id := e.getAttr "id"
  let name := e.attrOr "name" ""
  let src := e.getAttr "sourceRef"
  let tgt := e.getAttr "targetRef"
  let d := { d with graph := (d.graph.addEdge src tgt).modifyEdge src tgt fun a =>
    { a with id := some id, name := some name, sourceRef := some src, targetRef := some tgt } }
  (linkEnds id src tgt d, { c with messageFlows := c.messageFlows.set id ⟨id, name, src, tgt⟩ })

/-- The loop of `import_collaboration_element` (`:85-92`). -/
def importCollabKids : List Xml → Diagram → Collab → Py (Diagram × Collab)
  | [], d, c => .ok (d, c)
  | x :: r, d, c =>
    if x.isText then importCollabKids r d c
    else do
      let t ← x.tagName
      if removeNamespace t = "participant" then
        let (d, c) := importParticipant x d c
        importCollabKids r d c
      else if removeNamespace t = "messageFlow" then
        let (d, c) := importMessageFlow x d c
        importCollabKids r d c
      else importCollabKids r d c

/-- `import_collaboration_element` (`:69-92`). -/
def importCollaboration (e : Xml) (d : Diagram) : Py Diagram := do
  let (d, c) ← importCollabKids e.children d ⟨e.getAttr "id", [], []⟩
  pure { d with collaboration := some c }

/-- The first collaboration element, if any (`:47-51`). -/
def importFirstCollaboration : List Xml → Diagram → Py Diagram
  | [], d => .ok d
  | c :: _, d => importCollaboration c d

/-- The node part of `import_shape_di` (`:829-840`). -/
def importNodeShape (e b : Xml) (id : String) (d : Diagram) : Py Diagram :=
  match d.graph.nodes.get? id with
  | none => .ok d
  | some a => do
    let ty ← need a.type
    pure (d.updNode id fun a =>
      { a with width := some (b.getAttr "width"), height := some (b.getAttr "height"),
               isExpanded := if ty = "subProcess" then some (e.attrOr "isExpanded" "false") else a.isExpanded,
               x := some (b.getAttr "x"), y := some (b.getAttr "y") })

/-- `import_shape_di` (`:812-848`). -/
def importShape (e : Xml) (d : Diagram) : Py Diagram := do
  let id := e.getAttr "bpmnElement"
  let b ← boundsOf e
  let d ← importNodeShape e b id d
  match d.collaboration with
  | none => pure d
  | some c =>
    let ps := Dict.modify c.participants id fun p => { p with di := some (boxOf e b) }
    pure { d with collaboration := some { c with participants := ps } }

/-- `import_flow_di` (`:851-888`). -/
def importFlowDi (e : Xml) (d : Diagram) : Py Diagram := do
  let id := e.getAttr "bpmnElement"
  let ws := (e.byName "waypoint").map fun w => (w.getAttr "x", w.getAttr "y")
  let data := match d.sequenceFlows.get? id with
    | some f => some (f.name, f.sourceRef, f.targetRef)
    | none => match d.collaboration with
      | none => none
      | some c => (c.messageFlows.get? id).map fun m => (m.name, m.sourceRef, m.targetRef)
  match data with
  | none => pure d
  | some (name, src, tgt) =>
    if d.graph.hasEdge src tgt then
      pure { d with graph := d.graph.modifyEdge src tgt fun a => { a with waypoints := some ws, name := some name } }
    else .error .keyError

/-- The loop over the plane (`:60-66`). -/
def importPlane : List Xml → Diagram → Py Diagram
  | [], d => .ok d
  | x :: r, d =>
    if x.isText then importPlane r d
    else do
      let t ← x.tagName
      if removeNamespace t = "BPMNShape" then do
        let d ← importShape x d
        importPlane r d
      else if removeNamespace t = "BPMNEdge" then do
        let d ← importFlowDi x d
        importPlane r d
      else importPlane r d

/-- `load_diagram_from_xml` (`:21-66`), loading into the object `d`; `root` is the root element of the document. -/
def load (ord : List String → List String) (root : Xml) (d : Diagram) : Py Diagram := do
  let diagram ← pyIndex (Xml.byNameIn "BPMNDiagram" [root]) 0
  let plane ← pyIndex (diagram.byName "BPMNPlane") 0
  -- `import_diagram_and_plane_attributes` (`:114-137`)
  let d := { d with diagramId := some (diagram.getAttr "id"), diagramName := some (diagram.attrOr "name" ""),
                    planeId := some (plane.getAttr "id"), planeElement := some (plane.getAttr "bpmnElement") }
  let d ← importProcesses ord plane (Xml.byNameIn "process" [root]) d
  let d ← importFirstCollaboration (Xml.byNameIn "collaboration" [root]) d
  importPlane plane.children d

end Bpmn.Import

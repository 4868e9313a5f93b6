import Verif.Model.Import
/-!
# The XML import and the object (`bpmn_python/bpmn_diagram_import.py`)

`Verif/Model/Import.lean` gives the result of an import without exception.  Here every function that changes the object is given once more, with the object it
leaves behind also if it raises.  The functions that only read the document (`values`, `importLanes`, ...) are used as they are.
-/
namespace Bpmn.Import
open Bpmn

/-- The object after a call, and how the call ends. -/
abbrev Left := Diagram × Py Unit

/-- One call after the other; nothing more is done after an exception. -/
def Left.andThen (x : Left) (f : Diagram → Left) : Left :=
  match x.2 with
  | .ok _ => f x.1
  | .error e => (x.1, .error e)

/-- Reading from the document; nothing is changed if this raises. -/
def reading {α : Type} (x : Py α) (d : Diagram) (f : α → Left) : Left :=
  match x with
  | .ok a => f a
  | .error e => (d, .error e)

/-- A change that cannot raise. -/
def done (d : Diagram) : Left := (d, .ok ())

/-- `import_flow_node_to_graph` (`:331-377`); the list of incoming flows is set before that of outgoing flows is read (`:367`).  Elements always have a
`tagName` (`:352`). -/
def flowNodeS (pid : String) (o : Owner) (e : Xml) (d : Diagram) : Left :=
  let id := e.getAttr "id"
  reading e.tagName d fun tag =>
    let d := { d with graph := d.graph.addNode id }
    let d := d.updNode id fun a =>
      { a with id := some id, type := some (removeNamespace tag), nodeName := some (e.attrOr "name" ""), process := some pid }
    let d := record o id d
    reading (values "incoming" e.children) d fun inc =>
      let d := d.updNode id fun a => { a with incoming := some inc }
      reading (values "outgoing" e.children) d fun out =>
        done (d.updNode id fun a => { a with outgoing := some out })

/-- `import_activity_to_graph` (`:453-468`), also `import_task_to_graph` (`:379-392`). -/
def activityS (pid : String) (o : Owner) (e : Xml) (d : Diagram) : Left :=
  (flowNodeS pid o e d).andThen fun d => done (d.updNode (e.getAttr "id") fun a => { a with default := some (defaultOf e) })

/-- `import_data_object_to_graph` (`:433-450`). -/
def dataObjectS (pid : String) (o : Owner) (e : Xml) (d : Diagram) : Left :=
  (flowNodeS pid o e d).andThen fun d => done (d.updNode (e.getAttr "id") fun a => { a with isCollection := some (e.attrOr "isCollection" "false") })

/-- `import_gateway_to_graph` (`:471-487`), also `import_parallel_gateway_to_graph` (`:549-560`). -/
def gatewayS (pid : String) (o : Owner) (e : Xml) (d : Diagram) : Left :=
  (flowNodeS pid o e d).andThen fun d =>
    done (d.updNode (e.getAttr "id") fun a => { a with gatewayDirection := some (e.attrOr "gatewayDirection" "Unspecified") })

/-- `import_complex_gateway_to_graph` (`:490-507`), `import_incl_or_excl_gateway_to_graph` (`:532-546`). -/
def defaultGatewayS (pid : String) (o : Owner) (e : Xml) (d : Diagram) : Left :=
  (gatewayS pid o e d).andThen fun d => done (d.updNode (e.getAttr "id") fun a => { a with default := some (defaultOf e) })

/-- `import_event_based_gateway_to_graph` (`:510-529`). -/
def eventBasedGatewayS (pid : String) (o : Owner) (e : Xml) (d : Diagram) : Left :=
  (gatewayS pid o e d).andThen fun d => done (d.updNode (e.getAttr "id") fun a =>
    { a with instantiate := some (e.attrOr "instantiate" "false"), eventGatewayType := some (e.attrOr "eventGatewayType" "Exclusive") })

/-- `import_start_event_to_graph` (`:584-609`). -/
def startEventS (ord : List String → List String) (pid : String) (o : Owner) (e : Xml) (d : Diagram) : Left :=
  (flowNodeS pid o e d).andThen fun d =>
    let d := d.updNode (e.getAttr "id") fun a =>
      { a with parallelMultiple := some (e.attrOr "parallelMultiple" "false"), isInterrupting := some (e.attrOr "isInterrupting" "true") }
    done (importEventDefs ord e startDefs d)

/-- `import_intermediate_catch_event_to_graph` (`:612-635`). -/
def catchEventS (ord : List String → List String) (pid : String) (o : Owner) (e : Xml) (d : Diagram) : Left :=
  (flowNodeS pid o e d).andThen fun d =>
    let d := d.updNode (e.getAttr "id") fun a => { a with parallelMultiple := some (e.attrOr "parallelMultiple" "false") }
    done (importEventDefs ord e catchDefs d)

/-- `import_end_event_to_graph` (`:638-654`) and `import_intermediate_throw_event_to_graph` (`:657-675`). -/
def throwEventS (ord : List String → List String) (types : List String) (pid : String) (o : Owner) (e : Xml) (d : Diagram) : Left :=
  (flowNodeS pid o e d).andThen fun d => done (importEventDefs ord e types d)

/-- `import_boundary_event_to_graph` (`:678-704`). -/
def boundaryEventS (ord : List String → List String) (pid : String) (o : Owner) (e : Xml) (d : Diagram) : Left :=
  (flowNodeS pid o e d).andThen fun d =>
    let d := d.updNode (e.getAttr "id") fun a =>
      { a with parallelMultiple := some (e.attrOr "parallelMultiple" "false"), cancelActivity := some (e.attrOr "cancelActivity" "true"),
               attachedToRef := some (e.getAttr "attachedToRef") }
    done (importEventDefs ord e boundaryDefs d)

/-- The loop over the condition expressions of a flow (`:737-745`): the last one before the end or the exception, and how the loop ends. -/
def conditionsS : List Xml → Option CondExpr → Option CondExpr × Py Unit
  | [], c => (c, .ok ())
  | x :: r, c =>
    if x.isText then conditionsS r c
    else
      match x.tagName with
      | .error e => (c, .error e)
      | .ok t =>
        if removeNamespace t = "conditionExpression" then
          match x.firstValue with
          | .error e => (c, .error e)
          | .ok v => conditionsS r (some ⟨x.getAttr "id", v⟩)
        else conditionsS r c

/-- `import_sequence_flow_to_graph` (`:707-761`): entry of the table, edge and conditions, then the lists of the ends.  The assignments to the edge
(`:732-745`) are made at once. -/
def sequenceFlowS (pid : String) (e : Xml) (d : Diagram) : Left :=
  let id := e.getAttr "id"
  let name := e.attrOr "name" ""
  let src := e.getAttr "sourceRef"
  let tgt := e.getAttr "targetRef"
  let d := { d with sequenceFlows := d.sequenceFlows.set id ⟨name, src, tgt⟩ }
  let c := conditionsS e.children none
  let d := { d with graph := (d.graph.addEdge src tgt).modifyEdge src tgt fun a =>
    { a with id := some id, process := some pid, name := some name, sourceRef := some src, targetRef := some tgt,
             conditionExpression := match c.1 with | none => a.conditionExpression | some c => some c } }
  Left.andThen (d, c.2) fun d => done (linkEnds id src tgt d)

/-- The second loop of `import_process_elements` (`:169-174`) and of `import_subprocess_to_graph` (`:424-429`). -/
def flowsS (pid : String) : List Xml → Diagram → Left
  | [], d => done d
  | x :: r, d =>
    if x.isText then flowsS pid r d
    else reading x.tagName d fun t =>
      if removeNamespace t = "sequenceFlow" then (sequenceFlowS pid x d).andThen (flowsS pid r)
      else flowsS pid r d

/-- `__import_element_by_tag_name` (`:177-213`) for the element types without nested elements. -/
def simpleS (ord : List String → List String) (pid : String) (o : Owner) (e : Xml) (tag : String) (d : Diagram) : Left :=
  if isTask tag then activityS pid o e d
  else if tag = "dataObject" then dataObjectS pid o e d
  else if tag = "inclusiveGateway" ∨ tag = "exclusiveGateway" then defaultGatewayS pid o e d
  else if tag = "parallelGateway" then gatewayS pid o e d
  else if tag = "eventBasedGateway" then eventBasedGatewayS pid o e d
  else if tag = "complexGateway" then defaultGatewayS pid o e d
  else if tag = "startEvent" then startEventS ord pid o e d
  else if tag = "endEvent" then throwEventS ord endDefs pid o e d
  else if tag = "intermediateCatchEvent" then catchEventS ord pid o e d
  else if tag = "intermediateThrowEvent" then throwEventS ord throwDefs pid o e d
  else if tag = "boundaryEvent" then boundaryEventS ord pid o e d
  else done d

mutual
/-- `__import_element_by_tag_name` (`:177-213`) with `import_subprocess_to_graph` (`:395-430`). -/
def elementS (ord : List String → List String) (pid : String) (o : Owner) : Xml → Diagram → Left
  | .elem t as ks, d =>
    if removeNamespace t = "subProcess" then
      let e := Xml.elem t as ks
      let sid := e.getAttr "id"
      (activityS pid o e d).andThen fun d =>
        let d := d.updNode sid fun a => { a with triggeredByEvent := some (e.attrOr "triggeredByEvent" "false"), nodeIds := some [] }
        (elementsS ord sid (.node sid) ks d).andThen (flowsS sid ks)
    else simpleS ord pid o (.elem t as ks) (removeNamespace t) d
  | .text _, d => done d
  -- no `tagName` (`:164`, `:419`)
  | .other _, d => (d, .error .attributeError)
/-- The loops `:162-167`, `:417-422` over the children; text is skipped. -/
def elementsS (ord : List String → List String) (pid : String) (o : Owner) : List Xml → Diagram → Left
  | [], d => done d
  | x :: r, d => (elementS ord pid o x d).andThen (elementsS ord pid o r)
end

/-- The first lane set of a process (`:159-163`, `import_lane_set_element` `:216-237`): the entry is set after all lanes have been read. -/
def laneSetS (plane : Xml) (pid : String) : List Xml → Diagram → Left
  | [], d => done d
  | ls :: _, d => reading (importLanes plane ls.children []) d fun lanes =>
    done { d with processElements := d.processElements.modify pid fun a => { a with laneSet := some (ls.getAttr "id", lanes) } }

/-- The body of the loop of `import_process_elements` (`:153-174`). -/
def processS (ord : List String → List String) (plane e : Xml) (d : Diagram) : Left :=
  let pid := e.getAttr "id"
  let d := { d with processElements := d.processElements.set pid (processEntry e) }
  (laneSetS plane pid (e.byName "laneSet") d).andThen fun d =>
    (elementsS ord pid (.process pid) e.children d).andThen (flowsS pid e.children)

/-- The loop of `import_process_elements` (`:153-174`). -/
def processesS (ord : List String → List String) (plane : Xml) : List Xml → Diagram → Left
  | [], d => done d
  | e :: r, d => (processS ord plane e d).andThen (processesS ord plane r)

/-- The loop of `import_collaboration_element` (`:85-92`): graph and collaboration, and how the loop ends. -/
def collabKidsS : List Xml → Diagram → Collab → (Diagram × Collab) × Py Unit
  | [], d, c => ((d, c), .ok ())
  | x :: r, d, c =>
    if x.isText then collabKidsS r d c
    else
      match x.tagName with
      | .error e => ((d, c), .error e)
      | .ok t =>
        if removeNamespace t = "participant" then
          let (d, c) := importParticipant x d c
          collabKidsS r d c
        else if removeNamespace t = "messageFlow" then
          let (d, c) := importMessageFlow x d c
          collabKidsS r d c
        else collabKidsS r d c

/-- `import_collaboration_element` (`:69-92`): the old pools and message flows are dropped at once (`:79-83`). -/
def collaborationS (e : Xml) (d : Diagram) : Left :=
  let r := collabKidsS e.children d ⟨e.getAttr "id", [], []⟩
  ({ r.1.1 with collaboration := some r.1.2 }, r.2)

/-- The first collaboration element, if any (`:47-51`). -/
def firstCollaborationS : List Xml → Diagram → Left
  | [], d => done d
  | c :: _, d => collaborationS c d

/-- The node part of `import_shape_di` (`:829-840`): width and height are set before the type is looked up (`:834`). -/
def nodeShapeS (e b : Xml) (id : String) (d : Diagram) : Left :=
  match d.graph.nodes.get? id with
  | none => done d
  | some a =>
    let d := d.updNode id fun a => { a with width := some (b.getAttr "width"), height := some (b.getAttr "height") }
    reading (need a.type) d fun ty =>
      done (d.updNode id fun a =>
        { a with isExpanded := if ty = "subProcess" then some (e.attrOr "isExpanded" "false") else a.isExpanded,
                 x := some (b.getAttr "x"), y := some (b.getAttr "y") })

/-- `import_shape_di` (`:812-848`). -/
def shapeS (e : Xml) (d : Diagram) : Left :=
  let id := e.getAttr "bpmnElement"
  reading (boundsOf e) d fun b =>
    (nodeShapeS e b id d).andThen fun d =>
      match d.collaboration with
      | none => done d
      | some c =>
        let ps := Dict.modify c.participants id fun p => { p with di := some (boxOf e b) }
        done { d with collaboration := some { c with participants := ps } }

/-- `import_flow_di` (`:851-888`). -/
def flowDiS (e : Xml) (d : Diagram) : Left :=
  let id := e.getAttr "bpmnElement"
  let ws := (e.byName "waypoint").map fun w => (w.getAttr "x", w.getAttr "y")
  let data := match d.sequenceFlows.get? id with
    | some f => some (f.name, f.sourceRef, f.targetRef)
    | none => match d.collaboration with
      | none => none
      | some c => (c.messageFlows.get? id).map fun m => (m.name, m.sourceRef, m.targetRef)
  match data with
  | none => done d
  | some (name, src, tgt) =>
    if d.graph.hasEdge src tgt then
      done { d with graph := d.graph.modifyEdge src tgt fun a => { a with waypoints := some ws, name := some name } }
    else (d, .error .keyError)

/-- The loop over the plane (`:60-66`). -/
def planeS : List Xml → Diagram → Left
  | [], d => done d
  | x :: r, d =>
    if x.isText then planeS r d
    else reading x.tagName d fun t =>
      if removeNamespace t = "BPMNShape" then (shapeS x d).andThen (planeS r)
      else if removeNamespace t = "BPMNEdge" then (flowDiS x d).andThen (planeS r)
      else planeS r d

/-- `load_diagram_from_xml` (`:21-66`): the object `d` after the call, and how the call ends.  The file has been read without exception. -/
def loadObject (ord : List String → List String) (root : Xml) (d : Diagram) : Left :=
  reading (pyIndex (Xml.byNameIn "BPMNDiagram" [root]) 0) d fun diagram =>
    reading (pyIndex (diagram.byName "BPMNPlane") 0) d fun plane =>
      -- `import_diagram_and_plane_attributes` (`:114-137`)
      let d := { d with diagramId := some (diagram.getAttr "id"), diagramName := some (diagram.attrOr "name" ""),
                        planeId := some (plane.getAttr "id"), planeElement := some (plane.getAttr "bpmnElement") }
      (processesS ord plane (Xml.byNameIn "process" [root]) d).andThen fun d =>
        (firstCollaborationS (Xml.byNameIn "collaboration" [root]) d).andThen (planeS plane.children)

end Bpmn.Import

import Verif.Model.CsvImport
/-!
# The CSV import and the object (`bpmn_python/bpmn_process_csv_import.py`)

`Verif/Model/CsvImport.lean` gives the result of an import without exception.  Here every function that changes the object is given once more, with the object
it leaves behind also if it raises.  The functions that only read (`gatewayType`, `onlyPresent`, ...) are used as they are.  The table of flows is that of the
object (`:592`); `process_dict` is local to the call and is not part of what is left.
-/
namespace Bpmn.Csv
open Bpmn

/-- The object after a call, and the result or the exception of the call. -/
abbrev Call (α : Type) := Diagram × Py α

/-- One call after the other; nothing more is done after an exception. -/
def Call.next {α β : Type} (x : Call α) (f : α → Diagram → Call β) : Call β :=
  match x.2 with
  | .ok a => f a x.1
  | .error e => (x.1, .error e)

/-- Reading; nothing is changed if this raises. -/
def look {α β : Type} (x : Py α) (d : Diagram) (f : α → Call β) : Call β :=
  match x with
  | .ok a => f a
  | .error e => (d, .error e)

/-- A call of a function for every element of a list, in order. -/
def eachS {α : Type} (f : α → Diagram → Call Unit) : List α → Diagram → Call Unit
  | [], d => (d, .ok ())
  | a :: r, d => (f a d).next fun _ d => eachS f r d

/-- `add_outgoing_flow` (`:257-266`). -/
def addOutgoingS (src tgt : String) (d : Diagram) : Call Unit :=
  look (d.nodeAttrs src) d fun a => (d.updNode src fun b => { b with outgoing := some (a.outgoing.getD [] ++ [flowId src tgt]) }, .ok ())

/-- `add_incoming_flow` (`:269-278`). -/
def addIncomingS (src tgt : String) (d : Diagram) : Call Unit :=
  look (d.nodeAttrs tgt) d fun a => (d.updNode tgt fun b => { b with incoming := some (a.incoming.getD [] ++ [flowId src tgt]) }, .ok ())

/-- `add_connection` (`:328-339`): if the target does not exist, the flow is already among the outgoing flows of the source. -/
def addConnectionS (pd : Dict String Line) (src tgt : String) (d : Diagram) : Call Unit :=
  (addOutgoingS src tgt d).next fun _ d => (addIncomingS src tgt d).next fun _ d => (addEdge pd src tgt d, .ok ())

/-- The split branch of the loop of `fill_graph_connections` (`:480-485`) with `add_split_gateway` (`:403-417`). -/
def fillSplitS (pd : Dict String Line) (ids : List String) (nodeId : String) (d : Diagram) : Call Unit :=
  let gateway := nodeId ++ "_split"
  look (gatewayType pd nodeId ids) d fun type =>
    let d := addNodeInfo gateway (some type) "" d
    (addConnectionS pd nodeId gateway d).next fun _ d =>
      look (splitSuccessors nodeId ids) d fun succ => eachS (addConnectionS pd gateway) succ d

/-- The merge branch of the loop (`:486-493`) with `add_merge_gateway_if_not_exists` (`:442-459`). -/
def fillMergeS (pd : Dict String Line) (ids : List String) (nodeId : String) (candidates : List String) (d : Diagram) : Call Unit :=
  look (onlyPresent candidates ids) d fun succ =>
    let gateway := succ ++ "_join"
    if d.graph.nodes.has gateway then addConnectionS pd nodeId gateway d
    else look (mergeNodeType succ d) d fun type =>
      let d := addNodeInfo gateway type "" d
      (addConnectionS pd gateway succ d).next fun _ d => addConnectionS pd nodeId gateway d

/-- One round of the loop of `fill_graph_connections` (`:472-495`). -/
def fillNodeS (pd : Dict String Line) (ids : List String) (nodeId : String) (d : Diagram) : Call Unit :=
  look (need (pd.get? nodeId)) d fun l =>
    if l.terminated = "yes" then (d, .ok ())
    else if anyPresent (sequenceSuccessors nodeId) ids then
      look (onlyPresent (sequenceSuccessors nodeId) ids) d fun succ => addConnectionS pd nodeId succ d
    else if anyPresent (splitCandidates nodeId) ids then fillSplitS pd ids nodeId d
    else look (mergeSuccessors nodeId) d fun candidates =>
      if anyPresent candidates ids then fillMergeS pd ids nodeId candidates d
      else (d, .error .bpmnError)

/-- `fill_graph_connections` (`:462-495`). -/
def fillConnectionsS (pd : Dict String Line) (d : Diagram) : Call Unit :=
  eachS (fillNodeS pd d.graph.nodes.keys) d.graph.nodes.keys d

/-- `remove_incoming_connection` (`:514-527`): the flow leaves the list of the neighbour (`:524`), then the table (`:525`), then the graph (`:526`). -/
def removeIncomingS (base : String) (d : Diagram) : Call String :=
  look (d.nodeAttrs base) d fun a => look (need a.incoming) d fun inc => look (pyIndex inc 0) d fun f =>
    look (need (d.sequenceFlows.get? f)) d fun sf => look (d.nodeAttrs sf.sourceRef) d fun b => look (need b.outgoing) d fun out =>
      look (pyRemove out f) d fun out =>
        let d := d.updNode sf.sourceRef fun c => { c with outgoing := some out }
        let d := { d with sequenceFlows := d.sequenceFlows.erase f }
        look (d.graph.removeEdge sf.sourceRef base) d fun g => ({ d with graph := g }, .ok sf.sourceRef)

/-- `remove_outgoing_connection` (`:498-511`), in the same order (`:508-510`). -/
def removeOutgoingS (base : String) (d : Diagram) : Call String :=
  look (d.nodeAttrs base) d fun a => look (need a.outgoing) d fun out => look (pyIndex out 0) d fun f =>
    look (need (d.sequenceFlows.get? f)) d fun sf => look (d.nodeAttrs sf.targetRef) d fun b => look (need b.incoming) d fun inc =>
      look (pyRemove inc f) d fun inc =>
        let d := d.updNode sf.targetRef fun c => { c with incoming := some inc }
        let d := { d with sequenceFlows := d.sequenceFlows.erase f }
        look (d.graph.removeEdge base sf.targetRef) d fun g => ({ d with graph := g }, .ok sf.targetRef)

/-- `remove_node` (`:530-544`) without the change of `process_dict` (`:542`), which the callers make. -/
def removeNodeS (node : String) (d : Diagram) : Call (String × String) :=
  (removeIncomingS node d).next fun src d => (removeOutgoingS node d).next fun tgt d =>
    look (d.graph.removeNode node) d fun g => ({ d with graph := g }, .ok (src, tgt))

/-- The loop of `remove_goto_nodes` (`:564-575`); the row is removed (`:573`) before its activity is split (`:574`). -/
def removeGotosS : List (String × Line) → Dict String Line → Diagram → Call (Dict String Line)
  | [], pd, d => (d, .ok pd)
  | (order, l) :: r, pd, d =>
    if isGoto l.activity then
      (removeNodeS order d).next fun p d =>
        look (pyIndex (words (strip l.activity)) 1) d fun tgt =>
          (addConnectionS (pd.erase order) p.1 tgt d).next fun _ d => removeGotosS r (pd.erase order) d
    else removeGotosS r pd d

/-- The loop of `remove_unnecessary_merge_gateways` (`:547-561`). -/
def removeGatewaysS : List String → Dict String Line → Diagram → Call Unit
  | [], _, d => (d, .ok ())
  | n :: r, pd, d =>
    look (d.nodeAttrs n) d fun a =>
      if a.type ∈ [some "inclusiveGateway", some "exclusiveGateway", some "parallelGateway"] then
        look (found a.incoming) d fun inc =>
          if inc.length < 2 then
            look (found a.outgoing) d fun out =>
              if out.length < 2 then
                (removeNodeS n d).next fun p d => (addConnectionS (pd.erase n) p.1 p.2 d).next fun _ d => removeGatewaysS r (pd.erase n) d
              else removeGatewaysS r pd d
          else removeGatewaysS r pd d
      else removeGatewaysS r pd d

/-- `load_diagram_from_csv` (`:583-603`): the object after the call, whether it raises or not.  The table is read before anything is changed (`:597`). -/
def loadCsvObject (rows : List Row) (d : Diagram) : Call Unit :=
  look (processDict rows) d fun pd =>
    (fillConnectionsS pd (importNodes pd (populate pd d))).next fun _ d =>
      (removeGotosS pd pd (legacyAdjustment d)).next fun pd d => removeGatewaysS d.graph.nodes.keys pd d

end Bpmn.Csv

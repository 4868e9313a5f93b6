import Verif.Model.Classify
/-!
# The layouter (`bpmn_python/bpmn_diagram_layouter.py`)

`while` loops and recursion take a step budget (`fuel`); running out of it is `PyErr.outOfFuel`.
-/
namespace Bpmn.Layouter
open Classify

/-- `flow = bpmn_graph.get_flow_by_id(flow_id)` followed by `flow[2]`: `TypeError` if there is no such flow. -/
def flowAttrs (d : Diagram) (flowId : String) : Py EdgeAttrs := do
  match ← d.getFlowById flowId with
  | some f => pure f.2.2
  | none => .error .typeError

/-- `bpmn_graph.get_flow_by_id(flow_id)[2][target_ref]`. -/
def flowTarget (d : Diagram) (flowId : String) : Py String := do
  let a ← flowAttrs d flowId
  need a.targetRef

/-- `bpmn_graph.get_flow_by_id(flow_id)[2][source_ref]`. -/
def flowSource (d : Diagram) (flowId : String) : Py String := do
  let a ← flowAttrs d flowId
  need a.sourceRef

/-! ## topological_sort -/

/-- `target = next(n for n in tmp if n id == nodeId)` and `target[1][incoming].remove(flow_id)` (`:184-187`, `:205-208`). -/
def removeIn (flowId nodeId : String) : List NC → Py (List NC)
  | [] => .error .stopIteration
  | x :: r =>
    if x.id = nodeId then do
      let l ← pyRemove x.ins flowId
      pure ({ x with ins := l } :: r)
    else do
      let r ← removeIn flowId nodeId r
      pure (x :: r)

/-- `source = next(n for n in tmp if n id == nodeId)` and `source[1][outgoing].remove(flow_id)` (`:199-202`). -/
def removeOut (flowId nodeId : String) : List NC → Py (List NC)
  | [] => .error .stopIteration
  | x :: r =>
    if x.id = nodeId then do
      let l ← pyRemove x.outs flowId
      pure ({ x with outs := l } :: r)
    else do
      let r ← removeOut flowId nodeId r
      pure (x :: r)

/-- The loop `:173-187` over a copy of the outgoing list of the node just taken.  The removals from the node's own list (`:179-180`)
are left out: they cannot fail and the node is never looked at again. -/
def releaseTargets (d : Diagram) : List String → List NC → Py (List NC)
  | [], tmp => .ok tmp
  | i :: r, tmp => do
    let t ← flowTarget d i
    let tmp ← removeIn i t tmp
    releaseTargets d r tmp

/-- The body of the inner `while` (`:163-187`) for one node `x` of `no_incoming_flow_nodes`: the remaining nodes and the sorted
ones.  `all` is the argument `nodes_with_classification`. -/
def takeNode (d : Diagram) (all : List NC) (x : NC) (tmp sorted : List NC) : Py (List NC × List NC) := do
  let tmp ← pyRemove tmp x
  match all.find? (fun y => y.id == x.id) with
  | none => .error .stopIteration
  | some y => do
    let tmp ← releaseTargets d x.outs tmp
    pure (tmp, sorted ++ [y])

/-- The inner `while` (`:162-187`) on the nodes in the order in which `pop` yields them. -/
def takeNodes (d : Diagram) (all : List NC) : List NC → List NC → List NC → Py (List NC × List NC)
  | [], tmp, sorted => .ok (tmp, sorted)
  | x :: r, tmp, sorted => do
    let (tmp, sorted) ← takeNode d all x tmp sorted
    takeNodes d all r tmp sorted

/-- The loop `:193-209` over a copy of the incoming list of a join.  `backward_flows` holds the flows; here, their ids. -/
def cutFlows (d : Diagram) : List String → List NC → List String → Py (List NC × List String)
  | [], tmp, back => .ok (tmp, back)
  | i :: r, tmp, back => do
    let s ← flowSource d i
    let tmp ← removeOut i s tmp
    let t ← flowTarget d i
    let tmp ← removeIn i t tmp
    cutFlows d r tmp (back ++ [i])

/-- The `else` branch (`:188-209`): the nodes are visited by position, each with the lists it has at that moment. -/
def cutJoins (d : Diagram) : List Nat → List NC → List String → Py (List NC × List String)
  | [], tmp, back => .ok (tmp, back)
  | k :: r, tmp, back => do
    let x ← pyIndex tmp k
    if "Join" ∈ x.labels then do
      let (tmp, back) ← cutFlows d x.ins tmp back
      cutJoins d r tmp back
    else cutJoins d r tmp back

/-- The outer `while` (`:156-209`). -/
def sortLoop (d : Diagram) (all : List NC) : Nat → List NC → List NC → List String → Py (List NC × List String)
  | 0, _, _, _ => .error .outOfFuel
  | fuel + 1, tmp, sorted, back =>
    if tmp = [] then .ok (sorted, back)
    else
      let free := tmp.filter fun x => x.ins.length == 0
      if free.length > 0 then do
        let (tmp, sorted) ← takeNodes d all free.reverse tmp sorted
        sortLoop d all fuel tmp sorted back
      else do
        let (tmp, back) ← cutJoins d (List.range tmp.length) tmp back
        sortLoop d all fuel tmp sorted back

/-- `topological_sort` (`:145-210`): the sorted nodes and the ids of the backward flows. -/
def topologicalSort (fuel : Nat) (d : Diagram) (all : List NC) : Py (List NC × List String) := sortLoop d all fuel all [] []

/-! ## The grid -/

/-- `GridCell` (`bpmn_python/grid_cell_class.py:8-16`). -/
structure Cell where
  row : Int
  col : Int
  nodeId : String
deriving DecidableEq, Repr

/-- `consts.grid_column_width` (`bpmn_python_consts.py:101`). -/
def gridColumnWidth : Int := 2

/-- The loop `:370-372`: `grid_cell.row += "width"` raises `TypeError` for the first cell it is executed on. -/
def shiftRows (row : Int) : List Cell → Py (List Cell)
  | [] => .ok []
  | c :: r =>
    if c.row ≥ row then .error .typeError
    else do
      let r ← shiftRows row r
      pure (c :: r)

/-- `insert_into_grid` (`:353-373`). -/
def insertIntoGrid (grid : List Cell) (row col : Int) (nodeId : String) : Py (List Cell) :=
  match grid.find? (fun c => c.row == row && c.col == col) with
  | some _ => do
    let grid ← shiftRows row grid
    pure (grid ++ [⟨row, col, nodeId⟩])
  | none => .ok (grid ++ [⟨row, col, nodeId⟩])

/-- The ends of the flows of a list, in order (`:283-285`, `:306-308`). -/
def endsOf (get : String → Py String) : List String → Py (List String)
  | [] => .ok []
  | i :: r => do
    let s ← get i
    let ss ← endsOf get r
    pure (s :: ss)

/-- `enforced_row_num if enforced_row_num else row` (`:256-259`, `:298-301`): `None` and `0` are false. -/
def truthyOr (enforced : Option Int) (row : Int) : Int :=
  match enforced with
  | some e => if e = 0 then row else e
  | none => row

/-- The loop `:290-294`: sum of the rows and largest column of the cells of the listed nodes. -/
def predStats (ids : List String) : List Cell → Int → Int → Int × Int
  | [], sum, col => (sum, col)
  | c :: r, sum, col =>
    if c.nodeId ∈ ids then predStats ids r (sum + c.row) (if c.col > col then c.col else col) else predStats ids r sum col

/-- The variables threaded through `place_element_in_grid`; `rest` is the list `nodes_with_classification` it shrinks. -/
structure Place where
  grid : List Cell
  lastRow : Int
  lastCol : Int
  rest : List NC
deriving DecidableEq, Repr

/-- The first half of `place_element_in_grid` (`:247-301`): inserts the node; also returns `current_element_row`. -/
def placeSelf (d : Diagram) (x : NC) (p : Place) (enforced : Option Int) : Py (Place × Int) :=
  if x.ins.length = 0 then do
    let grid ← insertIntoGrid p.grid (truthyOr enforced p.lastRow) p.lastCol x.id
    pure ({ p with grid := grid, lastRow := p.lastRow + gridColumnWidth }, p.lastRow)
  else if "Join" ∉ x.labels then do
    let i ← pyIndex x.ins 0
    let pred ← flowSource d i
    match p.grid.find? (fun c => c.nodeId == pred) with
    | none => .error .stopIteration
    | some c => do
      let grid ← insertIntoGrid p.grid (enforced.getD c.row) (c.col + 1) x.id
      pure ({ p with grid := grid }, c.row)
  else do
    let ids ← endsOf (flowSource d) x.ins
    let (sum, col) := predStats ids p.grid 0 0
    let row := Int.fdiv sum ids.length
    let grid ← insertIntoGrid p.grid (truthyOr enforced row) (col + 1) x.id
    pure ({ p with grid := grid }, row)

/-- The indices into `successor_node_list` in the order of the loops `:313-347`, with the row enforced for each. -/
def schedule (n : Nat) (row : Int) : List (Nat × Int) :=
  let centre := n / 2
  if n % 2 ≠ 0 then
    (List.range centre).map (fun k : Nat => (k, row + ((k : Int) + 1) * gridColumnWidth)) ++ [(centre, row)] ++
      (List.range' (centre + 1) (n - (centre + 1))).map (fun k : Nat => (k, row - ((k : Int) - centre) * gridColumnWidth))
  else
    (List.range centre).map (fun k : Nat => (k, row + ((k : Int) + 1) * gridColumnWidth)) ++
      (List.range' centre (n - centre)).map (fun k : Nat => (k, row - ((k : Int) - centre + 1) * gridColumnWidth))

/-- The bodies of the loops `:313-347`: each places a successor and removes it from the list of remaining nodes. -/
def placeSuccessors (rec : NC → Place → Option Int → Py Place) (succs : List NC) : List (Nat × Int) → Place → Py Place
  | [], p => .ok p
  | (k, row) :: r, p => do
    let s ← pyIndex succs k
    let p ← rec s p (some row)
    let rest ← pyRemove p.rest s
    placeSuccessors rec succs r { p with rest := rest }

/-- `place_element_in_grid` (`:232-350`). -/
def placeElement (d : Diagram) : Nat → NC → Place → Option Int → Py Place
  | 0, _, _, _ => .error .outOfFuel
  | fuel + 1, x, p, enforced => do
    let (p, row) ← placeSelf d x p enforced
    if "Split" ∈ x.labels then do
      let ids ← endsOf (flowTarget d) x.outs
      let succs := p.rest.filter fun y => decide (y.id ∈ ids)
      placeSuccessors (placeElement d fuel) succs (schedule ids.length row) p
    else pure p

/-- The loop of `grid_layout` (`:225-228`); `fuel` bounds the depth of each `place_element_in_grid`, `n` the number of rounds. -/
def gridLoop (d : Diagram) (fuel : Nat) : Nat → Place → Py (List Cell)
  | 0, _ => .error .outOfFuel
  | n + 1, p =>
    match p.rest with
    | [] => .ok p.grid
    | x :: rest => do
      let p ← placeElement d fuel x { p with rest := rest } none
      gridLoop d fuel n p

/-- `grid_layout` (`:213-229`). -/
def gridLayout (fuel : Nat) (d : Diagram) (sorted : List NC) : Py (List Cell) :=
  gridLoop d fuel fuel ⟨[], gridColumnWidth, 1, sorted⟩

/-! ## Coordinates and waypoints -/

/-- `set_coordinates_for_nodes` (`:376-387`) on the list of nodes.  `str` of an integer is `toString`.  After a `StopIteration` the
nodes before the failing one would have been changed; the model only describes the result of a run without exception. -/
def setCoordinates (grid : List Cell) : List Node → Py (List Node)
  | [] => .ok []
  | n :: r =>
    match grid.find? (fun c => c.nodeId == n.1) with
    | none => .error .stopIteration
    | some c => do
      let rest ← setCoordinates grid r
      pure ((n.1, { n.2 with x := some (toString (c.col * 150 + 50)), y := some (toString (c.row * 100 + 50)) }) :: rest)

/-- Python's `int(s)` on a string made by `str` of an integer (other accepted spellings are not needed). -/
def pyInt (s : String) : Py Int :=
  match s.toInt? with
  | some i => .ok i
  | none => .error .valueError

/-- `type == parallel_gateway or type == inclusive_gateway or type == exclusive_gateway`. -/
def isGateway (t : String) : Bool := t == "parallelGateway" || t == "inclusiveGateway" || t == "exclusiveGateway"

/-- The waypoints computed by `:402-427` from the attributes of source and target. -/
def flowWaypoints (s t : NodeAttrs) : Py (List (String × String)) := do
  let sty ← need s.type
  let tty ← need t.type
  let sxs ← need s.x
  let sys ← need s.y
  let txs ← need t.x
  let tys ← need t.y
  let sx ← pyInt sxs
  let sy ← pyInt sys
  let tx ← pyInt txs
  let ty ← pyInt tys
  if isGateway sty then
    pure [(toString (sx + 50), toString (sy + 50)), (toString (sx + 50), toString (ty + 50)), (toString tx, toString (ty + 50))]
  else if sys = tys then
    pure [(toString (sx + 50), toString (sy + 50)), (toString tx, toString (ty + 50))]
  else if isGateway tty then
    pure [(toString (sx + 50), toString (sy + 50)), (toString (tx + 50), toString (sy + 50)), (toString (tx + 50), toString ty)]
  else
    pure [(toString (sx + 50), toString (sy + 50)), (toString tx, toString (ty + 50))]

/-- `get_node_by_id(id)[1]`: `TypeError` if there is no such node. -/
def nodeAttrsById (d : Diagram) (i : String) : Py NodeAttrs :=
  match d.getNodeById i with
  | some n => .ok n.2
  | none => .error .typeError

/-- The loop of `set_flows_waypoints` (`:398-427`).  A flow is changed in place through its attribute dictionary, i.e. on the edge
between its two ends. -/
def setWaypoints (d : Diagram) : List Flow → Graph → Py Graph
  | [], g => .ok g
  | f :: r, g => do
    let s ← need f.2.2.sourceRef
    let t ← need f.2.2.targetRef
    let sa ← nodeAttrsById d s
    let ta ← nodeAttrsById d t
    let w ← flowWaypoints sa ta
    setWaypoints d r (g.modifyEdge f.1 f.2.1 fun a => { a with waypoints := some w })

/-- `set_flows_waypoints` (`:390-427`). -/
def setFlowsWaypoints (d : Diagram) : Py Diagram := do
  let g ← setWaypoints d d.getFlows d.graph
  pure { d with graph := g }

/-- `generate_layout` (`:11-19`). -/
def generateLayout (fuel : Nat) (d : Diagram) : Py Diagram := do
  let (nodes, _) ← generateElementsClassification d
  let (sorted, _) ← topologicalSort fuel d nodes
  let grid ← gridLayout fuel d sorted
  let ns ← setCoordinates grid d.graph.nodes
  setFlowsWaypoints { d with graph := { d.graph with nodes := ns } }

end Bpmn.Layouter

import Verif.Model.Rep
/-!
# Layout quality metrics (`bpmn_python/diagram_layout_metrics.py`)

`float(s)` is a parameter `num : String → Py Rat` (`.error .valueError` for strings that are no numbers); the arithmetic on the parsed
numbers is exact.  `nan` and infinities are not represented.
-/
namespace Bpmn.LayoutMetrics
open Bpmn

/-- A `{"x": ..., "y": ...}` dictionary. -/
structure Point where
  x : Rat
  y : Rat
deriving DecidableEq

/-- A `{"source": ..., "target": ...}` dictionary. -/
structure Segment where
  source : Point
  target : Point
deriving DecidableEq

/-- `compute_determinant` (`diagram_layout_metrics.py:28-38`) after `float`. -/
def computeDeterminant (p1 p2 p3 : Point) : Rat :=
  let det := p1.x * p2.y + p2.x * p3.y + p3.x * p1.y
  det - (p1.x * p3.y + p2.x * p1.y + p3.x * p2.y)

/-- `check_integer_sign` (`diagram_layout_metrics.py:41-47`). -/
def checkIntegerSign (value : Rat) : Bool := decide (value ≥ 0)

/-- `points_are_equal` (`diagram_layout_metrics.py:85-92`). -/
def pointsAreEqual (p1 p2 : Point) : Bool := decide (p1.x = p2.x) && decide (p1.y = p2.y)

/-- `segments_common_points` (`diagram_layout_metrics.py:70-82`). -/
def segmentsCommonPoints (s1 s2 : Segment) : Bool :=
  pointsAreEqual s1.source s2.source || pointsAreEqual s1.source s2.target
  || pointsAreEqual s1.target s2.source || pointsAreEqual s1.target s2.target

/-- `orientation` (`diagram_layout_metrics.py:130-149`). -/
def orientation (p1 p2 p3 : Point) : Nat :=
  let val := (p2.y - p1.y) * (p3.x - p2.x) - (p2.x - p1.x) * (p3.y - p2.y)
  if val = 0 then 0 else if val > 0 then 1 else 2

/-- `lies_on_segment` (`diagram_layout_metrics.py:152-163`). -/
def liesOnSegment (p1 p2 p3 : Point) : Bool :=
  decide (min p1.x p2.x ≤ p3.x) && decide (p3.x ≤ max p1.x p2.x)
  && decide (min p1.y p2.y ≤ p3.y) && decide (p3.y ≤ max p1.y p2.y)

/-- `do_intersect` (`diagram_layout_metrics.py:95-127`). -/
def doIntersect (s1 s2 : Segment) : Bool :=
  let o1 := orientation s1.source s1.target s2.source
  let o2 := orientation s1.source s1.target s2.target
  let o3 := orientation s2.source s2.target s1.source
  let o4 := orientation s2.source s2.target s1.target
  if o1 ≠ o2 ∧ o3 ≠ o4 then true
  else if o1 = 0 ∧ liesOnSegment s1.source s1.target s2.source then true
  else if o2 = 0 ∧ liesOnSegment s1.source s1.target s2.target then true
  else if o3 = 0 ∧ liesOnSegment s2.source s2.target s1.source then true
  else if o4 = 0 ∧ liesOnSegment s2.source s2.target s1.target then true
  else false

/-- `float(p[0]), float(p[1])`. -/
def toPoint (num : String → Py Rat) (p : String × String) : Py Point := do
  let x ← num p.1
  let y ← num p.2
  pure ⟨x, y⟩

/-- The inner `while` loop of `get_flows_segments` (`diagram_layout_metrics.py:61-66`). -/
def segmentsFrom (num : String → Py Rat) (source : String × String) : List (String × String) → Py (List Segment)
  | [] => .ok []
  | target :: rest => do
    let s ← toPoint num source
    let t ← toPoint num target
    let r ← segmentsFrom num target rest
    pure (⟨s, t⟩ :: r)

/-- `get_flows_segments` (`diagram_layout_metrics.py:50-67`). -/
def getFlowsSegments (num : String → Py Rat) : List Flow → Py (List Segment)
  | [] => .ok []
  | f :: fs => do
    let w ← need f.2.2.waypoints
    match w with
    | [] => .error .indexError
    | source :: rest => do
      let s ← segmentsFrom num source rest
      let r ← getFlowsSegments num fs
      pure (s ++ r)

/-- The loop of `count_crossing_points` (`diagram_layout_metrics.py:18-24`) on the reversed segment list (`pop()` takes the last). -/
def countCrossings : List Segment → Nat
  | [] => 0
  | s :: rest =>
    (rest.reverse.filter fun t => segmentsCommonPoints s t == false && doIntersect s t).length + countCrossings rest

/-- `count_crossing_points` (`diagram_layout_metrics.py:9-25`). -/
def countCrossingPoints (num : String → Py Rat) (d : Diagram) : Py Nat := do
  let s ← getFlowsSegments num d.getFlows
  pure (countCrossings s.reverse)

/-- `count_segments` (`diagram_layout_metrics.py:166-173`). -/
def countSegments (num : String → Py Rat) (d : Diagram) : Py Nat := do
  let s ← getFlowsSegments num d.getFlows
  pure s.length

/-! ## Longest paths -/

/-- `bpmn_graph.get_node_by_id(bpmn_graph.get_flow_by_id(i)[2]["targetRef"])`; a missing flow makes `None[2]` raise `TypeError`.
The value may be Python's `None`. -/
def targetNode (d : Diagram) (flowId : String) : Py (Option Node) := do
  match ← d.getFlowById flowId with
  | none => .error .typeError
  | some f => do
    let t ← need f.2.2.targetRef
    pure (d.getNodeById t)

/-- The nodes whose incoming list is empty (`diagram_layout_metrics.py:183-188`, `:234-239`). -/
def noIncoming : List Node → Py (List Node)
  | [] => .ok []
  | n :: ns => do
    let i ← need n.2.incoming
    let r ← noIncoming ns
    pure (if i.length = 0 then n :: r else r)

/-- The `for` loop of `find_longest_path` (`diagram_layout_metrics.py:217-223`); `rec` is the recursive call. -/
def longestLoop (d : Diagram) (prev : List Node) (rec : Node → Py (List Node × Nat)) :
    List String → List Node → Py (List Node)
  | [], best => .ok best
  | i :: is, best => do
    match ← targetNode d i with
    -- `None` is in no list of nodes; the recursive call then evaluates `None[1]`
    | none => .error .typeError
    | some m =>
      if m ∈ prev then longestLoop d prev rec is best
      else do
        let (p, l) ← rec m
        longestLoop d prev rec is (if l > best.length then p else best)

/-- `find_longest_path` (`diagram_layout_metrics.py:198-224`).  Node tuples are compared by value as in Python.  Python's recursion
limit is not modelled. -/
def findLongestPath (d : Diagram) : Nat → List Node → Node → Py (List Node × Nat)
  | 0, _, _ => .error .outOfFuel
  | fuel + 1, prev, node => do
    let out ← need node.2.outgoing
    let here := prev ++ [node]
    if out.length = 0 then pure (here, here.length)
    else do
      let best ← longestLoop d prev (findLongestPath d fuel here) out []
      pure (best, best.length)

/-- The `for` loop of `compute_longest_path` (`diagram_layout_metrics.py:191-194`). -/
def bestOf (rec : Node → Py (List Node × Nat)) : List Node → List Node → Py (List Node)
  | [], best => .ok best
  | n :: ns, best => do
    let (p, l) ← rec n
    bestOf rec ns (if l > best.length then p else best)

/-- `compute_longest_path` (`diagram_layout_metrics.py:176-195`). -/
def computeLongestPath (fuel : Nat) (d : Diagram) : Py (List Node × Nat) := do
  let starts ← noIncoming d.getNodes
  let best ← bestOf (findLongestPath d fuel []) starts []
  pure (best, best.length)

/-- `node[1]["type"] in {"task", "subProcess"}`. -/
def isActivity (n : Node) : Py Bool := do
  let t ← need n.2.type
  pure (decide (t = "task" ∨ t = "subProcess"))

/-- `tmp_qualified_nodes` after the `if` (`diagram_layout_metrics.py:264-266`, `:276-278`). -/
def qualify (q : List Node) (n : Node) : Py (List Node) := do
  if ← isActivity n then pure (q ++ [n]) else pure q

/-- The `for` loop of `find_longest_path_tasks` (`diagram_layout_metrics.py:272-290`). -/
def longestTasksLoop (d : Diagram) (path qual : List Node) (node : Node)
    (rec : List Node → Node → Py (List Node × List Node)) :
    List String → List Node × List Node → Py (List Node × List Node)
  | [], best => .ok best
  | i :: is, best => do
    let m ← targetNode d i
    let q ← qualify qual node
    match m with
    | none => .error .typeError
    | some m =>
      if m ∈ path then
        longestTasksLoop d path qual node rec is (if q.length > best.2.length then (path ++ [node], q) else best)
      else do
        let r ← rec q m
        longestTasksLoop d path qual node rec is (if r.2.length > best.2.length then r else best)

/-- `find_longest_path_tasks` (`diagram_layout_metrics.py:249-291`). -/
def findLongestPathTasks (d : Diagram) : Nat → List Node → List Node → Node → Py (List Node × List Node)
  | 0, _, _, _ => .error .outOfFuel
  | fuel + 1, path, qual, node => do
    let out ← need node.2.outgoing
    if out.length = 0 then do
      let q ← qualify qual node
      pure (path ++ [node], q)
    else longestTasksLoop d path qual node (findLongestPathTasks d fuel (path ++ [node])) out (path ++ [node], [])

/-- The `for` loop of `compute_longest_path_tasks` (`diagram_layout_metrics.py:242-245`). -/
def bestTasksOf (rec : Node → Py (List Node × List Node)) : List Node → List Node → Py (List Node)
  | [], best => .ok best
  | n :: ns, best => do
    let r ← rec n
    bestTasksOf rec ns (if r.2.length > best.length then r.2 else best)

/-- `compute_longest_path_tasks` (`diagram_layout_metrics.py:227-246`). -/
def computeLongestPathTasks (fuel : Nat) (d : Diagram) : Py (List Node × Nat) := do
  let starts ← noIncoming d.getNodes
  let best ← bestTasksOf (findLongestPathTasks d fuel [] []) starts []
  pure (best, best.length)

end Bpmn.LayoutMetrics

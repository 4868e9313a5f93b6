import Verif.Model.Rep
/-!
# Complexity metrics (`bpmn_python/bpmn_diagram_metrics.py`)

Floating point values are modelled by exact rationals; `int(math.sqrt(n))` by the integer square root.
-/
namespace Bpmn.Metrics
open Bpmn

/-- `GATEWAY_TYPES` (`bpmn_diagram_metrics.py:11`). -/
def gatewayTypes : List String :=
  ["inclusiveGateway", "exclusiveGateway", "parallelGateway", "eventBasedGateway", "complexGateway"]

/-- `EVENT_TYPES` (`bpmn_diagram_metrics.py:12`). -/
def eventTypes : List String := ["startEvent", "endEvent", "intermediateCatchEvent", "intermediateThrowEvent"]

/-- `get_nodes_count` (`bpmn_diagram_metrics.py:15-26`); `nodeType = none` is the default argument `None`. -/
def getNodesCount (d : Diagram) (nodeType : Option String) : Py Nat := do
  let ns ← d.getNodesOfType nodeType
  pure ns.length

/-- `get_all_gateways` (`bpmn_diagram_metrics.py:29-38`); the lazy `filter` object is modelled by the list it yields. -/
def getAllGateways (d : Diagram) : Py (List Node) :=
  pyFilter (fun n => do let t ← need n.2.type; pure (decide (t ∈ gatewayTypes))) d.getNodes

/-- The dict comprehension `{t: get_nodes_count(g, t) for t in types}`. -/
def countsOf (d : Diagram) : List String → Py (Dict String Nat)
  | [] => .ok []
  | t :: ts => do
    let c ← getNodesCount d (some t)
    let r ← countsOf d ts
    pure ((t, c) :: r)

/-- `get_gateway_counts` (`bpmn_diagram_metrics.py:41-51`). -/
def getGatewayCounts (d : Diagram) : Py (Dict String Nat) := countsOf d gatewayTypes

/-- `get_events_counts` (`bpmn_diagram_metrics.py:54-64`). -/
def getEventsCounts (d : Diagram) : Py (Dict String Nat) := countsOf d eventTypes

/-- `get_activities_counts` (`bpmn_diagram_metrics.py:67-81`). -/
def getActivitiesCounts (d : Diagram) : Py (Dict String Nat) := countsOf d ["task", "subProcess"]

/-- `sum([count for name, count in counts.items()])`. -/
def sumCounts (c : Dict String Nat) : Nat := (c.map Prod.snd).sum

/-- `all_activities_count` (`bpmn_diagram_metrics.py:84-94`). -/
def allActivitiesCount (d : Diagram) : Py Nat := do pure (sumCounts (← getActivitiesCounts d))

/-- `all_gateways_count` (`bpmn_diagram_metrics.py:97-108`). -/
def allGatewaysCount (d : Diagram) : Py Nat := do pure (sumCounts (← getGatewayCounts d))

/-- `all_control_flow_elements_count` (`bpmn_diagram_metrics.py:111-128`). -/
def allControlFlowElementsCount (d : Diagram) : Py Nat := do
  let g ← getGatewayCounts d
  let e ← getEventsCounts d
  pure (sumCounts (e.foldl (fun acc p => acc.set p.1 p.2) g))

/-- `all_events_count` (`bpmn_diagram_metrics.py:131-142`). -/
def allEventsCount (d : Diagram) : Py Nat := do pure (sumCounts (← getEventsCounts d))

/-- `TNSE_metric` (`bpmn_diagram_metrics.py:145-153`). -/
def tnse (d : Diagram) : Py Nat := getNodesCount d (some "startEvent")

/-- `TNIE_metric` (`bpmn_diagram_metrics.py:156-165`). -/
def tnie (d : Diagram) : Py Nat := do
  let a ← getNodesCount d (some "intermediateCatchEvent")
  let b ← getNodesCount d (some "intermediateThrowEvent")
  pure (a + b)

/-- `TNEE_metric` (`bpmn_diagram_metrics.py:168-176`). -/
def tnee (d : Diagram) : Py Nat := getNodesCount d (some "endEvent")

/-- `TNE_metric` (`bpmn_diagram_metrics.py:179-191`). -/
def tne (d : Diagram) : Py Nat := do pure (sumCounts (← getEventsCounts d))

/-- `NOA_metric` (`bpmn_diagram_metrics.py:194-204`). -/
def noa (d : Diagram) : Py Nat := do
  let c ← getActivitiesCounts d
  let t ← need (c.get? "task")
  let s ← need (c.get? "subProcess")
  pure (t + s)

/-- `NOAC_metric` (`bpmn_diagram_metrics.py:207-218`). -/
def noac (d : Diagram) : Py Nat := do
  let a ← allActivitiesCount d
  let c ← allControlFlowElementsCount d
  pure (a + c)

/-- `NOAJS_metric` (`bpmn_diagram_metrics.py:221-232`). -/
def noajs (d : Diagram) : Py Nat := do
  let a ← allActivitiesCount d
  let g ← allGatewaysCount d
  pure (a + g)

/-- `NumberOfNodes_metric` (`bpmn_diagram_metrics.py:235-247`). -/
def numberOfNodes (d : Diagram) : Py Nat := do
  let a ← allActivitiesCount d
  let c ← allControlFlowElementsCount d
  pure (a + c)

/-- `GatewayHeterogenity_metric` (`bpmn_diagram_metrics.py:250-264`). -/
def gatewayHeterogenity (d : Diagram) : Py Nat := do
  let c ← getGatewayCounts d
  pure (c.filter fun p => p.2 > 0).length

/-- Division of floats; `ZeroDivisionError` for a zero divisor.  Rounding is not modelled. -/
def fdiv (a b : Nat) : Py Rat := if b = 0 then .error .zeroDivision else .ok ((a : Rat) / (b : Rat))

/-- `CoefficientOfNetworkComplexity_metric` (`bpmn_diagram_metrics.py:267-276`). -/
def cnc (d : Diagram) : Py Rat := fdiv d.getFlows.length d.getNodes.length

/-- `AverageGatewayDegree_metric` (`bpmn_diagram_metrics.py:279-292`). -/
def averageGatewayDegree (d : Diagram) : Py Rat := do
  let gs ← getAllGateways d
  let degs := gs.map fun g => d.graph.degree g.1
  fdiv degs.sum degs.length

/-- `[node[1]['type'] for node in get_nodes() if node[1]['type']]` (`bpmn_diagram_metrics.py:306`, `:335`). -/
def nodeTypes : List Node → Py (List String)
  | [] => .ok []
  | n :: ns => do
    let t ← need n.2.type
    let r ← nodeTypes ns
    pure (if t = "" then r else t :: r)

/-- `collections.Counter(l)`. -/
def counter (l : List String) : Dict String Nat :=
  l.foldl (fun c x => c.set x ((c.get? x).getD 0 + 1)) []

/-- The loop of `bpmn_diagram_metrics.py:313-319` over `reversed(list(enumerate(histogram)))`. -/
def durfeeLoop : List (Nat × Nat) → Nat → Nat
  | [], _ => 0
  | (count, i) :: r, s => if s + count ≥ i then i else durfeeLoop r (s + count)

/-- `DurfeeSquare_metric` (`bpmn_diagram_metrics.py:295-319`). -/
def durfeeSquare (d : Diagram) : Py Nat := do
  let ts ← nodeTypes d.getNodes
  let c := counter ts
  let length := c.length
  let histogram := (c.map Prod.snd).foldl (fun h count => h.modify (min count length) (· + 1)) (List.replicate (length + 1) 0)
  pure (durfeeLoop histogram.zipIdx.reverse 0)

/-- The loop of `bpmn_diagram_metrics.py:340-346`; the loop variable `i` always equals `potential_perfect_square`. -/
def squareLoop (counts : List Nat) : Nat → Nat
  | 0 => 0
  | p + 1 => if (counts.take (p + 1)).sum ≥ (p + 1) * (p + 1) then p + 1 else squareLoop counts p

/-- `PerfectSquare_metric` (`bpmn_diagram_metrics.py:322-346`). -/
def perfectSquare (d : Diagram) : Py Nat := do
  let ts ← nodeTypes d.getNodes
  -- `most_common()`: stable sort by decreasing count
  let counts := ((counter ts).map Prod.snd).mergeSort (fun a b => decide (b ≤ a))
  pure (squareLoop counts (min counts.length (Nat.sqrt counts.sum)))

end Bpmn.Metrics

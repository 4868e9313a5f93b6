import Verif.Model.Metrics
import Verif.Model.LayoutMetrics
import Verif.Model.CsvExport
/-!
# What the analyses of the library say about two diagrams
-/
namespace Bpmn.Spec
open Bpmn Bpmn.Metrics Bpmn.LayoutMetrics

/-- Every event has at most one event definition. -/
def OneTrigger (d : Diagram) : Prop := ∀ n ∈ d.getNodes, (n.2.eventDefinitions.getD []).length ≤ 1

/-- All complexity metrics have the same value (or raise the same exception) for both diagrams. -/
structure SameMetrics (d e : Diagram) : Prop where
  nodesCount : ∀ ty, getNodesCount e ty = getNodesCount d ty
  gateways : getGatewayCounts e = getGatewayCounts d
  events : getEventsCounts e = getEventsCounts d
  activities : getActivitiesCounts e = getActivitiesCounts d
  allActivities : allActivitiesCount e = allActivitiesCount d
  allGateways : allGatewaysCount e = allGatewaysCount d
  allControlFlow : allControlFlowElementsCount e = allControlFlowElementsCount d
  allEvents : allEventsCount e = allEventsCount d
  tnse : tnse e = tnse d
  tnie : tnie e = tnie d
  tnee : tnee e = tnee d
  tne : tne e = tne d
  noa : noa e = noa d
  noac : noac e = noac d
  noajs : noajs e = noajs d
  numberOfNodes : numberOfNodes e = numberOfNodes d
  heterogeneity : gatewayHeterogenity e = gatewayHeterogenity d
  networkComplexity : cnc e = cnc d
  gatewayDegree : averageGatewayDegree e = averageGatewayDegree d
  durfee : durfeeSquare e = durfeeSquare d
  perfect : perfectSquare e = perfectSquare d

/-- The layout metrics that have a value for the first diagram have the same value for the second one; `num` reads numbers. -/
structure SameDrawing (num : String → Py Rat) (d e : Diagram) : Prop where
  crossings : ∀ k, countCrossingPoints num d = .ok k → countCrossingPoints num e = .ok k
  segments : ∀ k, countSegments num d = .ok k → countSegments num e = .ok k
  longest : ∀ fuel p k, computeLongestPath fuel d = .ok (p, k) → ∃ q, computeLongestPath fuel e = .ok (q, k)
  longestTasks : ∀ fuel p k, computeLongestPathTasks fuel d = .ok (p, k) → ∃ q, computeLongestPathTasks fuel e = .ok (q, k)

end Bpmn.Spec

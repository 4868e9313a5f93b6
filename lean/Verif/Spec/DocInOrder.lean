import Verif.Spec.SavedAgain
/-!
# Documents in order

Documents that come back unchanged when they are loaded, saved and loaded again.
-/
namespace Bpmn.Spec
open Bpmn

/-- The ids of the lanes of the first lane sets of the processes. -/
def lanesInDoc (root : Xml) : List String :=
  (Xml.byNameIn "process" [root]).flatMap fun p => (((p.byName "laneSet").head?.map fun y => (namedIn "lane" y.children).map (·.getAttr "id")).getD [])

/-- The document is in order. -/
structure DocInOrder (root plane : Xml) : Prop where
  /-- ids are different, and no two flows join the same two nodes -/
  distinct : DistinctDoc root
  /-- everything is drawn -/
  drawn : FullyDrawn root plane
  /-- sequence flows join nodes of their process or sub-process -/
  placed : ∀ p ∈ Xml.byNameIn "process" [root], FlowsLocal p.children ∧ LocalAll p.children
  /-- nodes refer to no flow without id, and there is none -/
  references : ∀ q ∈ allNodeElements root, "" ∉ textsOf "incoming" q.2.children ∧ "" ∉ textsOf "outgoing" q.2.children
  flowIds : ∀ f ∈ flowElementsOf root, f.2.getAttr "id" ≠ ""
  /-- a flow with a condition is named after it (see C78) -/
  conditions : ∀ f ∈ sequenceFlowElements root, ∀ c, conditionOf f.2 = some c → c.expr ≠ "" ∧ f.2.attrOr "name" "" = c.expr
  /-- every pool has a process (see C74) -/
  pools : ∀ x ∈ namedIn "participant" (collabKids root), x.getAttr "processRef" ≠ ""
  /-- no lanes in lanes (see C34), no empty references -/
  lanes : ∀ p ∈ Xml.byNameIn "process" [root], ∀ y, (p.byName "laneSet").head? = some y → ∀ z ∈ namedIn "lane" y.children,
    namedIn "childLaneSet" z.children = [] ∧ "" ∉ textsOf "flowNodeRef" z.children
  /-- pools, lanes and nodes have different ids, and lanes and flows, too -/
  shapes : ((namedIn "participant" (collabKids root)).map (·.getAttr "id") ++ lanesInDoc root ++ describedNodes root).Nodup
  laneFlows : ∀ f ∈ flowElementsOf root, f.2.getAttr "id" ∉ lanesInDoc root

end Bpmn.Spec

import Verif.Spec.Loaded
/-!
# Which loaded documents can be saved again

Conditions in terms of the document alone.
-/
namespace Bpmn.Spec
open Bpmn

/-- The ids of processes, nodes, pools and flows are different (flows among themselves; a pool with a process among the pools only), and no
two flows join the same two nodes. -/
structure DistinctDoc (root : Xml) : Prop where
  nodes : (describedNodes root).Nodup
  procs : ((Xml.byNameIn "process" [root]).map fun p => p.getAttr "id").Nodup
  apart : ∀ p ∈ Xml.byNameIn "process" [root], p.getAttr "id" ∉ describedNodes root
  ends : (flowElementsOf root).Pairwise fun f g => ¬ SameEnds f.2 g.2
  flows : ((flowElementsOf root).map (·.2.getAttr "id")).Nodup
  pools : ((namedIn "participant" (collabKids root)).map (·.getAttr "id")).Nodup

/-- The lane is drawn, and so are the lanes of its last child lane set (if two of them have the same id, the last one counts). -/
inductive LaneShown (plane : Xml) : Xml → Prop
  | mk {x : Xml} : (drawingOf plane (x.getAttr "id")).isSome →
      (∀ y z, (namedIn "childLaneSet" x.children).getLast? = some y → z ∈ namedIn "lane" y.children →
        lastWithId (z.getAttr "id") (namedIn "lane" y.children) = some z → LaneShown plane z) → LaneShown plane x

/-- Everything in the document that has to be drawn is drawn. -/
structure FullyDrawn (root plane : Xml) : Prop where
  /-- flows lead from nodes to nodes -/
  ends : ∀ i ∈ flowEnds root, i ∈ describedNodes root
  nodes : ∀ i ∈ describedNodes root, (shapeFor plane i).isSome
  flows : ∀ f ∈ flowElementsOf root, (wayOf plane.children (f.2.getAttr "id")).isSome
  pools : ∀ x ∈ namedIn "participant" (collabKids root), (shapeFor plane (x.getAttr "id")).isSome
  /-- the lanes of the first lane set of every process -/
  lanes : ∀ p ∈ Xml.byNameIn "process" [root], ∀ y, (p.byName "laneSet").head? = some y → ∀ z ∈ namedIn "lane" y.children,
    lastWithId (z.getAttr "id") (namedIn "lane" y.children) = some z → LaneShown plane z

end Bpmn.Spec

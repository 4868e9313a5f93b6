import Verif.Spec.Document
/-!
# Which documents are imported

Conditions in terms of the document alone.  The text elements `incoming`, `outgoing`, `flowNodeRef` and `conditionExpression` are assumed to
contain no elements (see `Xml.firstValue`).
-/
namespace Bpmn.Spec
open Bpmn

/-- The element begins with text (or a comment). -/
def HasValue (x : Xml) : Prop := ∃ v r, x.children = .text v :: r ∨ x.children = .other v :: r

/-- There are only elements and text, no comments. -/
def NoComments (ks : List Xml) : Prop := ∀ s, .other s ∉ ks

/-- An element for a node: no comments directly inside, and its references to flows are not empty. -/
def NodeLegal (ks : List Xml) : Prop := NoComments ks ∧ ∀ y ∈ ks, IsNamed "incoming" y ∨ IsNamed "outgoing" y → HasValue y

/-- The sequence flows among the elements: no comments directly inside, and condition expressions are not empty. -/
def FlowsLegal (ks : List Xml) : Prop := ∀ x ∈ ks, IsNamed "sequenceFlow" x →
  NoComments x.children ∧ ∀ y ∈ x.children, IsNamed "conditionExpression" y → HasValue y

mutual
/-- A child of a process or of a sub-process. -/
def LegalIn : Xml → Prop
  | .elem t _ ks => removeNamespace t ∈ nodeTags → NodeLegal ks ∧ (removeNamespace t = "subProcess" → LegalAll ks ∧ FlowsLegal ks)
  | .text _ => True
  | .other _ => False
/-- All children of a process or of a sub-process. -/
def LegalAll : List Xml → Prop
  | [] => True
  | x :: r => LegalIn x ∧ LegalAll r
end

/-- Somewhere below the element there is an element `Bounds`. -/
def HasBounds (x : Xml) : Prop := x.byName "Bounds" ≠ []

/-- The last child of the plane that belongs to `i`, if there is one, has bounds. -/
def Drawable (plane : Xml) (i : String) : Prop :=
  ∀ a x b, plane.children = a ++ x :: b → x.getAttr "bpmnElement" = i → x.isText = false →
    (∀ y ∈ b, y.isText = false → y.getAttr "bpmnElement" ≠ i) → HasBounds x

mutual
/-- A child of a lane set. -/
def LaneLegal (plane : Xml) : Xml → Prop
  | .elem t as ks => removeNamespace t = "lane" → LaneKidsLegal plane ks ∧ Drawable plane ((Xml.elem t as ks).getAttr "id")
  | .text _ => True
  | .other _ => False
/-- All children of a lane set. -/
def LanesLegal (plane : Xml) : List Xml → Prop
  | [] => True
  | x :: r => LaneLegal plane x ∧ LanesLegal plane r
/-- All children of a lane. -/
def LaneKidsLegal (plane : Xml) : List Xml → Prop
  | [] => True
  | .text _ :: r => LaneKidsLegal plane r
  | .other _ :: _ => False
  | .elem t as ks :: r => (removeNamespace t = "childLaneSet" → LanesLegal plane ks) ∧
      (removeNamespace t = "flowNodeRef" → HasValue (.elem t as ks)) ∧ LaneKidsLegal plane r
end

/-- A process: its elements, its sequence flows, and the lanes of the first lane set below it. -/
def ProcessLegal (plane x : Xml) : Prop :=
  LegalAll x.children ∧ FlowsLegal x.children ∧ ∀ ls r, x.byName "laneSet" = ls :: r → LanesLegal plane ls.children

/-- Source and target of the flows with the given local name. -/
def pairsOf (name : String) : List Xml → List (String × String)
  | [] => []
  | x :: r =>
    (match x with
      | .elem t _ _ => if removeNamespace t = name then [(x.getAttr "sourceRef", x.getAttr "targetRef")] else []
      | _ => []) ++ pairsOf name r

mutual
/-- Source and target of the sequence flows in a sub-process, and in the sub-processes inside. -/
def innerPairs : Xml → List (String × String)
  | .elem t _ ks => if removeNamespace t = "subProcess" then innerPairsAll ks ++ pairsOf "sequenceFlow" ks else []
  | _ => []
/-- The same for a list of elements. -/
def innerPairsAll : List Xml → List (String × String)
  | [] => []
  | x :: r => innerPairs x ++ innerPairsAll r
end

/-- The ids of pools without process. -/
def blackBoxes : List Xml → List String
  | [] => []
  | x :: r =>
    (match x with
      | .elem t _ _ => if removeNamespace t = "participant" ∧ x.getAttr "processRef" = "" then [x.getAttr "id"] else []
      | _ => []) ++ blackBoxes r

/-- The children of the first collaboration of the document. -/
def collabKids (root : Xml) : List Xml := ((Xml.byNameIn "collaboration" [root]).head?.map (·.children)).getD []

/-- The ids of all elements of the document that become nodes. -/
def describedNodes (root : Xml) : List String :=
  (Xml.byNameIn "process" [root]).flatMap (fun p => nodeIdsAll p.children) ++ blackBoxes (collabKids root)

/-- Source and target of all flows of the document. -/
def flowPairs (root : Xml) : List (String × String) :=
  (Xml.byNameIn "process" [root]).flatMap (fun p => innerPairsAll p.children ++ pairsOf "sequenceFlow" p.children) ++
    pairsOf "messageFlow" (collabKids root)

/-- The ids of the ends of all flows of the document. -/
def flowEnds (root : Xml) : List String := (flowPairs root).flatMap fun p => [p.1, p.2]

/-- A document that can be imported. -/
structure Acceptable (root diagram plane : Xml) : Prop where
  firstDiagram : (Xml.byNameIn "BPMNDiagram" [root]).head? = some diagram
  firstPlane : (diagram.byName "BPMNPlane").head? = some plane
  processes : ∀ p ∈ Xml.byNameIn "process" [root], ProcessLegal plane p
  collaboration : NoComments (collabKids root)
  planeElements : NoComments plane.children
  shapes : ∀ x ∈ plane.children, IsNamed "BPMNShape" x → HasBounds x ∧
    (x.getAttr "bpmnElement" ∈ flowEnds root → x.getAttr "bpmnElement" ∈ describedNodes root)

end Bpmn.Spec

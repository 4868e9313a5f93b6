import Verif.Py.Basic
/-!
# XML trees

The two XML libraries used by bpmn-python: `xml.etree` trees built by the export (`ETree`) and `xml.dom.minidom` trees read by the import
(`Xml`).  Writing a file and parsing it again is modelled by `ETree.toDom`; this is accurate for strings of characters legal in XML
without carriage returns (and, in attribute values, without tabs) and for tags that are XML names.
-/
namespace Bpmn

/-- A minidom node.  `other` stands for the nodes that are neither elements nor text: comments, CDATA sections, processing
instructions. -/
inductive Xml where
  | elem (tag : String) (attrs : List (String × String)) (kids : List Xml)
  | text (s : String)
  | other (s : String)
deriving Repr

/-- `BpmnImportUtils.remove_namespace_from_tag_name` (`bpmn_python/bpmn_import_utils.py:18-25`) on characters:
`tag_name.split(':')[-1]`, i.e. what follows the last colon. -/
def afterColon : List Char → List Char → List Char
  | acc, [] => acc
  | acc, c :: r => if c = ':' then afterColon [] r else afterColon (acc ++ [c]) r

/-- `remove_namespace_from_tag_name` (`bpmn_python/bpmn_import_utils.py:18-25`). -/
def removeNamespace (tag : String) : String := String.ofList (afterColon [] tag.toList)

namespace Xml

/-- `Element.tagName`; nodes other than elements have no such attribute. -/
def tagName : Xml → Py String
  | .elem t _ _ => .ok t
  | _ => .error .attributeError

/-- `Element.getAttribute(k)`: the empty string if there is no such attribute. -/
def getAttr : Xml → String → String
  | .elem _ as _, k => (Dict.get? as k).getD ""
  | _, _ => ""

/-- `Element.hasAttribute(k)`. -/
def hasAttr : Xml → String → Bool
  | .elem _ as _, k => Dict.has as k
  | _, _ => false

/-- The frequent pattern `e.getAttribute(k) if e.hasAttribute(k) else default`. -/
def attrOr (e : Xml) (k dflt : String) : String := if e.hasAttr k then e.getAttr k else dflt

/-- `iterate_elements(e)` (`bpmn_import_utils.py:27-36`): all children. -/
def children : Xml → List Xml
  | .elem _ _ ks => ks
  | _ => []

/-- `element.nodeType == element.TEXT_NODE`. -/
def isText : Xml → Bool
  | .text _ => true
  | _ => false

/-- `e.firstChild.nodeValue`: `AttributeError` if there is no child.  For a child that is an element Python yields `None`; the model
treats this as a failure, too. -/
def firstValue (e : Xml) : Py String :=
  match e.children with
  | .text s :: _ => .ok s
  | .other s :: _ => .ok s
  | _ => .error .attributeError

/-- `localName` of an element.  For a tag with at most one colon (all that an XML parser with namespaces accepts) this is what follows
the colon. -/
def localName (tag : String) : String := removeNamespace tag

mutual
/-- `getElementsByTagNameNS("*", name)` on the node: the matching elements strictly below it, in document order. -/
def byName (name : String) : Xml → List Xml
  | .elem _ _ ks => byNameIn name ks
  | _ => []
/-- `getElementsByTagNameNS("*", name)` for the nodes of a list, themselves included (for a whole document: `[root]`). -/
def byNameIn (name : String) : List Xml → List Xml
  | [] => []
  | x :: r =>
    (match x with
      | .elem t _ _ => if localName t = name then [x] else []
      | _ => []) ++ byName name x ++ byNameIn name r
end

end Xml

/-- An `xml.etree.ElementTree.Element`: tag, attributes, text, tail, children. -/
inductive ETree where
  | node (tag : String) (attrs : List (String × String)) (text tail : Option String) (kids : List ETree)
deriving Repr

namespace ETree

/-- A text or tail as it appears in the parsed document: nothing if it is absent or empty. -/
def textNodes : Option String → List Xml
  | none => []
  | some s => if s = "" then [] else [.text s]

/-- `e.tail`. -/
def tailOf : ETree → Option String
  | .node _ _ _ tail _ => tail

mutual
/-- The parsed document of the written tree: text first, each child followed by its tail.  The tail of the node itself belongs to its
parent. -/
def toDom : ETree → Xml
  | .node tag attrs text _ kids => .elem tag attrs (textNodes text ++ toDomKids kids)
/-- The children with their tails. -/
def toDomKids : List ETree → List Xml
  | [] => []
  | t :: r => toDom t :: (textNodes (tailOf t) ++ toDomKids r)
end

end ETree
end Bpmn

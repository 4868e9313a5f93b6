import Verif.Model.Xml
/-!
# Vocabulary for the XML properties
-/
namespace Bpmn.Spec
open Bpmn

/-- White space characters in the sense of Python's `str.isspace`. -/
def spaceCodes : List Nat :=
  [9, 10, 11, 12, 13, 28, 29, 30, 31, 32, 0x85, 0xa0, 0x1680, 0x2000, 0x2001, 0x2002, 0x2003, 0x2004, 0x2005, 0x2006, 0x2007, 0x2008,
   0x2009, 0x200a, 0x2028, 0x2029, 0x202f, 0x205f, 0x3000]

/-- An absent text or one that consists of white space. -/
def Blank (o : Option String) : Prop := ∀ s, o = some s → ∀ c ∈ s.toList, c.toNat ∈ spaceCodes

/-- A line break followed by `n` spaces. -/
def LineBreak (n : Nat) (o : Option String) : Prop := ∃ s, o = some s ∧ s.toList = '\n' :: List.replicate n ' '

mutual
/-- The second tree differs from the first at most in this: white space (or nothing) before the first child of an element with
children, or after an element, has been replaced by a line break and spaces. -/
inductive Reindented : ETree → ETree → Prop
  | mk {tag : String} {attrs : List (String × String)} {x x' y y' : Option String} {ks ks' : List ETree}
      (htext : x' = x ∨ (ks ≠ [] ∧ Blank x ∧ ∃ n, LineBreak n x'))
      (htail : y' = y ∨ (Blank y ∧ ∃ n, LineBreak n y'))
      (hkids : ReindentedAll ks ks') : Reindented (.node tag attrs x y ks) (.node tag attrs x' y' ks')
/-- The same for lists of trees. -/
inductive ReindentedAll : List ETree → List ETree → Prop
  | nil : ReindentedAll [] []
  | cons {t t' : ETree} {r r' : List ETree} (h : Reindented t t') (hr : ReindentedAll r r') : ReindentedAll (t :: r) (t' :: r')
end

/-- Elements whose text is data: references to flows and nodes, and condition expressions. -/
def textualTags : List String := ["incoming", "outgoing", "flowNodeRef", "conditionExpression"]

mutual
/-- The document without the text between elements; the text inside the elements named above is kept. -/
def squeeze : Xml → Xml
  | .elem t as ks => .elem t as (if removeNamespace t ∈ textualTags then ks else squeezeAll ks)
  | x => x
/-- The same for a list of nodes, in which text is left out. -/
def squeezeAll : List Xml → List Xml
  | [] => []
  | x :: r => if x.isText then squeezeAll r else squeeze x :: squeezeAll r
end

/-! ## Content of a written tree -/

/-- The tag of an element. -/
def tagOf : ETree → String
  | .node t _ _ _ _ => t

/-- The value of an attribute, the empty string if it is absent. -/
def attrOf (k : String) : ETree → String
  | .node _ as _ _ _ => (Dict.get? as k).getD ""

/-- The children of an element. -/
def kidsOf : ETree → List ETree
  | .node _ _ _ _ ks => ks

/-- Tag and id of an element. -/
def label (t : ETree) : String × String := (tagOf t, attrOf "id" t)

mutual
/-- Tags and ids of an element and of all elements below it, in document order. -/
def treeLabels : ETree → List (String × String)
  | .node t as x y ks => label (.node t as x y ks) :: labelsAll ks
/-- The same for a list of elements. -/
def labelsAll : List ETree → List (String × String)
  | [] => []
  | t :: r => treeLabels t ++ labelsAll r
end

/-- The children with a given tag. -/
def kidsTagged (tag : String) (t : ETree) : List ETree := (kidsOf t).filter fun k => tagOf k == tag

end Bpmn.Spec

import Verif.Model.Classes
/-!
# The documented types of the attributes of element objects

From the class documentation ("Must be either None ... or String", "a list of Lane objects", ...) and the type hierarchy of the
BPMN 2.0 XML schema that the classes are said to represent.
-/
namespace Bpmn.Spec.Elements
open Bpmn.Classes

/-- The type hierarchy of the BPMN 2.0 schema (`tTask` extends `tActivity`, ...). -/
inductive Extends : Name → Name → Prop where
  | flowElement : Extends .flowElement .baseElement
  | flowNode : Extends .flowNode .flowElement
  | sequenceFlow : Extends .sequenceFlow .flowElement
  | messageFlow : Extends .messageFlow .baseElement
  | participant : Extends .participant .baseElement
  | lane : Extends .lane .baseElement
  | laneSet : Extends .laneSet .baseElement
  | event : Extends .event .flowNode
  | catchEvent : Extends .catchEvent .event
  | throwEvent : Extends .throwEvent .event
  | startEvent : Extends .startEvent .catchEvent
  | endEvent : Extends .endEvent .throwEvent
  | intermediateCatchEvent : Extends .intermediateCatchEvent .catchEvent
  | intermediateThrowEvent : Extends .intermediateThrowEvent .throwEvent
  | activity : Extends .activity .flowNode
  | task : Extends .task .activity
  | subProcess : Extends .subProcess .activity
  | gateway : Extends .gateway .flowNode
  | exclusiveGateway : Extends .exclusiveGateway .gateway
  | inclusiveGateway : Extends .inclusiveGateway .gateway
  | parallelGateway : Extends .parallelGateway .gateway
  | rootElement : Extends .rootElement .baseElement
  | callableElement : Extends .callableElement .rootElement
  | eventDefinition : Extends .eventDefinition .rootElement
  | process : Extends .process .callableElement

/-- `IsA n m`: a thing of type `n` is a thing of type `m`. -/
inductive IsA : Name → Name → Prop where
  | refl (n) : IsA n n
  | step {n m k} : Extends n m → IsA m k → IsA n k

/-- Documented types. -/
inductive Kind where
  /-- `None` or a string -/
  | optStr
  /-- a string -/
  | str
  | bool
  /-- `None` or a boolean -/
  | optBool
  /-- one of these strings -/
  | oneOf (l : List String)
  /-- a list of strings -/
  | strList
  /-- a list of objects that are things of this type -/
  | listOf (n : Name)
  /-- `None` or an object that is a thing of this type -/
  | optObj (n : Name)
deriving DecidableEq

/-- The documented type of what a getter returns.  (`get_condition` is documented as a string; a new `ConditionExpression` has
`None`.) -/
def documented : String → Option Kind
  | "get_id" => some .optStr
  | "get_name" => some .optStr
  | "get_default" => some .optStr
  | "get_process_ref" => some .optStr
  | "get_message_ref" => some .optStr
  | "get_condition" => some .optStr
  | "get_source_ref" => some .str
  | "get_target_ref" => some .str
  | "is_immediate" => some .optBool
  | "is_closed" => some .bool
  | "is_executable" => some .bool
  | "parallel_multiple" => some .bool
  | "triggered_by_event" => some .bool
  | "get_process_type" => some (.oneOf ["None", "Public", "Private"])
  | "get_gateway_direction" => some (.oneOf ["Unspecified", "Converging", "Diverging", "Mixed"])
  | "get_incoming" => some .strList
  | "get_outgoing" => some .strList
  | "get_flow_node_ref_list" => some .strList
  | "get_lane_list" => some (.listOf .lane)
  | "get_lane_set_list" => some (.listOf .laneSet)
  | "get_flow_element_list" => some (.listOf .flowElement)
  | "get_event_definition_list" => some (.listOf .eventDefinition)
  | "get_child_lane_set" => some (.optObj .laneSet)
  | "get_condition_expression" => some (.optObj .conditionExpression)
  | _ => none

/-- The value has the type, given the contents of the lists. -/
def HasKind (lists : List (List Val)) : Kind → Val → Prop
  | .optStr, v => v = .none ∨ ∃ s, v = .str s
  | .str, v => ∃ s, v = .str s
  | .bool, v => ∃ b, v = .bool b
  | .optBool, v => v = .none ∨ ∃ b, v = .bool b
  | .oneOf l, v => ∃ s ∈ l, v = .str s
  | .strList, v => ∃ r l, v = .list r ∧ lists[r]? = some l ∧ ∀ e ∈ l, ∃ s, e = .str s
  | .listOf n, v => ∃ r l, v = .list r ∧ lists[r]? = some l ∧ ∀ e ∈ l, ∃ c o, e = .obj c o ∧ IsA c.name n
  | .optObj n, v => v = .none ∨ ∃ c o, v = .obj c o ∧ IsA c.name n

/-- Some object holds list number `r` in one of its attributes. -/
def Held (w : World) (r : Nat) : Prop := ∃ o g, callGetter w o g = .ok (.list r)

/-- In the course of the history no list is changed while an object holds it. -/
def HandsOff : World → List Call → Prop
  | _, [] => True
  | w, c :: rest => (∀ r v, c = .append r v → ¬ Held w r) ∧ HandsOff (c.exec w) rest

/-- Every call of a flow constructor in the history has a string as target. -/
def StringTargets (cs : List Call) : Prop := ∀ c a b, Call.construct c a b ∈ cs → ∃ s, b = .str s

/-- The getter of the attribute that a setter is for. -/
def getterOf : String → String
  | "set_id" => "get_id"
  | "set_name" => "get_name"
  | "set_default" => "get_default"
  | "set_process_ref" => "get_process_ref"
  | "set_message_ref" => "get_message_ref"
  | "set_condition" => "get_condition"
  | "set_source_ref" => "get_source_ref"
  | "set_target_ref" => "get_target_ref"
  | "set_is_immediate" => "is_immediate"
  | "set_is_closed" => "is_closed"
  | "set_is_executable" => "is_executable"
  | "set_parallel_multiple" => "parallel_multiple"
  | "set_triggered_by_event" => "triggered_by_event"
  | "set_process_type" => "get_process_type"
  | "set_gateway_direction" => "get_gateway_direction"
  | "set_incoming" => "get_incoming"
  | "set_outgoing" => "get_outgoing"
  | "set_flow_node_ref_list" => "get_flow_node_ref_list"
  | "set_lane_list" => "get_lane_list"
  | "set_lane_set_list" => "get_lane_set_list"
  | "set_flow_element_list" => "get_flow_element_list"
  | "set_event_definition_list" => "get_event_definition_list"
  | "set_child_lane_set" => "get_child_lane_set"
  | "set_condition_expression" => "get_condition_expression"
  | s => s

end Bpmn.Spec.Elements

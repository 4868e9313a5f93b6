import Verif.Spec.Elements
/-!
# What the setters of element objects are documented to take
-/
namespace Bpmn.Spec.Elements
open Bpmn.Classes

/-- The attributes that a class adds to those of the class it extends, by the names of the methods that read them. -/
def introduces : Name → List String
  | .baseElement => ["get_id"]
  | .flowElement => ["get_name"]
  | .flowNode => ["get_incoming", "get_outgoing"]
  | .sequenceFlow => ["get_source_ref", "get_target_ref", "is_immediate", "get_condition_expression"]
  | .messageFlow => ["get_name", "get_source_ref", "get_target_ref", "get_message_ref"]
  | .participant => ["get_name", "get_process_ref"]
  | .lane => ["get_name", "get_flow_node_ref_list", "get_child_lane_set"]
  | .laneSet => ["get_name", "get_lane_list"]
  | .conditionExpression => ["get_condition"]
  | .catchEvent => ["parallel_multiple", "get_event_definition_list"]
  | .throwEvent => ["get_event_definition_list"]
  | .activity => ["get_default"]
  | .subProcess => ["triggered_by_event", "get_lane_set_list", "get_flow_element_list"]
  | .gateway => ["get_gateway_direction"]
  | .exclusiveGateway => ["get_default"]
  | .inclusiveGateway => ["get_default"]
  | .callableElement => ["get_name"]
  | .process => ["get_process_type", "is_closed", "is_executable", "get_lane_set_list", "get_flow_element_list"]
  | _ => []

/-- Things of type `n` have the attribute: it is added by `n` or by a type that `n` extends. -/
def Has (n : Name) (g : String) : Prop := ∃ m, IsA n m ∧ g ∈ introduces m

/-- The name under which the file of a class imports the class it extends (line 5 or 6 of each file). -/
def importedAs : Name → Root
  | .flowNode => .long
  | _ => .short

/-- The class object `c` is `k` or is derived from it. -/
inductive Derives : Cls → Cls → Prop where
  | refl (c) : Derives c c
  | step {c m k} : Extends c.name m → Derives ⟨importedAs c.name, m⟩ k → Derives c k

/-- What a setter may be given. -/
inductive Arg where
  | text
  | textOrNone
  | flag
  | flagOrNone
  | oneOf (l : List String)
  | texts
  /-- a list of objects of the class, imported from `graph.classes`, or of derived classes -/
  | objects (n : Name)
  | object (n : Name)
  | objectOrNone (n : Name)
deriving DecidableEq

/-- The setters and what they may be given. -/
def argument : String → Option Arg
  | "set_id" => some .text
  | "set_name" => some .textOrNone
  | "set_default" => some .textOrNone
  | "set_process_ref" => some .text
  | "set_message_ref" => some .text
  | "set_condition" => some .text
  | "set_source_ref" => some .text
  | "set_target_ref" => some .text
  | "set_is_immediate" => some .flagOrNone
  | "set_is_closed" => some .flag
  | "set_is_executable" => some .flag
  | "set_parallel_multiple" => some .flag
  | "set_triggered_by_event" => some .flag
  | "set_process_type" => some (.oneOf ["None", "Public", "Private"])
  | "set_gateway_direction" => some (.oneOf ["Unspecified", "Converging", "Diverging", "Mixed"])
  | "set_incoming" => some .texts
  | "set_outgoing" => some .texts
  | "set_flow_node_ref_list" => some .texts
  | "set_lane_list" => some (.objects .lane)
  | "set_lane_set_list" => some (.objects .laneSet)
  | "set_flow_element_list" => some (.objects .flowElement)
  | "set_event_definition_list" => some (.objects .eventDefinition)
  | "set_child_lane_set" => some (.objectOrNone .laneSet)
  | "set_condition_expression" => some (.object .conditionExpression)
  | _ => none

/-- The value is of the described form, given the contents of the lists. -/
def Fits (lists : List (List Val)) : Arg → Val → Prop
  | .text, v => ∃ s, v = .str s
  | .textOrNone, v => v = .none ∨ ∃ s, v = .str s
  | .flag, v => ∃ b, v = .bool b
  | .flagOrNone, v => v = .none ∨ ∃ b, v = .bool b
  | .oneOf l, v => ∃ s ∈ l, v = .str s
  | .texts, v => ∃ r l, v = .list r ∧ lists[r]? = some l ∧ ∀ e ∈ l, ∃ s, e = .str s
  | .objects n, v => ∃ r l, v = .list r ∧ lists[r]? = some l ∧ ∀ e ∈ l, ∃ c o, e = .obj c o ∧ Derives c ⟨.short, n⟩
  | .object n, v => ∃ c o, v = .obj c o ∧ Derives c ⟨.short, n⟩
  | .objectOrNone n, v => v = .none ∨ ∃ c o, v = .obj c o ∧ Derives c ⟨.short, n⟩

/-- A setter that wants one of some strings was given another string. -/
def WrongWord (a : Arg) (v : Val) : Prop := ∃ l s, a = .oneOf l ∧ v = .str s ∧ s ∉ l

end Bpmn.Spec.Elements

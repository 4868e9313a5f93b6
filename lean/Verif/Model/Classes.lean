import Verif.Py.Basic
/-!
# The element classes (`bpmn_python/graph/classes/`)

Objects with dynamically typed setters.  Lists are mutable in Python and shared between the caller and the object that stores them:
they live in a heap.  Assumes Python 3 (`str` is the only string class) and that the package can be imported at all, i.e. that both
the directory of `bpmn_python` and `bpmn_python` itself are on the search path, because the files say `import graph.classes...` and
`import bpmn_python.graph.classes...`.
-/
namespace Bpmn.Classes

/-- The two module names under which one file can be imported: `graph.classes.x` and `bpmn_python.graph.classes.x`.  Python runs the
file once for each name, and each run makes its own class object. -/
inductive Root where
  | short
  | long
deriving DecidableEq, Repr

/-- The classes, one per file of `bpmn_python/graph/classes/`. -/
inductive Name where
  | baseElement | flowElement | flowNode | sequenceFlow | messageFlow | participant | lane | laneSet | conditionExpression
  | event | catchEvent | throwEvent | startEvent | endEvent | intermediateCatchEvent | intermediateThrowEvent
  | activity | task | subProcess
  | gateway | exclusiveGateway | inclusiveGateway | parallelGateway
  | rootElement | callableElement | eventDefinition | process
deriving DecidableEq, Repr

/-- A class object. -/
structure Cls where
  root : Root
  name : Name
deriving DecidableEq, Repr

/-- A Python value.  `list r` is the list object number `r` of the heap, `obj c r` the object number `r`, of class `c`; `other` is
any value of another type (numbers, dictionaries, ...). -/
inductive Val where
  | none
  | bool (b : Bool)
  | str (s : String)
  | list (ref : Nat)
  | obj (cls : Cls) (ref : Nat)
  | other (repr : String)
deriving DecidableEq, Repr

/-- `isinstance(value, str)`. -/
def Val.isStr : Val → Bool
  | .str _ => true
  | _ => false

/-- `isinstance(value, bool)`. -/
def Val.isBool : Val → Bool
  | .bool _ => true
  | _ => false

/-- What a constructor stores in an attribute: a constant, a new empty list, or one of its two arguments. -/
inductive Init where
  | val (v : Val)
  | freshList
  | source
  | target
deriving DecidableEq, Repr

/-- The shapes of the setters; `key` is the (mangled) name of the attribute.

* `optStr`: `set_name` (`flow_element_type.py:29-40`, `callable_element_type.py:27-38`, `participant_type.py:32-43`,
  `lane_type.py:34-45`, `lane_set_type.py:32-43`, `message_flow_type.py:41-52`), `set_default` (`activity_type.py:30-41`,
  `exclusive_gateway_type.py:30-41`, `inclusive_gateway_type.py:30-41`);
* `reqStr`: `set_source_ref`, `set_target_ref` (`sequence_flow_type.py:42-50`, `:59-67`, `message_flow_type.py:61-69`, `:78-86`),
  `set_condition` (`condition_expression_type.py:28-36`);
* `onlyStr`: `set_process_ref` (`participant_type.py:52-60`);
* `noneThenStr`: `set_id` (`base_element_type.py:27-38`), `set_message_ref` (`message_flow_type.py:95-106`);
* `noneThenObj`: `set_condition_expression` (`sequence_flow_type.py:96-106`);
* `reqBool`: `set_is_closed`, `set_is_executable` (`process_type.py:53-61`, `:70-78`), `set_parallel_multiple`
  (`catch_event_type.py:32-40`), `set_triggered_by_event` (`subprocess_type.py:35-43`);
* `optBool`: `set_is_immediate` (`sequence_flow_type.py:76-86`);
* `oneOf`: `set_process_type` (`process_type.py:34-44`), `set_gateway_direction` (`gateway_type.py:28-39`);
* `strList`: `set_incoming`, `set_outgoing` (`flow_node_type.py:31-41`, `:50-60`), `set_flow_node_ref_list` (`lane_type.py:54-65`);
* `objList`: `set_lane_list` (`lane_set_type.py:52-63`), `set_event_definition_list` (`throw_event_type.py:30-41`,
  `catch_event_type.py:49-60`), `set_lane_set_list`, `set_flow_element_list` (`subprocess_type.py:52-83`, `process_type.py:87-118`);
* `optObj`: `set_child_lane_set` (`lane_type.py:74-84`). -/
inductive Setter where
  | optStr (key : String)
  | reqStr (key : String)
  | onlyStr (key : String)
  | noneThenStr (key : String)
  | noneThenObj (key : String) (cls : Cls)
  | reqBool (key : String)
  | optBool (key : String)
  | oneOf (key : String) (allowed : List String)
  | strList (key : String)
  | objList (key : String) (cls : Cls)
  | optObj (key : String) (cls : Cls)
deriving DecidableEq, Repr

/-- The content of a class statement. -/
structure ClassDef where
  base : Option Cls := none
  fields : List (String × Init) := []
  getters : List (String × String) := []
  setters : List (String × Setter) := []

/-- The class statements, file by file.  The root of a base class, and of a class named in an `isinstance` test, is the one of the
`import` statement at the top of the file: `graph.classes...` everywhere but in `flow_node_type.py:5`. -/
def classDef : Name → ClassDef
  -- base_element_type.py:7-38
  | .baseElement => {
      fields := [("_BaseElement__id", .val .none)]
      getters := [("get_id", "_BaseElement__id")]
      setters := [("set_id", .noneThenStr "_BaseElement__id")] }
  -- flow_element_type.py:8-40
  | .flowElement => {
      base := some ⟨.short, .baseElement⟩
      fields := [("_FlowElement__name", .val .none)]
      getters := [("get_name", "_FlowElement__name")]
      setters := [("set_name", .optStr "_FlowElement__name")] }
  -- flow_node_type.py:8-60
  | .flowNode => {
      base := some ⟨.long, .flowElement⟩
      fields := [("_FlowNode__incoming_list", .freshList), ("_FlowNode__outgoing_list", .freshList)]
      getters := [("get_incoming", "_FlowNode__incoming_list"), ("get_outgoing", "_FlowNode__outgoing_list")]
      setters := [("set_incoming", .strList "_FlowNode__incoming_list"), ("set_outgoing", .strList "_FlowNode__outgoing_list")] }
  -- sequence_flow_type.py:9-106
  | .sequenceFlow => {
      base := some ⟨.short, .flowElement⟩
      fields := [("_SequenceFlow__source_ref", .source), ("_SequenceFlow__target_ref", .target),
        ("_SequenceFlow__condition_expression", .val .none), ("_SequenceFlow__is_immediate", .val .none)]
      getters := [("get_source_ref", "_SequenceFlow__source_ref"), ("get_target_ref", "_SequenceFlow__target_ref"),
        ("is_immediate", "_SequenceFlow__is_immediate"), ("get_condition_expression", "_SequenceFlow__condition_expression")]
      setters := [("set_source_ref", .reqStr "_SequenceFlow__source_ref"), ("set_target_ref", .reqStr "_SequenceFlow__target_ref"),
        ("set_is_immediate", .optBool "_SequenceFlow__is_immediate"),
        ("set_condition_expression", .noneThenObj "_SequenceFlow__condition_expression" ⟨.short, .conditionExpression⟩)] }
  -- message_flow_type.py:8-106
  | .messageFlow => {
      base := some ⟨.short, .baseElement⟩
      fields := [("_MessageFlow__name", .val .none), ("_MessageFlow__source_ref", .source), ("_MessageFlow__target_ref", .target),
        ("_MessageFlow__message_ref", .val .none)]
      getters := [("get_name", "_MessageFlow__name"), ("get_source_ref", "_MessageFlow__source_ref"),
        ("get_target_ref", "_MessageFlow__target_ref"), ("get_message_ref", "_MessageFlow__message_ref")]
      setters := [("set_name", .optStr "_MessageFlow__name"), ("set_source_ref", .reqStr "_MessageFlow__source_ref"),
        ("set_target_ref", .reqStr "_MessageFlow__target_ref"), ("set_message_ref", .noneThenStr "_MessageFlow__message_ref")] }
  -- participant_type.py:8-60
  | .participant => {
      base := some ⟨.short, .baseElement⟩
      fields := [("_Participant__name", .val .none), ("_Participant__process_ref", .val .none)]
      getters := [("get_name", "_Participant__name"), ("get_process_ref", "_Participant__process_ref")]
      setters := [("set_name", .optStr "_Participant__name"), ("set_process_ref", .onlyStr "_Participant__process_ref")] }
  -- lane_type.py:9-84
  | .lane => {
      base := some ⟨.short, .baseElement⟩
      fields := [("_Lane__name", .val .none), ("_Lane__flow_node_ref_list", .freshList), ("_Lane__child_lane_set", .val .none)]
      getters := [("get_name", "_Lane__name"), ("get_flow_node_ref_list", "_Lane__flow_node_ref_list"),
        ("get_child_lane_set", "_Lane__child_lane_set")]
      setters := [("set_name", .optStr "_Lane__name"), ("set_flow_node_ref_list", .strList "_Lane__flow_node_ref_list"),
        ("set_child_lane_set", .optObj "_Lane__child_lane_set" ⟨.short, .laneSet⟩)] }
  -- lane_set_type.py:9-63
  | .laneSet => {
      base := some ⟨.short, .baseElement⟩
      fields := [("_LaneSet__name", .val .none), ("_LaneSet__lane_list", .freshList)]
      getters := [("get_name", "_LaneSet__name"), ("get_lane_list", "_LaneSet__lane_list")]
      setters := [("set_name", .optStr "_LaneSet__name"), ("set_lane_list", .objList "_LaneSet__lane_list" ⟨.short, .lane⟩)] }
  -- condition_expression_type.py:7-36
  | .conditionExpression => {
      fields := [("_ConditionExpression__condition", .val .none)]
      getters := [("get_condition", "_ConditionExpression__condition")]
      setters := [("set_condition", .reqStr "_ConditionExpression__condition")] }
  -- events/event_type.py:8-17
  | .event => { base := some ⟨.short, .flowNode⟩ }
  -- events/catch_event_type.py:9-60
  | .catchEvent => {
      base := some ⟨.short, .event⟩
      fields := [("_CatchEvent__parallel_multiple", .val (.bool false)), ("_CatchEvent__event_definition_list", .freshList)]
      getters := [("parallel_multiple", "_CatchEvent__parallel_multiple"),
        ("get_event_definition_list", "_CatchEvent__event_definition_list")]
      setters := [("set_parallel_multiple", .reqBool "_CatchEvent__parallel_multiple"),
        ("set_event_definition_list", .objList "_CatchEvent__event_definition_list" ⟨.short, .eventDefinition⟩)] }
  -- events/throw_event_type.py:9-41
  | .throwEvent => {
      base := some ⟨.short, .event⟩
      fields := [("_ThrowEvent__event_definition_list", .freshList)]
      getters := [("get_event_definition_list", "_ThrowEvent__event_definition_list")]
      setters := [("set_event_definition_list", .objList "_ThrowEvent__event_definition_list" ⟨.short, .eventDefinition⟩)] }
  -- events/start_event_type.py:8-17, end_event_type.py:8-17, intermediate_catch_event_type.py:8-17, intermediate_throw_event_type.py:8-17
  | .startEvent => { base := some ⟨.short, .catchEvent⟩ }
  | .endEvent => { base := some ⟨.short, .throwEvent⟩ }
  | .intermediateCatchEvent => { base := some ⟨.short, .catchEvent⟩ }
  | .intermediateThrowEvent => { base := some ⟨.short, .throwEvent⟩ }
  -- activities/activity_type.py:8-41
  | .activity => {
      base := some ⟨.short, .flowNode⟩
      fields := [("_Activity__default", .val .none)]
      getters := [("get_default", "_Activity__default")]
      setters := [("set_default", .optStr "_Activity__default")] }
  -- activities/task_type.py:8-17
  | .task => { base := some ⟨.short, .activity⟩ }
  -- activities/subprocess_type.py:10-83
  | .subProcess => {
      base := some ⟨.short, .activity⟩
      fields := [("_SubProcess__triggered_by_event", .val (.bool false)), ("_SubProcess__lane_set_list", .freshList),
        ("_SubProcess__flow_element_list", .freshList)]
      getters := [("triggered_by_event", "_SubProcess__triggered_by_event"), ("get_lane_set_list", "_SubProcess__lane_set_list"),
        ("get_flow_element_list", "_SubProcess__flow_element_list")]
      setters := [("set_triggered_by_event", .reqBool "_SubProcess__triggered_by_event"),
        ("set_lane_set_list", .objList "_SubProcess__lane_set_list" ⟨.short, .laneSet⟩),
        ("set_flow_element_list", .objList "_SubProcess__flow_element_list" ⟨.short, .flowElement⟩)] }
  -- gateways/gateway_type.py:8-39
  | .gateway => {
      base := some ⟨.short, .flowNode⟩
      fields := [("_Gateway__gateway_direction", .val (.str "Unspecified"))]
      getters := [("get_gateway_direction", "_Gateway__gateway_direction")]
      setters := [("set_gateway_direction",
        .oneOf "_Gateway__gateway_direction" ["Unspecified", "Converging", "Diverging", "Mixed"])] }
  -- gateways/exclusive_gateway_type.py:8-41
  | .exclusiveGateway => {
      base := some ⟨.short, .gateway⟩
      fields := [("_ExclusiveGateway__default", .val .none)]
      getters := [("get_default", "_ExclusiveGateway__default")]
      setters := [("set_default", .optStr "_ExclusiveGateway__default")] }
  -- gateways/inclusive_gateway_type.py:8-41
  | .inclusiveGateway => {
      base := some ⟨.short, .gateway⟩
      fields := [("_InclusiveGateway__default", .val .none)]
      getters := [("get_default", "_InclusiveGateway__default")]
      setters := [("set_default", .optStr "_InclusiveGateway__default")] }
  -- gateways/parallel_gateway_type.py:8-17
  | .parallelGateway => { base := some ⟨.short, .gateway⟩ }
  -- root_element/root_element_type.py:8-17
  | .rootElement => { base := some ⟨.short, .baseElement⟩ }
  -- root_element/callable_element_type.py:8-38
  | .callableElement => {
      base := some ⟨.short, .rootElement⟩
      fields := [("_CallableElement__name", .val .none)]
      getters := [("get_name", "_CallableElement__name")]
      setters := [("set_name", .optStr "_CallableElement__name")] }
  -- root_element/event_definition_type.py:8-17
  | .eventDefinition => { base := some ⟨.short, .rootElement⟩ }
  -- root_element/process_type.py:10-118
  | .process => {
      base := some ⟨.short, .callableElement⟩
      fields := [("_Process__process_type", .val (.str "None")), ("_Process__is_closed", .val (.bool false)),
        ("_Process__is_executable", .val (.bool false)), ("_Process__lane_set_list", .freshList),
        ("_Process__flow_element_list", .freshList)]
      getters := [("get_process_type", "_Process__process_type"), ("is_closed", "_Process__is_closed"),
        ("is_executable", "_Process__is_executable"), ("get_lane_set_list", "_Process__lane_set_list"),
        ("get_flow_element_list", "_Process__flow_element_list")]
      setters := [("set_process_type", .oneOf "_Process__process_type" ["None", "Public", "Private"]),
        ("set_is_closed", .reqBool "_Process__is_closed"), ("set_is_executable", .reqBool "_Process__is_executable"),
        ("set_lane_set_list", .objList "_Process__lane_set_list" ⟨.short, .laneSet⟩),
        ("set_flow_element_list", .objList "_Process__flow_element_list" ⟨.short, .flowElement⟩)] }

/-- The first `n` entries of a class' method resolution order (all bases are single, so it is the chain of bases). -/
def mroFuel : Nat → Cls → List Cls
  | 0, _ => []
  | n + 1, c => c :: (match (classDef c.name).base with | some b => mroFuel n b | none => [])

/-- The method resolution order without `object`; no chain of the package is longer than 8. -/
def mro (c : Cls) : List Cls := mroFuel 8 c

/-- `isinstance(value, cls)` for a class of the package. -/
def isInstance (v : Val) (c : Cls) : Bool :=
  match v with
  | .obj c' _ => (mro c').contains c
  | _ => false

/-- The list heap and the objects, each with its class and its attribute dictionary. -/
structure World where
  lists : List (List Val) := []
  objects : List (Cls × Dict String Val) := []
deriving Repr

/-- The body of a setter: the attribute dictionary afterwards, and the exception if one was raised.  Branch by branch as in the
files named at `Setter`.  (A list number that does not exist is no Python value; it is treated as a value that is not a list.) -/
def Setter.run (lists : List (List Val)) (s : Setter) (v : Val) (f : Dict String Val) : Dict String Val × Py Unit :=
  match s with
  | .optStr k => if v = .none then (f.set k v, .ok ()) else if !v.isStr then (f, .error .typeError) else (f.set k v, .ok ())
  | .reqStr k => if v = .none ∨ !v.isStr then (f, .error .typeError) else (f.set k v, .ok ())
  | .onlyStr k => if !v.isStr then (f, .error .typeError) else (f.set k v, .ok ())
  | .noneThenStr k =>
    let f := if v = .none then f.set k v else f
    if !v.isStr then (f, .error .typeError) else (f.set k v, .ok ())
  | .noneThenObj k c =>
    let f := if v = .none then f.set k v else f
    if !isInstance v c then (f, .error .typeError) else (f.set k v, .ok ())
  | .reqBool k => if v = .none ∨ !v.isBool then (f, .error .typeError) else (f.set k v, .ok ())
  | .optBool k => if v = .none then (f.set k v, .ok ()) else if !v.isBool then (f, .error .typeError) else (f.set k v, .ok ())
  | .oneOf k allowed =>
    match v with
    | .str x => if !allowed.contains x then (f, .error .valueError) else (f.set k v, .ok ())
    | _ => (f, .error .typeError)
  | .strList k =>
    match v with
    | .list r =>
      match lists[r]? with
      | some l => if l.any (fun e => !e.isStr) then (f, .error .typeError) else (f.set k v, .ok ())
      | none => (f, .error .typeError)
    | _ => (f, .error .typeError)
  | .objList k c =>
    match v with
    | .list r =>
      match lists[r]? with
      | some l => if l.any (fun e => !isInstance e c) then (f, .error .typeError) else (f.set k v, .ok ())
      | none => (f, .error .typeError)
    | _ => (f, .error .typeError)
  | .optObj k c =>
    if v = .none then (f.set k v, .ok ()) else if !isInstance v c then (f, .error .typeError) else (f.set k v, .ok ())

/-- The attribute assignments of the constructors, from `BaseElement` down to the class itself (each constructor calls the one of
its base class first); a new empty list is allocated for each `[]`. -/
def initFields (a b : Val) : List (String × Init) → List (List Val) → Dict String Val → List (List Val) × Dict String Val
  | [], ls, f => (ls, f)
  | (k, .val v) :: r, ls, f => initFields a b r ls (f.set k v)
  | (k, .freshList) :: r, ls, f => initFields a b r (ls ++ [[]]) (f.set k (.list ls.length))
  | (k, .source) :: r, ls, f => initFields a b r ls (f.set k a)
  | (k, .target) :: r, ls, f => initFields a b r ls (f.set k b)

/-- All attributes assigned by the constructors of a class and its bases. -/
def allFields (c : Cls) : List (String × Init) := (mro c).reverse.flatMap fun c => (classDef c.name).fields

/-- The class has a constructor with the arguments `source_ref` and `target_ref`. -/
def takesRefs (n : Name) : Bool := n == .sequenceFlow || n == .messageFlow

/-- A constructor call.  The arguments are used by `SequenceFlow` (`sequence_flow_type.py:20-34`) and `MessageFlow`
(`message_flow_type.py:13-32`) only; both test the *source* reference twice. -/
def construct (w : World) (c : Cls) (a b : Val) : World × Py Nat :=
  if takesRefs c.name && (decide (a = .none) || !a.isStr) then (w, .error .typeError)
  else if takesRefs c.name && (decide (b = .none) || !a.isStr) then (w, .error .typeError)
  else
    let (ls, f) := initFields a b (allFields c) w.lists []
    ({ lists := ls, objects := w.objects ++ [(c, f)] }, .ok w.objects.length)

/-- `obj.set_x(v)`: the method is looked up along the method resolution order. -/
def callSetter (w : World) (o : Nat) (method : String) (v : Val) : World × Py Unit :=
  match w.objects[o]? with
  | none => (w, .error .attributeError)
  | some (c, f) =>
    match (mro c).findSome? fun c => Dict.get? (classDef c.name).setters method with
    | none => (w, .error .attributeError)
    | some s =>
      let (f, r) := s.run w.lists v f
      ({ w with objects := w.objects.set o (c, f) }, r)

/-- `obj.get_x()`. -/
def callGetter (w : World) (o : Nat) (method : String) : Py Val :=
  match w.objects[o]? with
  | none => .error .attributeError
  | some (c, f) =>
    match (mro c).findSome? fun c => Dict.get? (classDef c.name).getters method with
    | none => .error .attributeError
    | some k => match f.get? k with | some v => .ok v | none => .error .attributeError

/-- What a client of the classes can do. -/
inductive Call where
  /-- `[...]` -/
  | newList (l : List Val)
  /-- `list.append(v)` on list number `ref` -/
  | append (ref : Nat) (v : Val)
  /-- `Class()` or `Class(a, b)` -/
  | construct (c : Cls) (a b : Val)
  /-- `object.method(v)` -/
  | set (o : Nat) (method : String) (v : Val)
deriving Repr

/-- One step of a client. -/
def Call.exec (w : World) : Call → World
  | .newList l => { w with lists := w.lists ++ [l] }
  | .append r v => { w with lists := w.lists.modify r (· ++ [v]) }
  | .construct c a b => (Classes.construct w c a b).1
  | .set o m v => (callSetter w o m v).1

/-- A client: exceptions are caught after each call. -/
def Call.run : World → List Call → World
  | w, [] => w
  | w, c :: r => Call.run (c.exec w) r

end Bpmn.Classes

import Verif.Spec.Elements
import Verif.Lemmas.Dict
/-! Lemmas about the element classes. -/
set_option linter.unusedSimpArgs false
set_option linter.unusedVariables false

namespace Bpmn.Classes
open Bpmn.Spec.Elements

theorem base_extends {n : Name} {b : Cls} (h : (classDef n).base = some b) : Extends n b.name := by
  cases n <;> simp [classDef] at h <;> subst h <;> constructor

theorem mroFuel_isA : ∀ (k : Nat) (c d : Cls), d ∈ mroFuel k c → IsA c.name d.name
  | 0, c, d, h => by simp [mroFuel] at h
  | k + 1, c, d, h => by
    simp only [mroFuel, List.mem_cons] at h
    rcases h with rfl | h
    · exact .refl _
    · cases hb : (classDef c.name).base with
      | none => simp [hb] at h
      | some b => rw [hb] at h; exact .step (base_extends hb) (mroFuel_isA k b d h)

theorem isInstance_isA {v : Val} {d : Cls} (h : isInstance v d = true) : ∃ c o, v = .obj c o ∧ IsA c.name d.name := by
  cases v <;> simp [isInstance] at h
  exact ⟨_, _, rfl, mroFuel_isA _ _ _ h⟩

/-- The documented type of each attribute. -/
def keyKind : String → Option Kind
  | "_BaseElement__id" => some .optStr
  | "_FlowElement__name" => some .optStr
  | "_CallableElement__name" => some .optStr
  | "_MessageFlow__name" => some .optStr
  | "_Participant__name" => some .optStr
  | "_Lane__name" => some .optStr
  | "_LaneSet__name" => some .optStr
  | "_Activity__default" => some .optStr
  | "_ExclusiveGateway__default" => some .optStr
  | "_InclusiveGateway__default" => some .optStr
  | "_Participant__process_ref" => some .optStr
  | "_MessageFlow__message_ref" => some .optStr
  | "_ConditionExpression__condition" => some .optStr
  | "_SequenceFlow__source_ref" => some .str
  | "_MessageFlow__source_ref" => some .str
  | "_SequenceFlow__target_ref" => some .str
  | "_MessageFlow__target_ref" => some .str
  | "_SequenceFlow__is_immediate" => some .optBool
  | "_SequenceFlow__condition_expression" => some (.optObj .conditionExpression)
  | "_Lane__child_lane_set" => some (.optObj .laneSet)
  | "_CatchEvent__parallel_multiple" => some .bool
  | "_SubProcess__triggered_by_event" => some .bool
  | "_Process__is_closed" => some .bool
  | "_Process__is_executable" => some .bool
  | "_Process__process_type" => some (.oneOf ["None", "Public", "Private"])
  | "_Gateway__gateway_direction" => some (.oneOf ["Unspecified", "Converging", "Diverging", "Mixed"])
  | "_FlowNode__incoming_list" => some .strList
  | "_FlowNode__outgoing_list" => some .strList
  | "_Lane__flow_node_ref_list" => some .strList
  | "_LaneSet__lane_list" => some (.listOf .lane)
  | "_CatchEvent__event_definition_list" => some (.listOf .eventDefinition)
  | "_ThrowEvent__event_definition_list" => some (.listOf .eventDefinition)
  | "_SubProcess__lane_set_list" => some (.listOf .laneSet)
  | "_Process__lane_set_list" => some (.listOf .laneSet)
  | "_SubProcess__flow_element_list" => some (.listOf .flowElement)
  | "_Process__flow_element_list" => some (.listOf .flowElement)
  | _ => none

def isTarget (k : String) : Bool := k == "_SequenceFlow__target_ref" || k == "_MessageFlow__target_ref"

/-- What an attribute may hold; `strict` asks for strings in the target references, too. -/
def FieldOk (strict : Prop) (ls : List (List Val)) (k : String) (v : Val) : Prop :=
  (isTarget k = true → v ≠ .none) ∧ ((isTarget k = true → strict) → ∃ kd, keyKind k = some kd ∧ HasKind ls kd v)

/-- The kind of value that a setter stores. -/
def setterKind : Setter → List Kind
  | .optStr _ => [.optStr]
  | .reqStr _ => [.str, .optStr]
  | .onlyStr _ => [.optStr]
  | .noneThenStr _ => [.optStr]
  | .noneThenObj _ c => [.optObj c.name]
  | .reqBool _ => [.bool]
  | .optBool _ => [.optBool]
  | .oneOf _ l => [.oneOf l]
  | .strList _ => [.strList]
  | .objList _ c => [.listOf c.name]
  | .optObj _ c => [.optObj c.name]

def setterKey : Setter → String
  | .optStr k | .reqStr k | .onlyStr k | .noneThenStr k | .noneThenObj k _ | .reqBool k | .optBool k | .oneOf k _
  | .strList k | .objList k _ | .optObj k _ => k

def setterReq : Setter → Bool
  | .reqStr _ => true
  | _ => false

theorem setters_fit (n : Name) : ∀ p ∈ (classDef n).setters,
    (∃ kd ∈ setterKind p.2, keyKind (setterKey p.2) = some kd) ∧ (isTarget (setterKey p.2) = true → setterReq p.2 = true) ∧
    setterKey p.2 ∈ (classDef n).fields.map Prod.fst := by
  cases n <;> decide

theorem getters_fit (n : Name) : ∀ p ∈ (classDef n).getters,
    (documented p.1 = keyKind p.2 ∧ (keyKind p.2).isSome) ∧ (isTarget p.2 = true ↔ p.1 = "get_target_ref") ∧
    p.2 ∈ (classDef n).fields.map Prod.fst := by
  cases n <;> decide

/-- Looking up a setter, a getter. -/
def findSetter (c : Cls) (m : String) : Option Setter := (mro c).findSome? fun c => Dict.get? (classDef c.name).setters m
def findGetter (c : Cls) (m : String) : Option String := (mro c).findSome? fun c => Dict.get? (classDef c.name).getters m

theorem mem_allFields {c d : Cls} (h : d ∈ mro c) {k : String} (hk : k ∈ (classDef d.name).fields.map Prod.fst) :
    k ∈ (allFields c).map Prod.fst := by
  simp only [List.mem_map, allFields, List.mem_flatMap, List.mem_reverse] at *
  obtain ⟨p, hp, rfl⟩ := hk
  exact ⟨p, ⟨d, h, hp⟩, rfl⟩

theorem findSetter_fit {c : Cls} {m : String} {s : Setter} (h : findSetter c m = some s) :
    (∃ kd ∈ setterKind s, keyKind (setterKey s) = some kd) ∧ (isTarget (setterKey s) = true → setterReq s = true) ∧
    setterKey s ∈ (allFields c).map Prod.fst := by
  obtain ⟨d, hd, hs⟩ := List.exists_of_findSome?_eq_some h
  obtain ⟨h1, h2, h3⟩ := setters_fit d.name _ (Dict.mem_of_get? hs)
  exact ⟨h1, h2, mem_allFields hd h3⟩

theorem findGetter_fit {c : Cls} {m k : String} (h : findGetter c m = some k) :
    (documented m = keyKind k ∧ (keyKind k).isSome) ∧ (isTarget k = true ↔ m = "get_target_ref") ∧
    k ∈ (allFields c).map Prod.fst := by
  obtain ⟨d, hd, hs⟩ := List.exists_of_findSome?_eq_some h
  obtain ⟨h1, h2, h3⟩ := getters_fit d.name _ (Dict.mem_of_get? hs)
  exact ⟨h1, h2, mem_allFields hd h3⟩

theorem fields_visible (c : Cls) : ∀ k ∈ (allFields c).map Prod.fst,
    ∃ p ∈ (mro c).flatMap (fun c => (classDef c.name).getters), findGetter c p.1 = some k := by
  obtain ⟨r, n⟩ := c
  cases r <;> cases n <;> decide

/-- A setter leaves the attributes alone or stores a value of the right kind in its attribute. -/
theorem setter_run (strict : Prop) (ls : List (List Val)) (s : Setter) (v : Val) (f : Dict String Val)
    (hs : ∃ kd ∈ setterKind s, keyKind (setterKey s) = some kd) (ht : isTarget (setterKey s) = true → setterReq s = true) :
    (s.run ls v f).1 = f ∨ ∃ w, (∃ f', (f' = f ∨ f' = f.set (setterKey s) w) ∧ (s.run ls v f).1 = f'.set (setterKey s) w) ∧
      FieldOk strict ls (setterKey s) w := by
  obtain ⟨kd, hk, hkd⟩ := hs
  cases s with
  | optStr k =>
    simp [setterKind] at hk; subst hk
    have ht' : isTarget k = false := by simpa [setterReq, setterKey] using ht
    by_cases h : v = .none
    · exact .inr ⟨v, ⟨f, .inl rfl, by simp [Setter.run, h, setterKey]⟩, by simp [setterKey, ht'], fun _ => ⟨_, hkd, .inl h⟩⟩
    · cases v with
      | none => exact absurd rfl h
      | str x => exact .inr ⟨.str x, ⟨f, .inl rfl, rfl⟩, by simp [setterKey, ht'], fun _ => ⟨_, hkd, .inr ⟨_, rfl⟩⟩⟩
      | _ => exact .inl rfl
  | reqStr k =>
    by_cases h : v = .none ∨ (!v.isStr) = true
    · exact .inl (by simp only [Setter.run, if_pos h])
    · simp only [not_or] at h
      cases v <;> simp [Val.isStr] at h
      refine .inr ⟨_, ⟨f, .inl rfl, by simp [Setter.run, Val.isStr, setterKey]; rfl⟩, fun _ => by simp, fun _ => ⟨_, hkd, ?_⟩⟩
      simp [setterKind] at hk
      rcases hk with rfl | rfl
      · exact ⟨_, rfl⟩
      · exact .inr ⟨_, rfl⟩
  | onlyStr k =>
    simp [setterKind] at hk; subst hk
    have ht' : isTarget k = false := by simpa [setterReq, setterKey] using ht
    cases v with
    | str x => exact .inr ⟨.str x, ⟨f, .inl rfl, rfl⟩, by simp [setterKey, ht'], fun _ => ⟨_, hkd, .inr ⟨_, rfl⟩⟩⟩
    | _ => exact .inl rfl
  | noneThenStr k =>
    simp [setterKind] at hk; subst hk
    have ht' : isTarget k = false := by simpa [setterReq, setterKey] using ht
    cases v with
    | none => exact .inr ⟨.none, ⟨f, .inl rfl, rfl⟩, by simp [setterKey, ht'], fun _ => ⟨_, hkd, .inl rfl⟩⟩
    | str x => exact .inr ⟨.str x, ⟨f, .inl rfl, rfl⟩, by simp [setterKey, ht'], fun _ => ⟨_, hkd, .inr ⟨_, rfl⟩⟩⟩
    | _ => exact .inl rfl
  | noneThenObj k c =>
    simp [setterKind] at hk; subst hk
    have ht' : isTarget k = false := by simpa [setterReq, setterKey] using ht
    by_cases h : isInstance v c = true
    · have hn : v ≠ .none := by rintro rfl; simp [isInstance] at h
      exact .inr ⟨v, ⟨f, .inl rfl, by simp [Setter.run, h, hn, setterKey]⟩, by simp [setterKey, ht'],
        fun _ => ⟨_, hkd, .inr (isInstance_isA h)⟩⟩
    · by_cases hn : v = .none
      · subst hn
        exact .inr ⟨.none, ⟨f, .inl rfl, by simp [Setter.run, isInstance, setterKey]⟩, by simp [setterKey, ht'],
          fun _ => ⟨_, hkd, .inl rfl⟩⟩
      · exact .inl (by simp [Setter.run, h, hn])
  | reqBool k =>
    simp [setterKind] at hk; subst hk
    have ht' : isTarget k = false := by simpa [setterReq, setterKey] using ht
    cases v with
    | bool x => exact .inr ⟨.bool x, ⟨f, .inl rfl, rfl⟩, by simp [setterKey, ht'], fun _ => ⟨_, hkd, ⟨_, rfl⟩⟩⟩
    | _ => exact .inl rfl
  | optBool k =>
    simp [setterKind] at hk; subst hk
    have ht' : isTarget k = false := by simpa [setterReq, setterKey] using ht
    cases v with
    | none => exact .inr ⟨.none, ⟨f, .inl rfl, rfl⟩, by simp [setterKey, ht'], fun _ => ⟨_, hkd, .inl rfl⟩⟩
    | bool x => exact .inr ⟨.bool x, ⟨f, .inl rfl, rfl⟩, by simp [setterKey, ht'], fun _ => ⟨_, hkd, .inr ⟨_, rfl⟩⟩⟩
    | _ => exact .inl rfl
  | oneOf k l =>
    simp [setterKind] at hk; subst hk
    have ht' : isTarget k = false := by simpa [setterReq, setterKey] using ht
    cases v with
    | str x =>
      by_cases h : x ∈ l
      · exact .inr ⟨_, ⟨f, .inl rfl, by simp [Setter.run, h, setterKey]⟩, by simp [setterKey, ht'], fun _ => ⟨_, hkd, ⟨_, h, rfl⟩⟩⟩
      · exact .inl (by simp [Setter.run, h])
    | _ => exact .inl rfl
  | strList k =>
    simp [setterKind] at hk; subst hk
    have ht' : isTarget k = false := by simpa [setterReq, setterKey] using ht
    cases v with
    | list r =>
      cases hl : ls[r]? with
      | none => exact .inl (by simp [Setter.run, hl])
      | some l =>
        by_cases h : l.any (fun e => !e.isStr) = true
        · exact .inl (by simp only [Setter.run, hl, if_pos h])
        · refine .inr ⟨.list r, ⟨f, .inl rfl, by simp only [Setter.run, hl, if_neg h, setterKey]⟩, by simp [setterKey, ht'],
            fun _ => ⟨_, hkd, r, l, rfl, hl, ?_⟩⟩
          intro e he
          simp at h
          have := h e he
          cases e <;> simp [Val.isStr] at this
          exact ⟨_, rfl⟩
    | _ => exact .inl rfl
  | objList k c =>
    simp [setterKind] at hk; subst hk
    have ht' : isTarget k = false := by simpa [setterReq, setterKey] using ht
    cases v with
    | list r =>
      cases hl : ls[r]? with
      | none => exact .inl (by simp [Setter.run, hl])
      | some l =>
        by_cases h : l.any (fun e => !isInstance e c) = true
        · exact .inl (by simp only [Setter.run, hl, if_pos h])
        · refine .inr ⟨.list r, ⟨f, .inl rfl, by simp only [Setter.run, hl, if_neg h, setterKey]⟩, by simp [setterKey, ht'],
            fun _ => ⟨_, hkd, r, l, rfl, hl, ?_⟩⟩
          intro e he
          simp at h
          exact isInstance_isA (h e he)
    | _ => exact .inl rfl
  | optObj k c =>
    simp [setterKind] at hk; subst hk
    have ht' : isTarget k = false := by simpa [setterReq, setterKey] using ht
    by_cases hn : v = .none
    · exact .inr ⟨v, ⟨f, .inl rfl, by simp [Setter.run, hn, setterKey]⟩, by simp [setterKey, ht'], fun _ => ⟨_, hkd, .inl hn⟩⟩
    · by_cases h : isInstance v c = true
      · exact .inr ⟨v, ⟨f, .inl rfl, by simp [Setter.run, h, hn, setterKey]⟩, by simp [setterKey, ht'],
          fun _ => ⟨_, hkd, .inr (isInstance_isA h)⟩⟩
      · exact .inl (by simp [Setter.run, h, hn])

/-- The attributes of an object of class `c` are the expected ones, with values of the expected kinds. -/
def FieldsOk (strict : Prop) (ls : List (List Val)) (c : Cls) (f : Dict String Val) : Prop :=
  (∀ k, k ∈ f.keys ↔ k ∈ (allFields c).map Prod.fst) ∧ ∀ k v, f.get? k = some v → FieldOk strict ls k v

def WorldOk (strict : Prop) (w : World) : Prop := ∀ p ∈ w.objects, FieldsOk strict w.lists p.1 p.2

theorem setter_fields {strict : Prop} {ls : List (List Val)} {c : Cls} {m : String} {s : Setter} (v : Val) {f : Dict String Val}
    (hs : findSetter c m = some s) (hf : FieldsOk strict ls c f) : FieldsOk strict ls c (s.run ls v f).1 := by
  obtain ⟨h1, h2, h3⟩ := findSetter_fit hs
  have key : ∀ (g : Dict String Val) w, FieldsOk strict ls c g → FieldOk strict ls (setterKey s) w →
      FieldsOk strict ls c (g.set (setterKey s) w) := by
    intro g w hg hw
    refine ⟨fun k => ?_, fun k u hu => ?_⟩
    · rw [Dict.mem_keys_set, hg.1]
      exact ⟨fun h => h.elim (fun e => e ▸ h3) id, .inr⟩
    · rw [Dict.get?_set] at hu
      split at hu
      · rename_i e; cases hu; exact e ▸ hw
      · exact hg.2 k u hu
  rcases setter_run strict ls s v f h1 h2 with h | ⟨w, ⟨f', hf', e⟩, hw⟩
  · rw [h]; exact hf
  · rw [e]
    refine key _ _ ?_ hw
    rcases hf' with rfl | rfl
    · exact hf
    · exact key _ _ hf hw

theorem HasKind.mono {ls : List (List Val)} {kd : Kind} {v : Val} (h : HasKind ls kd v) {ls' : List (List Val)}
    (hl : ∀ (r : Nat) l, v = .list r → ls[r]? = some l → ls'[r]? = some l) : HasKind ls' kd v := by
  cases kd <;> try exact h
  · obtain ⟨r, l, e, h1, h2⟩ := h; exact ⟨r, l, e, hl r l e h1, h2⟩
  · obtain ⟨r, l, e, h1, h2⟩ := h; exact ⟨r, l, e, hl r l e h1, h2⟩

theorem FieldOk.mono {strict : Prop} {ls ls' : List (List Val)} {k : String} {v : Val} (h : FieldOk strict ls k v)
    (hl : ∀ (r : Nat) l, v = .list r → ls[r]? = some l → ls'[r]? = some l) : FieldOk strict ls' k v :=
  ⟨h.1, fun a => let ⟨kd, h1, h2⟩ := h.2 a; ⟨kd, h1, HasKind.mono h2 hl⟩⟩

theorem append_grows (ls x : List (List Val)) (r : Nat) (l) (h : ls[r]? = some l) : (ls ++ x)[r]? = some l := by
  have := (List.getElem?_eq_some_iff.1 h).1
  rw [List.getElem?_append_left this]; exact h

/-- What the constructors may store. -/
def InitOk (k : String) (takes : Bool) : Init → Prop
  | .val .none => isTarget k = false ∧ (keyKind k = some .optStr ∨ keyKind k = some .optBool ∨
      keyKind k = some (.optObj .laneSet) ∨ keyKind k = some (.optObj .conditionExpression))
  | .val (.bool _) => isTarget k = false ∧ keyKind k = some .bool
  | .val (.str s) => isTarget k = false ∧ (keyKind k = some (.oneOf ["None", "Public", "Private"]) ∧ s = "None" ∨
      keyKind k = some (.oneOf ["Unspecified", "Converging", "Diverging", "Mixed"]) ∧ s = "Unspecified")
  | .val _ => False
  | .freshList => isTarget k = false ∧ (keyKind k = some .strList ∨ keyKind k = some (.listOf .lane) ∨
      keyKind k = some (.listOf .laneSet) ∨ keyKind k = some (.listOf .flowElement) ∨ keyKind k = some (.listOf .eventDefinition))
  | .source => takes = true ∧ isTarget k = false ∧ keyKind k = some .str
  | .target => takes = true ∧ isTarget k = true ∧ keyKind k = some .str

instance (k t i) : Decidable (InitOk k t i) := by
  unfold InitOk; split <;> infer_instance

theorem inits_fit (c : Cls) : ∀ p ∈ allFields c, InitOk p.1 (takesRefs c.name) p.2 := by
  obtain ⟨r, n⟩ := c
  cases r <;> cases n <;> decide

theorem initFields_ok {strict : Prop} {a b : Val} {takes : Bool} (ha : takes = true → ∃ s, a = .str s)
    (hb : takes = true → b ≠ .none ∧ (strict → ∃ s, b = .str s)) :
    ∀ (l : List (String × Init)) (ls : List (List Val)) (f : Dict String Val), (∀ p ∈ l, InitOk p.1 takes p.2) →
      (∀ k v, f.get? k = some v → FieldOk strict ls k v) →
      (∃ x, (initFields a b l ls f).1 = ls ++ x) ∧
      (∀ k, k ∈ (initFields a b l ls f).2.keys ↔ k ∈ f.keys ∨ k ∈ l.map Prod.fst) ∧
      ∀ k v, (initFields a b l ls f).2.get? k = some v → FieldOk strict (initFields a b l ls f).1 k v
  | [], ls, f, _, hf => ⟨⟨[], by simp [initFields]⟩, by simp [initFields], by simpa [initFields] using hf⟩
  | (k, i) :: r, ls, f, hl, hf => by
    have hi := hl _ List.mem_cons_self
    have hr := fun p hp => hl p (List.mem_cons_of_mem _ hp)
    have step : ∀ (x : List (List Val)) (w : Val), FieldOk strict (ls ++ x) k w →
        (∃ y, (initFields a b r (ls ++ x) (f.set k w)).1 = ls ++ y) ∧
        (∀ k', k' ∈ (initFields a b r (ls ++ x) (f.set k w)).2.keys ↔ k' ∈ f.keys ∨ k' ∈ ((k, i) :: r).map Prod.fst) ∧
        ∀ k' v, (initFields a b r (ls ++ x) (f.set k w)).2.get? k' = some v →
          FieldOk strict (initFields a b r (ls ++ x) (f.set k w)).1 k' v := by
      intro x w hw
      obtain ⟨⟨y, h1⟩, h2, h3⟩ := initFields_ok ha hb r (ls ++ x) (f.set k w) hr (by
        intro k' v h
        rw [Dict.get?_set] at h
        split at h
        · rename_i e; cases h; exact e ▸ hw
        · exact (hf k' v h).mono (fun r l _ h => append_grows _ _ _ _ h))
      refine ⟨⟨x ++ y, by rw [h1, List.append_assoc]⟩, fun k' => ?_, h3⟩
      rw [h2, Dict.mem_keys_set]
      simp only [List.map_cons, List.mem_cons]
      exact ⟨fun h => by rcases h with (h | h) | h <;> simp [h], fun h => by rcases h with h | h | h <;> simp [h]⟩
    cases i with
    | val v =>
      have := step [] v (by
        cases v with
        | none =>
          obtain ⟨h1, h2⟩ := hi
          refine ⟨by simp [h1], fun _ => ?_⟩
          rcases h2 with h2 | h2 | h2 | h2 <;> exact ⟨_, h2, .inl rfl⟩
        | bool x => exact ⟨by simp, fun _ => ⟨_, hi.2, _, rfl⟩⟩
        | str s =>
          refine ⟨by simp, fun _ => ?_⟩
          rcases hi.2 with ⟨h2, rfl⟩ | ⟨h2, rfl⟩ <;> exact ⟨_, h2, _, by simp, rfl⟩
        | list _ => exact hi.elim
        | obj _ _ => exact hi.elim
        | other _ => exact hi.elim)
      simpa only [List.append_nil, initFields] using this
    | freshList =>
      exact step [[]] (.list ls.length) ⟨by simp, fun _ => by
        rcases hi.2 with h2 | h2 | h2 | h2 | h2 <;> exact ⟨_, h2, _, [], rfl, by simp, by simp⟩⟩
    | source =>
      obtain ⟨s, e⟩ := ha hi.1
      have := step [] a ⟨by simp [e], fun _ => ⟨_, hi.2.2, s, e⟩⟩
      simpa only [List.append_nil, initFields] using this
    | target =>
      obtain ⟨hn, hs⟩ := hb hi.1
      have := step [] b ⟨fun _ => hn, fun h => ⟨_, hi.2.2, hs (h hi.2.1)⟩⟩
      simpa only [List.append_nil, initFields] using this

theorem callSetter_eq (w : World) (o : Nat) (m : String) (v : Val) : callSetter w o m v =
    match w.objects[o]? with
    | none => (w, .error .attributeError)
    | some (c, f) => match findSetter c m with
      | none => (w, .error .attributeError)
      | some s => ({ w with objects := w.objects.set o (c, (s.run w.lists v f).1) }, (s.run w.lists v f).2) := rfl

theorem callGetter_eq (w : World) (o : Nat) (m : String) : callGetter w o m =
    match w.objects[o]? with
    | none => .error .attributeError
    | some (c, f) => match findGetter c m with
      | none => .error .attributeError
      | some k => match f.get? k with | some v => .ok v | none => .error .attributeError := rfl

/-- An attribute is seen by some getter. -/
theorem getter_of_field {strict : Prop} {w : World} (hw : WorldOk strict w) {o : Nat} {c : Cls} {f : Dict String Val}
    (ho : w.objects[o]? = some (c, f)) {k : String} {v : Val} (hv : f.get? k = some v) : ∃ g, callGetter w o g = .ok v := by
  have hk := ((hw _ (List.mem_of_getElem? ho)).1 k).1 (Dict.mem_keys_of_get? hv)
  obtain ⟨p, _, hp⟩ := fields_visible c k hk
  exact ⟨p.1, by rw [callGetter_eq]; simp [ho, hp, hv]⟩

theorem exec_ok {strict : Prop} {w : World} (hw : WorldOk strict w) (c : Call) (h1 : ∀ r v, c = .append r v → ¬ Held w r)
    (h2 : strict → ∀ k a b, c = .construct k a b → ∃ s, b = .str s) : WorldOk strict (c.exec w) := by
  cases c with
  | newList l =>
    intro p hp
    exact ⟨(hw p hp).1, fun k v h => ((hw p hp).2 k v h).mono fun r l _ h => append_grows _ _ _ _ h⟩
  | append r v =>
    intro p hp
    refine ⟨(hw p hp).1, fun k u h => ((hw p hp).2 k u h).mono fun r' l e hl => ?_⟩
    have hp : p ∈ w.objects := hp
    obtain ⟨o, ho⟩ := List.getElem?_of_mem hp
    obtain ⟨g, hg⟩ := getter_of_field hw (c := p.1) (f := p.2) ho h
    have hne : r' ≠ r := by
      rintro rfl
      exact h1 _ v rfl ⟨o, g, e ▸ hg⟩
    simp only [Call.exec]
    simp [List.getElem?_modify, hl, Ne.symm hne]
  | construct c a b =>
    simp only [Call.exec, construct]
    split
    · exact hw
    · rename_i hc1
      split
      · exact hw
      · rename_i hc2
        have ha : takesRefs c.name = true → ∃ s, a = .str s := by
          intro t
          simp only [t, Bool.true_and] at hc1
          cases a <;> simp [Val.isStr] at hc1
          exact ⟨_, rfl⟩
        have hb : takesRefs c.name = true → b ≠ .none ∧ (strict → ∃ s, b = .str s) := by
          intro t
          refine ⟨?_, fun st => h2 st c a b rfl⟩
          rintro rfl
          simp [t] at hc2
        obtain ⟨⟨x, hx⟩, hk, hv⟩ := initFields_ok (strict := strict) ha hb (allFields c) w.lists [] (inits_fit c) (by simp)
        intro p hp
        simp only [List.mem_append, List.mem_singleton] at hp
        rcases hp with hp | rfl
        · exact ⟨(hw p hp).1, fun k v h => ((hw p hp).2 k v h).mono fun r l _ h => by
            simp only [hx]; exact append_grows _ _ _ _ h⟩
        · exact ⟨fun k => by simpa using hk k, hv⟩
  | set o m v =>
    simp only [Call.exec, callSetter_eq]
    split
    · exact hw
    · rename_i c f ho
      split
      · exact hw
      · rename_i s hs
        intro p hp
        rcases List.mem_or_eq_of_mem_set hp with hp | rfl
        · exact hw p hp
        · exact setter_fields v hs (hw _ (List.mem_of_getElem? ho))

theorem run_ok {strict : Prop} : ∀ (cs : List Call) {w : World}, WorldOk strict w → HandsOff w cs →
    (strict → StringTargets cs) → WorldOk strict (Call.run w cs)
  | [], w, hw, _, _ => hw
  | c :: r, w, hw, h, hs => run_ok r (exec_ok hw c h.1 fun st k a b e => hs st k a b (e ▸ List.mem_cons_self)) h.2
      fun st k a b hm => hs st k a b (List.mem_cons_of_mem _ hm)

/-- Setters and getters are paired, and no two getters of a class show the same attribute. -/
theorem setter_getter (c : Cls) : ∀ p ∈ (mro c).flatMap (fun c => (classDef c.name).setters),
    (∃ s, findSetter c p.1 = some s ∧ findGetter c (getterOf p.1) = some (setterKey s) ∧
      ∀ q ∈ (mro c).flatMap (fun c => (classDef c.name).getters), findGetter c q.1 = some (setterKey s) → q.1 = getterOf p.1) := by
  obtain ⟨r, n⟩ := c
  have key : ∀ c : Cls, (∀ p ∈ (mro c).flatMap (fun c => (classDef c.name).setters),
      (findSetter c p.1).isSome ∧ findGetter c (getterOf p.1) = (findSetter c p.1).map setterKey ∧
        ∀ q ∈ (mro c).flatMap (fun c => (classDef c.name).getters),
          findGetter c q.1 = (findSetter c p.1).map setterKey → q.1 = getterOf p.1) →
      ∀ p ∈ (mro c).flatMap (fun c => (classDef c.name).setters),
    (∃ s, findSetter c p.1 = some s ∧ findGetter c (getterOf p.1) = some (setterKey s) ∧
      ∀ q ∈ (mro c).flatMap (fun c => (classDef c.name).getters), findGetter c q.1 = some (setterKey s) → q.1 = getterOf p.1) := by
    intro c h p hp
    have := h p hp
    cases hs : findSetter c p.1 with
    | none => simp [hs] at this
    | some s => rw [hs] at this; exact ⟨s, rfl, this.2⟩
  refine key _ ?_
  cases r <;> cases n <;> decide

theorem mem_of_findSetter {c : Cls} {m : String} {s : Setter} (h : findSetter c m = some s) :
    (m, s) ∈ (mro c).flatMap (fun c => (classDef c.name).setters) := by
  obtain ⟨d, hd, hs⟩ := List.exists_of_findSome?_eq_some h
  exact List.mem_flatMap.2 ⟨d, hd, Dict.mem_of_get? hs⟩

theorem mem_of_findGetter {c : Cls} {m k : String} (h : findGetter c m = some k) :
    (m, k) ∈ (mro c).flatMap (fun c => (classDef c.name).getters) := by
  obtain ⟨d, hd, hs⟩ := List.exists_of_findSome?_eq_some h
  exact List.mem_flatMap.2 ⟨d, hd, Dict.mem_of_get? hs⟩

/-- The outcome of a setter: success stores the value; failure stores nothing, or `None`. -/
theorem setter_outcome (ls : List (List Val)) (s : Setter) (v : Val) (f : Dict String Val) :
    (s.run ls v f).2 = .ok () ∧ (s.run ls v f).1.get? (setterKey s) = some v ∧
      (∀ k, k ≠ setterKey s → (s.run ls v f).1.get? k = f.get? k) ∨
    (∃ e, (s.run ls v f).2 = .error e) ∧ ((s.run ls v f).1 = f ∨
      v = .none ∧ (s.run ls v f).2 = .error .typeError ∧ (s.run ls v f).1 = f.set (setterKey s) .none ∧
        ((∃ k, s = .noneThenStr k) ∨ ∃ k c, s = .noneThenObj k c)) := by
  have put : ∀ (k : String) (g : Dict String Val), g = f ∨ g = f.set k v →
      (g.set k v).get? k = some v ∧ ∀ k', k' ≠ k → (g.set k v).get? k' = f.get? k' := by
    intro k g hg
    refine ⟨by simp [Dict.get?_set], fun k' h => ?_⟩
    rw [Dict.get?_set_ne _ _ (Ne.symm h)]
    rcases hg with rfl | rfl
    · rfl
    · rw [Dict.get?_set_ne _ _ (Ne.symm h)]
  have put' := fun k => put k f (.inl rfl)
  cases s with
  | noneThenStr k =>
    cases v with
    | none => exact .inr ⟨⟨_, rfl⟩, .inr ⟨rfl, rfl, rfl, .inl ⟨k, rfl⟩⟩⟩
    | str x => exact .inl ⟨rfl, put' k⟩
    | _ => exact .inr ⟨⟨_, rfl⟩, .inl rfl⟩
  | noneThenObj k c =>
    by_cases hn : v = .none
    · subst hn
      exact .inr ⟨⟨_, rfl⟩, .inr ⟨rfl, rfl, rfl, .inr ⟨k, c, rfl⟩⟩⟩
    · by_cases h : isInstance v c = true
      · left; simp [Setter.run, h, hn, setterKey]; exact (put' k).2
      · right; simp [Setter.run, h, hn]
  | optStr k =>
    cases v with
    | none => exact .inl ⟨rfl, put' k⟩
    | str x => exact .inl ⟨rfl, put' k⟩
    | _ => exact .inr ⟨⟨_, rfl⟩, .inl rfl⟩
  | reqStr k =>
    cases v with
    | str x => left; simp [Setter.run, Val.isStr, setterKey]; exact (put' k).2
    | _ => right; simp [Setter.run, Val.isStr]
  | onlyStr k =>
    cases v with
    | str x => exact .inl ⟨rfl, put' k⟩
    | _ => exact .inr ⟨⟨_, rfl⟩, .inl rfl⟩
  | reqBool k =>
    cases v with
    | bool x => left; simp [Setter.run, Val.isBool, setterKey]; exact (put' k).2
    | _ => right; simp [Setter.run, Val.isBool]
  | optBool k =>
    cases v with
    | none => exact .inl ⟨rfl, put' k⟩
    | bool x => exact .inl ⟨rfl, put' k⟩
    | _ => exact .inr ⟨⟨_, rfl⟩, .inl rfl⟩
  | oneOf k l =>
    cases v with
    | str x =>
      by_cases h : x ∈ l
      · left; simp [Setter.run, h, setterKey]; exact (put' k).2
      · right; simp [Setter.run, h]
    | _ => exact .inr ⟨⟨_, rfl⟩, .inl rfl⟩
  | strList k =>
    cases v with
    | list r =>
      cases hl : ls[r]? with
      | none => right; simp [Setter.run, hl]
      | some l =>
        by_cases h : l.any (fun e => !e.isStr) = true
        · right; simp only [Setter.run, hl, if_pos h]; exact ⟨⟨_, rfl⟩, .inl trivial⟩
        · left; simp only [Setter.run, hl, if_neg h, setterKey]; exact ⟨trivial, put' k⟩
    | _ => exact .inr ⟨⟨_, rfl⟩, .inl rfl⟩
  | objList k c =>
    cases v with
    | list r =>
      cases hl : ls[r]? with
      | none => right; simp [Setter.run, hl]
      | some l =>
        by_cases h : l.any (fun e => !isInstance e c) = true
        · right; simp only [Setter.run, hl, if_pos h]; exact ⟨⟨_, rfl⟩, .inl trivial⟩
        · left; simp only [Setter.run, hl, if_neg h, setterKey]; exact ⟨trivial, put' k⟩
    | _ => exact .inr ⟨⟨_, rfl⟩, .inl rfl⟩
  | optObj k c =>
    by_cases hn : v = .none
    · left; simp [Setter.run, hn, setterKey]; exact hn ▸ (put' k).2
    · by_cases h : isInstance v c = true
      · left; simp [Setter.run, h, hn, setterKey]; exact (put' k).2
      · right; simp [Setter.run, h, hn]

end Bpmn.Classes

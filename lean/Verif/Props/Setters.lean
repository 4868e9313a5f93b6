import Verif.Lemmas.Setters
/-!
# What element objects have and what their setters take (C104)
-/
set_option linter.unusedSimpArgs false
set_option linter.unusedVariables false

namespace Bpmn.Props
open Bpmn.Classes Bpmn.Spec.Elements

/-! ## C104 -/

/-- **C104.** A setter of an object, called with any value in any state: it does not exist unless the object has the attribute; it returns if the value is
of the form that it takes, raises `ValueError` if it wants one of some words and is given another one, and `TypeError` in all other cases. -/
theorem C104_setters (w : World) (o : Nat) (c : Cls) (f : Dict String Val) (ho : w.objects[o]? = some (c, f)) (m : String) (v : Val) :
    (¬ ((argument m).isSome ∧ Has c.name (getterOf m)) → callSetter w o m v = (w, .error .attributeError)) ∧
    ∀ a, argument m = some a → Has c.name (getterOf m) →
      (Fits w.lists a v → (callSetter w o m v).2 = .ok ()) ∧
      (WrongWord a v → (callSetter w o m v).2 = .error .valueError) ∧
      (¬ Fits w.lists a v → ¬ WrongWord a v → (callSetter w o m v).2 = .error .typeError) := by
  rw [callSetter_eq]
  simp only [ho]
  constructor
  · intro h
    cases hs : findSetter c m with
    | none => rfl
    | some s => exact absurd (hasSetter_iff.2 (by rw [hs]; rfl)) h
  · intro a ha hh
    have := hasSetter_iff.1 ⟨by rw [ha]; rfl, hh⟩
    obtain ⟨s, hs⟩ := Option.isSome_iff_exists.1 this
    obtain ⟨e, hr⟩ := argument_eq hs
    rw [ha] at e
    cases e
    simp only [hs]
    exact setter_takes w.lists s hr v f

/-- The attributes of all objects are those assigned by the constructors. -/
def Keyed (w : World) : Prop := ∀ p ∈ w.objects, ∀ k, k ∈ p.2.keys ↔ k ∈ (allFields p.1).map Prod.fst

theorem initFields_keys (a b : Val) : ∀ (l : List (String × Init)) (ls : List (List Val)) (f : Dict String Val) (k : String),
    k ∈ (initFields a b l ls f).2.keys ↔ k ∈ f.keys ∨ k ∈ l.map Prod.fst
  | [], ls, f, k => by simp [initFields]
  | (x, .val v) :: r, ls, f, k => by simp only [initFields, initFields_keys a b r, Dict.mem_keys_set, List.map_cons, List.mem_cons]; grind
  | (x, .freshList) :: r, ls, f, k => by simp only [initFields, initFields_keys a b r, Dict.mem_keys_set, List.map_cons, List.mem_cons]; grind
  | (x, .source) :: r, ls, f, k => by simp only [initFields, initFields_keys a b r, Dict.mem_keys_set, List.map_cons, List.mem_cons]; grind
  | (x, .target) :: r, ls, f, k => by simp only [initFields, initFields_keys a b r, Dict.mem_keys_set, List.map_cons, List.mem_cons]; grind

theorem Keyed.exec {w : World} (h : Keyed w) (c : Call) : Keyed (c.exec w) := by
  cases c with
  | newList l => exact h
  | append r v =>
    simp only [Call.exec]
    first | exact h | (split <;> exact h)
  | construct c a b =>
    simp only [Call.exec, construct]
    by_cases h1 : (takesRefs c.name && (decide (a = .none) || !a.isStr)) = true
    · rw [if_pos h1]; exact h
    · rw [if_neg h1]
      by_cases h2 : (takesRefs c.name && (decide (b = .none) || !a.isStr)) = true
      · rw [if_pos h2]; exact h
      · rw [if_neg h2]
        intro p hp k
        rcases List.mem_append.1 hp with hp | hp
        · exact h p hp k
        · cases List.mem_singleton.1 hp
          have := initFields_keys a b (allFields c) w.lists [] k
          simpa [Dict.keys] using this
  | set o m v =>
    simp only [Call.exec, callSetter_eq]
    cases ho : w.objects[o]? with
    | none => exact h
    | some p =>
      obtain ⟨c, f⟩ := p
      simp only
      cases hs : findSetter c m with
      | none => exact h
      | some s =>
        have hm := h _ (List.mem_of_getElem? ho)
        obtain ⟨h1, h2, h3⟩ := findSetter_fit hs
        intro p hp k
        simp only at hp
        rcases List.mem_or_eq_of_mem_set hp with hp | hp
        · exact h p hp k
        · subst hp
          simp only
          rcases setter_run False w.lists s v f h1 h2 with e | ⟨u, ⟨f', hf', e⟩, -⟩
          · rw [e]; exact hm k
          · rw [e, Dict.mem_keys_set]
            have hf : k ∈ f'.keys ∨ k = setterKey s ↔ k ∈ f.keys ∨ k = setterKey s := by
              rcases hf' with rfl | rfl
              · rfl
              · rw [Dict.mem_keys_set]; grind
            rw [or_comm, hf, hm k]
            exact ⟨fun c => c.elim _root_.id (fun e => e ▸ h3), .inl⟩

theorem Keyed.run (cs : List Call) : ∀ w, Keyed w → Keyed (Call.run w cs) := by
  induction cs with
  | nil => exact fun w h => h
  | cons c cs ih => exact fun w h => ih _ (h.exec c)

/-- **C104.** After any history, a getter of an object returns something if and only if the object has the attribute, by its class or one that
its class extends; otherwise it raises `AttributeError`. -/
theorem C104_getters (cs : List Call) (o : Nat) (c : Cls) (f : Dict String Val) (ho : (Call.run {} cs).objects[o]? = some (c, f)) (g : String) :
    (Has c.name g → ∃ v, callGetter (Call.run {} cs) o g = .ok v) ∧ (¬ Has c.name g → callGetter (Call.run {} cs) o g = .error .attributeError) := by
  have hk := Keyed.run cs {} (fun p hp => by cases hp) _ (List.mem_of_getElem? ho)
  rw [callGetter_eq]
  simp only [ho]
  constructor
  · intro h
    obtain ⟨k, hg⟩ := Option.isSome_iff_exists.1 (has_iff.1 h)
    have := (hk k).2 (findGetter_fit hg).2.2
    obtain ⟨v, hv⟩ := Option.isSome_iff_exists.1 ((Dict.get?_isSome_iff _ _).2 this)
    exact ⟨v, by simp [hg, hv]⟩
  · intro h
    cases hg : findGetter c g with
    | none => rfl
    | some k => exact absurd (has_iff.2 (by rw [hg]; rfl)) h

/-- **C104.** There is exactly one setter for every attribute. -/
theorem C104_attributes (n : Name) (g : String) (h : Has n g) : ∃ m, (argument m).isSome ∧ getterOf m = g ∧ ∀ k, (argument k).isSome → getterOf k = g → k = m := by
  obtain ⟨m, -, h⟩ := h
  have all : ∀ n : Name, ∀ g ∈ introduces n, ∃ m ∈ setterNames, (argument m).isSome ∧ getterOf m = g ∧ ∀ k ∈ setterNames, getterOf k = g → k = m := by
    intro n; cases n <;> decide
  obtain ⟨s, -, h1, h2, h3⟩ := all _ _ h
  exact ⟨s, h1, h2, fun k hk => h3 k (mem_setterNames hk)⟩

/-- The case: a gateway, a process and a lane from the other way of importing; every outcome occurs. -/
example : let w := Call.run {} [.construct ⟨.short, .exclusiveGateway⟩ .none .none, .construct ⟨.short, .process⟩ .none .none, .construct ⟨.long, .laneSet⟩ .none .none,
      .newList [.obj ⟨.long, .laneSet⟩ 2]]
    (callSetter w 0 "set_gateway_direction" (.str "Mixed")).2 = .ok () ∧ (callSetter w 0 "set_gateway_direction" (.str "Up")).2 = .error .valueError ∧
    (callSetter w 0 "set_gateway_direction" .none).2 = .error .typeError ∧ (callSetter w 0 "set_is_closed" (.bool true)).2 = .error .attributeError ∧
    (callSetter w 1 "set_is_closed" (.bool true)).2 = .ok () ∧ (∃ r, w.lists[r]? = some [.obj ⟨.long, .laneSet⟩ 2] ∧
      (callSetter w 1 "set_lane_set_list" (.list r)).2 = .error .typeError) ∧ callGetter w 1 "get_name" = .ok .none ∧
    Has .process "get_name" ∧ Has .exclusiveGateway "get_outgoing" := by
  refine ⟨rfl, rfl, rfl, rfl, rfl, ⟨5, rfl, rfl⟩, rfl, ?_, ?_⟩
  · exact ⟨.callableElement, .step .process (.refl _), by decide⟩
  · exact ⟨.flowNode, .step .exclusiveGateway (.step .gateway (.refl _)), by decide⟩

end Bpmn.Props

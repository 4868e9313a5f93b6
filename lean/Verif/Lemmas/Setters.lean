import Verif.Spec.Setters
import Verif.Lemmas.Elements
/-!
Lemmas about inheritance and the bodies of setters.
-/
set_option linter.unusedSimpArgs false
set_option linter.unusedVariables false

namespace Bpmn.Classes
open Bpmn.Spec.Elements

theorem base_of_extends {n m : Name} (h : Extends n m) : (classDef n).base = some ⟨importedAs n, m⟩ := by cases h <;> rfl

theorem mro_base {n : Name} {b : Cls} (h : (classDef n).base = some b) (r : Root) : ∀ d ∈ mro b, d ∈ mro ⟨r, n⟩ := by
  have all : ∀ n : Name, ∀ b ∈ (classDef n).base.toList, ∀ d ∈ mro b, d ∈ mro ⟨.short, n⟩ ∧ d ∈ mro ⟨.long, n⟩ := by
    intro n; cases n <;> decide
  intro d hd
  have := all n b (by rw [h]; simp) d hd
  cases r
  · exact this.1
  · exact this.2

theorem self_mem_mro (c : Cls) : c ∈ mro c := by simp [mro, mroFuel]

theorem derives_iff {c k : Cls} : Derives c k ↔ k ∈ mro c := by
  constructor
  · intro h
    induction h with
    | refl c => exact self_mem_mro c
    | @step c m k he _ ih => exact mro_base (base_of_extends he) c.root k ih
  · have : ∀ (f : Nat) (c d : Cls), d ∈ mroFuel f c → Derives c d := by
      intro f
      induction f with
      | zero => intro c d h; simp [mroFuel] at h
      | succ f ih =>
        intro c d h
        simp only [mroFuel, List.mem_cons] at h
        rcases h with rfl | h
        · exact .refl _
        · cases hb : (classDef c.name).base with
          | none => simp [hb] at h
          | some b =>
            rw [hb] at h
            have e := base_extends hb
            have := base_of_extends e
            rw [hb] at this
            refine .step e ?_
            rw [← Option.some.inj this]
            exact ih b d h
    exact this 8 c k

theorem isA_iff {c : Cls} {m : Name} : IsA c.name m ↔ ∃ d ∈ mro c, d.name = m := by
  constructor
  · intro h
    have : ∀ n m, IsA n m → ∀ r, ∃ d ∈ mro ⟨r, n⟩, d.name = m := by
      intro n m h
      induction h with
      | refl n => exact fun r => ⟨_, self_mem_mro _, rfl⟩
      | step he _ ih =>
        intro r
        obtain ⟨d, h1, h2⟩ := ih (importedAs _)
        exact ⟨d, mro_base (base_of_extends he) r d h1, h2⟩
    exact this _ _ h c.root
  · rintro ⟨d, h, rfl⟩
    exact mroFuel_isA _ _ _ h

theorem introduces_eq (n : Name) : introduces n = (classDef n).getters.map (·.1) := by cases n <;> rfl

theorem has_iff {c : Cls} {g : String} : Has c.name g ↔ (findGetter c g).isSome := by
  rw [findGetter, List.findSome?_isSome_iff]
  constructor
  · rintro ⟨m, h1, h2⟩
    obtain ⟨d, h3, rfl⟩ := isA_iff.1 h1
    rw [introduces_eq] at h2
    exact ⟨d, h3, (Dict.get?_isSome_iff _ _).2 h2⟩
  · rintro ⟨d, h3, h4⟩
    exact ⟨d.name, isA_iff.2 ⟨d, h3, rfl⟩, by rw [introduces_eq]; exact (Dict.get?_isSome_iff _ _).1 h4⟩

/-- All setters. -/
def setterNames : List String :=
  ["set_id", "set_name", "set_default", "set_process_ref", "set_message_ref", "set_condition", "set_source_ref",
   "set_target_ref", "set_is_immediate", "set_is_closed", "set_is_executable", "set_parallel_multiple", "set_triggered_by_event",
   "set_process_type", "set_gateway_direction", "set_incoming", "set_outgoing", "set_flow_node_ref_list", "set_lane_list",
   "set_lane_set_list", "set_flow_element_list", "set_event_definition_list", "set_child_lane_set", "set_condition_expression"]

theorem mem_setterNames {m : String} (h : (argument m).isSome) : m ∈ setterNames := by
  unfold argument at h
  split at h <;> simp_all [setterNames]

theorem hasSetter_iff {c : Cls} {m : String} : (argument m).isSome ∧ Has c.name (getterOf m) ↔ (findSetter c m).isSome := by
  constructor
  · rintro ⟨h1, k, h2, h3⟩
    obtain ⟨d, h4, rfl⟩ := isA_iff.1 h2
    rw [findSetter, List.findSome?_isSome_iff]
    refine ⟨d, h4, (Dict.get?_isSome_iff _ _).2 ?_⟩
    clear h2 h4
    have names := mem_setterNames h1
    have all : ∀ n : Name, ∀ m ∈ setterNames,
        getterOf m ∈ introduces n → m ∈ (classDef n).setters.map (·.1) := by
      intro n; cases n <;> decide
    exact all _ _ names h3
  · intro h
    rw [findSetter, List.findSome?_isSome_iff] at h
    obtain ⟨d, h1, h2⟩ := h
    have all : ∀ n : Name, ∀ p ∈ (classDef n).setters, (argument p.1).isSome ∧ getterOf p.1 ∈ introduces n := by
      intro n; cases n <;> decide
    obtain ⟨s, hs⟩ := Option.isSome_iff_exists.1 h2
    obtain ⟨h3, h4⟩ := all _ _ (Dict.mem_of_get? hs)
    exact ⟨h3, _, isA_iff.2 ⟨d, h1, rfl⟩, h4⟩

/-- What the body of a setter takes. -/
def argOf : Setter → Arg × Root
  | .optStr _ => (.textOrNone, .short)
  | .reqStr _ => (.text, .short)
  | .onlyStr _ => (.text, .short)
  | .noneThenStr _ => (.text, .short)
  | .noneThenObj _ c => (.object c.name, c.root)
  | .reqBool _ => (.flag, .short)
  | .optBool _ => (.flagOrNone, .short)
  | .oneOf _ l => (.oneOf l, .short)
  | .strList _ => (.texts, .short)
  | .objList _ c => (.objects c.name, c.root)
  | .optObj _ c => (.objectOrNone c.name, c.root)

theorem argument_eq {c : Cls} {m : String} {s : Setter} (h : findSetter c m = some s) : argument m = some (argOf s).1 ∧ (argOf s).2 = .short := by
  obtain ⟨d, hd, hs⟩ := List.exists_of_findSome?_eq_some h
  have all : ∀ n : Name, ∀ p ∈ (classDef n).setters, argument p.1 = some (argOf p.2).1 ∧ (argOf p.2).2 = .short := by
    intro n; cases n <;> decide
  exact all _ _ (Dict.mem_of_get? hs)

theorem isInstance_iff {v : Val} {n : Name} : isInstance v ⟨.short, n⟩ = true ↔ ∃ c o, v = .obj c o ∧ Derives c ⟨.short, n⟩ := by
  cases v <;> simp [isInstance, derives_iff]

/-- The outcome of the body of a setter. -/
theorem setter_takes (ls : List (List Val)) (s : Setter) (hr : (argOf s).2 = .short) (v : Val) (f : Dict String Val) :
    (Fits ls (argOf s).1 v → (s.run ls v f).2 = .ok ()) ∧
    (WrongWord (argOf s).1 v → (s.run ls v f).2 = .error .valueError) ∧
    (¬ Fits ls (argOf s).1 v → ¬ WrongWord (argOf s).1 v → (s.run ls v f).2 = .error .typeError) := by
  have obj : ∀ (c : Cls), c.root = .short → (isInstance v c = true ↔ ∃ k o, v = .obj k o ∧ Derives k ⟨.short, c.name⟩) := by
    rintro ⟨r, n⟩ rfl
    exact isInstance_iff
  cases s with
  | oneOf k l =>
    cases v with
    | str x =>
      by_cases h : x ∈ l
      · simp [argOf, Fits, WrongWord, Setter.run, h]
      · simp [argOf, Fits, WrongWord, Setter.run, h]
    | _ => simp [argOf, Fits, WrongWord, Setter.run]
  | strList k =>
    cases v with
    | list r =>
      cases hl : ls[r]? with
      | none => simp [argOf, Fits, WrongWord, Setter.run, hl]
      | some l =>
        have : l.any (fun e => !e.isStr) = false ↔ ∀ e ∈ l, ∃ s, e = .str s := by
          simp only [List.any_eq_false, Bool.not_eq_true, Bool.not_eq_false']
          refine forall₂_congr fun e _ => ?_
          cases e <;> simp [Val.isStr]
        by_cases h : l.any (fun e => !e.isStr) = true
        · have h' : ¬ ∀ e ∈ l, ∃ s, e = .str s := fun c => by rw [this.2 c] at h; cases h
          simp only [argOf, Fits, WrongWord, Setter.run, hl, if_pos h]
          refine ⟨?_, ?_, fun _ _ => trivial⟩
          · rintro ⟨r', l', e, h1, h2⟩
            cases e
            rw [hl] at h1
            cases h1
            exact absurd h2 h'
          · rintro ⟨l', s, e, -⟩
            cases e
        · have h' := this.1 (by simpa using h)
          simp only [argOf, Fits, WrongWord, Setter.run, hl, if_neg h]
          refine ⟨fun _ => trivial, ?_, fun c _ => absurd ⟨r, l, rfl, hl, h'⟩ c⟩
          rintro ⟨l', s, e, -⟩
          cases e
    | _ => simp [argOf, Fits, WrongWord, Setter.run]
  | objList k c =>
    cases v with
    | list r =>
      cases hl : ls[r]? with
      | none => simp [argOf, Fits, WrongWord, Setter.run, hl]
      | some l =>
        have inst : ∀ e : Val, isInstance e c = true ↔ ∃ k o, e = .obj k o ∧ Derives k ⟨.short, c.name⟩ := by
          intro e
          obtain ⟨r, n⟩ := c
          have : r = .short := hr
          subst this
          exact isInstance_iff
        have : l.any (fun e => !isInstance e c) = false ↔ ∀ e ∈ l, ∃ k o, e = .obj k o ∧ Derives k ⟨.short, c.name⟩ := by
          simp only [List.any_eq_false, Bool.not_eq_true, Bool.not_eq_false']
          exact forall₂_congr fun e _ => inst e
        by_cases h : l.any (fun e => !isInstance e c) = true
        · have h' : ¬ ∀ e ∈ l, ∃ k o, e = .obj k o ∧ Derives k ⟨.short, c.name⟩ := fun c => by rw [this.2 c] at h; cases h
          simp only [argOf, Fits, WrongWord, Setter.run, hl, if_pos h]
          refine ⟨?_, ?_, fun _ _ => trivial⟩
          · rintro ⟨r', l', e, h1, h2⟩
            cases e
            rw [hl] at h1
            cases h1
            exact absurd h2 h'
          · rintro ⟨l', s, e, -⟩
            cases e
        · have h' := this.1 (by simpa using h)
          simp only [argOf, Fits, WrongWord, Setter.run, hl, if_neg h]
          refine ⟨fun _ => trivial, ?_, fun c _ => absurd ⟨r, l, rfl, hl, h'⟩ c⟩
          rintro ⟨l', s, e, -⟩
          cases e
    | _ => simp [argOf, Fits, WrongWord, Setter.run]
  | noneThenObj k c =>
    have o := obj c hr
    by_cases h : isInstance v c = true
    · simp only [argOf, Fits, WrongWord, Setter.run, h]
      refine ⟨fun _ => rfl, ?_, fun c _ => absurd (o.1 h) c⟩
      rintro ⟨l', s, e, -⟩
      cases e
    · simp only [argOf, Fits, WrongWord, Setter.run, h]
      refine ⟨fun c => absurd (o.2 c) h, ?_, fun _ _ => rfl⟩
      rintro ⟨l', s, e, -⟩
      cases e
  | optObj k c =>
    have o := obj c hr
    have no : ∀ v, ¬ WrongWord (.objectOrNone c.name) v := by
      rintro v ⟨l', s, e, -⟩
      cases e
    by_cases hn : v = .none
    · subst hn
      exact ⟨fun _ => by simp [Setter.run], fun c => absurd c (no _), fun c _ => absurd (.inl rfl) c⟩
    · by_cases h : isInstance v c = true
      · exact ⟨fun _ => by simp [Setter.run, hn, h], fun c => absurd c (no _), fun c _ => absurd (.inr (o.1 h)) c⟩
      · refine ⟨?_, fun c => absurd c (no _), fun _ _ => by simp [Setter.run, hn, h]⟩
        rintro (c | c)
        · exact absurd c hn
        · exact absurd (o.2 c) h
  | _ => cases v <;> simp [argOf, Fits, WrongWord, Setter.run, Val.isStr, Val.isBool]

end Bpmn.Classes

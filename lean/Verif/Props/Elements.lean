import Verif.Lemmas.Setters
/-!
# Element classes: C49, C50, C52, C53
-/
set_option linter.unusedSimpArgs false

namespace Bpmn.Props
open Bpmn.Classes Bpmn.Spec.Elements

/-! ## C49 -/

/-- C49: in every history in which the client leaves alone the lists held by objects, every getter of every object but
`get_target_ref` returns a value of the documented type. -/
theorem C49_documented_types (cs : List Call) (h : HandsOff {} cs) (o : Nat) (g : String) (v : Val)
    (hg : callGetter (Call.run {} cs) o g = .ok v) (ht : g ≠ "get_target_ref") :
    ∃ kd, documented g = some kd ∧ HasKind (Call.run {} cs).lists kd v := by
  have hw : WorldOk False (Call.run {} cs) := run_ok cs (by intro p hp; simp at hp) h (fun f => f.elim)
  rw [callGetter_eq] at hg
  split at hg
  · simp at hg
  · rename_i c f ho
    split at hg
    · simp at hg
    · rename_i k hk
      split at hg
      · rename_i u hu
        cases hg
        obtain ⟨⟨e, _⟩, hiff, _⟩ := findGetter_fit hk
        have := ((hw _ (List.mem_of_getElem? ho)).2 k _ hu).2 (fun t => absurd (hiff.1 t) ht)
        rwa [e]
      · simp at hg

/-- C49, target references: never `None`; strings if only strings were given to the constructors of flows. -/
theorem C49_target_reference (cs : List Call) (h : HandsOff {} cs) (o : Nat) (v : Val)
    (hg : callGetter (Call.run {} cs) o "get_target_ref" = .ok v) :
    v ≠ .none ∧ (StringTargets cs → ∃ s, v = .str s) := by
  rw [callGetter_eq] at hg
  split at hg
  · simp at hg
  · rename_i c f ho
    split at hg
    · simp at hg
    · rename_i k hk
      split at hg
      · rename_i u hu
        cases hg
        obtain ⟨⟨e, _⟩, hiff, _⟩ := findGetter_fit hk
        have ht : isTarget k = true := hiff.2 rfl
        constructor
        · have hw : WorldOk False (Call.run {} cs) := run_ok cs (by intro p hp; simp at hp) h (fun f => f.elim)
          exact ((hw _ (List.mem_of_getElem? ho)).2 k _ hu).1 ht
        · intro hs
          have hw : WorldOk True (Call.run {} cs) := run_ok cs (by intro p hp; simp at hp) h (fun _ => hs)
          obtain ⟨kd, h1, h2⟩ := ((hw _ (List.mem_of_getElem? ho)).2 k _ hu).2 (fun _ => trivial)
          rw [← e] at h1
          simp [documented] at h1
          subst h1
          exact h2
      · simp at hg

/-- C49, the exception: the constructor of a flow stores any target reference that is not `None`. -/
theorem C49_target_not_checked (v : Val) (hv : v ≠ .none) :
    callGetter (Call.run {} [.construct ⟨.short, .sequenceFlow⟩ (.str "a") v]) 0 "get_target_ref" = .ok v ∧
    callGetter (Call.run {} [.construct ⟨.short, .messageFlow⟩ (.str "a") v]) 0 "get_target_ref" = .ok v := by
  cases v <;> first | exact absurd rfl hv | exact ⟨rfl, rfl⟩

/-- C49 needs the hypothesis on lists: the list that `set_incoming` has checked is shared with the caller. -/
theorem C49_shared_list (v : Val) :
    ∃ cs w, w = Call.run {} cs ∧ callGetter w 0 "get_incoming" = .ok (.list 2) ∧ w.lists[2]? = some [.str "f1", v] :=
  ⟨[.construct ⟨.short, .task⟩ .none .none, .newList [.str "f1"], .set 0 "set_incoming" (.list 2), .append 2 v], _, rfl, rfl, rfl⟩

/-- A history with successes and failures that meets the hypotheses of C49: a list filled before it is stored, rejected values. -/
def elementHistory : List Call :=
  [.construct ⟨.short, .sequenceFlow⟩ (.str "a") (.str "b"), .newList [], .append 0 (.obj ⟨.short, .sequenceFlow⟩ 0),
   .construct ⟨.short, .process⟩ .none .none, .set 1 "set_flow_element_list" (.list 0), .set 1 "set_process_type" (.str "Secret"),
   .set 1 "set_is_closed" (.bool true), .set 0 "set_id" (.other "5"), .set 0 "set_target_ref" (.str "c")]

example : HandsOff {} elementHistory ∧ StringTargets [Call.construct ⟨.short, .sequenceFlow⟩ (.str "a") (.str "b")] ∧
    callGetter (Call.run {} elementHistory) 1 "get_flow_element_list" = .ok (.list 0) ∧
    callGetter (Call.run {} elementHistory) 1 "get_process_type" = .ok (.str "None") ∧
    callGetter (Call.run {} elementHistory) 1 "is_closed" = .ok (.bool true) ∧
    callGetter (Call.run {} elementHistory) 0 "get_target_ref" = .ok (.str "c") := by
  refine ⟨?_, ?_, rfl, rfl, rfl, rfl⟩
  · refine ⟨by simp, by simp, ?_, by simp, by simp, by simp, by simp, by simp, by simp, trivial⟩
    rintro r v h
    cases h
    rintro ⟨o, g, hg⟩
    rw [callGetter_eq] at hg
    split at hg
    · simp at hg
    · rename_i c f ho
      split at hg
      · simp at hg
      · rename_i k hk
        split at hg
        · rename_i u hu
          cases hg
          cases o with
          | zero =>
            simp [Call.exec, construct, takesRefs, Val.isStr, allFields, mro, mroFuel, classDef, initFields, Dict.set] at ho
            obtain ⟨rfl, rfl⟩ := ho
            have := Dict.mem_of_get? hu
            simp at this
          | succ o => simp [Call.exec, construct, takesRefs, Val.isStr] at ho
        · simp at hg
  · intro c a b hm
    simp at hm
    exact ⟨_, hm.2.2⟩

/-! ## C50 -/

/-- C50: `set_id(None)`, `set_message_ref(None)` and `set_condition_expression(None)` raise `TypeError` and store `None`. -/
theorem C50_none_raises_and_is_stored (w : World) (o : Nat) (c : Cls) (f : Dict String Val) (ho : w.objects[o]? = some (c, f))
    (m : String) (hm : (m = "set_id" ∧ IsA c.name .baseElement) ∨ (m = "set_message_ref" ∧ c.name = .messageFlow) ∨
      (m = "set_condition_expression" ∧ c.name = .sequenceFlow)) :
    (callSetter w o m .none).2 = .error .typeError ∧ callGetter (callSetter w o m .none).1 o (getterOf m) = .ok .none := by
  have key : ∀ (k : String) (s : Setter), (s = .noneThenStr k ∨ ∃ d, s = .noneThenObj k d) → findSetter c m = some s →
      findGetter c (getterOf m) = some k →
      (callSetter w o m .none).2 = .error .typeError ∧ callGetter (callSetter w o m .none).1 o (getterOf m) = .ok .none := by
    intro k s hs hf hg
    have hlt : o < w.objects.length := (List.getElem?_eq_some_iff.1 ho).1
    have hr : s.run w.lists .none f = (f.set k .none, .error .typeError) := by
      rcases hs with rfl | ⟨d, rfl⟩ <;> rfl
    rw [callGetter_eq, callSetter_eq]
    simp only [ho, hf, hr]
    refine ⟨trivial, ?_⟩
    simp only [List.getElem?_set_self hlt, hg]
    simp [Dict.get?_set]
  obtain ⟨r, n⟩ := c
  rcases hm with ⟨rfl, h⟩ | ⟨rfl, h⟩ | ⟨rfl, h⟩
  · have h : ∃ d ∈ mro ⟨r, n⟩, d.name = .baseElement := isA_iff.1 h
    refine key "_BaseElement__id" _ (.inl rfl) ?_ ?_ <;> revert h <;> cases r <;> cases n <;> decide
  · have h : n = .messageFlow := h
    subst h
    cases r <;> exact key "_MessageFlow__message_ref" _ (.inl rfl) rfl rfl
  · have h : n = .sequenceFlow := h
    subst h
    cases r <;> exact key "_SequenceFlow__condition_expression" _ (.inr ⟨_, rfl⟩) rfl rfl

/-- C50: no other failing call of a setter changes anything. -/
theorem C50_other_failures_change_nothing (w : World) (o : Nat) (m : String) (v : Val) (e : PyErr)
    (h : (callSetter w o m v).2 = .error e) :
    (callSetter w o m v).1 = w ∨ (v = .none ∧ m ∈ ["set_id", "set_message_ref", "set_condition_expression"]) := by
  rw [callSetter_eq] at h ⊢
  split at h
  · exact .inl rfl
  · rename_i c f ho
    split at h
    · exact .inl rfl
    · rename_i s hs
      rcases setter_outcome w.lists s v f with ⟨h1, _⟩ | ⟨_, h1 | ⟨h1, _, _, h2⟩⟩
      · rw [h1] at h; simp at h
      · left
        have hlt := (List.getElem?_eq_some_iff.1 ho)
        simp only [h1]
        obtain ⟨hlt, he⟩ := hlt
        rw [← he, List.set_getElem_self]
      · right
        refine ⟨h1, ?_⟩
        have := mem_of_findSetter hs
        obtain ⟨d, _, hd⟩ := List.mem_flatMap.1 this
        have all : ∀ n : Name, ∀ p ∈ (classDef n).setters, (match p.2 with | .noneThenStr _ => true | .noneThenObj _ _ => true | _ => false) = true →
            p.1 ∈ ["set_id", "set_message_ref", "set_condition_expression"] := by
          intro n; cases n <;> decide
        refine all d.name _ hd ?_
        rcases h2 with ⟨k, rfl⟩ | ⟨k, c', rfl⟩ <;> rfl

example : let w := Call.run {} [.construct ⟨.short, .task⟩ .none .none, .set 0 "set_id" (.str "t")]
    callGetter w 0 "get_id" = .ok (.str "t") ∧ (callSetter w 0 "set_id" .none).2 = .error .typeError ∧
    callGetter (callSetter w 0 "set_id" .none).1 0 "get_id" = .ok .none ∧
    callGetter (callSetter w 0 "set_id" (.bool true)).1 0 "get_id" = .ok (.str "t") := ⟨rfl, rfl, rfl, rfl⟩

/-! ## C52 -/

theorem flowElementSetter {c : Cls} (hc : c.name = .process ∨ c.name = .subProcess) :
    ∃ key, findSetter c "set_flow_element_list" = some (.objList key ⟨.short, .flowElement⟩) := by
  obtain ⟨cr, cn⟩ := c
  rcases hc with h | h <;> (have h : cn = _ := h) <;> subst h <;> cases cr <;> exact ⟨_, rfl⟩

/-- C52: `set_flow_element_list` of a process or subprocess refuses every list with an object of a class derived from `FlowNode`
(tasks, events, gateways), however the classes were imported, although a flow node is a flow element; nothing is stored. -/
theorem C52_flow_nodes_refused (w : World) (o : Nat) (c : Cls) (f : Dict String Val) (ho : w.objects[o]? = some (c, f))
    (hc : c.name = .process ∨ c.name = .subProcess) (r : Nat) (l : List Val) (hl : w.lists[r]? = some l) (k : Cls) (i : Nat)
    (hk : IsA k.name .flowNode) (hm : Val.obj k i ∈ l) :
    callSetter w o "set_flow_element_list" (.list r) = (w, .error .typeError) ∧ IsA k.name .flowElement := by
  have hno : isInstance (.obj k i) ⟨.short, .flowElement⟩ = false := by
    obtain ⟨kr, kn⟩ := k
    have hk' : IsA kn .flowNode := hk
    have no : ∀ n m : Name, IsA n m → m = .flowNode → n ∉ [Name.baseElement, .flowElement, .sequenceFlow, .messageFlow, .participant,
        .lane, .laneSet, .conditionExpression, .rootElement, .callableElement, .eventDefinition, .process] := by
      intro n m h
      induction h with
      | refl n => rintro rfl; decide
      | step he _ ih => intro e; have := ih e; cases he <;> simp at this ⊢
    have := no _ _ hk' rfl
    cases kr <;> cases kn <;> first | rfl | (exfalso; revert this; decide)
  have hsome : l.any (fun e => !isInstance e ⟨.short, .flowElement⟩) = true :=
    List.any_eq_true.2 ⟨_, hm, by simp [hno]⟩
  refine ⟨?_, ?_⟩
  · have run : ∀ key : String, Setter.run w.lists (.objList key ⟨.short, .flowElement⟩) (.list r) f = (f, .error .typeError) := by
      intro key
      simp only [Setter.run, hl, hsome, if_true]
    obtain ⟨hlt, he⟩ := List.getElem?_eq_some_iff.1 ho
    obtain ⟨key, hs⟩ := flowElementSetter hc
    rw [callSetter_eq]
    simp only [ho, hs, run]
    rw [← he, List.set_getElem_self]
  · have trans : ∀ n m : Name, IsA n m → m = .flowNode → IsA n .flowElement := by
      intro n m h
      induction h with
      | refl n => rintro rfl; exact .step .flowNode (.refl _)
      | step he _ ih => intro e; exact .step he (ih e)
    exact trans _ _ hk rfl

/-- C52: what is accepted: lists of sequence flows (and of bare `FlowElement` objects). -/
theorem C52_accepted (w : World) (o : Nat) (c : Cls) (f : Dict String Val) (ho : w.objects[o]? = some (c, f))
    (hc : c.name = .process ∨ c.name = .subProcess) (r : Nat) (l : List Val) (hl : w.lists[r]? = some l) :
    (callSetter w o "set_flow_element_list" (.list r)).2 = .ok () ↔
      ∀ e ∈ l, ∃ k i, e = .obj k i ∧ (k.name = .sequenceFlow ∨ k = ⟨.short, .flowElement⟩) := by
  have inst : ∀ e, isInstance e ⟨.short, .flowElement⟩ = true ↔
      ∃ k i, e = .obj k i ∧ (k.name = .sequenceFlow ∨ k = ⟨.short, .flowElement⟩) := by
    intro e
    cases e with
    | obj k i =>
      have : isInstance (.obj k i) ⟨.short, .flowElement⟩ = true ↔ (k.name = .sequenceFlow ∨ k = ⟨.short, .flowElement⟩) := by
        obtain ⟨kr, kn⟩ := k
        cases kr <;> cases kn <;> simp [isInstance, mro, mroFuel, classDef]
      rw [this]
      constructor
      · intro h; exact ⟨k, i, rfl, h⟩
      · rintro ⟨k', i', e, h⟩; cases e; exact h
    | _ => simp [isInstance]
  have run : ∀ key : String, (Setter.run w.lists (.objList key ⟨.short, .flowElement⟩) (.list r) f).2 = .ok () ↔
      ∀ e ∈ l, isInstance e ⟨.short, .flowElement⟩ = true := by
    intro key
    simp only [Setter.run, hl]
    split
    · rename_i h
      rw [List.any_eq_true] at h
      obtain ⟨e, he, h⟩ := h
      simp only [reduceCtorEq, false_iff]
      intro hall
      simp [hall e he] at h
    · rename_i h
      simp at h
      simpa using h
  rw [callSetter_eq]
  have goal : (∀ e ∈ l, isInstance e ⟨.short, .flowElement⟩ = true) ↔
      ∀ e ∈ l, ∃ k i, e = .obj k i ∧ (k.name = .sequenceFlow ∨ k = ⟨.short, .flowElement⟩) :=
    forall₂_congr fun e _ => inst e
  rw [← goal]
  obtain ⟨key, hs⟩ := flowElementSetter hc
  rw [← run key]
  simp only [ho, hs]

example : let w := Call.run {} [.construct ⟨.short, .process⟩ .none .none, .construct ⟨.short, .task⟩ .none .none,
      .construct ⟨.long, .sequenceFlow⟩ (.str "a") (.str "b"), .newList [.obj ⟨.short, .task⟩ 1], .newList [.obj ⟨.long, .sequenceFlow⟩ 2]]
    w.lists[4]? = some [.obj ⟨.short, .task⟩ 1] ∧ (callSetter w 0 "set_flow_element_list" (.list 4)).2 = .error .typeError ∧
    (callSetter w 0 "set_flow_element_list" (.list 5)).2 = .ok () := ⟨rfl, rfl, rfl⟩

/-! ## C53 -/

/-- C53: a setter call that returns makes the getter of the attribute return the value, and changes the answer of no other getter of
the object, of no other object, and no list. -/
theorem C53_set_then_get (w : World) (o : Nat) (m : String) (v : Val) (h : (callSetter w o m v).2 = .ok ()) :
    callGetter (callSetter w o m v).1 o (getterOf m) = .ok v ∧
    (∀ g, g ≠ getterOf m → callGetter (callSetter w o m v).1 o g = callGetter w o g) ∧
    (∀ o' g, o' ≠ o → callGetter (callSetter w o m v).1 o' g = callGetter w o' g) ∧
    (callSetter w o m v).1.lists = w.lists := by
  rw [callSetter_eq] at h ⊢
  split at h
  · simp at h
  · rename_i c f ho
    split at h
    · simp at h
    · rename_i s hs
      obtain ⟨s', hs', hg, huniq⟩ := setter_getter c _ (mem_of_findSetter hs)
      simp only [hs] at hs'
      cases hs'
      have hlt : o < w.objects.length := (List.getElem?_eq_some_iff.1 ho).1
      rcases setter_outcome w.lists s v f with ⟨_, h2, h3⟩ | ⟨⟨e, h1⟩, _⟩
      · simp only [hs, callGetter_eq, ho]
        refine ⟨?_, ?_, ?_, trivial⟩
        · simp [hlt, hg, h2]
        · intro g hne
          simp only [List.getElem?_set_self hlt]
          cases hk : findGetter c g with
          | none => rfl
          | some k =>
            have hk' : k ≠ setterKey s := by
              rintro rfl
              exact hne (huniq _ (mem_of_findGetter hk) hk)
            simp only [h3 k hk']
        · intro o' g hne
          rw [List.getElem?_set_ne (Ne.symm hne)]
      · rw [h1] at h; simp at h

example : let w := Call.run {} [.construct ⟨.short, .exclusiveGateway⟩ .none .none, .set 0 "set_name" (.str "x")]
    (callSetter w 0 "set_default" (.str "f1")).2 = .ok () ∧
    callGetter (callSetter w 0 "set_default" (.str "f1")).1 0 "get_default" = .ok (.str "f1") ∧
    callGetter (callSetter w 0 "set_default" (.str "f1")).1 0 "get_name" = .ok (.str "x") := ⟨rfl, rfl, rfl⟩

end Bpmn.Props

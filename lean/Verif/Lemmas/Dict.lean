import Verif.Py.Basic
/-! Lemmas about `Dict` and the list helpers of `Verif.Py.Basic`. -/
set_option linter.unusedSectionVars false
set_option linter.unusedSimpArgs false

namespace Bpmn

namespace Dict
variable {κ α β : Type} [DecidableEq κ]

@[simp] theorem get?_nil (k : κ) : get? ([] : Dict κ α) k = none := rfl
@[simp] theorem keys_nil : keys ([] : Dict κ α) = [] := rfl
@[simp] theorem keys_cons (p : κ × α) (d : Dict κ α) : keys (p :: d) = p.1 :: keys d := rfl

theorem get?_cons (k : κ) (v : α) (d : Dict κ α) (x : κ) :
    get? ((k, v) :: d) x = if k = x then some v else get? d x := rfl

@[simp] theorem keys_append (d e : Dict κ α) : keys (d ++ e) = keys d ++ keys e := by simp [keys]

theorem get?_append (d e : Dict κ α) (k : κ) : get? (d ++ e) k = (get? d k).or (get? e k) := by
  induction d with
  | nil => simp
  | cons p d ih =>
    obtain ⟨a, v⟩ := p
    by_cases h : a = k <;> simp [get?, h, ih]

theorem get?_eq_none_iff (d : Dict κ α) (k : κ) : get? d k = none ↔ k ∉ keys d := by
  induction d with
  | nil => simp
  | cons p d ih =>
    obtain ⟨a, v⟩ := p
    by_cases h : a = k
    · simp [get?, h]
    · have h' : k ≠ a := fun e => h e.symm
      simp [get?, h, ih, h']

theorem get?_isSome_iff (d : Dict κ α) (k : κ) : (get? d k).isSome ↔ k ∈ keys d := by
  have := get?_eq_none_iff d k
  cases h : get? d k <;> simp_all

theorem has_iff (d : Dict κ α) (k : κ) : has d k = true ↔ k ∈ keys d := get?_isSome_iff d k

theorem has_false_iff (d : Dict κ α) (k : κ) : has d k = false ↔ k ∉ keys d := by
  rw [← has_iff]; simp

theorem mem_of_get? {d : Dict κ α} {k : κ} {v : α} (h : get? d k = some v) : (k, v) ∈ d := by
  induction d with
  | nil => simp at h
  | cons p d ih =>
    obtain ⟨a, w⟩ := p
    by_cases e : a = k
    · simp [get?, e] at h; simp [e, h]
    · simp [get?, e] at h; exact List.mem_cons_of_mem _ (ih h)

theorem mem_keys_of_get? {d : Dict κ α} {k : κ} {v : α} (h : get? d k = some v) : k ∈ keys d :=
  (get?_isSome_iff d k).1 (by simp [h])

theorem mem_keys_of_mem {d : Dict κ α} {k : κ} {v : α} (h : (k, v) ∈ d) : k ∈ keys d :=
  List.mem_map_of_mem (f := Prod.fst) h

theorem get?_of_mem {d : Dict κ α} {k : κ} {v : α} (nd : (keys d).Nodup) (h : (k, v) ∈ d) : get? d k = some v := by
  induction d with
  | nil => simp at h
  | cons p d ih =>
    obtain ⟨a, w⟩ := p
    simp only [keys_cons, List.nodup_cons] at nd
    by_cases e : a = k
    · rcases List.mem_cons.1 h with h | h
      · simp [get?, e]; exact (Prod.mk.inj h).2.symm
      · exact absurd (mem_keys_of_mem h) (e ▸ nd.1)
    · rcases List.mem_cons.1 h with h | h
      · exact absurd (Prod.mk.inj h).1.symm e
      · simp [get?, e, ih nd.2 h]

theorem get?_eq_some_iff {d : Dict κ α} (nd : (keys d).Nodup) {k : κ} {v : α} : get? d k = some v ↔ (k, v) ∈ d :=
  ⟨mem_of_get?, get?_of_mem nd⟩

theorem get?_set (d : Dict κ α) (k x : κ) (v : α) : get? (set d k v) x = if k = x then some v else get? d x := by
  induction d with
  | nil => simp [set, get?]
  | cons p d ih =>
    obtain ⟨a, w⟩ := p
    by_cases h : a = k
    · subst h; by_cases e : a = x <;> simp [set, get?, e]
    · by_cases e : a = x
      · subst e; simp [set, get?, h, Ne.symm h]
      · simp [set, get?, h, e, ih]

@[simp] theorem get?_set_self (d : Dict κ α) (k : κ) (v : α) : get? (set d k v) k = some v := by simp [get?_set]

theorem get?_set_ne (d : Dict κ α) {k x : κ} (v : α) (h : k ≠ x) : get? (set d k v) x = get? d x := by
  simp [get?_set, h]

theorem set_of_not_mem (d : Dict κ α) {k : κ} (v : α) (h : k ∉ keys d) : set d k v = d ++ [(k, v)] := by
  induction d with
  | nil => rfl
  | cons p d ih =>
    obtain ⟨a, w⟩ := p
    simp only [keys_cons, List.mem_cons, not_or] at h
    simp [set, Ne.symm h.1, ih h.2]

theorem keys_set_of_mem (d : Dict κ α) {k : κ} (v : α) (h : k ∈ keys d) : keys (set d k v) = keys d := by
  induction d with
  | nil => simp at h
  | cons p d ih =>
    obtain ⟨a, w⟩ := p
    by_cases e : a = k
    · simp [set, e]
    · simp only [keys_cons, List.mem_cons] at h
      have : k ∈ keys d := h.resolve_left fun e' => e e'.symm
      simp [set, e, ih this]

theorem keys_set (d : Dict κ α) (k : κ) (v : α) : keys (set d k v) = if k ∈ keys d then keys d else keys d ++ [k] := by
  by_cases h : k ∈ keys d
  · simp [h, keys_set_of_mem d v h]
  · simp [h, set_of_not_mem d v h]

theorem mem_keys_set (d : Dict κ α) (k x : κ) (v : α) : x ∈ keys (set d k v) ↔ x = k ∨ x ∈ keys d := by
  rw [keys_set]; split <;> rename_i h
  · constructor
    · exact Or.inr
    · rintro (rfl | h') <;> assumption
  · simp [or_comm]

theorem nodup_keys_set {d : Dict κ α} (h : (keys d).Nodup) (k : κ) (v : α) : (keys (set d k v)).Nodup := by
  rw [keys_set]; split
  · exact h
  · rename_i hk
    rw [List.nodup_append]
    refine ⟨h, by simp, ?_⟩
    intro a ha b hb
    simp at hb; subst hb
    intro e; subst e; exact hk ha

@[simp] theorem keys_modify (d : Dict κ α) (k : κ) (f : α → α) : keys (modify d k f) = keys d := by
  induction d with
  | nil => rfl
  | cons p d ih =>
    obtain ⟨a, w⟩ := p
    by_cases e : a = k <;> simp [modify, e, ih]

theorem get?_modify (d : Dict κ α) (k x : κ) (f : α → α) :
    get? (modify d k f) x = if k = x then (get? d x).map f else get? d x := by
  induction d with
  | nil => simp [modify]
  | cons p d ih =>
    obtain ⟨a, w⟩ := p
    by_cases h : a = k
    · subst h; by_cases e : a = x <;> simp [modify, get?, e]
    · by_cases e : a = x
      · subst e; simp [modify, get?, h, Ne.symm h]
      · simp [modify, get?, h, e, ih]

@[simp] theorem get?_modify_self (d : Dict κ α) (k : κ) (f : α → α) : get? (modify d k f) k = (get? d k).map f := by
  simp [get?_modify]

theorem get?_modify_ne (d : Dict κ α) {k x : κ} (f : α → α) (h : k ≠ x) : get? (modify d k f) x = get? d x := by
  simp [get?_modify, h]

theorem modify_of_not_mem (d : Dict κ α) {k : κ} (f : α → α) (h : k ∉ keys d) : modify d k f = d := by
  induction d with
  | nil => rfl
  | cons p d ih =>
    obtain ⟨a, w⟩ := p
    simp only [keys_cons, List.mem_cons, not_or] at h
    simp [modify, Ne.symm h.1, ih h.2]

theorem modify_append (d e : Dict κ α) {k : κ} (f : α → α) (h : k ∉ keys d) : modify (d ++ e) k f = d ++ modify e k f := by
  induction d with
  | nil => rfl
  | cons p d ih =>
    obtain ⟨a, w⟩ := p
    simp only [keys_cons, List.mem_cons, not_or] at h
    simp [modify, Ne.symm h.1, ih h.2]

theorem modify_modify (d : Dict κ α) (k : κ) (f g : α → α) : modify (modify d k f) k g = modify d k (g ∘ f) := by
  induction d with
  | nil => rfl
  | cons p d ih =>
    obtain ⟨a, w⟩ := p
    by_cases e : a = k <;> simp [modify, e, ih]

theorem length_modify (d : Dict κ α) (k : κ) (f : α → α) : (modify d k f).length = d.length := by
  have := congrArg List.length (keys_modify d k f)
  simpa [keys] using this

theorem keys_erase (d : Dict κ α) (k : κ) : keys (erase d k) = (keys d).erase k := by
  induction d with
  | nil => rfl
  | cons p d ih =>
    obtain ⟨a, w⟩ := p
    by_cases e : a = k
    · simp [erase, e]
    · simp [erase, e, ih, List.erase_cons]

theorem get?_erase_ne (d : Dict κ α) {k x : κ} (h : k ≠ x) : get? (erase d k) x = get? d x := by
  induction d with
  | nil => rfl
  | cons p d ih =>
    obtain ⟨a, w⟩ := p
    by_cases e : a = k
    · subst e; simp [erase, get?, h]
    · by_cases e' : a = x
      · subst e'; simp [erase, get?, e]
      · simp [erase, get?, e, e', ih]

theorem get?_erase_self {d : Dict κ α} (nd : (keys d).Nodup) (k : κ) : get? (erase d k) k = none := by
  rw [get?_eq_none_iff, keys_erase]
  intro h
  exact (List.Nodup.mem_erase_iff nd).1 h |>.1 rfl

theorem find?_eq_get? (d : Dict κ α) (k : κ) : d.find? (·.1 == k) = (get? d k).map fun v => (k, v) := by
  induction d with
  | nil => rfl
  | cons p d ih =>
    obtain ⟨a, w⟩ := p
    by_cases e : a = k
    · simp [get?, e]
    · simp [get?, e, List.find?_cons, ih]

theorem mem_keys_iff_exists {d : Dict κ α} {k : κ} : k ∈ keys d ↔ ∃ v, (k, v) ∈ d := by
  simp [keys]

end Dict

/-! ### `need`, `pyFilter`, `pyFind` -/

@[simp] theorem need_some {α : Type} (a : α) : need (some a) = .ok a := rfl
@[simp] theorem need_none {α : Type} : need (none : Option α) = .error .keyError := rfl

@[simp] theorem except_pure {α : Type} (a : α) : (pure a : Py α) = .ok a := rfl
@[simp] theorem except_bind_ok {α β : Type} (a : α) (f : α → Py β) : (Except.ok a >>= f) = f a := rfl
@[simp] theorem except_bind_error {α β : Type} (e : PyErr) (f : α → Py β) : ((Except.error e : Py α) >>= f) = .error e := rfl
theorem except_bind_eq_ok {α β : Type} {x : Py α} {f : α → Py β} {b : β} (h : (x >>= f) = .ok b) : ∃ a, x = .ok a ∧ f a = .ok b := by
  cases x with
  | error e => cases h
  | ok a => exact ⟨a, rfl, h⟩

@[simp] theorem except_map_ok {α β : Type} (f : α → β) (a : α) : (f <$> (Except.ok a : Py α)) = .ok (f a) := rfl
@[simp] theorem except_map_error {α β : Type} (f : α → β) (e : PyErr) : (f <$> (Except.error e : Py α)) = .error e := rfl

theorem pyFilter_eq_filter {α : Type} {p : α → Py Bool} {q : α → Bool} {l : List α}
    (h : ∀ x ∈ l, p x = .ok (q x)) : pyFilter p l = .ok (l.filter q) := by
  induction l with
  | nil => rfl
  | cons x l ih =>
    have hx := h x (by simp)
    have hl := ih fun y hy => h y (by simp [hy])
    simp only [pyFilter, hx, hl, except_bind_ok, except_pure, List.filter_cons]

theorem pyFilter_error {α : Type} {p : α → Py Bool} {l : List α} {e : PyErr}
    (h : ∀ x ∈ l, (∃ b, p x = .ok b) ∨ p x = .error e) (hx : ∃ x ∈ l, p x = .error e) : pyFilter p l = .error e := by
  induction l with
  | nil => simp at hx
  | cons x l ih =>
    obtain ⟨y, hy, hp⟩ := hx
    rcases h x (by simp) with ⟨b, hb⟩ | hb
    · rcases List.mem_cons.1 hy with rfl | hy
      · simp [hb] at hp
      · have := ih (fun z hz => h z (by simp [hz])) ⟨y, hy, hp⟩
        simp [pyFilter, hb, this]
    · simp [pyFilter, hb]

theorem pyFind_eq_find? {α : Type} {p : α → Py Bool} {q : α → Bool} {l : List α}
    (h : ∀ x ∈ l, p x = .ok (q x)) : pyFind p l = .ok (l.find? q) := by
  induction l with
  | nil => rfl
  | cons x l ih =>
    have hx := h x (by simp)
    have hl := ih fun y hy => h y (by simp [hy])
    cases hq : q x <;> simp [pyFind, hx, hl, hq, List.find?_cons]

theorem pyFind_mem {α : Type} {p : α → Py Bool} {l : List α} {x : α} (h : pyFind p l = .ok (some x)) : x ∈ l := by
  induction l with
  | nil => simp [pyFind] at h
  | cons y l ih =>
    simp only [pyFind] at h
    cases hp : p y with
    | error e => rw [hp] at h; simp at h
    | ok b =>
      rw [hp] at h
      cases b
      · simp at h; exact List.mem_cons_of_mem _ (ih h)
      · simp at h; subst h; exact List.mem_cons_self

end Bpmn

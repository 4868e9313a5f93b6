import Verif.Model.LayoutMetrics
import Verif.Lemmas.Twins
/-!
Diagrams with the same nodes and flows in another order have longest paths of the same length.
-/
set_option linter.unusedSimpArgs false
set_option linter.unusedVariables false

namespace Bpmn
open Spec LayoutMetrics

theorem Twin.inj {d e : Diagram} {φ : Node → Node} (h : Twin d e φ) {a b : Node} (ha : a ∈ d.getNodes) (hb : b ∈ d.getNodes) (he : φ a = φ b) : a = b := by
  have : a.1 = b.1 := by rw [← h.id a ha, ← h.id b hb, he]
  have h1 := Dict.get?_of_mem h.ids (k := a.1) (v := a.2) ha
  have h2 := Dict.get?_of_mem h.ids (k := b.1) (v := b.2) hb
  rw [this, h2] at h1
  simp only [Option.some.injEq] at h1
  exact Prod.ext this h1.symm

theorem Twin.mem_map {d e : Diagram} {φ : Node → Node} (h : Twin d e φ) {m : Node} {l : List Node} (hm : m ∈ d.getNodes) (hl : ∀ n ∈ l, n ∈ d.getNodes) :
    φ m ∈ l.map φ ↔ m ∈ l := by
  constructor
  · intro hx
    obtain ⟨n, hn, e1⟩ := List.mem_map.1 hx
    exact h.inj (hl n hn) hm e1 ▸ hn
  · exact List.mem_map_of_mem

theorem targetNode_twin {d e : Diagram} {φ : Node → Node} (h : Twin d e φ) (i : String) :
    (∃ err, targetNode d i = .error err ∧ targetNode e i = .error err) ∨
    ∃ t, targetNode d i = .ok t ∧ targetNode e i = .ok (t.map φ) ∧ ∀ n, t = some n → n ∈ d.getNodes := by
  have hf := h.flow i
  unfold targetNode
  cases h1 : d.getFlowById i with
  | error err =>
    cases h2 : e.getFlowById i with
    | error err' =>
      simp only [flowView, h1, h2, Except.map, Except.error.injEq] at hf
      subst hf
      exact Or.inl ⟨_, rfl, rfl⟩
    | ok r => simp [flowView, h1, h2, Except.map] at hf
  | ok r =>
    cases h2 : e.getFlowById i with
    | error err' => simp [flowView, h1, h2, Except.map] at hf
    | ok r' =>
      simp only [flowView, h1, h2, Except.map, Except.ok.injEq] at hf
      cases r with
      | none =>
        cases r' with
        | none => exact Or.inl ⟨_, rfl, rfl⟩
        | some f' => simp at hf
      | some f =>
        cases r' with
        | none => simp at hf
        | some f' =>
          simp only [Option.map_some, Option.some.injEq] at hf
          simp only [bind, Except.bind, hf]
          cases ht : f.2.2.targetRef with
          | none => exact Or.inl ⟨_, rfl, rfl⟩
          | some t =>
            simp only [need, pure, Except.pure]
            exact Or.inr ⟨_, rfl, by rw [h.getNode], fun n hn => h.mem_of_getNode hn⟩

/-- The second path is the first one, node by node. -/
def MirrorP (φ : Node → Node) (x y : Py (List Node × Nat)) : Prop :=
  (∃ err, x = .error err ∧ y = .error err) ∨ ∃ p, x = .ok (p, p.length) ∧ y = .ok (p.map φ, p.length)

theorem longestLoop_twin {d e : Diagram} {φ : Node → Node} (h : Twin d e φ) {prev : List Node} (hp : ∀ n ∈ prev, n ∈ d.getNodes)
    {rec rec' : Node → Py (List Node × Nat)} (hr : ∀ n ∈ d.getNodes, MirrorP φ (rec n) (rec' (φ n))) : ∀ (l : List String) (best : List Node),
    (∃ err, longestLoop d prev rec l best = .error err ∧ longestLoop e (prev.map φ) rec' l (best.map φ) = .error err) ∨
    ∃ p, longestLoop d prev rec l best = .ok p ∧ longestLoop e (prev.map φ) rec' l (best.map φ) = .ok (p.map φ) := by
  intro l
  induction l with
  | nil => intro best; exact Or.inr ⟨best, rfl, rfl⟩
  | cons i l ih =>
    intro best
    unfold longestLoop
    rcases targetNode_twin h i with ⟨err, e1, e2⟩ | ⟨t, e1, e2, e3⟩
    · rw [e1, e2]; exact Or.inl ⟨_, rfl, rfl⟩
    · rw [e1, e2]
      simp only [bind, Except.bind]
      cases t with
      | none => exact Or.inl ⟨_, rfl, rfl⟩
      | some m =>
        have hm := e3 m rfl
        simp only [Option.map_some, h.mem_map hm hp]
        split
        · exact ih best
        · rcases hr m hm with ⟨err, k1, k2⟩ | ⟨p, k1, k2⟩
          · rw [k1, k2]; exact Or.inl ⟨_, rfl, rfl⟩
          · rw [k1, k2]
            simp only [List.length_map]
            split
            · exact ih p
            · exact ih best

theorem findLongestPath_twin {d e : Diagram} {φ : Node → Node} (h : Twin d e φ) : ∀ (fuel : Nat) (prev : List Node), (∀ n ∈ prev, n ∈ d.getNodes) →
    ∀ n ∈ d.getNodes, MirrorP φ (findLongestPath d fuel prev n) (findLongestPath e fuel (prev.map φ) (φ n)) := by
  intro fuel
  induction fuel with
  | zero => intro prev hp n hn; exact Or.inl ⟨_, rfl, rfl⟩
  | succ fuel ih =>
    intro prev hp n hn
    unfold findLongestPath
    rw [h.outgoing n hn]
    cases n.2.outgoing with
    | none => exact Or.inl ⟨_, rfl, rfl⟩
    | some out =>
      simp only [need, bind, Except.bind]
      have hp' : ∀ m ∈ prev ++ [n], m ∈ d.getNodes := by
        intro m hm
        rcases List.mem_append.1 hm with hm | hm
        · exact hp m hm
        · rw [List.mem_singleton.1 hm]; exact hn
      have e0 : prev.map φ ++ [φ n] = (prev ++ [n]).map φ := by simp
      rw [e0]
      split
      · exact Or.inr ⟨prev ++ [n], rfl, by simp [pure, Except.pure]⟩
      · rcases longestLoop_twin h hp (fun m hm => ih (prev ++ [n]) hp' m hm) out [] with ⟨err, e1, e2⟩ | ⟨p, e1, e2⟩
        · simp only [List.map_nil] at e2
          rw [e1, e2]; exact Or.inl ⟨_, rfl, rfl⟩
        · simp only [List.map_nil] at e2
          rw [e1, e2]; exact Or.inr ⟨p, rfl, by simp [pure, Except.pure]⟩

theorem noIncoming_twin {d e : Diagram} {φ : Node → Node} (h : Twin d e φ) :
    ∃ s s', noIncoming d.getNodes = .ok s ∧ noIncoming e.getNodes = .ok s' ∧ s'.Perm (s.map φ) ∧ ∀ n ∈ s, n ∈ d.getNodes := by
  have key : ∀ l : List Node, (∀ n ∈ l, n.2.incoming.isSome) → noIncoming l = .ok (l.filter fun n => (ins n).length = 0) := by
    intro l
    induction l with
    | nil => intro _; rfl
    | cons n l ih =>
      intro hl
      obtain ⟨i, hi⟩ := Option.isSome_iff_exists.1 (hl n (by simp))
      rw [noIncoming, ih fun m hm => hl m (by simp [hm])]
      simp [need, hi, ins, List.filter_cons, bind, Except.bind, pure, Except.pure]
  refine ⟨_, _, key _ fun n hn => (h.complete n hn).2.1, key _ fun n hn => (h.complete' n hn).2.1, ?_, fun n hn => List.mem_of_mem_filter hn⟩
  refine (h.perm.filter _).trans (List.Perm.of_eq ?_)
  rw [List.filter_map]
  congr 1
  apply List.filter_congr
  intro n hn
  simp [ins, h.incoming n hn]

theorem bestOf_ok {rec : Node → Py (List Node × Nat)} (hl : ∀ n p l, rec n = .ok (p, l) → l = p.length) : ∀ (s : List Node) (b r : List Node),
    bestOf rec s b = .ok r ↔ ∃ g : Node → List Node, (∀ n ∈ s, rec n = .ok (g n, (g n).length)) ∧
      r = s.foldl (fun best n => if (g n).length > best.length then g n else best) b := by
  intro s
  induction s with
  | nil => intro b r; simp [bestOf, eq_comm]
  | cons n s ih =>
    intro b r
    rw [bestOf]
    constructor
    · intro hx
      obtain ⟨⟨p, l⟩, h1, h2⟩ := except_bind_eq_ok hx
      have := hl n p l h1
      subst this
      obtain ⟨g, h3, h4⟩ := (ih _ _).1 h2
      classical
      refine ⟨fun m => if m = n then p else g m, ?_, ?_⟩
      · intro m hm
        by_cases hmn : m = n
        · simp [hmn, h1]
        · simp only [hmn, if_false]
          exact h3 m ((List.mem_cons.1 hm).resolve_left hmn)
      · rw [h4, List.foldl_cons]
        simp only [if_true]
        apply List.foldl_ext
        intro best m hm
        by_cases hmn : m = n
        · subst hmn
          have := h3 m hm
          rw [h1] at this
          simp only [Except.ok.injEq, Prod.mk.injEq] at this
          simp [← this.1]
        · simp [hmn]
    · rintro ⟨g, h1, rfl⟩
      rw [h1 n (by simp)]
      exact (ih _ _).2 ⟨g, fun m hm => h1 m (by simp [hm]), rfl⟩

theorem foldl_best_length {α β : Type} (g : α → List β) : ∀ (s : List α) (b : List β),
    (s.foldl (fun best n => if (g n).length > best.length then g n else best) b).length = s.foldl (fun k n => max k (g n).length) b.length := by
  intro s
  induction s with
  | nil => intro b; rfl
  | cons n s ih =>
    intro b
    rw [List.foldl_cons, ih, List.foldl_cons]
    congr 1
    split <;> omega

theorem bestOf_twin {φ : Node → Node} {s s' : List Node} (h3 : s'.Perm (s.map φ)) {rec rec' : Node → Py (List Node × Nat)}
    (hlen : ∀ n p l, rec n = .ok (p, l) → l = p.length) (hlen' : ∀ n p l, rec' n = .ok (p, l) → l = p.length)
    (hr : ∀ n ∈ s, MirrorP φ (rec n) (rec' (φ n))) {r : List Node} (hb : bestOf rec s [] = .ok r) :
    ∃ r', bestOf rec' s' [] = .ok r' ∧ r'.length = r.length := by
  obtain ⟨g, g1, g2⟩ := (bestOf_ok hlen s [] r).1 hb
  have key : ∀ n ∈ s, rec' (φ n) = .ok ((g n).map φ, ((g n).map φ).length) := by
    intro n hn
    rcases hr n hn with ⟨err, k1, k2⟩ | ⟨p, k1, k2⟩
    · rw [g1 n hn] at k1; cases k1
    · rw [g1 n hn] at k1
      simp only [Except.ok.injEq, Prod.mk.injEq] at k1
      rw [← k1.1] at k2
      rw [k2]; simp
  have key2 : ∀ m ∈ s', ∃ n ∈ s, φ n = m := by
    intro m hm
    obtain ⟨n, hn, e1⟩ := List.mem_map.1 (h3.mem_iff.1 hm)
    exact ⟨n, hn, e1⟩
  let G : Node → List Node := fun m => match rec' m with | .ok r => r.1 | .error _ => []
  have hG : ∀ n ∈ s, G (φ n) = (g n).map φ := by
    intro n hn
    show (match rec' (φ n) with | .ok r => r.1 | .error _ => []) = _
    rw [key n hn]
  refine ⟨s'.foldl (fun best n => if (G n).length > best.length then G n else best) [], (bestOf_ok hlen' s' [] _).2 ⟨G, ?_, rfl⟩, ?_⟩
  · intro m hm
    obtain ⟨n, hn, rfl⟩ := key2 m hm
    rw [hG n hn]; exact key n hn
  · rw [foldl_best_length, g2, foldl_best_length]
    rw [h3.foldl_eq' (fun x _ y _ z => by omega), List.foldl_map]
    apply List.foldl_ext
    intro k n hn
    rw [hG n hn, List.length_map]

theorem computeLongestPath_twin {d e : Diagram} {φ : Node → Node} (h : Twin d e φ) {fuel : Nat} {p : List Node} {k : Nat}
    (hx : computeLongestPath fuel d = .ok (p, k)) : ∃ q, computeLongestPath fuel e = .ok (q, k) := by
  obtain ⟨s, s', h1, h2, h3, h4⟩ := noIncoming_twin h
  have hlen : ∀ d : Diagram, ∀ n p l, findLongestPath d fuel [] n = .ok (p, l) → l = p.length := by
    intro d n p l
    cases fuel with
    | zero => intro hz; cases hz
    | succ f =>
      unfold findLongestPath
      intro hz
      obtain ⟨out, -, hz⟩ := except_bind_eq_ok hz
      split at hz
      · simp only [pure, Except.pure, Except.ok.injEq, Prod.mk.injEq] at hz; rw [← hz.1, ← hz.2]
      · obtain ⟨b, -, hz⟩ := except_bind_eq_ok hz
        simp only [pure, Except.pure, Except.ok.injEq, Prod.mk.injEq] at hz; rw [← hz.1, ← hz.2]
  unfold computeLongestPath at hx ⊢
  rw [h1] at hx
  rw [h2]
  simp only [bind, Except.bind] at hx ⊢
  cases hb : bestOf (findLongestPath d fuel []) s [] with
  | error err => rw [hb] at hx; cases hx
  | ok r =>
    rw [hb] at hx
    simp only [pure, Except.pure, Except.ok.injEq, Prod.mk.injEq] at hx
    obtain ⟨rfl, rfl⟩ := hx
    obtain ⟨r', k1, k2⟩ := bestOf_twin h3 (hlen d) (hlen e) (fun n hn => findLongestPath_twin h fuel [] (by simp) n (h4 n hn)) hb
    exact ⟨r', by rw [k1]; simp [pure, Except.pure, k2]⟩

/-- Both lists of the second result are those of the first one, node by node. -/
def MirrorT (φ : Node → Node) (x y : Py (List Node × List Node)) : Prop :=
  (∃ err, x = .error err ∧ y = .error err) ∨ ∃ p q, x = .ok (p, q) ∧ y = .ok (p.map φ, q.map φ)

theorem qualify_twin {d e : Diagram} {φ : Node → Node} (h : Twin d e φ) {n : Node} (hn : n ∈ d.getNodes) (q : List Node) :
    (∃ err, qualify q n = .error err ∧ qualify (q.map φ) (φ n) = .error err) ∨
    ∃ r, qualify q n = .ok r ∧ qualify (q.map φ) (φ n) = .ok (r.map φ) := by
  unfold qualify isActivity
  rw [h.type n hn]
  cases n.2.type with
  | none => exact Or.inl ⟨_, rfl, rfl⟩
  | some ty =>
    simp only [need, bind, Except.bind, pure, Except.pure]
    split
    · exact Or.inr ⟨_, rfl, by simp⟩
    · exact Or.inr ⟨_, rfl, rfl⟩

theorem longestTasksLoop_twin {d e : Diagram} {φ : Node → Node} (h : Twin d e φ) {path : List Node} (hp : ∀ n ∈ path, n ∈ d.getNodes) (qual : List Node)
    {node : Node} (hnode : node ∈ d.getNodes) {rec rec' : List Node → Node → Py (List Node × List Node)}
    (hr : ∀ q, ∀ n ∈ d.getNodes, MirrorT φ (rec q n) (rec' (q.map φ) (φ n))) : ∀ (l : List String) (best : List Node × List Node),
    MirrorT φ (longestTasksLoop d path qual node rec l best)
      (longestTasksLoop e (path.map φ) (qual.map φ) (φ node) rec' l (best.1.map φ, best.2.map φ)) := by
  intro l
  induction l with
  | nil => intro best; exact Or.inr ⟨best.1, best.2, rfl, rfl⟩
  | cons i l ih =>
    intro best
    unfold longestTasksLoop
    rcases targetNode_twin h i with ⟨err, e1, e2⟩ | ⟨t, e1, e2, e3⟩
    · rw [e1, e2]; exact Or.inl ⟨_, rfl, rfl⟩
    · rw [e1, e2]
      simp only [bind, Except.bind]
      rcases qualify_twin h hnode qual with ⟨err, q1, q2⟩ | ⟨r, q1, q2⟩
      · rw [q1, q2]; exact Or.inl ⟨_, rfl, rfl⟩
      · rw [q1, q2]
        simp only
        cases t with
        | none => exact Or.inl ⟨_, rfl, rfl⟩
        | some m =>
          have hm := e3 m rfl
          simp only [Option.map_some, h.mem_map hm hp]
          split
          · simp only [List.length_map]
            split
            · have := ih (path ++ [node], r)
              simpa using this
            · exact ih best
          · rcases hr r m hm with ⟨err, k1, k2⟩ | ⟨p, q, k1, k2⟩
            · rw [k1, k2]; exact Or.inl ⟨_, rfl, rfl⟩
            · rw [k1, k2]
              simp only [List.length_map]
              split
              · exact ih (p, q)
              · exact ih best

theorem findLongestPathTasks_twin {d e : Diagram} {φ : Node → Node} (h : Twin d e φ) : ∀ (fuel : Nat) (path : List Node), (∀ n ∈ path, n ∈ d.getNodes) →
    ∀ (qual : List Node), ∀ n ∈ d.getNodes,
      MirrorT φ (findLongestPathTasks d fuel path qual n) (findLongestPathTasks e fuel (path.map φ) (qual.map φ) (φ n)) := by
  intro fuel
  induction fuel with
  | zero => intro path hp qual n hn; exact Or.inl ⟨_, rfl, rfl⟩
  | succ fuel ih =>
    intro path hp qual n hn
    unfold findLongestPathTasks
    rw [h.outgoing n hn]
    cases n.2.outgoing with
    | none => exact Or.inl ⟨_, rfl, rfl⟩
    | some out =>
      simp only [need, bind, Except.bind]
      have hp' : ∀ m ∈ path ++ [n], m ∈ d.getNodes := by
        intro m hm
        rcases List.mem_append.1 hm with hm | hm
        · exact hp m hm
        · rw [List.mem_singleton.1 hm]; exact hn
      have e0 : path.map φ ++ [φ n] = (path ++ [n]).map φ := by simp
      rw [e0]
      split
      · rcases qualify_twin h hn qual with ⟨err, q1, q2⟩ | ⟨r, q1, q2⟩
        · rw [q1, q2]; exact Or.inl ⟨_, rfl, rfl⟩
        · rw [q1, q2]; exact Or.inr ⟨_, _, rfl, rfl⟩
      · exact longestTasksLoop_twin h hp qual hn (fun q m hm => ih (path ++ [n]) hp' q m hm) out (path ++ [n], [])

theorem bestTasksOf_eq (rec : Node → Py (List Node × List Node)) : ∀ (s : List Node) (b : List Node),
    bestTasksOf rec s b = bestOf (fun n => (rec n).map fun r => (r.2, r.2.length)) s b := by
  intro s
  induction s with
  | nil => intro b; rfl
  | cons n s ih =>
    intro b
    unfold bestTasksOf bestOf
    cases rec n with
    | error err => rfl
    | ok r => exact ih _

theorem computeLongestPathTasks_twin {d e : Diagram} {φ : Node → Node} (h : Twin d e φ) {fuel : Nat} {p : List Node} {k : Nat}
    (hx : computeLongestPathTasks fuel d = .ok (p, k)) : ∃ q, computeLongestPathTasks fuel e = .ok (q, k) := by
  obtain ⟨s, s', h1, h2, h3, h4⟩ := noIncoming_twin h
  have hlen : ∀ d : Diagram, ∀ n p l, ((findLongestPathTasks d fuel [] [] n).map fun r => (r.2, r.2.length)) = .ok (p, l) → l = p.length := by
    intro d n p l
    cases findLongestPathTasks d fuel [] [] n with
    | error err => intro hz; cases hz
    | ok r =>
      intro hz
      simp only [Except.map, Except.ok.injEq, Prod.mk.injEq] at hz
      rw [← hz.1, ← hz.2]
  unfold computeLongestPathTasks at hx ⊢
  rw [h1] at hx
  rw [h2]
  simp only [bind, Except.bind, bestTasksOf_eq] at hx ⊢
  cases hb : bestOf (fun n => (findLongestPathTasks d fuel [] [] n).map fun r => (r.2, r.2.length)) s [] with
  | error err => rw [hb] at hx; cases hx
  | ok r =>
    rw [hb] at hx
    simp only [pure, Except.pure, Except.ok.injEq, Prod.mk.injEq] at hx
    obtain ⟨rfl, rfl⟩ := hx
    obtain ⟨r', k1, k2⟩ := bestOf_twin h3 (hlen d) (hlen e) (fun n hn => by
      rcases findLongestPathTasks_twin h fuel [] (by simp) [] n (h4 n hn) with ⟨err, e1, e2⟩ | ⟨p, q, e1, e2⟩
      · simp only [List.map_nil] at e2
        rw [e1, e2]; exact Or.inl ⟨_, rfl, rfl⟩
      · simp only [List.map_nil] at e2
        rw [e1, e2]; exact Or.inr ⟨q, rfl, by simp [Except.map]⟩) hb
    exact ⟨r', by rw [k1]; simp [pure, Except.pure, k2]⟩

end Bpmn

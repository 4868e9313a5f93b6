import Verif.Model.Visualizer
import Verif.Lemmas.Query
import Mathlib.Data.List.Perm.Basic
/-!
# Lemmas about drawing: orientation of the reported edges, positions, symbols
-/
set_option linter.unusedSimpArgs false
set_option linter.unusedVariables false

namespace Bpmn
open Bpmn.Spec Bpmn.Visualizer

/-- While the iteration visits `a`, the other end has not been visited. -/
theorem iterFrom_order {es : List Edge} {ns seen : List String} {a b : String} {x : EdgeAttrs}
    (h : (a, b, x) ∈ Graph.iterFrom es seen ns) : ∃ p q, ns = p ++ a :: q ∧ b ∉ p := by
  induction ns generalizing seen with
  | nil => simp [Graph.iterFrom] at h
  | cons n ns ih =>
    simp only [Graph.iterFrom, List.mem_append] at h
    rcases h with h | h
    · simp only [Graph.incident, List.mem_filterMap] at h
      obtain ⟨e, he, h⟩ := h
      have : a = n := by
        split at h
        · split at h <;> simp at h
          exact h.1.symm
        · split at h
          · split at h <;> simp at h
            exact h.1.symm
          · simp at h
      subst this
      exact ⟨[], ns, rfl, by simp⟩
    · by_cases hb : b = n
      · subst hb
        -- `b` was visited before: no edge to it is reported any more
        exfalso
        have key : ∀ (ms s : List String), b ∈ s → (a, b, x) ∉ Graph.iterFrom es s ms := by
          intro ms
          induction ms with
          | nil => intro s _ h; simp [Graph.iterFrom] at h
          | cons m ms ihm =>
            intro s hs h
            simp only [Graph.iterFrom, List.mem_append] at h
            rcases h with h | h
            · simp only [Graph.incident, List.mem_filterMap] at h
              obtain ⟨e, he, h⟩ := h
              split at h
              · split at h
                · simp at h
                · rename_i hn
                  simp at h
                  exact hn (h.2.1 ▸ hs)
              · split at h
                · split at h
                  · simp at h
                  · rename_i hn
                    simp at h
                    exact hn (h.2.1 ▸ hs)
                · simp at h
            · exact ihm _ (List.mem_cons_of_mem _ hs) h
        exact key ns _ (List.mem_cons_self ..) h
      · obtain ⟨p, q, rfl, hp⟩ := ih h
        exact ⟨n :: p, q, rfl, by simp [hb, hp]⟩

theorem flows_order {d : Diagram} {a b : String} {x : EdgeAttrs} (h : (a, b, x) ∈ d.getFlows) :
    (d.getNodes.map (·.1)).idxOf a ≤ (d.getNodes.map (·.1)).idxOf b := by
  obtain ⟨p, q, e, hb⟩ := iterFrom_order h
  have e' : d.getNodes.map (·.1) = p ++ a :: q := e
  rw [e']
  have h1 : (p ++ a :: q).idxOf a ≤ p.length := by
    rw [List.idxOf_append]
    split
    · exact Nat.le_of_lt (List.idxOf_lt_length_of_mem ‹_›)
    · simp
  have h2 : p.length ≤ (p ++ a :: q).idxOf b := by
    rw [List.idxOf_append, if_neg hb]
    omega
  omega

/-- The flow of given attributes as the graph reports it: the end that was added first comes first. -/
def oriented (ids : List String) (x : EdgeAttrs) : Flow :=
  let s := x.sourceRef.getD ""
  let t := x.targetRef.getD ""
  if ids.idxOf s ≤ ids.idxOf t then (s, t, x) else (t, s, x)

theorem flows_oriented {d : Diagram} (h : Sane d) : ∀ f ∈ d.getFlows, f = oriented (d.getNodes.map (·.1)) f.2.2 := by
  rintro ⟨a, b, x⟩ hf
  obtain ⟨e, he, rfl, hab⟩ := Graph.mem_flows hf
  obtain ⟨-, -, s, t, hs, ht, hp⟩ := h.described e he
  have ho := flows_order hf
  have hm := h.endsKnown e he
  simp only [oriented, hs, ht, Option.getD_some]
  have hst : (a = s ∧ b = t) ∨ (a = t ∧ b = s) := by
    rcases hab with ⟨rfl, rfl⟩ | ⟨rfl, rfl⟩ <;> rcases hp with ⟨rfl, rfl⟩ | ⟨rfl, rfl⟩ <;> simp
  rcases hst with ⟨rfl, rfl⟩ | ⟨rfl, rfl⟩
  · rw [if_pos ho]
  · split
    · rename_i h2
      have : (d.getNodes.map (·.1)).idxOf a = (d.getNodes.map (·.1)).idxOf b := by omega
      have ha : a ∈ d.getNodes.map (·.1) := by
        rcases hab with ⟨rfl, rfl⟩ | ⟨rfl, rfl⟩
        · exact hm.1
        · exact hm.2
      have := (List.idxOf_inj ha).1 this
      rw [this]
    · rfl

theorem flows_perm_oriented {d : Diagram} (h : Sane d) :
    d.getFlows.Perm (d.graph.edges.map fun e => oriented (d.getNodes.map (·.1)) e.attrs) := by
  have e1 : d.getFlows = (d.getFlows.map (·.2.2)).map (oriented (d.getNodes.map (·.1))) := by
    rw [List.map_map]
    conv_lhs => rw [← List.map_id d.getFlows]
    exact List.map_congr_left fun f hf => flows_oriented h f hf
  rw [e1]
  have := (Graph.flows_attrs_perm h.wf).map (oriented (d.getNodes.map (·.1)))
  have e2 : (d.graph.edges.map fun e => oriented (d.getNodes.map (·.1)) e.attrs) =
      (d.graph.edges.map (·.attrs)).map (oriented (d.getNodes.map (·.1))) := by rw [List.map_map]; rfl
  rw [e2]
  exact this

/-! ## Positions -/

theorem positionsLoop_ok {num : String → Py Rat} : ∀ {l : List Node} {out res : Dict String (Rat × Rat)},
    (out.keys ++ l.map (·.1)).Nodup → positionsLoop num l out = .ok res →
    ∃ ps, res = out ++ ps ∧ List.Forall₂ (fun (n : Node) p => p.1 = n.1 ∧ ∃ x y, n.2.x = some x ∧ n.2.y = some y ∧ num x = .ok p.2.1 ∧ num y = .ok p.2.2) l ps
  | [], out, res, _, h => by
    simp only [positionsLoop, Except.ok.injEq] at h
    exact ⟨[], by simp [h], .nil⟩
  | n :: r, out, res, hn, h => by
    simp only [positionsLoop] at h
    obtain ⟨x, hx, h⟩ := except_bind_eq_ok h
    obtain ⟨x', hx', h⟩ := except_bind_eq_ok h
    obtain ⟨y, hy, h⟩ := except_bind_eq_ok h
    obtain ⟨y', hy', h⟩ := except_bind_eq_ok h
    have hm : n.1 ∉ out.keys := by
      intro hm
      exact (List.nodup_append.1 hn).2.2 _ hm _ (List.mem_cons_self ..) rfl
    rw [Dict.set_of_not_mem out _ hm] at h
    obtain ⟨ps, rfl, hp⟩ := positionsLoop_ok (by simpa using hn) h
    refine ⟨(n.1, (x', y')) :: ps, by simp, .cons ⟨rfl, x, y, ?_, ?_, hx', hy'⟩ hp⟩
    · cases hz : n.2.x with
      | none => rw [hz] at hx; cases hx
      | some z => rw [hz] at hx; simp only [need_some, Except.ok.injEq] at hx; rw [hx]
    · cases hz : n.2.y with
      | none => rw [hz] at hy; cases hy
      | some z => rw [hz] at hy; simp only [need_some, Except.ok.injEq] at hy; rw [hy]

theorem positionsLoop_succeeds {num : String → Py Rat} : ∀ {l : List Node} (out : Dict String (Rat × Rat)),
    (∀ n ∈ l, ∃ x y p q, n.2.x = some x ∧ n.2.y = some y ∧ num x = .ok p ∧ num y = .ok q) → ∃ res, positionsLoop num l out = .ok res
  | [], out, _ => ⟨out, rfl⟩
  | n :: r, out, h => by
    obtain ⟨x, y, p, q, h1, h2, h3, h4⟩ := h n (List.mem_cons_self ..)
    simp only [positionsLoop, h1, h2, h3, h4, need_some, except_bind_ok]
    exact positionsLoop_succeeds _ fun m hm => h m (List.mem_cons_of_mem _ hm)

/-! ## Symbols -/

theorem idListByType_eq {d : Diagram} (h : ∀ n ∈ d.getNodes, n.2.type.isSome) (t : String) :
    d.getNodesIdListByType t = .ok ((d.getNodes.filter fun n => n.2.type == some t).map (·.1)) := by
  unfold Diagram.getNodesIdListByType
  rw [pyFilter_eq_filter (q := fun n => n.2.type == some t)]
  · rfl
  · intro n hn
    obtain ⟨ty, hty⟩ := Option.isSome_iff_exists.1 (h n hn)
    simp [hty]

theorem symbols_eq {d : Diagram} (h : ∀ n ∈ d.getNodes, n.2.type.isSome) : ∀ l, symbols d l =
    .ok (l.map fun p => (p.1, (d.getNodes.filter fun n => n.2.type == some p.2).map (·.1)))
  | [] => rfl
  | (s, t) :: r => by simp [symbols, idListByType_eq h, symbols_eq h r]

/-- Folding `set` over pairwise different keys. -/
theorem foldl_set_map {κ α β : Type} [DecidableEq κ] (k : β → κ) (v : β → α) : ∀ (l : List β) (out : Dict κ α), (out.keys ++ l.map k).Nodup →
    l.foldl (fun t n => t.set (k n) (v n)) out = out ++ l.map fun n => (k n, v n)
  | [], out, _ => by simp
  | n :: r, out, h => by
    have hm : k n ∉ out.keys := by
      intro hm
      exact (List.nodup_append.1 h).2.2 _ hm _ (List.mem_cons_self ..) rfl
    rw [List.foldl_cons, Dict.set_of_not_mem out _ hm, foldl_set_map k v r _ (by simpa using h)]
    simp

end Bpmn

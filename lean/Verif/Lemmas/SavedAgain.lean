import Verif.Spec.SavedAgain
import Verif.Lemmas.Savable
import Verif.Lemmas.ImportFlows
import Verif.Props.XmlLoaded
/-!
# Which loaded documents can be saved again: proofs
-/
set_option linter.unusedSimpArgs false
set_option linter.unusedVariables false
namespace Bpmn.Import
open Bpmn Spec

/-! ## Pools without process -/

theorem split_pool {i : String} : ∀ {l : List Xml}, i ∈ blackBoxes l → ∃ pre post, collabEvs l = pre ++ .pool i :: post
  | [], h => by simp [blackBoxes] at h
  | .text _ :: r, h => by
    obtain ⟨pre, post, e⟩ := split_pool (l := r) (by simpa [blackBoxes] using h)
    exact ⟨pre, post, by simpa [collabEvs] using e⟩
  | .other _ :: r, h => by
    obtain ⟨pre, post, e⟩ := split_pool (l := r) (by simpa [blackBoxes] using h)
    exact ⟨pre, post, by simpa [collabEvs] using e⟩
  | .elem t as ks :: r, h => by
    rw [blackBoxes, List.mem_append] at h
    by_cases hr : i ∈ blackBoxes r
    · obtain ⟨pre, post, e⟩ := split_pool hr
      rw [collabEvs, e, ← List.append_assoc]
      exact ⟨_, _, rfl⟩
    · have h := h.resolve_right hr
      split at h
      · rename_i c
        rw [List.mem_singleton] at h
        subst h
        refine ⟨[], collabEvs r, ?_⟩
        rw [collabEvs]
        simp [c]
      · simp at h

theorem load_pool {ord : List String → List String} {root diagram plane : Xml} {E : Diagram} (h : load ord root {} = .ok E)
    (hd : (Xml.byNameIn "BPMNDiagram" [root]).head? = some diagram) (hp : (diagram.byName "BPMNPlane").head? = some plane)
    (nd : (describedNodes root).Nodup) {n : String} (hn : n ∈ blackBoxes (collabKids root)) :
    ∃ i o, E.graph.nodes.get? n = some (match shapeFor plane n with
      | none => { type := some "participant", process := some n, incoming := i, outgoing := o }
      | some s => drawn s { type := some "participant", process := some n, incoming := i, outgoing := o }) := by
  obtain ⟨diagram', plane', D, h1, h2, ⟨h3, -⟩, h4⟩ := load_view h
  rw [hd] at h1
  cases h1
  rw [hp] at h2
  cases h2
  have hkey : n ∈ E.graph.nodes.keys := ((load_known h).keys _).2 (.inl (List.mem_append_right _ hn))
  obtain ⟨v, kk⟩ := importPlane_view h4
  obtain ⟨a, ha⟩ := Option.isSome_iff_exists.1 ((Dict.get?_isSome_iff E.graph.nodes _).2 hkey)
  have e3 : view E n = a := by simp [view, ha]
  rw [v _ (by rw [← kk]; exact hkey), h3] at e3
  obtain ⟨pre, post, e⟩ := split_pool hn
  have hall : allEvs root = ((Xml.byNameIn "process" [root]).flatMap procEvs ++ pre) ++ .pool n :: post := by
    rw [allEvs, e, List.append_assoc]
  have hids := evIds_all root
  have hids' : evIds (allEvs root) = evIds ((Xml.byNameIn "process" [root]).flatMap procEvs ++ pre) ++ n :: evIds post := by
    rw [hall, evIds_append]
    rfl
  rw [hids'] at hids
  rw [← hids, List.nodup_append, List.nodup_cons] at nd
  obtain ⟨-, ⟨hpost, -⟩, hpre⟩ := nd
  have hpre : n ∉ evIds ((Xml.byNameIn "process" [root]).flatMap procEvs ++ pre) := fun hm => hpre n hm n (by simp) rfl
  have hrec : recs n (allEvs root) = recs n ((Xml.byNameIn "process" [root]).flatMap procEvs) := by
    unfold allEvs
    rw [recs_append, recs_collab, List.append_nil]
  have hrec0 : recs n ((Xml.byNameIn "process" [root]).flatMap procEvs) = [] := by
    rw [evIds_append, List.mem_append, not_or] at hpre
    have := hpre.1
    revert this
    generalize Xml.byNameIn "process" [root] = l
    intro this
    induction l with
    | nil => rfl
    | cons y r ih =>
      rw [List.flatMap_cons, evIds_append, List.mem_append, not_or] at this
      rw [List.flatMap_cons, recs_append, recs_procEvs, ih this.2]
      · rfl
      · have := this.1
        unfold procEvs at this
        rwa [evIds_append, evIds_evsAll, evIds_flow, List.append_nil] at this
  rw [hrec0, hall, recs_append] at hrec
  obtain ⟨hr1, hr2⟩ := List.append_eq_nil_iff.1 hrec
  have hr2 : recs n post = [] := hr2
  obtain ⟨i, o, h5, -, -⟩ := fold_rest ord n _ {} hpre
  rw [hr1, if_pos rfl] at h5
  obtain ⟨i', o', h6, -, -⟩ := fold_rest ord n post { ({} : NodeAttrs) with type := some "participant", process := some n, incoming := i, outgoing := o } hpost
  rw [hr2, if_pos rfl] at h6
  refine ⟨i', o', ?_⟩
  have e4 : view {} n = {} := rfl
  rw [e4, hall, List.foldl_append, h5, List.foldl_cons] at e3
  have e5 : Ev.apply ord n { ({} : NodeAttrs) with incoming := i, outgoing := o } (.pool n) =
      { ({} : NodeAttrs) with type := some "participant", process := some n, incoming := i, outgoing := o } := by simp [Ev.apply]
  rw [e5, h6, foldl_draw] at e3
  rw [ha, ← e3]
  unfold shapeFor
  generalize (plane.children.filter fun x => localTag x == "BPMNShape" && x.getAttr "bpmnElement" == n).getLast? = w
  cases w <;> rfl

/-! ## Elements and containers -/

mutual
/-- A node element is one of the elements looked at, or a child of a sub-process among the node elements. -/
theorem nodeElements_inside {c : String} : ∀ {x : Xml} {q : String × Xml}, q ∈ nodeElements c x →
    q = (c, x) ∨ ∃ r ∈ nodeElements c x, localTag r.2 = "subProcess" ∧ r.2.getAttr "id" = q.1 ∧ q.2 ∈ r.2.children
  | .text _, q, h => by simp [nodeElements] at h
  | .other _, q, h => by simp [nodeElements] at h
  | .elem t as ks, q, h => by
    rw [nodeElements] at h ⊢
    by_cases ht : removeNamespace t ∈ nodeTags
    · rw [if_pos ht] at h ⊢
      rcases List.mem_cons.1 h with h | h
      · exact .inl h
      · by_cases hs : removeNamespace t = "subProcess"
        · rw [if_pos hs] at h ⊢
          rcases nodeElementsAll_inside h with ⟨h1, h2⟩ | ⟨r, hr, h1⟩
          · exact .inr ⟨_, List.mem_cons_self, hs, h1.symm, h2⟩
          · exact .inr ⟨r, List.mem_cons_of_mem _ hr, h1⟩
        · rw [if_neg hs] at h
          simp at h
    · rw [if_neg ht] at h
      simp at h
theorem nodeElementsAll_inside {c : String} : ∀ {l : List Xml} {q : String × Xml}, q ∈ nodeElementsAll c l →
    (q.1 = c ∧ q.2 ∈ l) ∨ ∃ r ∈ nodeElementsAll c l, localTag r.2 = "subProcess" ∧ r.2.getAttr "id" = q.1 ∧ q.2 ∈ r.2.children
  | [], q, h => by simp [nodeElementsAll] at h
  | x :: l, q, h => by
    rw [nodeElementsAll, List.mem_append] at h
    simp only [nodeElementsAll, List.mem_append]
    rcases h with h | h
    · rcases nodeElements_inside h with h1 | ⟨r, hr, h1⟩
      · subst h1; exact .inl ⟨rfl, by simp⟩
      · exact .inr ⟨r, .inl hr, h1⟩
    · rcases nodeElementsAll_inside h with ⟨h1, h2⟩ | ⟨r, hr, h1⟩
      · exact .inl ⟨h1, by simp [h2]⟩
      · exact .inr ⟨r, .inr hr, h1⟩
end

theorem allNodeElements_inside {root : Xml} {q : String × Xml} (h : q ∈ allNodeElements root) :
    (∃ p ∈ Xml.byNameIn "process" [root], p.getAttr "id" = q.1) ∨
    ∃ r ∈ allNodeElements root, localTag r.2 = "subProcess" ∧ r.2.getAttr "id" = q.1 ∧ q.2 ∈ r.2.children := by
  obtain ⟨p, hp, h⟩ := List.mem_flatMap.1 h
  rcases nodeElementsAll_inside h with ⟨h1, -⟩ | ⟨r, hr, h1⟩
  · exact .inl ⟨p, hp, h1.symm⟩
  · exact .inr ⟨r, List.mem_flatMap.2 ⟨p, hp, hr⟩, h1⟩

theorem ids_allNodeElements (root : Xml) : (allNodeElements root).map (fun q => q.2.getAttr "id") =
    (Xml.byNameIn "process" [root]).flatMap fun p => nodeIdsAll p.children := by
  unfold allNodeElements
  rw [List.map_flatMap]
  congr 1
  funext p
  exact ids_nodeElementsAll _ _

theorem same_element {root : Xml} (nd : (describedNodes root).Nodup) {q r : String × Xml} (hq : q ∈ allNodeElements root)
    (hr : r ∈ allNodeElements root) (e : q.2.getAttr "id" = r.2.getAttr "id") : q = r := by
  rw [describedNodes, ← ids_allNodeElements, List.nodup_append] at nd
  exact List.inj_on_of_nodup_map nd.1 hq hr e

theorem described_cases {root : Xml} {i : String} (h : i ∈ describedNodes root) :
    (∃ q ∈ allNodeElements root, q.2.getAttr "id" = i) ∨ i ∈ blackBoxes (collabKids root) := by
  rw [describedNodes, ← ids_allNodeElements, List.mem_append] at h
  rcases h with h | h
  · obtain ⟨q, hq, e⟩ := List.mem_map.1 h
    exact .inl ⟨q, hq, e⟩
  · exact .inr h

theorem described_element {root : Xml} {q : String × Xml} (h : q ∈ allNodeElements root) : q.2.getAttr "id" ∈ describedNodes root := by
  rw [describedNodes, ← ids_allNodeElements, List.mem_append]
  exact .inl (List.mem_map.2 ⟨q, h, rfl⟩)

theorem size_child {x y : Xml} (h : y ∈ x.children) : sizeOf y < sizeOf x := by
  cases x with
  | text _ => simp [Xml.children] at h
  | other _ => simp [Xml.children] at h
  | elem t as ks =>
    have := List.sizeOf_lt_of_mem (show y ∈ ks from h)
    simp only [Xml.elem.sizeOf_spec]
    omega

/-! ## Nodes -/

theorem says_complete {root plane : Xml} {c : String} {x : Xml} {a : NodeAttrs} (h : NodeSays root plane c x a) : NodeComplete a (localTag x) := by
  refine ⟨h.type, by simp [h.name], ?_, ?_, ?_⟩
  · obtain ⟨m, hm, -⟩ := h.incoming; simp [hm]
  · obtain ⟨m, hm, -⟩ := h.outgoing; simp [hm]
  · obtain ⟨k, hk, ht, h1, h2, h3, h4, h5, h6, h7, h8, h9, -, h10⟩ := h.attributes
    intro key hkey
    rw [← ht] at hkey
    have hk2 : key ∈ k.2.1 ∧ key ≠ "isExpanded" := by
      have : ∀ k ∈ nodeKinds, ∀ key ∈ writtenKeys k.1, key ∈ k.2.1 ∧ key ≠ "isExpanded" := by decide
      exact this k hk key hkey
    have hk3 : key ∈ ["triggeredByEvent", "parallelMultiple", "isInterrupting", "cancelActivity", "attachedToRef", "eventDefinitions", "gatewayDirection",
        "instantiate", "eventGatewayType", "isCollection"] := by
      have : ∀ k ∈ nodeKinds, ∀ key ∈ k.2.1, key ≠ "isExpanded" → key ∈ ["triggeredByEvent", "parallelMultiple", "isInterrupting", "cancelActivity",
        "attachedToRef", "eventDefinitions", "gatewayDirection", "instantiate", "eventGatewayType", "isCollection"] := by decide
      exact this k hk key hk2.1 hk2.2
    have hk1 := hk2.1
    simp only [List.mem_cons, List.not_mem_nil, or_false] at hk3
    rcases hk3 with rfl | rfl | rfl | rfl | rfl | rfl | rfl | rfl | rfl | rfl
    · simp [presentKeys, h1, given, hk1]
    · simp [presentKeys, h2, given, hk1]
    · simp [presentKeys, h3, given, hk1]
    · simp [presentKeys, h4, given, hk1]
    · simp [presentKeys, h5, given, hk1]
    · rw [if_pos hk1] at h10
      obtain ⟨l, hl, -⟩ := h10
      simp [presentKeys, hl]
    · simp [presentKeys, h6, given, hk1]
    · simp [presentKeys, h7, given, hk1]
    · simp [presentKeys, h8, given, hk1]
    · simp [presentKeys, h9, given, hk1]

theorem says_drawn {root plane : Xml} {c : String} {x : Xml} {a : NodeAttrs} (h : NodeSays root plane c x a) :
    NodeDrawn a ↔ (shapeFor plane (x.getAttr "id")).isSome := by
  have hd := h.drawn
  have ht := h.type
  cases hs : shapeFor plane (x.getAttr "id") with
  | none =>
    rw [hs] at hd
    simp [NodeDrawn, hd.1]
  | some s =>
    rw [hs] at hd
    obtain ⟨b, -, h1, h2, h3, h4, h5⟩ := hd
    simp only [NodeDrawn, h1, h2, h3, h4, h5, ht, Option.isSome_some, true_and, iff_true]
    intro e
    rw [if_pos (by simpa using e)]
    rfl

/-! ## Lanes -/

theorem box_says {s : Option Xml} {di : Option BoxDi} (h : BoxSays s di) : di.isSome = s.isSome := by
  cases s with
  | none => rw [show di = none from h]; rfl
  | some s => obtain ⟨b, -, e⟩ := h; rw [e]; rfl

theorem lastWithId_some {i : String} {l : List Xml} {x : Xml} (h : lastWithId i l = some x) : x ∈ l ∧ x.getAttr "id" = i := by
  have := List.mem_of_getLast? h
  simpa using List.mem_filter.1 this

theorem lanesSay_mem {plane : Xml} {xs : List Xml} : ∀ {ls : List Lane}, LanesSay plane ls xs → ∀ l ∈ ls,
    ∃ x, lastWithId (idOfLane l) xs = some x ∧ LaneSays plane l x
  | [], _, _, h => by simp at h
  | l :: r, h, k, hk => by
    rw [LanesSay] at h
    rcases List.mem_cons.1 hk with rfl | hk
    · exact h.1
    · exact lanesSay_mem h.2 k hk

theorem lanes_shown {plane : Xml} {ls : List Lane} {xs : List Xml} (hi : ls.map idOfLane = (xs.map (·.getAttr "id")).eraseDups)
    (hs : LanesSay plane ls xs) (ih : ∀ l ∈ ls, ∀ x, LaneSays plane l x → (LaneDrawn l ↔ LaneShown plane x)) :
    (∀ l ∈ ls, LaneDrawn l) ↔ ∀ z ∈ xs, lastWithId (z.getAttr "id") xs = some z → LaneShown plane z := by
  constructor
  · intro h z hz hl
    have : z.getAttr "id" ∈ ls.map idOfLane := by
      rw [hi, List.mem_eraseDups]
      exact List.mem_map.2 ⟨z, hz, rfl⟩
    obtain ⟨l, hm, e⟩ := List.mem_map.1 this
    obtain ⟨x, h1, h2⟩ := lanesSay_mem hs l hm
    rw [e, hl] at h1
    cases h1
    exact (ih l hm z h2).1 (h l hm)
  · intro h l hm
    obtain ⟨x, h1, h2⟩ := lanesSay_mem hs l hm
    obtain ⟨hx, e⟩ := lastWithId_some h1
    exact (ih l hm x h2).2 (h x hx (by rw [e]; exact h1))

theorem lane_shown {plane : Xml} : ∀ (k : Nat) (l : Lane), sizeOf l = k → ∀ x, LaneSays plane l x → (LaneDrawn l ↔ LaneShown plane x) := by
  intro k
  induction k using Nat.strongRecOn with
  | ind k ih =>
    rintro ⟨i, n, ci, cs, refs, di⟩ hk x h
    rw [LaneSays] at h
    obtain ⟨hid, -, -, hbox, h⟩ := h
    have hb := box_says hbox
    rw [hid] at hb
    have ih' : ∀ l ∈ cs, ∀ x, LaneSays plane l x → (LaneDrawn l ↔ LaneShown plane x) := by
      intro l hl
      refine ih (sizeOf l) ?_ l rfl
      have := List.sizeOf_lt_of_mem hl
      rw [← hk]
      simp only [Lane.mk.sizeOf_spec]
      omega
    constructor
    · intro hd
      cases hd with
      | mk hc =>
        refine ⟨by rw [← hb]; rfl, fun y z hy hz hl => ?_⟩
        rw [hy] at h
        exact (lanes_shown h.2.1 h.2.2 ih').1 (hc (by rw [h.1]; rfl)) z hz hl
    · intro hs
      cases hs with
      | mk h1 h2 =>
        rw [h1] at hb
        obtain ⟨box, rfl⟩ := Option.isSome_iff_exists.1 hb
        refine .mk fun hc => ?_
        cases hy : (namedIn "childLaneSet" x.children).getLast? with
        | none => rw [hy] at h; rw [h.1] at hc; simp at hc
        | some y =>
          rw [hy] at h
          exact (lanes_shown h.2.1 h.2.2 ih').2 fun z hz hl => h2 y z hy hz hl

end Bpmn.Import

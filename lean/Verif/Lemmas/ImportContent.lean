import Verif.Lemmas.ImportEvents
/-!
# The content of a loaded diagram: nodes
-/
set_option linter.unusedSimpArgs false
set_option linter.unusedVariables false

namespace Bpmn.Import
open Bpmn Bpmn.Spec

/-- The id of the node or pool of a step. -/
def Ev.id? : Ev → Option String
  | .node _ _ x _ => some (x.getAttr "id")
  | .flow _ _ _ => none
  | .pool i => some i

/-- The ids of nodes and pools. -/
def evIds (evs : List Ev) : List String := evs.filterMap Ev.id?

/-- The id recorded in the node `n`. -/
def Ev.rec? (n : String) : Ev → Option String
  | .node o _ x _ => if o = .node n then some (x.getAttr "id") else none
  | _ => none

/-- The ids recorded in the node `n`. -/
def recs (n : String) (evs : List Ev) : List String := evs.filterMap (Ev.rec? n)

theorem evIds_append (a b : List Ev) : evIds (a ++ b) = evIds a ++ evIds b := by simp [evIds]
theorem recs_append (n : String) (a b : List Ev) : recs n (a ++ b) = recs n a ++ recs n b := by simp [recs]

theorem evIds_flow (name : String) (l : List Xml) : evIds (flowEvs name l) = [] := by
  simp [evIds, flowEvs, Ev.id?, List.filterMap_map]

theorem recs_flow (n name : String) (l : List Xml) : recs n (flowEvs name l) = [] := by
  simp [recs, flowEvs, Ev.rec?, List.filterMap_map]

theorem kindOf_isSome {tag : String} (h : tag ∈ nodeTags) : ∃ k, kindOf tag = some k := by
  cases hk : kindOf tag with
  | some k => exact ⟨k, rfl⟩
  | none => exact absurd h (kindOf_none hk)

theorem nodeTags_of_kind {tag : String} {k : Kind} (h : kindOf tag = some k) : tag ∈ nodeTags := by
  obtain ⟨h1, rfl⟩ := kindOf_some h
  have : ∀ k ∈ nodeKinds, k.1 ∈ nodeTags := by decide
  exact this k h1

mutual
theorem evIds_evsIn (o : Owner) (pid : String) : ∀ x : Xml, evIds (evsIn o pid x) = nodeIdsIn x
  | .text _ => by simp [evsIn, nodeIdsIn, evIds]
  | .other _ => by simp [evsIn, nodeIdsIn, evIds]
  | .elem t as ks => by
    rw [evsIn, nodeIdsIn]
    cases hk : kindOf (removeNamespace t) with
    | none => simp [kindOf_none hk, evIds]
    | some k =>
      rw [if_pos (nodeTags_of_kind hk)]
      have e : ∀ l, evIds (.node o pid (.elem t as ks) k :: l) = (Xml.elem t as ks).getAttr "id" :: evIds l := fun l => rfl
      rw [e]
      split
      · rw [evIds_append, evIds_evsAll, evIds_flow, List.append_nil]
      · rfl
theorem evIds_evsAll (o : Owner) (pid : String) : ∀ l : List Xml, evIds (evsAll o pid l) = nodeIdsAll l
  | [] => by simp [evsAll, nodeIdsAll, evIds]
  | x :: r => by rw [evsAll, nodeIdsAll, evIds_append, evIds_evsIn, evIds_evsAll o pid r]
end

theorem evIds_collab : ∀ l : List Xml, evIds (collabEvs l) = blackBoxes l
  | [] => rfl
  | .text s :: r => by simpa [collabEvs, blackBoxes] using evIds_collab r
  | .other s :: r => by simpa [collabEvs, blackBoxes] using evIds_collab r
  | .elem t as ks :: r => by
      simp only [collabEvs, blackBoxes, evIds_append, evIds_collab r]
      congr 1
      by_cases c : removeNamespace t = "participant"
      · by_cases c2 : (Xml.elem t as ks).getAttr "processRef" = ""
        · simp [c, c2, evIds, Ev.id?]
        · simp [c, c2, evIds]
      · by_cases c2 : removeNamespace t = "messageFlow"
        · simp [c, c2, evIds, Ev.id?]
        · simp [c, c2, evIds]

theorem evIds_all (root : Xml) : evIds (allEvs root) = describedNodes root := by
  unfold allEvs describedNodes
  rw [evIds_append, evIds_collab]
  congr 1
  generalize Xml.byNameIn "process" [root] = l
  induction l with
  | nil => rfl
  | cons p l ih =>
    rw [List.flatMap_cons, List.flatMap_cons, evIds_append, ih]
    unfold procEvs
    rw [evIds_append, evIds_evsAll, evIds_flow, List.append_nil]

mutual
theorem recs_evsIn (n : String) (o : Owner) (pid : String) : ∀ x : Xml, n ∉ nodeIdsIn x →
    recs n (evsIn o pid x) = if o = .node n then directNodes [x] else []
  | .text _, _ => by
    have : "" ∉ nodeTags := by decide
    simp [evsIn, recs, directNodes, localTag, this]
  | .other _, _ => by
    have : "" ∉ nodeTags := by decide
    simp [evsIn, recs, directNodes, localTag, this]
  | .elem t as ks, h => by
    rw [evsIn]
    rw [nodeIdsIn] at h
    cases hk : kindOf (removeNamespace t) with
    | none => simp [directNodes, localTag, kindOf_none hk, recs]
    | some k =>
      have hm := nodeTags_of_kind hk
      have hd : directNodes [.elem t as ks] = [(Xml.elem t as ks).getAttr "id"] := by simp [directNodes, localTag, hm]
      rw [if_pos hm] at h
      rw [hd]
      dsimp only
      have e : ∀ l, recs n (.node o pid (.elem t as ks) k :: l) = (if o = .node n then [(Xml.elem t as ks).getAttr "id"] else []) ++ recs n l := by
        intro l
        by_cases c : o = .node n <;> simp [recs, Ev.rec?, c]
      rw [e]
      have hne : (Xml.elem t as ks).getAttr "id" ≠ n := fun e => h (by rw [e]; exact List.mem_cons_self ..)
      have : recs n (if removeNamespace t = "subProcess" then
          evsAll (.node ((Xml.elem t as ks).getAttr "id")) ((Xml.elem t as ks).getAttr "id") ks ++ flowEvs "sequenceFlow" ks else []) = [] := by
        split
        · rename_i c
          rw [if_pos c] at h
          rw [recs_append, recs_flow, List.append_nil, recs_evsAll n _ _ ks (fun hh => h (List.mem_cons_of_mem _ hh))]
          rw [if_neg]
          intro hh
          exact hne (by injection hh)
        · rfl
      rw [this, List.append_nil]
theorem recs_evsAll (n : String) (o : Owner) (pid : String) : ∀ l : List Xml, n ∉ nodeIdsAll l →
    recs n (evsAll o pid l) = if o = .node n then directNodes l else []
  | [], _ => by simp [evsAll, recs, directNodes]
  | x :: r, h => by
    rw [nodeIdsAll, List.mem_append, not_or] at h
    rw [evsAll, recs_append, recs_evsIn n o pid x h.1, recs_evsAll n o pid r h.2]
    split <;> simp [directNodes]
end

/-- The steps with the step for `y` in the middle; what is recorded in `y` comes afterwards. -/
def SplitAt (evs : List Ev) (c : String) (y : Xml) : Prop :=
  ∃ pre o k post, evs = pre ++ .node o c y k :: post ∧ kindOf (localTag y) = some k ∧ o ≠ .node (y.getAttr "id") ∧ recs (y.getAttr "id") pre = [] ∧
    recs (y.getAttr "id") post = if localTag y = "subProcess" then directNodes y.children else []

theorem SplitAt.append {evs : List Ev} {c : String} {y : Xml} (h : SplitAt evs c y) {a b : List Ev} (ha : recs (y.getAttr "id") a = [])
    (hb : recs (y.getAttr "id") b = []) : SplitAt (a ++ evs ++ b) c y := by
  obtain ⟨pre, o, k, post, rfl, h1, h2, h3, h4⟩ := h
  refine ⟨a ++ pre, o, k, post ++ b, by simp, h1, h2, by rw [recs_append, ha, h3]; rfl, by rw [recs_append, hb, h4, List.append_nil]⟩

mutual
theorem ids_nodeElements (pid : String) : ∀ x : Xml, (nodeElements pid x).map (fun p => p.2.getAttr "id") = nodeIdsIn x
  | .text _ => by simp [nodeElements, nodeIdsIn]
  | .other _ => by simp [nodeElements, nodeIdsIn]
  | .elem t as ks => by
    rw [nodeElements, nodeIdsIn]
    split
    · rw [List.map_cons]
      congr 1
      split
      · exact ids_nodeElementsAll _ ks
      · rfl
    · rfl
theorem ids_nodeElementsAll (pid : String) : ∀ l : List Xml, (nodeElementsAll pid l).map (fun p => p.2.getAttr "id") = nodeIdsAll l
  | [] => by simp [nodeElementsAll, nodeIdsAll]
  | x :: r => by rw [nodeElementsAll, nodeIdsAll, List.map_append, ids_nodeElements, ids_nodeElementsAll pid r]
end

theorem id_mem_nodeIds {pid : String} {x : Xml} {p : String × Xml} (h : p ∈ nodeElements pid x) : p.2.getAttr "id" ∈ nodeIdsIn x := by
  rw [← ids_nodeElements pid]
  exact List.mem_map_of_mem (f := fun p : String × Xml => p.2.getAttr "id") h

theorem id_mem_nodeIdsAll {pid : String} {l : List Xml} {p : String × Xml} (h : p ∈ nodeElementsAll pid l) : p.2.getAttr "id" ∈ nodeIdsAll l := by
  rw [← ids_nodeElementsAll pid]
  exact List.mem_map_of_mem (f := fun p : String × Xml => p.2.getAttr "id") h

mutual
theorem split_evsIn (o : Owner) (pid : String) : ∀ x : Xml, (nodeIdsIn x).Nodup → (∀ n ∈ nodeIdsIn x, o ≠ .node n) → ∀ p ∈ nodeElements pid x,
    SplitAt (evsIn o pid x) p.1 p.2
  | .text _, _, _, p, hp => by simp [nodeElements] at hp
  | .other _, _, _, p, hp => by simp [nodeElements] at hp
  | .elem t as ks, nd, ho, p, hp => by
    rw [nodeElements] at hp
    split at hp
    case isFalse => simp at hp
    rename_i hm
    obtain ⟨k, hk⟩ := kindOf_isSome hm
    rw [evsIn, hk]
    rw [nodeIdsIn, if_pos hm] at nd ho
    rw [List.nodup_cons] at nd
    obtain ⟨n1, n2⟩ := nd
    rcases List.mem_cons.1 hp with rfl | hp
    · refine ⟨[], o, k, _, rfl, hk, ho _ (List.mem_cons_self ..), rfl, ?_⟩
      by_cases c : removeNamespace t = "subProcess"
      · rw [if_pos c] at n1
        rw [if_pos c, recs_append, recs_flow, List.append_nil, recs_evsAll _ _ _ _ n1, if_pos rfl, if_pos (show localTag (.elem t as ks) = _ from c)]
        rfl
      · rw [if_neg c, if_neg (show ¬ localTag (.elem t as ks) = _ from c)]
        rfl
    · split at hp
      case isFalse => simp at hp
      rename_i c
      rw [if_pos c] at n1 n2 ho
      have hid := id_mem_nodeIdsAll hp
      have := split_evsAll (.node ((Xml.elem t as ks).getAttr "id")) ((Xml.elem t as ks).getAttr "id") ks n2
        (by intro n hn e; injection e with e; rw [e] at n1; exact n1 hn) p hp
      have h2 := this.append (a := [.node o pid (.elem t as ks) k]) (b := flowEvs "sequenceFlow" ks)
        (by have := ho _ (List.mem_cons_of_mem _ hid); simp [recs, Ev.rec?, this]) (recs_flow ..)
      simp only [c, ↓reduceIte]
      simpa using h2
theorem split_evsAll (o : Owner) (pid : String) : ∀ l : List Xml, (nodeIdsAll l).Nodup → (∀ n ∈ nodeIdsAll l, o ≠ .node n) → ∀ p ∈ nodeElementsAll pid l,
    SplitAt (evsAll o pid l) p.1 p.2
  | [], _, _, p, hp => by simp [nodeElementsAll] at hp
  | x :: r, nd, ho, p, hp => by
    rw [nodeIdsAll] at nd ho
    rw [List.nodup_append] at nd
    obtain ⟨n1, n2, n3⟩ := nd
    rw [nodeElementsAll, List.mem_append] at hp
    rw [evsAll]
    rcases hp with hp | hp
    · have hid := id_mem_nodeIds hp
      have := (split_evsIn o pid x n1 (fun n hn => ho n (List.mem_append_left _ hn)) p hp).append (a := []) (b := evsAll o pid r) rfl (by
        rw [recs_evsAll _ _ _ _ (fun h => n3 _ hid _ h rfl), if_neg (ho _ (List.mem_append_left _ hid))])
      simpa using this
    · have hid := id_mem_nodeIdsAll hp
      have := (split_evsAll o pid r n2 (fun n hn => ho n (List.mem_append_right _ hn)) p hp).append (a := evsIn o pid x) (b := []) (by
        rw [recs_evsIn _ _ _ _ (fun h => n3 _ h _ hid rfl), if_neg (ho _ (List.mem_append_right _ hid))]) rfl
      simpa using this
end

theorem recs_procEvs {n : String} {p : Xml} (h : n ∉ nodeIdsAll p.children) : recs n (procEvs p) = [] := by
  unfold procEvs
  rw [recs_append, recs_flow, List.append_nil, recs_evsAll _ _ _ _ h, if_neg (by intro h; cases h)]

theorem recs_collab (n : String) : ∀ l : List Xml, recs n (collabEvs l) = []
  | [] => rfl
  | .text s :: r => by simpa [collabEvs] using recs_collab n r
  | .other s :: r => by simpa [collabEvs] using recs_collab n r
  | .elem t as ks :: r => by
      simp only [collabEvs, recs_append, recs_collab n r, List.append_nil]
      split
      · split <;> rfl
      · split <;> rfl

theorem split_procs : ∀ l : List Xml, (l.flatMap fun p => nodeIdsAll p.children).Nodup →
    ∀ p ∈ l.flatMap (fun p => nodeElementsAll (p.getAttr "id") p.children), SplitAt (l.flatMap procEvs) p.1 p.2
  | [], _, p, hp => by simp at hp
  | x :: r, nd, p, hp => by
    rw [List.flatMap_cons, List.nodup_append] at nd
    obtain ⟨n1, n2, n3⟩ := nd
    rw [List.flatMap_cons, List.mem_append] at hp
    rw [List.flatMap_cons]
    have hrest : ∀ n, n ∉ (r.flatMap fun p => nodeIdsAll p.children) → recs n (r.flatMap procEvs) = [] := by
      intro n hn
      clear n2 n3 hp
      induction r with
      | nil => rfl
      | cons y r ih =>
        rw [List.flatMap_cons, List.mem_append, not_or] at hn
        rw [List.flatMap_cons, recs_append, recs_procEvs hn.1, ih hn.2]
        rfl
    rcases hp with hp | hp
    · have hid := id_mem_nodeIdsAll hp
      have h0 := (split_evsAll (.process (x.getAttr "id")) (x.getAttr "id") x.children n1 (by intro n _ h; cases h) p hp).append
        (a := []) (b := flowEvs "sequenceFlow" x.children) rfl (recs_flow ..)
      have := h0.append (a := []) (b := r.flatMap procEvs) rfl (hrest _ fun h => n3 _ hid _ h rfl)
      simpa [procEvs] using this
    · have hid : p.2.getAttr "id" ∈ r.flatMap fun p => nodeIdsAll p.children := by
        obtain ⟨q, hq, hp⟩ := List.mem_flatMap.1 hp
        exact List.mem_flatMap.2 ⟨q, hq, id_mem_nodeIdsAll hp⟩
      have := (split_procs r n2 p hp).append (a := procEvs x) (b := []) (recs_procEvs fun h => n3 _ h _ hid rfl) rfl
      simpa using this

theorem split_all {root : Xml} (nd : (describedNodes root).Nodup) : ∀ p ∈ allNodeElements root, SplitAt (allEvs root) p.1 p.2 := by
  intro p hp
  unfold describedNodes at nd
  rw [List.nodup_append] at nd
  have := (split_procs _ nd.1 p hp).append (a := []) (b := collabEvs (collabKids root)) rfl (recs_collab ..)
  simpa [allEvs] using this

/-! ## What the steps before and after do -/

/-- `l'` continues `l` with ids of flows. -/
def Extends (l l' : Option (List String)) (P : String → Prop) : Prop :=
  ∀ texts, l = some texts → ∃ m, l' = some (texts ++ m) ∧ (∀ i ∈ m, i ∉ texts ∧ P i) ∧ m.Nodup

theorem Extends.refl (l : Option (List String)) (P : String → Prop) : Extends l l P := fun t h => ⟨[], by simp [h], by simp, by simp⟩

theorem Extends.trans {a b c : Option (List String)} {P : String → Prop} (h : Extends a b P) (h' : Extends b c P) : Extends a c P := by
  intro t ht
  obtain ⟨m, h1, h2, h3⟩ := h t ht
  obtain ⟨m', h4, h5, h6⟩ := h' _ h1
  refine ⟨m ++ m', by simp [h4], ?_, ?_⟩
  · intro i hi
    rcases List.mem_append.1 hi with hi | hi
    · exact h2 i hi
    · have := h5 i hi
      rw [List.mem_append, not_or] at this
      exact ⟨this.1.1, this.2⟩
  · rw [List.nodup_append]
    refine ⟨h3, h6, ?_⟩
    rintro i hi _ hj rfl
    exact (h5 i hj).1 (List.mem_append_right _ hi)

theorem Extends.mono {a b : Option (List String)} {P Q : String → Prop} (h : Extends a b P) (hpq : ∀ i, P i → Q i) : Extends a b Q := by
  intro t ht
  obtain ⟨m, h1, h2, h3⟩ := h t ht
  exact ⟨m, h1, fun i hi => ⟨(h2 i hi).1, hpq i (h2 i hi).2⟩, h3⟩

theorem extends_addOnce (l : Option (List String)) (i : String) {P : String → Prop} (h : P i) : Extends l (some (addOnce l i)) P := by
  intro t ht
  subst ht
  unfold addOnce
  by_cases c : i ∈ t
  · exact ⟨[], by simp [c], by simp, by simp⟩
  · exact ⟨[i], by simp [c], by simpa using ⟨c, h⟩, by simp⟩

/-- The flow steps. -/
def evFlows (evs : List Ev) : List (String × String × String) := evs.filterMap fun e => match e with | .flow i s t => some (i, s, t) | _ => none

theorem fold_rest (ord : List String → List String) (n : String) : ∀ (evs : List Ev) (a : NodeAttrs), n ∉ evIds evs → ∃ i o,
    evs.foldl (Ev.apply ord n) a =
      { a with incoming := i, outgoing := o, nodeIds := if recs n evs = [] then a.nodeIds else some (a.nodeIds.getD [] ++ recs n evs) } ∧
    Extends a.incoming i (fun j => ∃ s, (j, s, n) ∈ evFlows evs) ∧ Extends a.outgoing o (fun j => ∃ t, (j, n, t) ∈ evFlows evs)
  | [], a, _ => ⟨a.incoming, a.outgoing, by simp [recs], Extends.refl _ _, Extends.refl _ _⟩
  | e :: evs, a, h => by
    have h' : n ∉ evIds evs := by
      intro hn
      apply h
      unfold evIds
      rw [List.filterMap_cons]
      split
      · exact hn
      · exact List.mem_cons_of_mem _ hn
    rw [List.foldl_cons]
    obtain ⟨i, o, h1, h2, h3⟩ := fold_rest ord n evs (Ev.apply ord n a e) h'
    rw [h1]
    have hmono : ∀ {x}, x ∈ evFlows evs → x ∈ evFlows (e :: evs) := by
      intro x hx
      unfold evFlows at hx ⊢
      rw [List.filterMap_cons]
      split
      · exact hx
      · exact List.mem_cons_of_mem _ hx
    cases e with
    | node ow pid x k =>
      have hx : x.getAttr "id" ≠ n := by
        rintro rfl
        exact h (by simp [evIds, Ev.id?])
      refine ⟨i, o, ?_, ?_, ?_⟩
      · simp only [Ev.apply, hx, ↓reduceIte, noted]
        by_cases c : ow = .node n
        · simp only [recs, List.filterMap_cons, Ev.rec?, c, ↓reduceIte, Option.getD_some, reduceCtorEq]
          by_cases c2 : List.filterMap (Ev.rec? n) evs = []
          · simp [c2]
          · simp [c2]
        · simp [c, recs, Ev.rec?]
      · refine Extends.mono (Extends.trans (b := (Ev.apply ord n a (.node ow pid x k)).incoming) ?_ h2) fun j ⟨s, hs⟩ => ⟨s, hmono hs⟩
        simp only [Ev.apply, hx, ↓reduceIte, noted]
        split <;> exact Extends.refl _ _
      · refine Extends.mono (Extends.trans (b := (Ev.apply ord n a (.node ow pid x k)).outgoing) ?_ h3) fun j ⟨s, hs⟩ => ⟨s, hmono hs⟩
        simp only [Ev.apply, hx, ↓reduceIte, noted]
        split <;> exact Extends.refl _ _
    | flow j s t =>
      have hj : (j, s, t) ∈ evFlows (Ev.flow j s t :: evs) := List.mem_cons_self (l := evFlows evs)
      refine ⟨i, o, ?_, ?_, ?_⟩
      · have hr : recs n (Ev.flow j s t :: evs) = recs n evs := rfl
        rw [hr]
        simp only [Ev.apply]
        by_cases c1 : s = n <;> by_cases c2 : t = n <;> simp [c1, c2]
      · refine Extends.trans (b := (Ev.apply ord n a (.flow j s t)).incoming) ?_ (h2.mono fun j ⟨s, hs⟩ => ⟨s, hmono hs⟩)
        simp only [Ev.apply]
        by_cases c2 : t = n
        · subst c2
          by_cases c1 : s = t
          · simp only [c1, ↓reduceIte]
            exact extends_addOnce _ _ ⟨t, by rw [c1] at hj; exact hj⟩
          · simp only [c1, ↓reduceIte]
            exact extends_addOnce _ _ ⟨s, hj⟩
        · by_cases c1 : s = n
          · simp only [c1, c2, ↓reduceIte]
            exact Extends.refl _ _
          · simp only [c1, c2, ↓reduceIte]
            exact Extends.refl _ _
      · refine Extends.trans (b := (Ev.apply ord n a (.flow j s t)).outgoing) ?_ (h3.mono fun j ⟨s, hs⟩ => ⟨s, hmono hs⟩)
        simp only [Ev.apply]
        by_cases c1 : s = n
        · subst c1
          by_cases c2 : t = s
          · simp only [c2, ↓reduceIte]
            exact extends_addOnce _ _ ⟨s, by rw [c2] at hj; exact hj⟩
          · simp only [c2, ↓reduceIte]
            exact extends_addOnce _ _ ⟨t, hj⟩
        · by_cases c2 : t = n
          · simp only [c1, c2, ↓reduceIte]
            exact Extends.refl _ _
          · simp only [c1, c2, ↓reduceIte]
            exact Extends.refl _ _
    | pool j =>
      have hx : j ≠ n := by
        rintro rfl
        exact h (by simp [evIds, Ev.id?])
      have hr : recs n (Ev.pool j :: evs) = recs n evs := rfl
      have ha : Ev.apply ord n a (.pool j) = a := by simp [Ev.apply, hx]
      rw [ha] at h2 h3 ⊢
      exact ⟨i, o, by rw [hr], h2.mono fun j ⟨s, hs⟩ => ⟨s, hmono hs⟩, h3.mono fun j ⟨s, hs⟩ => ⟨s, hmono hs⟩⟩

theorem evFlows_append (a b : List Ev) : evFlows (a ++ b) = evFlows a ++ evFlows b := by simp [evFlows]

theorem evFlows_flow (name : String) (l : List Xml) : evFlows (flowEvs name l) = endsWithId name l := by
  simp [evFlows, flowEvs, List.filterMap_map, Function.comp_def]

mutual
theorem evFlows_evsIn (o : Owner) (pid : String) : ∀ x : Xml, evFlows (evsIn o pid x) = innerFlows x
  | .text _ => by simp [evsIn, innerFlows, evFlows]
  | .other _ => by simp [evsIn, innerFlows, evFlows]
  | .elem t as ks => by
    rw [evsIn, innerFlows]
    cases hk : kindOf (removeNamespace t) with
    | none =>
      have : removeNamespace t ≠ "subProcess" := fun e => kindOf_none hk (by rw [e]; decide)
      simp [this, evFlows]
    | some k =>
      have e : ∀ l, evFlows (.node o pid (.elem t as ks) k :: l) = evFlows l := fun l => rfl
      dsimp only
      rw [e]
      split
      · rw [evFlows_append, evFlows_evsAll, evFlows_flow]
      · rfl
theorem evFlows_evsAll (o : Owner) (pid : String) : ∀ l : List Xml, evFlows (evsAll o pid l) = innerFlowsAll l
  | [] => by simp [evsAll, innerFlowsAll, evFlows]
  | x :: r => by rw [evsAll, innerFlowsAll, evFlows_append, evFlows_evsIn, evFlows_evsAll o pid r]
end

theorem evFlows_collab : ∀ l : List Xml, evFlows (collabEvs l) = endsWithId "messageFlow" l
  | [] => rfl
  | .text s :: r => by simpa [collabEvs, endsWithId] using evFlows_collab r
  | .other s :: r => by simpa [collabEvs, endsWithId] using evFlows_collab r
  | .elem t as ks :: r => by
      simp only [collabEvs, endsWithId, evFlows_append, evFlows_collab r]
      congr 1
      by_cases c : removeNamespace t = "participant"
      · by_cases c2 : (Xml.elem t as ks).getAttr "processRef" = ""
        · simp [c, c2, evFlows]
        · simp [c, c2, evFlows]
      · by_cases c2 : removeNamespace t = "messageFlow"
        · simp [c2, evFlows]
        · simp [c, c2, evFlows]

theorem evFlows_all (root : Xml) : evFlows (allEvs root) = allFlows root := by
  unfold allEvs allFlows
  rw [evFlows_append, evFlows_collab]
  congr 1
  generalize Xml.byNameIn "process" [root] = l
  induction l with
  | nil => rfl
  | cons p l ih =>
    rw [List.flatMap_cons, List.flatMap_cons, evFlows_append, ih]
    unfold procEvs
    rw [evFlows_append, evFlows_evsAll, evFlows_flow]

/-- The attributes given by the steps alone. -/
structure StepSays (ord : List String → List String) (root : Xml) (container : String) (x : Xml) (k : Kind) (a : NodeAttrs) : Prop where
  rest : a = { extra ord x k (base container x {}) with incoming := a.incoming, outgoing := a.outgoing, nodeIds := a.nodeIds }
  incoming : ListSays a.incoming (textsOf "incoming" x.children) fun i => ∃ s, (i, s, x.getAttr "id") ∈ allFlows root
  outgoing : ListSays a.outgoing (textsOf "outgoing" x.children) fun i => ∃ t, (i, x.getAttr "id", t) ∈ allFlows root
  inside : a.nodeIds = if localTag x = "subProcess" then some (directNodes x.children) else none

theorem steps_say {ord : List String → List String} {root : Xml} (nd : (describedNodes root).Nodup) {p : String × Xml} (hp : p ∈ allNodeElements root) :
    ∃ k, kindOf (localTag p.2) = some k ∧ StepSays ord root p.1 p.2 k ((allEvs root).foldl (Ev.apply ord (p.2.getAttr "id")) {}) := by
  obtain ⟨pre, o, k, post, he, hk, ho, h3, h4⟩ := split_all nd p hp
  refine ⟨k, hk, ?_⟩
  have hids := evIds_all root
  have hflows := evFlows_all root
  rw [he, evIds_append] at hids
  rw [he, evFlows_append] at hflows
  have hcons : evIds (Ev.node o p.1 p.2 k :: post) = p.2.getAttr "id" :: evIds post := rfl
  have hfc : evFlows (Ev.node o p.1 p.2 k :: post) = evFlows post := rfl
  rw [hcons] at hids
  rw [hfc] at hflows
  rw [← hids, List.nodup_append] at nd
  obtain ⟨n1, n2, n3⟩ := nd
  rw [List.nodup_cons] at n2
  have a1 : p.2.getAttr "id" ∉ evIds pre := fun h => n3 _ h _ (List.mem_cons_self ..) rfl
  obtain ⟨i, u, h5, -, -⟩ := fold_rest ord (p.2.getAttr "id") pre {} a1
  rw [he, List.foldl_append, h5, List.foldl_cons, h3]
  simp only [↓reduceIte, Ev.apply, noted, ho]
  obtain ⟨i', u', h6, h7, h8⟩ := fold_rest ord (p.2.getAttr "id") post
    (extra ord p.2 k (base p.1 p.2 { incoming := i, outgoing := u })) n2.1
  rw [h6, h4]
  have hkt := (kindOf_some hk).2
  refine ⟨?_, ?_, ?_, ?_⟩
  · simp [extra, base]
  · obtain ⟨m, m1, m2, m3⟩ := h7 _ rfl
    refine ⟨m, m1, fun j hj => ⟨(m2 j hj).1, ?_⟩, m3⟩
    obtain ⟨s, hs⟩ := (m2 j hj).2
    exact ⟨s, by rw [← hflows]; exact List.mem_append_right _ hs⟩
  · obtain ⟨m, m1, m2, m3⟩ := h8 _ rfl
    refine ⟨m, m1, fun j hj => ⟨(m2 j hj).1, ?_⟩, m3⟩
    obtain ⟨s, hs⟩ := (m2 j hj).2
    exact ⟨s, by rw [← hflows]; exact List.mem_append_right _ hs⟩
  · by_cases c : localTag p.2 = "subProcess"
    · simp only [c, ↓reduceIte, extra, hkt, Option.getD_some, List.nil_append]
      split
      · rename_i e; rw [e]
      · rfl
    · simp only [c, ↓reduceIte, extra, hkt, base]

theorem attrOr_empty (x : Xml) (k : String) : x.attrOr k "" = x.getAttr k := by
  unfold Xml.attrOr
  split
  · rfl
  · rename_i h
    cases x with
    | text _ => rfl
    | other _ => rfl
    | elem t as ks =>
      have : Dict.get? as k = none := by
        simp only [Xml.hasAttr, Dict.has, Bool.not_eq_true, Option.isSome_eq_false_iff, Option.isNone_iff_eq_none] at h
        exact h
      simp [Xml.getAttr, this]

theorem NodeSays.of_steps {ord : List String → List String} (hord : ∀ l, (ord l).Perm l) {root plane : Xml} {container : String} {x : Xml} {k : Kind}
    (hk : kindOf (localTag x) = some k) {a : NodeAttrs} (h : StepSays ord root container x k a)
    (hb : ∀ s ∈ plane.children, localTag s = "BPMNShape" → HasBounds s) :
    NodeSays root plane container x (plane.children.foldl (draw (x.getAttr "id")) a) := by
  have hkt := kindOf_some hk
  obtain ⟨h1, h2, h3, h4⟩ := h
  have hr : ∀ s, drawn s a = { drawn s a with incoming := a.incoming, outgoing := a.outgoing, nodeIds := a.nodeIds } := fun s => rfl
  rw [foldl_draw]
  have htype : a.type = some (localTag x) := by rw [h1]; rfl
  have hexp : a.isExpanded = none := by rw [h1]; rfl
  have hattr : ∃ k ∈ nodeKinds, k.1 = localTag x ∧
      a.triggeredByEvent = given k "triggeredByEvent" (x.attrOr "triggeredByEvent" "false") ∧
      a.parallelMultiple = given k "parallelMultiple" (x.attrOr "parallelMultiple" "false") ∧
      a.isInterrupting = given k "isInterrupting" (x.attrOr "isInterrupting" "true") ∧
      a.cancelActivity = given k "cancelActivity" (x.attrOr "cancelActivity" "true") ∧
      a.attachedToRef = given k "attachedToRef" (x.attrOr "attachedToRef" "") ∧
      a.gatewayDirection = given k "gatewayDirection" (x.attrOr "gatewayDirection" "Unspecified") ∧
      a.instantiate = given k "instantiate" (x.attrOr "instantiate" "false") ∧
      a.eventGatewayType = given k "eventGatewayType" (x.attrOr "eventGatewayType" "Exclusive") ∧
      a.isCollection = given k "isCollection" (x.attrOr "isCollection" "false") ∧
      a.default = (if k.2.2.1 then some (if x.hasAttr "default" then some (x.getAttr "default") else none) else none) ∧
      (if "eventDefinitions" ∈ k.2.1 then ∃ l, a.eventDefinitions = some l ∧
        l.Perm (k.2.2.2.flatMap fun t => (x.byName t).map fun y => ⟨y.getAttr "id", t⟩) else a.eventDefinitions = none) := by
    refine ⟨k, hkt.1, hkt.2, ?_, ?_, ?_, ?_, ?_, ?_, ?_, ?_, ?_, ?_, ?_⟩
    · rw [h1]; rfl
    · rw [h1]; rfl
    · rw [h1]; rfl
    · rw [h1]; rfl
    · rw [h1, attrOr_empty]; rfl
    · rw [h1]; rfl
    · rw [h1]; rfl
    · rw [h1]; rfl
    · rw [h1]; rfl
    · rw [h1]; rfl
    · split
      · rename_i c
        refine ⟨eventDefs x (ord k.2.2.2), ?_, ?_⟩
        · rw [h1]
          simp [extra, c]
        · exact (hord _).flatMap_right _
      · rename_i c
        rw [h1]
        simp [extra, c, base]
  generalize hs : shapeFor plane (x.getAttr "id") = o
  unfold shapeFor at hs
  rw [hs]
  cases o with
  | none =>
    refine ⟨by rw [h1]; rfl, htype, by rw [h1]; rfl, by rw [h1]; rfl, hattr, h2, h3, h4, ?_⟩
    unfold shapeFor
    rw [hs]
    refine ⟨?_, ?_, ?_, ?_, hexp⟩ <;> (rw [h1]; rfl)
  | some s =>
    refine ⟨by rw [h1]; rfl, htype, by rw [h1]; rfl, by rw [h1]; rfl, hattr, h2, h3, h4, ?_⟩
    unfold shapeFor
    rw [hs]
    have hm := List.mem_of_getLast? hs
    rw [List.mem_filter, Bool.and_eq_true, beq_iff_eq] at hm
    have hbb := hb s hm.1 hm.2.1
    unfold HasBounds at hbb
    cases hl : s.byName "Bounds" with
    | nil => exact absurd hl hbb
    | cons b r =>
      refine ⟨b, by simp [hl], ?_⟩
      simp only [drawn, hl, List.head?_cons, Option.getD_some, htype, hexp, Option.some.injEq, true_and]

theorem localTag_isNamed {x : Xml} {name : String} (hn : name ≠ "") (h : localTag x = name) : IsNamed name x := by
  cases x with
  | text _ => exact absurd h.symm hn
  | other _ => exact absurd h.symm hn
  | elem t as ks => exact ⟨t, as, ks, rfl, h⟩

theorem load_nodes {ord : List String → List String} (hord : ∀ l, (ord l).Perm l) {root diagram plane : Xml} {E : Diagram} (h : load ord root {} = .ok E)
    (hd : (Xml.byNameIn "BPMNDiagram" [root]).head? = some diagram) (hp : (diagram.byName "BPMNPlane").head? = some plane)
    (nd : (describedNodes root).Nodup) : ∀ p ∈ allNodeElements root, ∃ a, E.graph.nodes.get? (p.2.getAttr "id") = some a ∧
        NodeSays root plane p.1 p.2 a := by
  obtain ⟨diagram', plane', D, h1, h2, ⟨h3, -⟩, h4⟩ := load_view h
  rw [hd] at h1
  cases h1
  rw [hp] at h2
  cases h2
  intro p hp'
  obtain ⟨diagram', plane', hacc⟩ := (load_okIff ord root).1 ⟨E, h⟩
  have e1 := hacc.firstDiagram
  rw [hd] at e1
  cases e1
  have e2 := hacc.firstPlane
  rw [hp] at e2
  cases e2
  have hid : p.2.getAttr "id" ∈ describedNodes root := by
    obtain ⟨q, hq, hp⟩ := List.mem_flatMap.1 hp'
    exact List.mem_append_left _ (List.mem_flatMap.2 ⟨q, hq, id_mem_nodeIdsAll hp⟩)
  have hkey : p.2.getAttr "id" ∈ E.graph.nodes.keys := ((load_known h).keys _).2 (.inl hid)
  obtain ⟨v, kk⟩ := importPlane_view h4
  obtain ⟨a, ha⟩ := Option.isSome_iff_exists.1 ((Dict.get?_isSome_iff E.graph.nodes _).2 hkey)
  refine ⟨a, ha, ?_⟩
  have e3 : view E (p.2.getAttr "id") = a := by simp [view, ha]
  rw [v _ (by rw [← kk]; exact hkey), h3] at e3
  obtain ⟨k, hk, hs⟩ := steps_say (ord := ord) nd hp'
  have e4 : view {} (p.2.getAttr "id") = {} := rfl
  rw [e4] at e3
  rw [← e3]
  exact NodeSays.of_steps hord hk hs fun s hs hl => (hacc.shapes s hs (localTag_isNamed (by decide) hl)).1

/-- A node that is only mentioned by flows. -/
theorem load_mentioned {ord : List String → List String} {root : Xml} {E : Diagram} (h : load ord root {} = .ok E) {n : String} (hn : n ∈ flowEnds root)
    (hd : n ∉ describedNodes root) : ∃ i o, E.graph.nodes.get? n = some { incoming := i, outgoing := o } := by
  obtain ⟨diagram, plane, D, h1, h2, ⟨h3, -⟩, h4⟩ := load_view h
  have hkey : n ∈ E.graph.nodes.keys := ((load_known h).keys _).2 (.inr hn)
  obtain ⟨v, kk⟩ := importPlane_view h4
  obtain ⟨a, ha⟩ := Option.isSome_iff_exists.1 ((Dict.get?_isSome_iff E.graph.nodes _).2 hkey)
  have e3 : view E n = a := by simp [view, ha]
  rw [v _ (by rw [← kk]; exact hkey), h3] at e3
  have hids := evIds_all root
  obtain ⟨i, o, h5, -, -⟩ := fold_rest ord n (allEvs root) {} (by rw [hids]; exact hd)
  have hrec : recs n (allEvs root) = [] := by
    unfold allEvs
    rw [recs_append, recs_collab, List.append_nil]
    have : n ∉ (Xml.byNameIn "process" [root]).flatMap (fun p => nodeIdsAll p.children) := fun h => hd (List.mem_append_left _ h)
    revert this
    generalize Xml.byNameIn "process" [root] = l
    intro this
    induction l with
    | nil => rfl
    | cons y r ih =>
      rw [List.flatMap_cons, List.mem_append, not_or] at this
      rw [List.flatMap_cons, recs_append, recs_procEvs this.1, ih this.2]
      rfl
  have e4 : view {} n = {} := rfl
  rw [e4, h5, hrec, foldl_draw] at e3
  obtain ⟨diagram', plane', hacc⟩ := (load_okIff ord root).1 ⟨E, h⟩
  have e1 := hacc.firstDiagram
  rw [h1] at e1
  cases e1
  have e2 := hacc.firstPlane
  rw [h2] at e2
  cases e2
  generalize hs : (plane.children.filter fun x => localTag x == "BPMNShape" && x.getAttr "bpmnElement" == n).getLast? = w at e3
  cases w with
  | none => exact ⟨i, o, by rw [ha, ← e3]; rfl⟩
  | some s =>
    have hm := List.mem_of_getLast? hs
    simp only [List.mem_filter, Bool.and_eq_true, beq_iff_eq] at hm
    have := (hacc.shapes s hm.1 (localTag_isNamed (by decide) hm.2.1)).2
    rw [hm.2.2] at this
    exact absurd (this hn) hd

/-! ## Processes -/

/-- The ids are added to the list of node ids of the owner, if it is a process. -/
def addIds (o : Owner) (ids : List String) (P : Dict String ProcAttrs) : Dict String ProcAttrs :=
  match o with
  | .process p => P.modify p fun a => { a with nodeIds := if ids = [] then a.nodeIds else some (a.nodeIds.getD [] ++ ids) }
  | .node _ => P

theorem addIds_nil (o : Owner) (P : Dict String ProcAttrs) : addIds o [] P = P := by
  cases o with
  | node _ => rfl
  | process p =>
    unfold addIds
    simp only [↓reduceIte]
    induction P with
    | nil => rfl
    | cons q P ih =>
      simp only [Dict.modify]
      split
      · rename_i h
        subst h
        rfl
      · rw [ih]

theorem addIds_append (o : Owner) (a b : List String) (P : Dict String ProcAttrs) : addIds o (a ++ b) P = addIds o b (addIds o a P) := by
  cases o with
  | node _ => rfl
  | process p =>
    unfold addIds
    dsimp only
    rw [Dict.modify_modify]
    congr 1
    funext x
    by_cases h1 : a = []
    · by_cases h2 : b = [] <;> simp [h1, h2]
    · by_cases h2 : b = [] <;> simp [h1, h2]

theorem importFlowNode_ids {pid : String} {o : Owner} {e : Xml} {D D' : Diagram} (h : importFlowNode pid o e D = .ok D') :
    D'.processElements = addIds o [e.getAttr "id"] D.processElements := by
  simp only [importFlowNode] at h
  obtain ⟨t, _, h⟩ := except_bind_eq_ok h
  obtain ⟨i, _, h⟩ := except_bind_eq_ok h
  obtain ⟨u, _, h⟩ := except_bind_eq_ok h
  rw [← Except.ok.inj h]
  cases o <;> rfl

theorem NodeForm.ids {pid : String} {o : Owner} {e : Xml} {g : Diagram → Py Diagram} (hg : NodeForm pid o e g) {D D' : Diagram} (h : g D = .ok D') :
    D'.processElements = addIds o [e.getAttr "id"] D.processElements := by
  obtain ⟨f, _, hf⟩ := hg
  rw [hf] at h
  obtain ⟨D1, h1, h⟩ := except_bind_eq_ok h
  rw [← Except.ok.inj h]
  have := importFlowNode_ids h1
  exact this

mutual
theorem importElement_ids {ord : List String → List String} : ∀ {x : Xml} {pid : String} {o : Owner} {D D' : Diagram},
    importElement ord pid o x D = .ok D' → D'.processElements = addIds o (directNodes [x]) D.processElements
  | .text s, pid, o, D, D', h => by
    rw [importElement] at h
    rw [← Except.ok.inj h]
    have : "" ∉ nodeTags := by decide
    simp [directNodes, localTag, this, addIds_nil]
  | .other s, pid, o, D, D', h => by
    rw [importElement] at h
    cases h
  | .elem t as ks, pid, o, D, D', h => by
    rw [importElement] at h
    split at h
    · rename_i c
      have hd : directNodes [.elem t as ks] = [(Xml.elem t as ks).getAttr "id"] := by
        have : "subProcess" ∈ nodeTags := by decide
        simp [directNodes, localTag, c, this]
      rw [hd]
      obtain ⟨D1, h1, h⟩ := except_bind_eq_ok h
      obtain ⟨D2, h2, h⟩ := except_bind_eq_ok h
      rw [importFlows_procs h, importElements_ids h2, ← NodeForm.ids (form_activity pid o (.elem t as ks)) h1]
      rfl
    · rename_i c
      by_cases hm : removeNamespace t ∈ simpleTags
      · have hd : directNodes [.elem t as ks] = [(Xml.elem t as ks).getAttr "id"] := by
          simp [directNodes, localTag, (simpleTags_iff _ c).1 hm]
        rw [hd]
        exact NodeForm.ids ((importSimple_form ord pid o (.elem t as ks) (removeNamespace t)).1 hm) h
      · have hd : directNodes [.elem t as ks] = [] := by
          have : removeNamespace t ∉ nodeTags := fun h => hm ((simpleTags_iff _ c).2 h)
          simp [directNodes, localTag, this]
        rw [hd, addIds_nil]
        rw [(importSimple_form ord pid o (.elem t as ks) (removeNamespace t)).2 hm] at h
        rw [← Except.ok.inj h]
theorem importElements_ids {ord : List String → List String} : ∀ {l : List Xml} {pid : String} {o : Owner} {D D' : Diagram},
    importElements ord pid o l D = .ok D' → D'.processElements = addIds o (directNodes l) D.processElements
  | [], pid, o, D, D', h => by
    rw [importElements] at h
    rw [← Except.ok.inj h]
    exact (addIds_nil ..).symm
  | x :: r, pid, o, D, D', h => by
    rw [importElements] at h
    obtain ⟨D1, h1, h⟩ := except_bind_eq_ok h
    have e : directNodes (x :: r) = directNodes [x] ++ directNodes r := by simp [directNodes]
    rw [e, addIds_append, importElements_ids (l := r) h, importElement_ids h1]
end

/-- The lane set computed for a process. -/
def LaneSetOf (plane p : Xml) (s : Option (String × List Lane)) : Prop :=
  match p.byName "laneSet" with
  | [] => s = none
  | ls :: _ => ∃ lanes, importLanes plane ls.children [] = .ok lanes ∧ s = some (ls.getAttr "id", lanes)

/-- The entry of a process. -/
def EntryOf (plane p : Xml) (q : String × ProcAttrs) : Prop :=
  ∃ s, LaneSetOf plane p s ∧ q = (p.getAttr "id", { processEntry p with laneSet := s, nodeIds := some (directNodes p.children) })

theorem importProcess_entry {ord : List String → List String} {plane p : Xml} {D D' : Diagram} (h : importProcess ord plane p D = .ok D')
    (hn : p.getAttr "id" ∉ D.processElements.keys) : ∃ q, EntryOf plane p q ∧ D'.processElements = D.processElements ++ [q] := by
  unfold importProcess at h
  dsimp only at h
  rw [Dict.set_of_not_mem _ _ hn] at h
  obtain ⟨D1, h1, h⟩ := except_bind_eq_ok h
  obtain ⟨D2, h2, h⟩ := except_bind_eq_ok h
  have e1 := importFlows_procs h
  have e2 := importElements_ids h2
  have e3 : ∃ s, LaneSetOf plane p s ∧ D1.processElements = D.processElements ++ [(p.getAttr "id", { processEntry p with laneSet := s })] := by
    unfold LaneSetOf
    cases hb : p.byName "laneSet" with
    | nil =>
      rw [hb] at h1
      rw [← Except.ok.inj h1]
      exact ⟨none, rfl, rfl⟩
    | cons ls r =>
      rw [hb, importLaneSet] at h1
      obtain ⟨lanes, h3, h1⟩ := except_bind_eq_ok h1
      rw [← Except.ok.inj h1]
      refine ⟨_, ⟨lanes, h3, rfl⟩, ?_⟩
      dsimp only
      rw [Dict.modify_append _ _ _ hn]
      simp [Dict.modify]
  obtain ⟨s, h4, h5⟩ := e3
  refine ⟨_, ⟨s, h4, rfl⟩, ?_⟩
  rw [e1, e2, h5]
  unfold addIds
  dsimp only
  rw [Dict.modify_append _ _ _ hn]
  simp only [Dict.modify, ↓reduceIte, processEntry, Option.getD_some, List.nil_append]
  split
  · rename_i h; rw [h]
  · rfl

theorem importProcesses_entries {ord : List String → List String} {plane : Xml} : ∀ {l : List Xml} {D D' : Diagram},
    importProcesses ord plane l D = .ok D' → (l.map fun p => p.getAttr "id").Nodup → (∀ p ∈ l, p.getAttr "id" ∉ D.processElements.keys) →
    ∃ qs, List.Forall₂ (EntryOf plane) l qs ∧ D'.processElements = D.processElements ++ qs
  | [], D, D', h, _, _ => by
    rw [← Except.ok.inj h]
    exact ⟨[], .nil, by simp⟩
  | p :: r, D, D', h, nd, hn => by
    unfold importProcesses at h
    obtain ⟨D1, h1, h⟩ := except_bind_eq_ok h
    rw [List.map_cons, List.nodup_cons] at nd
    obtain ⟨q, hq, e⟩ := importProcess_entry h1 (hn p (List.mem_cons_self ..))
    obtain ⟨qs, hqs, e'⟩ := importProcesses_entries h nd.2 (by
      intro x hx
      rw [e]
      simp only [Dict.keys, List.map_append, List.map_cons, List.map_nil, List.mem_append, List.mem_singleton, not_or]
      refine ⟨hn x (List.mem_cons_of_mem _ hx), ?_⟩
      obtain ⟨s, -, rfl⟩ := hq
      intro e
      exact nd.1 (List.mem_map.2 ⟨x, hx, e⟩))
    exact ⟨q :: qs, .cons hq hqs, by rw [e', e]; simp⟩

theorem load_processes {ord : List String → List String} {root diagram plane : Xml} {E : Diagram} (h : load ord root {} = .ok E)
    (hd : (Xml.byNameIn "BPMNDiagram" [root]).head? = some diagram) (hp : (diagram.byName "BPMNPlane").head? = some plane)
    (nd : ((Xml.byNameIn "process" [root]).map fun p => p.getAttr "id").Nodup) :
    List.Forall₂ (EntryOf plane) (Xml.byNameIn "process" [root]) E.processElements := by
  simp only [load] at h
  obtain ⟨diagram', h1, g⟩ := except_bind_eq_ok h
  obtain ⟨plane', h2, k⟩ := except_bind_eq_ok g
  obtain ⟨D1, h3, l⟩ := except_bind_eq_ok k
  obtain ⟨D2, h4, m⟩ := except_bind_eq_ok l
  rw [pyIndex_zero_ok, hd, Option.some.injEq] at h1
  subst h1
  rw [pyIndex_zero_ok, hp, Option.some.injEq] at h2
  subst h2
  obtain ⟨qs, hqs, e⟩ := importProcesses_entries h3 nd (by intro p _ hh; cases hh)
  rw [importPlane_procs m, importFirstCollaboration_procs h4, e]
  exact hqs

/-! ## Lanes -/

theorem laneShape_eq (i : String) : ∀ {l : List Xml} {s s' : Option Xml}, laneShape i l s = .ok s' →
    s' = (l.filter fun x => !x.isText && x.getAttr "bpmnElement" == i).getLast?.or s
  | [], s, s', h => by
    rw [laneShape] at h
    rw [← Except.ok.inj h]
    simp
  | .text t :: r, s, s', h => by
    rw [laneShape] at h
    rw [laneShape_eq i h]
    simp [Xml.isText]
  | .other t :: r, s, s', h => by
    rw [laneShape] at h
    cases h
  | .elem t as ks :: r, s, s', h => by
    rw [laneShape] at h
    rw [laneShape_eq i h]
    by_cases c : (Xml.elem t as ks).getAttr "bpmnElement" = i
    · have cc : (!(Xml.elem t as ks).isText && (Xml.elem t as ks).getAttr "bpmnElement" == i) = true := by simpa [Xml.isText] using c
      rw [List.filter_cons, if_pos cc, List.getLast?_cons, if_pos c]
      generalize (r.filter fun x => !x.isText && x.getAttr "bpmnElement" == i).getLast? = w
      cases w <;> rfl
    · have cc : ¬(!(Xml.elem t as ks).isText && (Xml.elem t as ks).getAttr "bpmnElement" == i) = true := by simpa [Xml.isText] using c
      rw [List.filter_cons, if_neg cc, if_neg c]

theorem nodup_eraseDups : ∀ l : List String, l.eraseDups.Nodup
  | [] => by simp
  | a :: l => by
    rw [List.eraseDups_cons, List.nodup_cons]
    exact ⟨by simp, nodup_eraseDups _⟩
termination_by l => l.length
decreasing_by
  exact Nat.lt_succ_of_le (List.length_filter_le ..)

/-- The lanes read so far. -/
def AccSays (plane : Xml) (acc : List Lane) (xs : List Xml) : Prop :=
  acc.map idOfLane = (xs.map (·.getAttr "id")).eraseDups ∧ LanesSay plane acc xs

theorem lanesSay_iff (plane : Xml) (xs : List Xml) : ∀ ls : List Lane, LanesSay plane ls xs ↔
    ∀ l ∈ ls, ∃ x, lastWithId (idOfLane l) xs = some x ∧ LaneSays plane l x
  | [] => by simp [LanesSay]
  | l :: r => by
    rw [LanesSay, lanesSay_iff plane xs r]
    simp

theorem lastWithId_append (i : String) (xs : List Xml) (x : Xml) :
    lastWithId i (xs ++ [x]) = if x.getAttr "id" = i then some x else lastWithId i xs := by
  unfold lastWithId
  by_cases c : x.getAttr "id" = i
  · simp [c]
  · simp [c]

theorem mem_setLane {l : Lane} : ∀ {acc : List Lane} {m : Lane}, (acc.map idOfLane).Nodup → m ∈ setLane acc l → m = l ∨ (m ∈ acc ∧ idOfLane m ≠ idOfLane l)
  | [], m, _, h => .inl (by simpa [setLane] using h)
  | (.mk i n ci c r di) :: rest, m, nd, h => by
    obtain ⟨i', n', ci', c', r', di'⟩ := l
    rw [List.map_cons, List.nodup_cons] at nd
    rw [setLane] at h
    split at h
    · rename_i e
      rcases List.mem_cons.1 h with h | h
      · exact .inl h
      · refine .inr ⟨List.mem_cons_of_mem _ h, ?_⟩
        intro e'
        apply nd.1
        have e2 : idOfLane (Lane.mk i n ci c r di) = idOfLane m := by rw [e']; exact e
        rw [e2]
        exact List.mem_map_of_mem h
    · rename_i e
      rcases List.mem_cons.1 h with h | h
      · exact .inr ⟨by rw [h]; exact List.mem_cons_self .., by rw [h]; exact e⟩
      · rcases mem_setLane nd.2 h with h | h
        · exact .inl h
        · exact .inr ⟨List.mem_cons_of_mem _ h.1, h.2⟩

theorem ids_setLane (l : Lane) : ∀ acc : List Lane, (setLane acc l).map idOfLane =
    acc.map idOfLane ++ (if idOfLane l ∈ acc.map idOfLane then [] else [idOfLane l])
  | [] => by simp [setLane]
  | (.mk i n ci c r di) :: rest => by
    obtain ⟨i', n', ci', c', r', di'⟩ := l
    rw [setLane]
    split
    · rename_i e
      subst e
      simp [idOfLane]
    · rename_i e
      have e' : ¬ i' = i := fun h => e h.symm
      rw [List.map_cons, ids_setLane _ rest]
      simp [idOfLane, e']

theorem AccSays.set {plane : Xml} {acc : List Lane} {xs : List Xml} (h : AccSays plane acc xs) {l : Lane} {x : Xml} (hl : LaneSays plane l x)
    (hi : idOfLane l = x.getAttr "id") : AccSays plane (setLane acc l) (xs ++ [x]) := by
  constructor
  · rw [ids_setLane, h.1, List.map_append, List.eraseDups_append, List.map_cons, List.map_nil, ← hi]
    congr 1
    by_cases c : idOfLane l ∈ xs.map (·.getAttr "id")
    · have c' : idOfLane l ∈ (xs.map (·.getAttr "id")).eraseDups := by simpa using c
      rw [if_pos c']
      have : [idOfLane l].removeAll (xs.map (·.getAttr "id")) = [] := by
        unfold List.removeAll
        rw [List.filter_cons, if_neg (by simpa using c)]
        rfl
      rw [this]
      rfl
    · have c' : idOfLane l ∉ (xs.map (·.getAttr "id")).eraseDups := by simpa using c
      rw [if_neg c']
      have : [idOfLane l].removeAll (xs.map (·.getAttr "id")) = [idOfLane l] := by
        unfold List.removeAll
        rw [List.filter_cons, if_pos (by simpa using c)]
        rfl
      rw [this]
      rfl
  · rw [lanesSay_iff]
    intro m hm
    have nd : (acc.map idOfLane).Nodup := by rw [h.1]; exact nodup_eraseDups _
    rw [lastWithId_append]
    rcases mem_setLane nd hm with rfl | ⟨h1, h2⟩
    · rw [if_pos hi.symm]
      exact ⟨x, rfl, hl⟩
    · rw [if_neg (by rw [← hi]; exact fun e => h2 e.symm)]
      exact (lanesSay_iff plane xs acc).1 h.2 m h1

theorem boundsOf_eq {s b : Xml} (h : boundsOf s = .ok b) : (s.byName "Bounds").head? = some b := by
  unfold boundsOf at h
  rwa [pyIndex_zero_ok] at h

theorem firstValue_eq {x : Xml} {w : String} (h : x.firstValue = .ok w) : w = valueOf x := by
  unfold Xml.firstValue at h
  unfold valueOf
  split at h <;> simp_all

theorem namedIn_cons (name : String) (x : Xml) (l : List Xml) : namedIn name (x :: l) = if localTag x = name then x :: namedIn name l else namedIn name l := by
  unfold namedIn
  by_cases c : localTag x = name <;> simp [c]

/-- What is known about the child lane set. -/
def KidsSay (plane : Xml) (l : List Xml) (ci : Option String) (c : List Lane) (ci' : Option String) (c' : List Lane) : Prop :=
  match (namedIn "childLaneSet" l).getLast? with
  | none => ci' = ci ∧ c' = c
  | some y => ci' = some (y.getAttr "id") ∧ AccSays plane c' (namedIn "lane" y.children)

mutual
theorem importLane_says {plane : Xml} : ∀ {x : Xml} {l : Lane}, importLane plane x = .ok l → LaneSays plane l x ∧ idOfLane l = x.getAttr "id"
  | .elem t as ks, l, h => by
    rw [importLane] at h
    obtain ⟨⟨ci, c, refs⟩, h1, k⟩ := except_bind_eq_ok h
    dsimp only at k
    obtain ⟨s, h2, m⟩ := except_bind_eq_ok k
    have e := laneShape_eq _ h2
    rw [Option.or_none] at e
    obtain ⟨r1, r2⟩ := importLaneKids_says h1
    rw [List.nil_append] at r1
    have key : ∀ di, BoxSays s di → LaneSays plane (.mk ((Xml.elem t as ks).getAttr "id") ((Xml.elem t as ks).getAttr "name") ci c refs di) (.elem t as ks) := by
      intro di hdi
      rw [LaneSays]
      refine ⟨rfl, rfl, r1, ?_, ?_⟩
      · rw [show drawingOf plane ((Xml.elem t as ks).getAttr "id") = s from e.symm]
        exact hdi
      · unfold KidsSay at r2
        rw [show (Xml.elem t as ks).children = ks from rfl]
        split
        · rename_i hn
          rw [hn] at r2
          exact r2
        · rename_i y hn
          rw [hn] at r2
          exact r2
    cases s with
    | none =>
      rw [← Except.ok.inj m]
      exact ⟨key none rfl, rfl⟩
    | some s =>
      obtain ⟨b, h3, m⟩ := except_bind_eq_ok m
      rw [← Except.ok.inj m]
      exact ⟨key _ ⟨b, boundsOf_eq h3, rfl⟩, rfl⟩
  | .text _, l, h => by simp [importLane] at h
  | .other _, l, h => by simp [importLane] at h
theorem importLaneKids_says {plane : Xml} : ∀ {l : List Xml} {ci ci' : Option String} {c c' : List Lane} {refs refs' : List String},
    importLaneKids plane l (ci, c, refs) = .ok (ci', c', refs') → refs' = refs ++ textsOf "flowNodeRef" l ∧ KidsSay plane l ci c ci' c'
  | [], ci, ci', c, c', refs, refs', h => by
    rw [importLaneKids] at h
    cases h
    exact ⟨by simp [textsOf], rfl, rfl⟩
  | .text s :: r, ci, ci', c, c', refs, refs', h => by
    rw [importLaneKids] at h
    obtain ⟨h1, h2⟩ := importLaneKids_says (l := r) h
    refine ⟨by rw [h1]; simp [textsOf], ?_⟩
    unfold KidsSay
    rw [namedIn_cons, if_neg (by simp [localTag])]
    exact h2
  | .other s :: r, ci, ci', c, c', refs, refs', h => by
    rw [importLaneKids] at h
    cases h
  | .elem t as ks :: r, ci, ci', c, c', refs, refs', h => by
    rw [importLaneKids] at h
    split at h
    · rename_i ct
      obtain ⟨ls, h1, k⟩ := except_bind_eq_ok h
      have e1 := importLanes_says (l := ks) h1 (xs := []) ⟨rfl, by rw [LanesSay]; trivial⟩
      obtain ⟨h2, h3⟩ := importLaneKids_says (l := r) k
      refine ⟨by rw [h2]; simp [textsOf, ct], ?_⟩
      unfold KidsSay at h3 ⊢
      rw [namedIn_cons, if_pos (by exact ct), List.getLast?_cons]
      generalize (namedIn "childLaneSet" r).getLast? = w at h3
      cases w with
      | none =>
        obtain ⟨rfl, rfl⟩ := h3
        exact ⟨rfl, e1⟩
      | some y => exact h3
    · rename_i ct
      have hn : ∀ {a b : Option String} {c d : List Lane}, KidsSay plane r a c b d → KidsSay plane (.elem t as ks :: r) a c b d := by
        intro a b c d hk
        unfold KidsSay at hk ⊢
        rw [namedIn_cons, if_neg (by exact ct)]
        exact hk
      split at h
      · rename_i cf
        obtain ⟨w, h1, k⟩ := except_bind_eq_ok h
        obtain ⟨h2, h3⟩ := importLaneKids_says (l := r) k
        exact ⟨by rw [h2, firstValue_eq h1]; simp [textsOf, cf], hn h3⟩
      · rename_i cf
        obtain ⟨h2, h3⟩ := importLaneKids_says (l := r) h
        exact ⟨by rw [h2]; simp [textsOf, cf], hn h3⟩
theorem importLanes_says {plane : Xml} : ∀ {l : List Xml} {acc ls : List Lane}, importLanes plane l acc = .ok ls → ∀ {xs : List Xml},
    AccSays plane acc xs → AccSays plane ls (xs ++ namedIn "lane" l)
  | [], acc, ls, h, xs, ha => by
    rw [importLanes] at h
    rw [← Except.ok.inj h]
    simpa [namedIn] using ha
  | .text s :: r, acc, ls, h, xs, ha => by
    rw [importLanes] at h
    rw [namedIn_cons, if_neg (by simp [localTag])]
    exact importLanes_says (l := r) h ha
  | .other s :: r, acc, ls, h, xs, ha => by
    rw [importLanes] at h
    cases h
  | .elem t as ks :: r, acc, ls, h, xs, ha => by
    rw [importLanes] at h
    rw [namedIn_cons]
    split at h
    · rename_i ct
      obtain ⟨m, h1, k⟩ := except_bind_eq_ok h
      obtain ⟨h2, h3⟩ := importLane_says h1
      have := importLanes_says (l := r) k (ha.set h2 h3)
      rw [if_pos (by exact ct)]
      simpa using this
    · rename_i ct
      rw [if_neg (by exact ct)]
      exact importLanes_says (l := r) h ha
end

theorem EntryOf.says {plane p : Xml} {q : String × ProcAttrs} (h : EntryOf plane p q) : q.1 = p.getAttr "id" ∧ ProcSays plane p q.2 := by
  obtain ⟨s, hs, rfl⟩ := h
  refine ⟨rfl, ⟨rfl, rfl, rfl, rfl, rfl, rfl, ?_⟩⟩
  unfold LaneSetOf at hs
  cases hb : p.byName "laneSet" with
  | nil =>
    rw [hb] at hs
    exact hs
  | cons y r =>
    rw [hb] at hs
    obtain ⟨lanes, h1, rfl⟩ := hs
    have := importLanes_says h1 (xs := []) ⟨rfl, by rw [LanesSay]; trivial⟩
    exact ⟨lanes, rfl, this⟩

end Bpmn.Import

import Verif.Lemmas.Xml
set_option linter.unusedSimpArgs false
set_option linter.unusedVariables false
/-!
# Text between elements does not matter for the import
-/
namespace Bpmn
open Spec

@[simp] theorem squeeze_getAttr (e : Xml) (k : String) : (squeeze e).getAttr k = e.getAttr k := by cases e <;> simp [squeeze, Xml.getAttr]
@[simp] theorem squeeze_hasAttr (e : Xml) (k : String) : (squeeze e).hasAttr k = e.hasAttr k := by cases e <;> simp [squeeze, Xml.hasAttr]
@[simp] theorem squeeze_attrOr (e : Xml) (k v : String) : (squeeze e).attrOr k v = e.attrOr k v := by simp [Xml.attrOr]
@[simp] theorem squeeze_tagName (e : Xml) : (squeeze e).tagName = e.tagName := by cases e <;> simp [squeeze, Xml.tagName]
@[simp] theorem squeeze_isText (e : Xml) : (squeeze e).isText = e.isText := by cases e <;> simp [squeeze, Xml.isText]

theorem squeeze_children (e : Xml) : (squeeze e).children = e.children ∨ (squeeze e).children = squeezeAll e.children := by
  cases e with
  | elem t as ks =>
    simp only [squeeze, Xml.children]
    split <;> simp
  | _ => simp [squeeze]

theorem squeeze_of_textual {t : String} {as : List (String × String)} {ks : List Xml} (h : removeNamespace t ∈ textualTags) :
    squeeze (.elem t as ks) = .elem t as ks := by simp [squeeze, h]

mutual
theorem squeeze_idem : ∀ e : Xml, squeeze (squeeze e) = squeeze e
  | .elem t as ks => by
    simp only [squeeze]
    split
    · rfl
    · rw [squeezeAll_idem ks]
  | .text _ => rfl
  | .other _ => rfl
theorem squeezeAll_idem : ∀ l : List Xml, squeezeAll (squeezeAll l) = squeezeAll l
  | [] => rfl
  | x :: r => by
    simp only [squeezeAll]
    split
    · exact squeezeAll_idem r
    · rename_i h
      simp [squeezeAll, h, squeeze_idem x, squeezeAll_idem r]
end

/-- A loop over the children that skips text gives the same on the squeezed list. -/
theorem values_squeeze (tag : String) (ht : tag ∈ textualTags) : ∀ ks, Import.values tag (squeezeAll ks) = Import.values tag ks
  | [] => rfl
  | x :: r => by
    have ih := values_squeeze tag ht r
    cases x with
    | text s => simp [squeezeAll, Import.values, Xml.isText, ih]
    | other s => simp [squeezeAll, Import.values, Xml.isText, squeeze, Xml.tagName]
    | elem t as ks =>
      simp only [squeezeAll, Import.values, Xml.isText, squeeze_isText, squeeze_tagName, Xml.tagName, ih]
      by_cases h : removeNamespace t = tag
      · rw [squeeze_of_textual (h ▸ ht)]
        simp [h, Import.values, Xml.isText, Xml.tagName, ih]
      · simp [h, squeeze, Import.values, Xml.isText, Xml.tagName, ih]

theorem conditions_squeeze : ∀ ks c, Import.conditions (squeezeAll ks) c = Import.conditions ks c
  | [], c => rfl
  | x :: r, c => by
    cases x with
    | text s => simp [squeezeAll, Import.conditions, Xml.isText, conditions_squeeze r]
    | other s => simp [squeezeAll, Import.conditions, Xml.isText, squeeze, Xml.tagName]
    | elem t as ks =>
      by_cases h : removeNamespace t = "conditionExpression"
      · simp only [squeezeAll, Xml.isText]
        rw [squeeze_of_textual (by simp [h, textualTags])]
        simp [Import.conditions, Xml.isText, Xml.tagName, h, conditions_squeeze r]
      · simp [squeezeAll, Import.conditions, Xml.isText, Xml.tagName, squeeze, h, conditions_squeeze r]

theorem values_children {tag : String} (ht : tag ∈ textualTags) (e : Xml) :
    Import.values tag (squeeze e).children = Import.values tag e.children := by
  rcases squeeze_children e with h | h <;> rw [h]
  exact values_squeeze tag ht _

mutual
theorem byName_squeeze (name : String) : ∀ e : Xml, ((squeeze e).byName name).map squeeze = (e.byName name).map squeeze
  | .elem t as ks => by
    simp only [squeeze]
    split
    · rfl
    · simp only [Xml.byName]
      exact byNameIn_squeeze name ks
  | .text _ => rfl
  | .other _ => rfl
theorem byNameIn_squeeze (name : String) : ∀ l : List Xml, (Xml.byNameIn name (squeezeAll l)).map squeeze = (Xml.byNameIn name l).map squeeze
  | [] => rfl
  | .text s :: r => by simp [squeezeAll, Xml.isText, Xml.byNameIn, Xml.byName, byNameIn_squeeze name r]
  | .other s :: r => by simp [squeezeAll, Xml.isText, Xml.byNameIn, Xml.byName, squeeze, byNameIn_squeeze name r]
  | .elem t as ks :: r => by
    have h1 := byName_squeeze name (.elem t as ks)
    have h2 := byNameIn_squeeze name r
    have h3 := squeeze_idem (.elem t as ks)
    simp only [squeezeAll, Xml.isText, Bool.false_eq_true, if_false, Xml.byNameIn, List.map_append, h1, h2]
    congr 2
    simp only [squeeze]
    simp only [squeeze] at h3
    split <;> simp [squeeze, h3]
end

/-- The document search: the root is part of the searched list. -/
theorem byNameIn_root (name : String) (root : Xml) :
    (Xml.byNameIn name [squeeze root]).map squeeze = (Xml.byNameIn name [root]).map squeeze := by
  have h := byNameIn_squeeze name [root]
  cases root with
  | text s => rfl
  | other s => rfl
  | elem t as ks => simpa [squeezeAll, Xml.isText] using h

namespace Import

@[simp] theorem defaultOf_squeeze (e : Xml) : defaultOf (squeeze e) = defaultOf e := by simp [defaultOf]

@[simp] theorem importFlowNode_squeeze (pid : String) (o : Owner) (e : Xml) (d : Diagram) :
    importFlowNode pid o (squeeze e) d = importFlowNode pid o e d := by
  simp [importFlowNode, values_children (show "incoming" ∈ textualTags by simp [textualTags]),
    values_children (show "outgoing" ∈ textualTags by simp [textualTags])]

theorem map_getAttr_of_squeeze {l l' : List Xml} (h : l.map squeeze = l'.map squeeze) {β : Type} (f : Xml → β)
    (hf : ∀ e, f (squeeze e) = f e) : l.map f = l'.map f := by
  have : ∀ l : List Xml, l.map f = (l.map squeeze).map f := by intro l; simp [List.map_map, Function.comp_def, hf]
  rw [this l, this l', h]

@[simp] theorem eventDefs_squeeze (e : Xml) (types : List String) : eventDefs (squeeze e) types = eventDefs e types := by
  simp only [eventDefs]
  congr 1
  funext t
  exact map_getAttr_of_squeeze (byName_squeeze t e) _ (by simp)

@[simp] theorem importEventDefs_squeeze (ord : List String → List String) (e : Xml) (types : List String) (d : Diagram) :
    importEventDefs ord (squeeze e) types d = importEventDefs ord e types d := by simp [importEventDefs]

@[simp] theorem importSimple_squeeze (ord : List String → List String) (pid : String) (o : Owner) (e : Xml) (tag : String) (d : Diagram) :
    importSimple ord pid o (squeeze e) tag d = importSimple ord pid o e tag d := by
  simp [importSimple, importActivity, importDataObject, importDefaultGateway, importGateway, importEventBasedGateway, importStartEvent,
    importCatchEvent, importThrowEvent, importBoundaryEvent]

@[simp] theorem importActivity_squeeze (pid : String) (o : Owner) (e : Xml) (d : Diagram) :
    importActivity pid o (squeeze e) d = importActivity pid o e d := by simp [importActivity]

@[simp] theorem importSequenceFlow_squeeze (pid : String) (e : Xml) (d : Diagram) :
    importSequenceFlow pid (squeeze e) d = importSequenceFlow pid e d := by
  have h : ∀ c, conditions (squeeze e).children c = conditions e.children c := by
    intro c
    rcases squeeze_children e with h | h <;> rw [h]
    exact conditions_squeeze _ _
  simp [importSequenceFlow, h]

theorem importFlows_squeeze (pid : String) : ∀ ks d, importFlows pid (squeezeAll ks) d = importFlows pid ks d
  | [], d => rfl
  | x :: r, d => by
    cases h : x.isText with
    | true => simp [squeezeAll, importFlows, h, importFlows_squeeze pid r]
    | false =>
      simp only [squeezeAll, importFlows, h, squeeze_isText, squeeze_tagName, importSequenceFlow_squeeze, Bool.false_eq_true, if_false,
        importFlows_squeeze pid r]

theorem importFlows_children (pid : String) (e : Xml) (d : Diagram) :
    importFlows pid (squeeze e).children d = importFlows pid e.children d := by
  rcases squeeze_children e with h | h <;> rw [h]
  exact importFlows_squeeze _ _ _

mutual
theorem importElement_squeeze (ord : List String → List String) (pid : String) (o : Owner) :
    ∀ (e : Xml) (d : Diagram), importElement ord pid o (squeeze e) d = importElement ord pid o e d
  | .text _, d => rfl
  | .other _, d => rfl
  | .elem t as ks, d => by
    have h1 : ∀ d, importActivity pid o (squeeze (.elem t as ks)) d = importActivity pid o (.elem t as ks) d := by simp
    have h2 : ∀ d, importSimple ord pid o (squeeze (.elem t as ks)) (removeNamespace t) d
        = importSimple ord pid o (.elem t as ks) (removeNamespace t) d := by simp
    have h3 := squeeze_getAttr (.elem t as ks) "id"
    have h4 := squeeze_attrOr (.elem t as ks) "triggeredByEvent" "false"
    by_cases ht : removeNamespace t ∈ textualTags
    · rw [squeeze_of_textual ht]
    · have e1 : squeeze (.elem t as ks) = .elem t as (squeezeAll ks) := by simp [squeeze, ht]
      rw [e1] at h1 h2 h3 h4 ⊢
      simp only [importElement, h1, h2, h3, h4, importElements_squeeze ord _ _ ks, importFlows_squeeze]
theorem importElements_squeeze (ord : List String → List String) (pid : String) (o : Owner) :
    ∀ (ks : List Xml) (d : Diagram), importElements ord pid o (squeezeAll ks) d = importElements ord pid o ks d
  | [], d => rfl
  | .text s :: r, d => by simp [squeezeAll, Xml.isText, importElements, importElement, importElements_squeeze ord pid o r]
  | .other s :: r, d => by simp [squeezeAll, Xml.isText, importElements, importElement, squeeze]
  | .elem t as ks :: r, d => by
    simp only [squeezeAll, Xml.isText, Bool.false_eq_true, if_false, importElements,
      importElement_squeeze ord pid o (.elem t as ks), importElements_squeeze ord pid o r]
end

theorem importElements_children (ord : List String → List String) (pid : String) (o : Owner) (e : Xml) (d : Diagram) :
    importElements ord pid o (squeeze e).children d = importElements ord pid o e.children d := by
  rcases squeeze_children e with h | h <;> rw [h]
  exact importElements_squeeze _ _ _ _ _

/-- The shape found by a lane, up to text. -/
theorem laneShape_squeeze (i : String) : ∀ (ks : List Xml) (s s' : Option Xml), s.map squeeze = s'.map squeeze →
    (laneShape i (squeezeAll ks) s).map (·.map squeeze) = (laneShape i ks s').map (·.map squeeze)
  | [], s, s', h => by simp [squeezeAll, laneShape, Except.map, h]
  | .text _ :: r, s, s', h => by simpa [squeezeAll, Xml.isText, laneShape] using laneShape_squeeze i r s s' h
  | .other _ :: r, s, s', h => by simp [squeezeAll, Xml.isText, laneShape, squeeze, Except.map]
  | .elem t as ks :: r, s, s', h => by
    have h3 := squeeze_idem (.elem t as ks)
    have h4 := squeeze_getAttr (.elem t as ks) "bpmnElement"
    have : laneShape i (squeezeAll (.elem t as ks :: r)) s =
        laneShape i (squeezeAll r) (if (Xml.elem t as ks).getAttr "bpmnElement" = i then some (squeeze (.elem t as ks)) else s) := by
      simp only [squeeze] at h4
      simp [squeezeAll, Xml.isText, laneShape, squeeze, h4]
    rw [this]
    simp only [laneShape]
    apply laneShape_squeeze
    split
    · simp [h3]
    · exact h

theorem laneShape_children (i : String) (e : Xml) :
    (laneShape i (squeeze e).children none).map (·.map squeeze) = (laneShape i e.children none).map (·.map squeeze) := by
  rcases squeeze_children e with h | h <;> rw [h]
  exact laneShape_squeeze _ _ _ _ rfl

/-- The first `Bounds`, up to text. -/
theorem boundsOf_squeeze {e e' : Xml} (h : squeeze e = squeeze e') : (boundsOf e).map squeeze = (boundsOf e').map squeeze := by
  have h1 := byName_squeeze "Bounds" e
  rw [h, byName_squeeze] at h1
  have h2 := congrArg (fun l => l[0]?) h1
  simp only [List.getElem?_map] at h2
  simp only [boundsOf, pyIndex]
  cases h3 : (e.byName "Bounds")[0]? <;> cases h4 : (e'.byName "Bounds")[0]? <;> simp_all [Except.map]

theorem getAttr_of_squeeze {a b : Xml} (h : squeeze a = squeeze b) (k : String) : a.getAttr k = b.getAttr k := by
  rw [← squeeze_getAttr a, h, squeeze_getAttr]

theorem boxOf_squeeze {a a' b b' : Xml} (h : squeeze a = squeeze a') (h' : squeeze b = squeeze b') : boxOf a b = boxOf a' b' := by
  simp [boxOf, getAttr_of_squeeze h, getAttr_of_squeeze h']

theorem except_map_eq {α β : Type} {f : α → β} {x y : Py α} (h : x.map f = y.map f) :
    (∃ e, x = .error e ∧ y = .error e) ∨ ∃ a b, x = .ok a ∧ y = .ok b ∧ f a = f b := by
  cases x <;> cases y <;> simp_all [Except.map]

/-- What a lane reads from the plane depends on the plane only up to text. -/
theorem laneDi_squeeze {γ : Type} (i : String) {p p' : Xml} (hp : squeeze p = squeeze p') (f : Option BoxDi → γ) :
    (do
      match ← laneShape i p.children none with
      | none => pure (f none)
      | some s => do
        let b ← boundsOf s
        pure (f (some (boxOf s b))) : Py γ) =
    (do
      match ← laneShape i p'.children none with
      | none => pure (f none)
      | some s => do
        let b ← boundsOf s
        pure (f (some (boxOf s b)))) := by
  have h1 := laneShape_children i p
  rw [hp, laneShape_children] at h1
  rcases except_map_eq h1 with ⟨e, ha, hb⟩ | ⟨a, b, ha, hb, hab⟩
  · simp [ha, hb]
  · rw [ha, hb]
    cases a <;> cases b <;> simp at hab
    · rfl
    · rename_i a b
      rcases except_map_eq (boundsOf_squeeze hab) with ⟨e, h2, h3⟩ | ⟨x, y, h2, h3, h4⟩
      · simp [h2, h3]
      · simp [h2, h3, boxOf_squeeze hab h4]

mutual
theorem importLane_squeeze {p p' : Xml} (hp : squeeze p = squeeze p') : ∀ e : Xml, importLane p (squeeze e) = importLane p' e
  | .text _ => rfl
  | .other _ => rfl
  | .elem t as ks => by
    have h3 := squeeze_getAttr (.elem t as ks) "id"
    have h4 := squeeze_getAttr (.elem t as ks) "name"
    have hk := importLaneKids_squeeze hp ks (none, [], [])
    have hk' := importLaneKids_plane hp ks (none, [], [])
    have key : ∀ ks', importLaneKids p ks' (none, [], []) = importLaneKids p' ks (none, [], []) →
        (Xml.elem t as ks').getAttr "id" = (Xml.elem t as ks).getAttr "id" →
        (Xml.elem t as ks').getAttr "name" = (Xml.elem t as ks).getAttr "name" →
        importLane p (.elem t as ks') = importLane p' (.elem t as ks) := by
      intro ks' hks hid hname
      simp only [importLane, hks, hid, hname]
      cases importLaneKids p' ks (none, [], []) with
      | error e => rfl
      | ok r =>
        obtain ⟨a, b, c⟩ := r
        exact laneDi_squeeze _ hp (fun di => Lane.mk ((Xml.elem t as ks).getAttr "id") ((Xml.elem t as ks).getAttr "name") a b c di)
    simp only [squeeze] at h3 h4 ⊢
    split
    · exact key _ hk' rfl rfl
    · exact key _ hk (by rfl) (by rfl)
/-- Only the plane changes. -/
theorem importLaneKids_plane {p p' : Xml} (hp : squeeze p = squeeze p') :
    ∀ (ks : List Xml) (acc), importLaneKids p ks acc = importLaneKids p' ks acc
  | [], acc => by simp [importLaneKids]
  | .text _ :: r, acc => by simp [importLaneKids, importLaneKids_plane hp r]
  | .other _ :: r, acc => by simp [importLaneKids]
  | .elem t as ks :: r, (a, b, c) => by
    simp only [importLaneKids, importLaneKids_plane hp r, importLanes_plane hp ks]
theorem importLanes_plane {p p' : Xml} (hp : squeeze p = squeeze p') :
    ∀ (ks : List Xml) (acc), importLanes p ks acc = importLanes p' ks acc
  | [], acc => by simp [importLanes]
  | .text _ :: r, acc => by simp [importLanes, importLanes_plane hp r]
  | .other _ :: r, acc => by simp [importLanes]
  | .elem t as ks :: r, acc => by
    have h := importLane_plane hp (.elem t as ks)
    simp only [importLanes, importLanes_plane hp r, h]
theorem importLane_plane {p p' : Xml} (hp : squeeze p = squeeze p') : ∀ e : Xml, importLane p e = importLane p' e
  | .text _ => rfl
  | .other _ => rfl
  | .elem t as ks => by
    simp only [importLane, importLaneKids_plane hp ks]
    cases importLaneKids p' ks (none, [], []) with
    | error e => rfl
    | ok r =>
      obtain ⟨a, b, c⟩ := r
      exact laneDi_squeeze _ hp (fun di => Lane.mk ((Xml.elem t as ks).getAttr "id") ((Xml.elem t as ks).getAttr "name") a b c di)
theorem importLaneKids_squeeze {p p' : Xml} (hp : squeeze p = squeeze p') :
    ∀ (ks : List Xml) (acc), importLaneKids p (squeezeAll ks) acc = importLaneKids p' ks acc
  | [], acc => by simp [importLaneKids, squeezeAll]
  | .text _ :: r, acc => by simp [importLaneKids, squeezeAll, Xml.isText, importLaneKids_squeeze hp r]
  | .other _ :: r, acc => by simp [importLaneKids, squeezeAll, Xml.isText, squeeze]
  | .elem t as ks :: r, (a, b, c) => by
    have h3 := squeeze_getAttr (.elem t as ks) "id"
    by_cases h : removeNamespace t ∈ textualTags
    · simp only [squeezeAll, Xml.isText, Bool.false_eq_true, if_false]
      rw [squeeze_of_textual h]
      simp only [importLaneKids, importLaneKids_squeeze hp r, importLanes_plane hp ks]
    · have h' : removeNamespace t ≠ "flowNodeRef" := fun c => h (by simp [c, textualTags])
      have e1 : squeeze (.elem t as ks) = .elem t as (squeezeAll ks) := by simp [squeeze, h]
      simp only [squeezeAll, Xml.isText, Bool.false_eq_true, if_false, e1, importLaneKids, importLaneKids_squeeze hp r, h',
        importLanes_squeeze hp ks]
      rfl
theorem importLanes_squeeze {p p' : Xml} (hp : squeeze p = squeeze p') :
    ∀ (ks : List Xml) (acc), importLanes p (squeezeAll ks) acc = importLanes p' ks acc
  | [], acc => by simp [importLanes, squeezeAll]
  | .text _ :: r, acc => by simp [importLanes, squeezeAll, Xml.isText, importLanes_squeeze hp r]
  | .other _ :: r, acc => by simp [importLanes, squeezeAll, Xml.isText, squeeze]
  | .elem t as ks :: r, acc => by
    have h := importLane_squeeze hp (.elem t as ks)
    by_cases h' : removeNamespace t ∈ textualTags
    · rw [squeeze_of_textual h'] at h
      simp only [squeezeAll, Xml.isText, Bool.false_eq_true, if_false]
      rw [squeeze_of_textual h']
      simp only [importLanes, importLanes_squeeze hp r, h]
    · have e1 : squeeze (.elem t as ks) = .elem t as (squeezeAll ks) := by simp [squeeze, h']
      rw [e1] at h
      simp only [squeezeAll, Xml.isText, Bool.false_eq_true, if_false, e1, importLanes, importLanes_squeeze hp r, h]
end

theorem importLanes_children {p p' : Xml} (hp : squeeze p = squeeze p') (e : Xml) :
    importLanes p (squeeze e).children [] = importLanes p' e.children [] := by
  rcases squeeze_children e with h | h <;> rw [h]
  · exact importLanes_plane hp _ _
  · exact importLanes_squeeze hp _ _

@[simp] theorem processEntry_squeeze (e : Xml) : processEntry (squeeze e) = processEntry e := by simp [processEntry]

theorem importLaneSet_squeeze {p p' : Xml} (hp : squeeze p = squeeze p') (pid : String) (ls ls' : List Xml) (d : Diagram)
    (hl : ls.map squeeze = ls'.map squeeze) : importLaneSet p pid ls d = importLaneSet p' pid ls' d := by
  cases ls <;> cases ls' <;> simp at hl
  · rfl
  · rename_i a b c d'
    have := (importLanes_children rfl a).symm.trans
      ((congrArg (fun x => importLanes p (Xml.children x) []) hl.1).trans (importLanes_children hp c))
    simp only [importLaneSet, this, getAttr_of_squeeze hl.1]

theorem importProcess_squeeze (ord : List String → List String) {p p' : Xml} (hp : squeeze p = squeeze p') (e : Xml) (d : Diagram) :
    importProcess ord p (squeeze e) d = importProcess ord p' e d := by
  simp only [importProcess, processEntry_squeeze, squeeze_getAttr, importElements_children, importFlows_children]
  rw [importLaneSet_squeeze hp _ _ _ _ (byName_squeeze "laneSet" e)]

theorem importProcesses_squeeze (ord : List String → List String) {p p' : Xml} (hp : squeeze p = squeeze p') :
    ∀ (l l' : List Xml) (d : Diagram), l.map squeeze = l'.map squeeze → importProcesses ord p l d = importProcesses ord p' l' d
  | [], [], d, h => rfl
  | [], _ :: _, d, h => by simp at h
  | _ :: _, [], d, h => by simp at h
  | e :: r, e' :: r', d, h => by
    simp only [List.map_cons, List.cons.injEq] at h
    have h1 : importProcess ord p e d = importProcess ord p' e' d := by
      rw [← importProcess_squeeze ord (rfl : squeeze p = squeeze p) e, h.1, importProcess_squeeze ord hp]
    simp only [importProcesses, h1]
    cases importProcess ord p' e' d with
    | error e => rfl
    | ok d' => exact importProcesses_squeeze ord hp r r' d' h.2

@[simp] theorem importParticipant_squeeze (e : Xml) (d : Diagram) (c : Collab) : importParticipant (squeeze e) d c = importParticipant e d c := by
  simp [importParticipant]

@[simp] theorem importMessageFlow_squeeze (e : Xml) (d : Diagram) (c : Collab) : importMessageFlow (squeeze e) d c = importMessageFlow e d c := by
  simp [importMessageFlow]

theorem importCollabKids_squeeze : ∀ ks d c, importCollabKids (squeezeAll ks) d c = importCollabKids ks d c
  | [], d, c => rfl
  | x :: r, d, c => by
    cases h : x.isText with
    | true => simp [squeezeAll, importCollabKids, h, importCollabKids_squeeze r]
    | false =>
      simp only [squeezeAll, importCollabKids, h, squeeze_isText, squeeze_tagName, importParticipant_squeeze, importMessageFlow_squeeze,
        Bool.false_eq_true, if_false, importCollabKids_squeeze r]

theorem importCollaboration_squeeze (e : Xml) (d : Diagram) : importCollaboration (squeeze e) d = importCollaboration e d := by
  have h : ∀ c, importCollabKids (squeeze e).children d c = importCollabKids e.children d c := by
    intro c
    rcases squeeze_children e with h | h <;> rw [h]
    exact importCollabKids_squeeze _ _ _
  simp [importCollaboration, h]

theorem importShape_squeeze (e : Xml) (d : Diagram) : importShape (squeeze e) d = importShape e d := by
  rcases except_map_eq (boundsOf_squeeze (squeeze_idem e)) with ⟨x, h2, h3⟩ | ⟨a, b, h2, h3, h4⟩
  · simp [importShape, h2, h3]
  · simp only [importShape, importNodeShape, h2, h3, squeeze_getAttr, squeeze_attrOr, getAttr_of_squeeze h4, boxOf_squeeze (squeeze_idem e) h4,
      except_bind_ok]

theorem importFlowDi_squeeze (e : Xml) (d : Diagram) : importFlowDi (squeeze e) d = importFlowDi e d := by
  have := map_getAttr_of_squeeze (byName_squeeze "waypoint" e) (fun w => (w.getAttr "x", w.getAttr "y")) (by simp)
  simp only [importFlowDi, this, squeeze_getAttr]

theorem importPlane_squeeze : ∀ ks d, importPlane (squeezeAll ks) d = importPlane ks d
  | [], d => rfl
  | x :: r, d => by
    cases h : x.isText with
    | true => simp [squeezeAll, importPlane, h, importPlane_squeeze r]
    | false =>
      simp only [squeezeAll, importPlane, h, squeeze_isText, squeeze_tagName, importShape_squeeze, importFlowDi_squeeze,
        Bool.false_eq_true, if_false, importPlane_squeeze r]

theorem importPlane_children (e : Xml) (d : Diagram) : importPlane (squeeze e).children d = importPlane e.children d := by
  rcases squeeze_children e with h | h <;> rw [h]
  exact importPlane_squeeze _ _

theorem pyIndex_map {l l' : List Xml} (h : l.map squeeze = l'.map squeeze) (i : Nat) :
    (pyIndex l i).map squeeze = (pyIndex l' i).map squeeze := by
  have h2 := congrArg (fun l => l[i]?) h
  simp only [List.getElem?_map] at h2
  simp only [pyIndex]
  cases h3 : l[i]? <;> cases h4 : l'[i]? <;> simp_all [Except.map]

theorem load_squeeze (ord : List String → List String) (root : Xml) (d : Diagram) : load ord (squeeze root) d = load ord root d := by
  simp only [load]
  rcases except_map_eq (pyIndex_map (byNameIn_root "BPMNDiagram" root) 0) with ⟨x, h2, h3⟩ | ⟨a, b, h2, h3, hab⟩
  · simp [h2, h3]
  rw [h2, h3]
  simp only [except_bind_ok]
  have hn : (a.byName "BPMNPlane").map squeeze = (b.byName "BPMNPlane").map squeeze := by
    rw [← byName_squeeze, hab, byName_squeeze]
  rcases except_map_eq (pyIndex_map hn 0) with ⟨x, h2, h3⟩ | ⟨p, q, h2, h3, hpq⟩
  · simp [h2, h3]
  rw [h2, h3]
  simp only [except_bind_ok, getAttr_of_squeeze hab, getAttr_of_squeeze hpq]
  have hat : a.attrOr "name" "" = b.attrOr "name" "" := by rw [← squeeze_attrOr a, hab, squeeze_attrOr]
  rw [hat, importProcesses_squeeze ord hpq _ _ _ (byNameIn_root "process" root)]
  have hpl : ∀ d, importPlane p.children d = importPlane q.children d := by
    intro d; rw [← importPlane_children p, hpq, importPlane_children]
  have hc : ∀ d, importFirstCollaboration (Xml.byNameIn "collaboration" [squeeze root]) d =
      importFirstCollaboration (Xml.byNameIn "collaboration" [root]) d := by
    intro d
    have hc := byNameIn_root "collaboration" root
    revert hc
    generalize Xml.byNameIn "collaboration" [squeeze root] = l
    generalize Xml.byNameIn "collaboration" [root] = l'
    intro hc
    cases l <;> cases l' <;> simp at hc
    · rfl
    · simp only [importFirstCollaboration]
      rename_i x r y r'
      rw [← importCollaboration_squeeze x, hc.1, importCollaboration_squeeze]
  simp only [hpl, hc]

end Import
end Bpmn

import Verif.Lemmas.AgainLoad
import Verif.Spec.Layout
set_option linter.unusedSimpArgs false
set_option linter.unusedVariables false
/-!
# Loading the document again takes changes of the drawing back
-/
namespace Bpmn.Import
open Bpmn Bpmn.Spec

/-- A node without coordinates. -/
def noPlace (a : NodeAttrs) : NodeAttrs := { a with x := none, y := none }

/-- A flow without waypoints. -/
def noWay (a : EdgeAttrs) : EdgeAttrs := { a with waypoints := none }

theorem get?_map_val {κ α β : Type} [DecidableEq κ] (f : α → β) : ∀ (d : Dict κ α) (k : κ),
    Dict.get? (d.map fun p => (p.1, f p.2)) k = (d.get? k).map f
  | [], k => rfl
  | (x, a) :: r, k => by
    simp only [List.map_cons, Dict.get?]
    split
    · rfl
    · exact get?_map_val f r k

theorem eview_map (f : EdgeAttrs → EdgeAttrs) (hf : f {} = {}) (es : List Edge) (u v : String) :
    eview (es.map fun e => { e with attrs := f e.attrs }) u v = f (eview es u v) := by
  unfold eview
  rw [List.find?_map]
  have : ((fun x : Edge => x.joins u v) ∘ fun e : Edge => { e with attrs := f e.attrs }) = fun x => x.joins u v := rfl
  rw [this]
  cases es.find? (·.joins u v) with
  | none => exact hf.symm
  | some e => rfl

/-- What equality up to the layout says. -/
structure SamePlaces (e e1 : Diagram) : Prop where
  keys : e1.graph.nodes.keys = e.graph.nodes.keys
  view : ∀ n, noPlace (Import.view e1 n) = noPlace (Import.view e n)
  ends : e1.graph.edges.map ends = e.graph.edges.map ends
  eview : ∀ u v, noWay (Import.eview e1.graph.edges u v) = noWay (Import.eview e.graph.edges u v)
  table : e1.sequenceFlows = e.sequenceFlows
  procs : e1.processElements = e.processElements
  header : e1.diagramId = e.diagramId ∧ e1.diagramName = e.diagramName ∧ e1.planeId = e.planeId ∧ e1.planeElement = e.planeElement
  collab : e1.collaboration = e.collaboration

theorem samePlaces {e e1 : Diagram} (h : eraseLayout e1 = eraseLayout e) : SamePlaces e e1 := by
  unfold eraseLayout at h
  simp only [Diagram.mk.injEq, Graph.mk.injEq] at h
  obtain ⟨⟨h1, h2⟩, h3, h4, h5, h6, h7, h8, h9⟩ := h
  refine ⟨?_, fun n => ?_, ?_, fun u v => ?_, h3, h4, ⟨h5, h6, h7, h8⟩, h9⟩
  · have := congrArg (List.map Prod.fst) h1
    simpa [List.map_map, Function.comp_def, Dict.keys] using this
  · have h := congrArg (fun l => Dict.get? l n) h1
    have e1' := get?_map_val noPlace e1.graph.nodes n
    have e2' := get?_map_val noPlace e.graph.nodes n
    have h : (Dict.get? e1.graph.nodes n).map noPlace = (Dict.get? e.graph.nodes n).map noPlace := by
      rw [← e1', ← e2']
      exact h
    unfold Import.view
    cases g1 : Dict.get? e1.graph.nodes n <;> cases g2 : Dict.get? e.graph.nodes n <;> rw [g1, g2] at h
    · cases h
    · cases h
    · exact Option.some.inj h
  · have := congrArg (List.map Import.ends) h2
    rw [List.map_map, List.map_map] at this
    exact this
  · have h := congrArg (fun l => Import.eview l u v) h2
    rw [← eview_map noWay rfl, ← eview_map noWay rfl]
    exact h

theorem strip_noPlace (a : NodeAttrs) : strip (noPlace a) = strip a := rfl
theorem estrip_noWay (a : EdgeAttrs) : estrip (noWay a) = estrip a := rfl

theorem SamePlaces.core {e e1 : Diagram} (h : SamePlaces e e1) : SameCore e e1 where
  keys := h.keys
  view := fun n => by rw [← strip_noPlace, h.view n, strip_noPlace]
  ends := h.ends
  eview := fun u v => by rw [← estrip_noWay, h.eview u v, estrip_noWay]
  table := h.table
  procs := h.procs
  header := h.header
  frame := by rw [h.collab]
  pools := fun c k h1 h2 i => by rw [h.collab, h1] at h2; cases h2; rfl

theorem SameCore.planeData {D E : Diagram} (h : SameCore D E) (x : Xml) : planeData x E = planeData x D := by
  unfold Import.planeData
  rw [h.table]
  have := h.frame
  cases h1 : E.collaboration <;> cases h2 : D.collaboration <;> rw [h1, h2] at this
  · cases this
  · cases this
  · simp only [Option.map_some, Option.some.injEq, Prod.mk.injEq] at this
    simp only [this.2.1]

/-- An edge of the plane that refers to a flow gives it its waypoints. -/
theorem importPlane_ways {u v : String} : ∀ {l : List Xml} {D E D' E' : Diagram}, SameCore D E → importPlane l D = .ok D' → importPlane l E = .ok E' →
    ((∃ x ∈ l, localTag x = "BPMNEdge" ∧ ∃ n s t, planeData x D = some (n, s, t) ∧ SamePair s t u v) ∨
      (eview E.graph.edges u v).waypoints = (eview D.graph.edges u v).waypoints) →
    (eview E'.graph.edges u v).waypoints = (eview D'.graph.edges u v).waypoints
  | [], D, E, D', E', c, h, h', g => by
    unfold importPlane at h h'
    rw [← Except.ok.inj h, ← Except.ok.inj h']
    rcases g with ⟨x, hx, _⟩ | g
    · cases hx
    · exact g
  | x :: r, D, E, D', E', c, h, h', g => by
    unfold importPlane at h h'
    cases x with
    | text s =>
      simp only [Xml.isText, ↓reduceIte] at h h'
      refine importPlane_ways c h h' ?_
      rcases g with ⟨x, hx, ht, g⟩ | g
      · rcases List.mem_cons.1 hx with rfl | hx
        · simp [localTag] at ht
        · exact .inl ⟨x, hx, ht, g⟩
      · exact .inr g
    | other s => simp [Xml.isText, Xml.tagName] at h
    | elem t as ks =>
      simp only [Xml.isText, Bool.false_eq_true, ↓reduceIte, Xml.tagName, except_bind_ok] at h h'
      split at h
      · rename_i ct
        rw [if_pos ct] at h'
        obtain ⟨D1, h1, h⟩ := except_bind_eq_ok h
        obtain ⟨E1, h1', h'⟩ := except_bind_eq_ok h'
        have cD := sameCore_shape h1
        have cE := sameCore_shape h1'
        refine importPlane_ways ((cD.symm.trans c).trans cE) h h' ?_
        rcases g with ⟨x, hx, ht, n, s, t', hp, g⟩ | g
        · rcases List.mem_cons.1 hx with rfl | hx
          · simp only [localTag] at ht
            rw [ct] at ht
            exact absurd ht (by decide)
          · exact .inl ⟨x, hx, ht, n, s, t', by rw [cD.planeData]; exact hp, g⟩
        · right
          rw [(importShape_parts h1).2.2.1, (importShape_parts h1').2.2.1]
          exact g
      · rename_i ct
        rw [if_neg ct] at h'
        split at h
        · rename_i ct'
          rw [if_pos ct'] at h'
          obtain ⟨D1, h1, h⟩ := except_bind_eq_ok h
          obtain ⟨E1, h1', h'⟩ := except_bind_eq_ok h'
          have cD := sameCore_flowDi h1
          have cE := sameCore_flowDi h1'
          refine importPlane_ways ((cD.symm.trans c).trans cE) h h' ?_
          rw [importFlowDi_data] at h1 h1'
          rw [c.planeData] at h1'
          rcases g with ⟨x, hx, ht, n, s, t', hp, g⟩ | g
          · rcases List.mem_cons.1 hx with rfl | hx
            · right
              rw [hp] at h1 h1'
              simp only at h1 h1'
              split at h1
              · rename_i he
                have he' : E.graph.hasEdge s t' = true := (c.any s t').trans he
                rw [if_pos he'] at h1'
                rw [← Except.ok.inj h1, ← Except.ok.inj h1']
                simp only [touched_graph]
                rw [eview_touched u v _ he, eview_touched u v _ he', if_pos g, if_pos g]
              · cases h1
            · exact .inl ⟨x, hx, ht, n, s, t', by rw [cD.planeData]; exact hp, g⟩
          · right
            cases hp : planeData (.elem t as ks) D with
            | none =>
              rw [hp] at h1 h1'
              rw [← Except.ok.inj h1, ← Except.ok.inj h1']
              exact g
            | some p =>
              obtain ⟨n, s, t'⟩ := p
              rw [hp] at h1 h1'
              simp only at h1 h1'
              split at h1
              · rename_i he
                have he' : E.graph.hasEdge s t' = true := (c.any s t').trans he
                rw [if_pos he'] at h1'
                rw [← Except.ok.inj h1, ← Except.ok.inj h1']
                simp only [touched_graph]
                rw [eview_touched u v _ he, eview_touched u v _ he']
                split
                · rfl
                · exact g
              · cases h1
        · rename_i ct'
          rw [if_neg ct'] at h'
          refine importPlane_ways c h h' ?_
          rcases g with ⟨x, hx, ht, g⟩ | g
          · rcases List.mem_cons.1 hx with rfl | hx
            · simp only [localTag] at ht
              exact absurd ht ct'
            · exact .inl ⟨x, hx, ht, g⟩
          · exact .inr g

theorem planeData_shown {plane : Xml} {d : Diagram} {u v : String} (h : FlowShown plane d u v) :
    ∃ x ∈ plane.children, localTag x = "BPMNEdge" ∧ ∃ n s t, planeData x d = some (n, s, t) ∧ SamePair s t u v := by
  obtain ⟨x, hx, ht, h⟩ := h
  refine ⟨x, hx, ht, ?_⟩
  unfold planeData
  rcases h with ⟨f, hf, hp⟩ | ⟨h0, c, m, hc, hm, hp⟩
  · exact ⟨f.name, f.sourceRef, f.targetRef, by rw [hf], hp⟩
  · exact ⟨m.name, m.sourceRef, m.targetRef, by rw [h0, hc]; simp [hm], hp⟩

theorem Toward.noPlace {e1 e b : NodeAttrs} (h : Toward e1 e b) (g : noPlace e1 = noPlace e) : Import.noPlace b = Import.noPlace e := by
  have h1 := h.strip (by rw [← strip_noPlace e, ← strip_noPlace e1, g])
  rw [← strip_noPlace e1, g, strip_noPlace] at h1
  simp only [Import.strip, Import.noPlace, NodeAttrs.mk.injEq] at h1 g ⊢
  have h7 : b.width = e.width := h.width.elim _root_.id (·.trans g.2.2.2.2.2.2.1)
  have h8 : b.height = e.height := h.height.elim _root_.id (·.trans g.2.2.2.2.2.2.2.1)
  have h11 : b.isExpanded = e.isExpanded := h.isExpanded.elim _root_.id (·.trans g.2.2.2.2.2.2.2.2.2.2.1)
  simp_all

theorem Toward.restored {e1 e b : NodeAttrs} (h : Toward e1 e b) (g : Import.noPlace e1 = Import.noPlace e) (hx : b.x = e.x) (hy : b.y = e.y) : b = e := by
  have h1 := h.noPlace g
  simp only [Import.noPlace, NodeAttrs.mk.injEq] at h1
  cases b; cases e
  simp_all

theorem EToward.noWay {e1 e b : EdgeAttrs} (h : EToward e1 e b) (g : noWay e1 = noWay e) : Import.noWay b = Import.noWay e := by
  have h1 := h.strip (by rw [← estrip_noWay e, ← estrip_noWay e1, g])
  rw [← estrip_noWay e1, g, estrip_noWay] at h1
  simp only [estrip, Import.noWay, EdgeAttrs.mk.injEq] at h1 g ⊢
  have h2 : b.name = e.name := h.name.elim _root_.id (·.trans g.2.1)
  simp_all

theorem EToward.restored {e1 e b : EdgeAttrs} (h : EToward e1 e b) (g : Import.noWay e1 = Import.noWay e) (hw : b.waypoints = e.waypoints) : b = e := by
  have h1 := h.noWay g
  simp only [Import.noWay, EdgeAttrs.mk.injEq] at h1
  cases b; cases e
  simp_all

theorem FlowShown.of_pair {plane : Xml} {d : Diagram} {a b u v : String} (h : FlowShown plane d a b) (p : SamePair a b u v) : FlowShown plane d u v := by
  have tr : ∀ {s t}, SamePair s t a b → SamePair s t u v := by
    intro s t hs
    simp only [SamePair] at hs p ⊢
    grind
  obtain ⟨x, hx, ht, h⟩ := h
  refine ⟨x, hx, ht, ?_⟩
  rcases h with ⟨f, hf, hp⟩ | ⟨h0, c, m, hc, hm, hp⟩
  · exact .inl ⟨f, hf, tr hp⟩
  · exact .inr ⟨h0, c, m, hc, hm, tr hp⟩

/-- Loading the document again takes changes of coordinates and waypoints back. -/
theorem load_restores {ord : List String → List String} {root diagram plane : Xml} {d e e1 : Diagram} (hd : EachKeyOnce d) (h : load ord root d = .ok e)
    (hdia : (Xml.byNameIn "BPMNDiagram" [root]).head? = some diagram) (hpl : (diagram.byName "BPMNPlane").head? = some plane)
    (h1 : eraseLayout e1 = eraseLayout e) : ∃ f, load ord root e1 = .ok f ∧ eraseLayout f = eraseLayout e ∧
      (∀ n, (shapeFor plane n).isSome → f.graph.nodes.get? n = e.graph.nodes.get? n) ∧
      (∀ u v, FlowShown plane e u v → eview f.graph.edges u v = eview e.graph.edges u v) ∧
      ((∀ n ∈ e.graph.nodes.keys, (shapeFor plane n).isSome) → (∀ x ∈ e.graph.edges, FlowShown plane e x.u x.v) → f = e) := by
  have he := load_once hd h
  have sp := samePlaces h1
  have he1 := EachKeyOnce.sameCore he sp.core
  have h0 := h
  unfold Import.load at h
  obtain ⟨diagram', g1, h⟩ := except_bind_eq_ok h
  obtain ⟨plane', g2, h⟩ := except_bind_eq_ok h
  have e1' := (pyIndex_zero_ok _ _).1 g1
  rw [hdia] at e1'
  cases e1'
  have e2' := (pyIndex_zero_ok _ _).1 g2
  rw [hpl] at e2'
  cases e2'
  simp only at h
  obtain ⟨D1, h3, h⟩ := except_bind_eq_ok h
  obtain ⟨D2, h4, h5⟩ := except_bind_eq_ok h
  have q0 : Again e1 (fun _ => False)
      { d with diagramId := some (diagram.getAttr "id"), diagramName := some (diagram.attrOr "name" ""), planeId := some (plane.getAttr "id"), planeElement := some (plane.getAttr "bpmnElement") }
      { e1 with diagramId := some (diagram.getAttr "id"), diagramName := some (diagram.attrOr "name" ""), planeId := some (plane.getAttr "id"), planeElement := some (plane.getAttr "bpmnElement") } :=
    ⟨.refl _ he1.nodes, fun n => Toward.of_end _ _, ⟨⟨[], by simp, by simp⟩, he1.edges, fun u v => EToward.of_end _ _⟩, .refl _ he1.table, fun _ => .inr rfl,
      .refl _ he1.processes, fun _ => .inr rfl, .inr rfl, ⟨rfl, rfl, rfl, rfl⟩, fun _ h => h.elim, fun _ h => h.elim, fun _ h => h.elim⟩
  have all : ∀ (l : List Xml), ∀ x ∈ l, Names (fun _ => True) x := fun l x _ => names_any x
  obtain ⟨E1, k1, q1⟩ := Rel.ok_left (Kept.processes (Again.kept e1) ord plane _ q0 (all _)) h3
  obtain ⟨E2, k2, q2⟩ := Rel.ok_left (Kept.firstCollab (Again.kept e1) _ q1 (all _)) h4
  have cD := sameCore_plane h5
  have q3 := q2.toPlane (cD.trans sp.core)
  obtain ⟨E3, k3, q4⟩ := Rel.ok_left ((Plane2.kept e1).plane _ q3 (all _)) h5
  have hload : load ord root e1 = .ok E3 := by
    unfold Import.load
    rw [g1]
    simp only [except_bind_ok]
    rw [g2]
    simp only [except_bind_ok]
    rw [k1]
    simp only [except_bind_ok]
    rw [k2]
    simp only [except_bind_ok]
    exact k3
  -- nodes
  have hview : ∀ n, (shapeFor plane n).isSome → view E3 n = view e n := by
    intro n hs
    obtain ⟨s, hs⟩ := Option.isSome_iff_exists.1 hs
    by_cases hn : n ∈ D2.graph.nodes.keys
    · refine (q4.view n).restored (sp.view n) ?_ ?_
      all_goals
        rw [(importPlane_view h5).1 n hn, (importPlane_view k3).1 n (q3.core.keys ▸ hn), foldl_draw, foldl_draw]
        unfold shapeFor at hs
        rw [hs]
        rfl
    · have a1 : n ∉ e.graph.nodes.keys := by rw [cD.keys]; exact hn
      have a2 : n ∉ E3.graph.nodes.keys := by rw [q4.core.keys]; exact a1
      unfold view
      rw [(Dict.get?_eq_none_iff _ _).2 a1, (Dict.get?_eq_none_iff _ _).2 a2]
  have hget : ∀ n, view E3 n = view e n → E3.graph.nodes.get? n = e.graph.nodes.get? n := by
    intro n hv
    by_cases c : n ∈ e.graph.nodes.keys
    · obtain ⟨a, ha⟩ := Option.isSome_iff_exists.1 ((Dict.get?_isSome_iff e.graph.nodes n).2 c)
      obtain ⟨b, hb⟩ := Option.isSome_iff_exists.1 ((Dict.get?_isSome_iff E3.graph.nodes n).2 (q4.core.keys ▸ c))
      simp only [view, ha, hb, Option.getD_some] at hv
      rw [ha, hb, hv]
    · rw [(Dict.get?_eq_none_iff _ _).2 c, (Dict.get?_eq_none_iff _ _).2 (q4.core.keys ▸ c)]
  have hways : ∀ u v, FlowShown plane e u v → eview E3.graph.edges u v = eview e.graph.edges u v := by
    intro u v hs
    obtain ⟨x, hx, ht, n, s, t, hp, hg⟩ := planeData_shown hs
    refine (q4.eview u v).restored (sp.eview u v) ?_
    refine importPlane_ways q3.core h5 k3 (.inl ⟨x, hx, ht, n, s, t, ?_, hg⟩)
    rw [← cD.planeData]
    exact hp
  have hcol : E3.collaboration = e.collaboration := by
    have := q4.core.frame
    cases b1 : E3.collaboration with
    | none =>
      cases b2 : e.collaboration with
      | none => rfl
      | some c => rw [b1, b2] at this; cases this
    | some k =>
      cases b2 : e.collaboration with
      | none => rw [b1, b2] at this; cases this
      | some c =>
        rw [b1, b2] at this
        simp only [Option.map_some, Option.some.injEq, Prod.mk.injEq] at this
        have hp : k.participants = c.participants := by
          refine Dict.ext_get? this.2.2 (this.2.2 ▸ he.pools c b2) fun i => ?_
          exact (q4.pools c c k (by rw [sp.collab, b2]) b2 b1 i).elim _root_.id _root_.id
        congr 1
        cases k; cases c
        simp_all
  obtain ⟨b1, b2, b3, b4⟩ := q4.core.header
  have ht := q4.core.table
  have hp := q4.core.procs
  refine ⟨E3, hload, ?_, fun n hs => hget n (hview n hs), hways, fun hn hf => ?_⟩
  · have hnod : (E3.graph.nodes.map fun n => (n.1, noPlace n.2)) = e.graph.nodes.map fun n => (n.1, noPlace n.2) := by
      refine Dict.ext_get? ?_ ?_ fun k => ?_
      · have := q4.core.keys
        simpa [Dict.keys, List.map_map, Function.comp_def] using this
      · have : E3.graph.nodes.keys.Nodup := q4.core.keys ▸ he.nodes
        simpa [Dict.keys, List.map_map, Function.comp_def] using this
      · rw [get?_map_val, get?_map_val]
        have hv := (q4.view k).noPlace (sp.view k)
        by_cases c : k ∈ e.graph.nodes.keys
        · obtain ⟨a, ha⟩ := Option.isSome_iff_exists.1 ((Dict.get?_isSome_iff e.graph.nodes k).2 c)
          obtain ⟨b, hb⟩ := Option.isSome_iff_exists.1 ((Dict.get?_isSome_iff E3.graph.nodes k).2 (q4.core.keys ▸ c))
          simp only [view, ha, hb, Option.getD_some] at hv
          rw [ha, hb, Option.map_some, Option.map_some, hv]
        · rw [(Dict.get?_eq_none_iff _ _).2 c, (Dict.get?_eq_none_iff _ _).2 (q4.core.keys ▸ c)]
    have hedg : (E3.graph.edges.map fun x => { x with attrs := noWay x.attrs }) = e.graph.edges.map fun x => { x with attrs := noWay x.attrs } := by
      refine edges_ext ?_ ?_ fun u v => ?_
      · rw [List.map_map, List.map_map]
        exact q4.core.ends
      · rw [List.pairwise_map]
        exact q4.once
      · rw [eview_map noWay rfl, eview_map noWay rfl]
        exact (q4.eview u v).noWay (sp.eview u v)
    unfold eraseLayout
    simp only [Diagram.mk.injEq, Graph.mk.injEq]
    exact ⟨⟨hnod, hedg⟩, ht, hp, b1, b2, b3, b4, hcol⟩
  · have hnod : E3.graph.nodes = e.graph.nodes := by
      refine Dict.ext_get? q4.core.keys (q4.core.keys ▸ he.nodes) fun k => ?_
      by_cases c : k ∈ e.graph.nodes.keys
      · exact hget k (hview k (hn k c))
      · rw [(Dict.get?_eq_none_iff _ _).2 c, (Dict.get?_eq_none_iff _ _).2 (q4.core.keys ▸ c)]
    have hedg : E3.graph.edges = e.graph.edges := by
      refine edges_ext q4.core.ends q4.once fun u v => ?_
      cases c : e.graph.edges.any (·.joins u v) with
      | true =>
        obtain ⟨x, hx, hj⟩ := List.any_eq_true.1 c
        rw [joins_samePair] at hj
        exact hways u v (FlowShown.of_pair (hf x hx) hj)
      | false =>
        have none_of : ∀ (l : List Edge), l.any (·.joins u v) = false → eview l u v = {} := by
          intro l hl
          unfold eview
          have : l.find? (·.joins u v) = none := by
            rw [List.find?_eq_none]
            intro a ha
            have := List.any_eq_false.1 hl a ha
            exact this
          rw [this]
          rfl
        rw [none_of _ c, none_of _ ((q4.core.any u v).trans c)]
    obtain ⟨⟨nE, gE⟩, tE, pE, d1, d2, d3, d4, cE⟩ := E3
    obtain ⟨⟨nE', gE'⟩, tE', pE', d1', d2', d3', d4', cE'⟩ := e
    simp_all

end Bpmn.Import

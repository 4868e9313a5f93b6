import Verif.Lemmas.ExportTree
import Verif.Lemmas.Query
set_option linter.unusedSimpArgs false
set_option linter.unusedVariables false
/-!
# Importing exported nodes and flows, step by step
-/
namespace Bpmn
open Spec Export

/-! ## The parsed elements -/

theorem clean_leaf (t s : String) (h : t ∈ textualTags) : clean (leaf t s) = true := by
  simp only [textualTags, List.mem_cons, List.not_mem_nil, or_false] at h
  rcases h with rfl | rfl | rfl | rfl <;> simp [leaf, clean, cleanAll] <;> decide

theorem toDom_leaf {t s : String} (h : s ≠ "") : (leaf t s).toDom = .elem t [] [.text s] := by
  simp [leaf, ETree.toDom, ETree.toDomKids, ETree.tailOf, ETree.textNodes, h]

theorem clean_el {t : String} {as : List (String × String)} {ks : List ETree} (ht : removeNamespace t ∉ textualTags)
    (hk : ∀ k ∈ ks, clean k = true) : clean (el t as ks) = true := by
  simp [el, clean, ht, (cleanAll_iff ks).2 hk]

theorem clean_flowTree (a : EdgeAttrs) : clean (flowTree a) = true := by
  apply clean_el (by decide)
  intro k hk
  split at hk
  · simp at hk
  · simp only [List.mem_singleton] at hk
    subst hk
    simp [clean, cleanAll]
    decide

/-- The parsed element of a flow. -/
theorem toDom_flowTree {a : EdgeAttrs} (h : FlowReady a) : (flowTree a).toDom =
    .elem "sequenceFlow" [("id", a.id.getD ""), ("name", a.name.getD ""), ("sourceRef", a.sourceRef.getD ""), ("targetRef", a.targetRef.getD "")]
      (match a.conditionExpression with
        | none => []
        | some c => [.elem "conditionExpression" [("id", c.id)] [.text c.expr]]) := by
  cases hc : a.conditionExpression with
  | none => simp [flowTree, hc, el, ETree.toDom, ETree.toDomKids, ETree.tailOf, ETree.textNodes]
  | some c => simp [flowTree, hc, el, ETree.toDom, ETree.toDomKids, ETree.tailOf, ETree.textNodes, (h.condition c hc).1]

/-- A node type or event definition type is an ordinary tag. -/
theorem kind_plain {k} (hk : k ∈ nodeKinds) : removeNamespace k.1 = k.1 ∧ k.1 ∉ textualTags ∧ k.1 ≠ "sequenceFlow" ∧ k.1 ≠ "laneSet" ∧
    k.1 ≠ "process" ∧ k.1 ≠ "collaboration" ∧ k.1 ≠ "BPMNDiagram" ∧ k.1 ≠ "" ∧
    ∀ t ∈ k.2.2.2, removeNamespace t = t ∧ t ∉ textualTags ∧ t ≠ "sequenceFlow" ∧ t ≠ "laneSet" ∧ t ≠ "process" ∧ t ≠ "collaboration" ∧
      t ≠ "BPMNDiagram" := by
  revert k
  decide

theorem clean_nodeTree {d : Diagram} (hn : ∀ n ∈ d.graph.nodes, NodeReady n) :
    ∀ (f : Nat) (n : Node), n ∈ d.graph.nodes → clean (nodeTree d f n) = true
  | 0, n, _ => by simp [nodeTree, el, clean, cleanAll]
  | f + 1, (n, a), hm => by
    obtain ⟨k, hk, facts⟩ := (hn _ hm).facts
    obtain ⟨h1, h2, -, -, -, -, -, -, h3⟩ := kind_plain hk
    have ht : a.type = some k.1 := facts.type
    simp only [nodeTree, ht, Option.getD_some]
    apply clean_el (by rw [h1]; exact h2)
    intro x hx
    rw [List.mem_append, List.mem_append] at hx
    rcases hx with (hx | hx) | hx
    · obtain ⟨i, -, rfl⟩ := List.mem_map.1 hx
      exact clean_leaf _ _ (by decide)
    · obtain ⟨i, -, rfl⟩ := List.mem_map.1 hx
      exact clean_leaf _ _ (by decide)
    · split at hx
      · rcases List.mem_append.1 hx with hx | hx
        · obtain ⟨m, hm', rfl⟩ := List.mem_map.1 hx
          exact clean_nodeTree hn f m (List.mem_filter.1 hm').1
        · obtain ⟨m, hm', rfl⟩ := List.mem_map.1 hx
          exact clean_flowTree _
      · obtain ⟨e, he, rfl⟩ := List.mem_map.1 hx
        have := h3 _ (facts.defs e he)
        exact clean_el (by rw [this.1]; exact this.2.1) (by simp)

/-- The children of a node element after the flow references. -/
def innerXml (d : Diagram) (f : Nat) (n : String) (a : NodeAttrs) : List Xml :=
  if a.type = some "subProcess" then
    (nodesOf d n).map (fun m => (nodeTree d f m).toDom) ++ (d.getFlowsByProcess n).map (fun x => (flowTree x.2.2).toDom)
  else (a.eventDefinitions.getD []).map fun e => .elem e.defType (if e.id ≠ "" then [("id", e.id)] else []) []

/-- A reference to a flow. -/
def refXml (t i : String) : Xml := .elem t [] [.text i]

theorem toDom_nodeTree {d : Diagram} (hn : ∀ n ∈ d.graph.nodes, NodeReady n) (f : Nat) {n : String} {a : NodeAttrs}
    (hm : (n, a) ∈ d.graph.nodes) : (nodeTree d (f + 1) (n, a)).toDom = .elem (a.type.getD "") (nodeXmlAttrs n a)
      ((a.incoming.getD []).map (refXml "incoming") ++ (a.outgoing.getD []).map (refXml "outgoing") ++ innerXml d f n a) := by
  have hc := clean_nodeTree hn (f + 1) (n, a) hm
  simp only [nodeTree, el, clean, Bool.and_eq_true] at hc
  rw [nodeTree, toDom_el hc.2]
  obtain ⟨li, hi, hi'⟩ := (hn _ hm).incoming
  obtain ⟨lo, ho, ho'⟩ := (hn _ hm).outgoing
  simp only at hi ho
  simp only [List.map_append, List.map_map, hi, ho, Option.getD_some]
  congr 2
  · congr 1
    · apply List.map_congr_left
      intro x hx
      exact toDom_leaf (fun h => hi' (h ▸ hx))
    · apply List.map_congr_left
      intro x hx
      exact toDom_leaf (fun h => ho' (h ▸ hx))
  · simp only [innerXml]
    split
    · simp [List.map_append, List.map_map, Function.comp_def]
    · simp only [exportDefs, List.map_map]
      apply List.map_congr_left
      intro x _
      simp [Function.comp, el, ETree.toDom, ETree.toDomKids, ETree.tailOf, ETree.textNodes]

/-! ## Attributes of the parsed elements -/

theorem get?_opt_append (k : String) (o : Option String) (r : List (String × String)) (x : String) :
    Dict.get? (opt k o ++ r) x = if k = x then (if o.isSome then o else Dict.get? r x) else Dict.get? r x := by
  cases o <;> simp [opt, Dict.get?_cons]

theorem get?_opt (k : String) (o : Option String) (x : String) : Dict.get? (opt k o) x = if k = x then o else none := by
  cases o <;> simp [opt, Dict.get?_cons]

theorem defaultAttr_eq (a : NodeAttrs) : defaultAttr a = opt "default" a.default.join := by
  unfold defaultAttr
  cases a.default with
  | none => rfl
  | some o => cases o <;> rfl

section attrs
variable (n : String) (a : NodeAttrs)
theorem attr_id : Dict.get? (nodeXmlAttrs n a) "id" = some n := by simp [nodeXmlAttrs, Dict.get?_cons]
theorem attr_name : Dict.get? (nodeXmlAttrs n a) "name" = some (a.nodeName.getD "") := by simp [nodeXmlAttrs, Dict.get?_cons]
theorem attr_extra {k : String} (h1 : "id" ≠ k) (h2 : "name" ≠ k) : Dict.get? (nodeXmlAttrs n a) k = Dict.get? (extra a) k := by
  simp [nodeXmlAttrs, Dict.get?_cons, h1, h2]
theorem attr_triggeredByEvent : Dict.get? (extra a) "triggeredByEvent" = a.triggeredByEvent := by
  simp [extra, List.append_assoc, get?_opt_append, get?_opt, defaultAttr_eq]; exact Eq.symm
theorem attr_isCollection : Dict.get? (extra a) "isCollection" = a.isCollection := by
  simp [extra, List.append_assoc, get?_opt_append, get?_opt, defaultAttr_eq]; exact Eq.symm
theorem attr_gatewayDirection : Dict.get? (extra a) "gatewayDirection" = a.gatewayDirection := by
  simp [extra, List.append_assoc, get?_opt_append, get?_opt, defaultAttr_eq]; exact Eq.symm
theorem attr_instantiate : Dict.get? (extra a) "instantiate" = a.instantiate := by
  simp [extra, List.append_assoc, get?_opt_append, get?_opt, defaultAttr_eq]; exact Eq.symm
theorem attr_eventGatewayType : Dict.get? (extra a) "eventGatewayType" = a.eventGatewayType := by
  simp [extra, List.append_assoc, get?_opt_append, get?_opt, defaultAttr_eq]; exact Eq.symm
theorem attr_parallelMultiple : Dict.get? (extra a) "parallelMultiple" = a.parallelMultiple := by
  simp [extra, List.append_assoc, get?_opt_append, get?_opt, defaultAttr_eq]; exact Eq.symm
theorem attr_isInterrupting : Dict.get? (extra a) "isInterrupting" = a.isInterrupting := by
  simp [extra, List.append_assoc, get?_opt_append, get?_opt, defaultAttr_eq]; exact Eq.symm
theorem attr_cancelActivity : Dict.get? (extra a) "cancelActivity" = a.cancelActivity := by
  simp [extra, List.append_assoc, get?_opt_append, get?_opt, defaultAttr_eq]; exact Eq.symm
theorem attr_attachedToRef : Dict.get? (extra a) "attachedToRef" = a.attachedToRef := by
  simp [extra, List.append_assoc, get?_opt_append, get?_opt, defaultAttr_eq]; exact Eq.symm
theorem attr_default : Dict.get? (extra a) "default" = a.default.join := by
  simp [extra, List.append_assoc, get?_opt_append, get?_opt, defaultAttr_eq]
end attrs

/-- `attrOr` on an element with an attribute dictionary. -/
theorem attrOr_elem (t : String) (as : List (String × String)) (ks : List Xml) (k v : String) :
    (Xml.elem t as ks).attrOr k v = (Dict.get? as k).getD v := by
  simp only [Xml.attrOr, Xml.hasAttr, Xml.getAttr, Dict.has]
  rcases Option.eq_none_or_eq_some (Dict.get? as k) with h | ⟨v, h⟩ <;> simp [h]

theorem getAttr_elem (t : String) (as : List (String × String)) (ks : List Xml) (k : String) :
    (Xml.elem t as ks).getAttr k = (Dict.get? as k).getD "" := rfl

theorem defaultOf_elem (t : String) (as : List (String × String)) (ks : List Xml) :
    Import.defaultOf (.elem t as ks) = Dict.get? as "default" := by
  simp only [Import.defaultOf, Xml.hasAttr, Xml.getAttr, Dict.has]
  rcases Option.eq_none_or_eq_some (Dict.get? as "default") with h | ⟨v, h⟩ <;> simp [h]

end Bpmn

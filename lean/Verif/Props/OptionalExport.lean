import Verif.Spec.OptionalExport
import Verif.Props.OptionalTable
import Verif.Props.Structured
import Verif.Props.CsvKinds
import Verif.Props.XmlLosses
/-!
# Tables with optional steps, imported and exported again (C137)
-/
set_option linter.unusedSimpArgs false
set_option linter.unusedVariables false

namespace Bpmn.Props
open Bpmn Spec Csv Spec.Csv

namespace OptRows
variable {rows : List Row} {items : List Entry} (T : OptionalTable rows items)

open Classical in
/-- The first flow of the gateway behind row `w` leads to row `x`. -/
def HeadTo (d : Diagram) (w x : String) : Prop := ∃ i, (outs (nodeNamed d (w ++ "_split"))).head? = some i ∧ LeadsTo d i (some (nodeNamed d x))

open Classical in
noncomputable def branchesOf (d : Diagram) (p x : Row) : Spec.Branches :=
  if HeadTo d p.order x.order then .cons (.step (nodeNamed d x.order) .meet) (.cons .meet .nil) else .cons .meet (.cons (.step (nodeNamed d x.order) .meet) .nil)

/-- The line that begins with row `p`. -/
noncomputable def strandOf (d : Diagram) : Row → List Entry → Strand
  | p, [] => .stop (nodeNamed d p.order)
  | p, .line r :: t => .step (nodeNamed d p.order) (strandOf d r t)
  | p, .optional x _ :: .line q :: t => .step (nodeNamed d p.order) (.block (nodeNamed d (p.order ++ "_split")) (branchesOf d p x) (strandOf d q t))
  | p, .optional _ _ :: _ => .stop (nodeNamed d p.order)

theorem strand_first (d : Diagram) (p : Row) (es : List Entry) (j : Option Node) : (strandOf d p es).first j = some (nodeNamed d p.order) := by
  unfold strandOf
  split <;> rfl

theorem branches_nodes (d : Diagram) (p x : Row) : (branchesOf d p x).nodes = [nodeNamed d x.order] := by
  unfold branchesOf
  split <;> simp [Spec.Branches.nodes, Strand.nodes]

include T in
theorem strand_nodes (d : Diagram) : ∀ es k p, Tail items k p es → (strandOf d p es).nodes = (p.order :: idsOf p es).map (nodeNamed d) := by
  refine tail_induction T ?_ ?_ ?_
  · intro k p h; simp [strandOf, idsOf, Strand.nodes]
  · intro k p r t h h' ih; simp [strandOf, idsOf, Strand.nodes, ih]
  · intro k p x g q t h h' ih; simp [strandOf, idsOf, Strand.nodes, ih, branches_nodes]

/-- What is known about the diagram. -/
structure Known (rows : List Row) (items : List Entry) (d : Diagram) : Prop where
  named : ∀ x, TableNode rows x → nodeNamed d x ∈ d.getNodes ∧ (nodeNamed d x).1 = x
  leads : ∀ {a b : String}, TableNode rows a → TableNode rows b → OptionalFlow items a b → ∃ i ∈ outs (nodeNamed d a), LeadsTo d i (some (nodeNamed d b))
  row : ∀ {r : Row}, r ∈ rows → ¬GotoRow r → (nodeNamed d r.order).2.type = some (rowType r) ∧
    (nodeNamed d r.order).2.nodeName = some (if rowType r = "endEvent" then "" else r.activity) ∧
    (outs (nodeNamed d r.order)).length = if r.terminated = "yes" then 0 else 1
  gate : ∀ {n : Nat} {w x g : Row}, items[n]? = some (.line w) → items[n + 1]? = some (.optional x g) → (nodeNamed d (w.order ++ "_split")).2.type ∈ gatewayTypes
  silent : ∀ n ∈ d.getNodes, trigger n = none ∧ ∀ i, n.2.default ≠ some (some i)
  blank : ∀ i f, d.getFlowById i = .ok (some f) → f.2.2.name = some ""

include T in
theorem known {d : Diagram} (hd : loadCsv rows {} = .ok d) : Known rows items d := by
  have TT := goto_table T
  have S := split_table T
  have N := no_turn T
  obtain ⟨G, g1, g2, g3, g4⟩ := TT.ground S N hd
  have c := G.consistent
  have named : ∀ x, TableNode rows x → nodeNamed d x ∈ d.getNodes ∧ (nodeNamed d x).1 = x := by
    intro x hx
    obtain ⟨n, hn, rfl⟩ := (C113_nodes TT S N d hd x).2 hx
    rw [nodeNamed, c.getNodeById hn]
    exact ⟨hn, rfl⟩
  refine ⟨named, ?_, ?_, ?_, ?_, ?_⟩
  · intro a b ha hb h
    refine (g3 _ (named a ha).1 _ (named b hb).1 ?_).2
    rw [(named a ha).2, (named b hb).2]
    exact (flow_iff T a b).2 h
  · intro r hr hg
    obtain ⟨h1, h2⟩ := named _ (.row hr hg)
    obtain ⟨n, k1, k2, k3, k4⟩ := C60_rows rows TT.table d hd r hr hg
    obtain ⟨n', j1, j2, j3⟩ := C62_one_way_on rows TT.table d hd r hr hg
    have e := c.node_eq h1 k1 (h2.trans k2.symm)
    have e' := c.node_eq h1 j1 (h2.trans j2.symm)
    exact ⟨by rw [e, k3], by rw [e, k4], by rw [e', j3]⟩
  · intro n w x g h1 h2
    obtain ⟨k1, k2⟩ := named _ ((node_iff T _).2 (.inr ⟨_, _, _, _, h1, h2, .inl rfl⟩))
    rcases (C60_nodes rows TT.table d hd).2 _ k1 with ⟨r, hr, -, e⟩ | ⟨-, h⟩
    · rw [k2] at e
      exact absurd (e ▸ underscore_split _) (tableUnder TT.table _ (List.mem_map_of_mem hr))
    · exact h
  · intro n hn
    obtain ⟨ty, nm, e⟩ := C82_nodes_say rows TT.table d hd n hn
    refine ⟨by simp [trigger, e, csvNode], fun i k => ?_⟩
    rw [e] at k
    simp only [csvNode] at k
    split_ifs at k <;> simp at k
  · intro i f hf
    exact (C82_flows_say rows TT.table d hd f (getFlowById_mem hf).1).2.1

include T in
theorem row_type {n : Nat} {r : Row} (h : items[n]? = some (.line r)) : r.order = "0" ↔ n = 0 := by
  have e := (T.line _ _ h).1
  constructor
  · intro k
    rw [k] at e
    exact (decimal_inj (m := 0) (n := n) e).symm
  · rintro rfl
    exact String.toList_injective (by rw [e]; rfl)

include T in
theorem opt_order {n : Nat} {x g : Row} (h : items[n]? = some (.optional x g)) : x.order ≠ "0" := by
  intro e
  obtain ⟨c, c', -, h1, -⟩ := letters T h
  rw [e] at h1
  have := congrArg List.length h1
  have l : 0 < (decimal n).length := List.length_pos_iff.2 (decimal_ne_nil n)
  simp [dec1] at this

include T in
/-- An inner row is an activity. -/
theorem activity {d : Diagram} (K : Known rows items d) {n : Nat} {r : Row} (h : items[n]? = some (.line r)) (h0 : 0 < n) (hl : n + 1 < items.length) :
    IsActivity (nodeNamed d r.order) ∧ (nodeNamed d r.order).2.type ≠ some "startEvent" ∧ (nodeNamed d r.order).2.type ≠ some "endEvent" := by
  have e := (K.row (sp_order T (.line h)).1 (T.line _ _ h).2.1).1
  have h1 : ¬r.order = "0" := fun k => by have := (row_type T h).1 k; omega
  have h2 : ¬r.terminated = "yes" := fun k => by have := (T.line _ _ h).2.2.1 k; omega
  rw [rowType, if_neg h1, if_neg h2] at e
  unfold IsActivity
  split_ifs at e <;> simp [e]

include T in
theorem single_out {d : Diagram} (K : Known rows items d) {r : Row} (hr : r ∈ rows) (hg : ¬GotoRow r) (ht : r.terminated ≠ "yes") {b : String} (hb : TableNode rows b)
    (hf : OptionalFlow items r.order b) : ∃ i, outs (nodeNamed d r.order) = [i] ∧ LeadsTo d i (some (nodeNamed d b)) := by
  have hl := (K.row hr hg).2.2
  rw [if_neg ht] at hl
  obtain ⟨i, hi⟩ := List.length_eq_one_iff.1 hl
  obtain ⟨j, hj, k⟩ := K.leads (.row hr hg) hb hf
  rw [hi, List.mem_singleton] at hj
  exact ⟨i, hi, hj ▸ k⟩

theorem leads_unique {d : Diagram} {i : String} {n m : Node} (h : LeadsTo d i (some n)) (k : LeadsTo d i (some m)) : n.1 = m.1 := by
  obtain ⟨a, -, ea, f, h1, h2⟩ := h
  obtain ⟨b, -, eb, f', k1, k2⟩ := k
  injection ea with ea
  injection eb with eb
  rw [h1] at k1
  injection k1 with k1
  injection k1 with k1
  subst k1 ea eb
  rw [h2] at k2
  injection k2

include T in
/-- The two flows of a gateway. -/
theorem two_out {d : Diagram} (K : Known rows items d) {n : Nat} {w x g q : Row} (h1 : items[n]? = some (.line w)) (h2 : items[n + 1]? = some (.optional x g))
    (h3 : items[n + 2]? = some (.line q)) (hl : (outs (nodeNamed d (w.order ++ "_split"))).length = 2) :
    ∃ i j, outs (nodeNamed d (w.order ++ "_split")) = [i, j] ∧
      (HeadTo d w.order x.order ∧ LeadsTo d i (some (nodeNamed d x.order)) ∧ LeadsTo d j (some (nodeNamed d q.order)) ∨
        ¬HeadTo d w.order x.order ∧ LeadsTo d i (some (nodeNamed d q.order)) ∧ LeadsTo d j (some (nodeNamed d x.order))) := by
  have n1 : TableNode rows (w.order ++ "_split") := (node_iff T _).2 (.inr ⟨_, _, _, _, h1, h2, .inl rfl⟩)
  have n2 : TableNode rows x.order := (node_iff T _).2 (.inr ⟨_, _, _, _, h1, h2, .inr rfl⟩)
  have n3 : TableNode rows q.order := (node_iff T _).2 (.inl ⟨_, _, h3, rfl⟩)
  have xq : x.order ≠ q.order := fun e => by
    have := key_unique T (.step h2) (.line h3) e
    omega
  have apart : ∀ {i : String}, LeadsTo d i (some (nodeNamed d x.order)) → ¬LeadsTo d i (some (nodeNamed d q.order)) := fun a b => by
    have := leads_unique a b
    rw [(K.named _ n2).2, (K.named _ n3).2] at this
    exact xq this
  obtain ⟨i, j, e⟩ := List.length_eq_two.1 hl
  obtain ⟨a, ha, la⟩ := K.leads n1 n2 (.take h1 h2)
  obtain ⟨b, hb, lb⟩ := K.leads n1 n3 (.skip h1 h2 h3)
  rw [e] at ha hb
  simp only [List.mem_cons, List.not_mem_nil, or_false] at ha hb
  refine ⟨i, j, e, ?_⟩
  rcases ha with rfl | rfl
  · rcases hb with rfl | rfl
    · exact absurd lb (apart la)
    · exact .inl ⟨⟨a, by rw [e]; rfl, la⟩, la, lb⟩
  · rcases hb with rfl | rfl
    · refine .inr ⟨?_, lb, la⟩
      rintro ⟨k, hk, lk⟩
      rw [e] at hk
      simp at hk
      subst hk
      exact apart lk lb
    · exact absurd lb (apart la)

include T in
/-- Every item behind the first row is one of the parts. -/
theorem optional_mem (d : Diagram) : ∀ es k p, Tail items k p es →
    (∀ m v r, items[m]? = some (.line v) → items[m + 1]? = some (.line r) → k ≤ m → .step (nodeNamed d r.order) ∈ partsOf d p es) ∧
    ∀ m w x z q, items[m]? = some (.line w) → items[m + 1]? = some (.optional x z) → items[m + 2]? = some (.line q) → k ≤ m →
      .optional (nodeNamed d (w.order ++ "_split")) (nodeNamed d x.order) (nodeNamed d q.order) ∈ partsOf d p es := by
  have line_eq : ∀ {n : Nat} {a b : Row}, items[n]? = some (.line a) → items[n]? = some (.line b) → a = b := fun h k => by
    rw [h] at k
    injection k with k
    injection k
  have opt_eq : ∀ {n : Nat} {a b a' b' : Row}, items[n]? = some (.optional a b) → items[n]? = some (.optional a' b') → a = a' := fun h k => by
    rw [h] at k
    injection k with k
    injection k
  have mixed : ∀ {n : Nat} {a b c : Row}, items[n]? = some (.line a) → items[n]? ≠ some (.optional b c) := fun h k => by
    rw [h] at k
    cases k
  refine tail_induction T ?_ ?_ ?_
  · intro k p h
    have none : ∀ n, k < n → items[n]? = none := fun n hn => by
      have := h.2 (n - (k + 1))
      rw [show k + 1 + (n - (k + 1)) = n by omega] at this
      simpa using this
    refine ⟨fun m v r _ e hm => ?_, fun m w x z q _ e _ hm => ?_⟩
    · rw [none (m + 1) (by omega)] at e; cases e
    · rw [none (m + 1) (by omega)] at e; cases e
  · intro k p r t h h' ih
    refine ⟨fun m v s h1 h2 hm => ?_, fun m w x z q h1 h2 h3 hm => ?_⟩
    · by_cases e : m = k
      · subst e
        rw [line_eq h2 h'.1]
        simp [partsOf]
      · exact List.mem_cons_of_mem _ (ih.1 m v s h1 h2 (by omega))
    · by_cases e : m = k
      · subst e
        exact absurd h2 (mixed h'.1)
      · exact List.mem_cons_of_mem _ (ih.2 m w x z q h1 h2 h3 (by omega))
  · intro k p x g q t h h' ih
    have hx : items[k + 1]? = some (.optional x g) := h.2 0
    refine ⟨fun m v s h1 h2 hm => ?_, fun m w y z u h1 h2 h3 hm => ?_⟩
    · have e1 : m ≠ k := fun e => by subst e; exact mixed h2 hx
      have e2 : m ≠ k + 1 := fun e => by subst e; exact mixed h1 hx
      exact List.mem_cons_of_mem _ (ih.1 m v s h1 h2 (by omega))
    · by_cases e : m = k
      · subst e
        rw [line_eq h1 h.1, opt_eq h2 hx, line_eq h3 h'.1]
        simp [partsOf]
      · have e2 : m ≠ k + 1 := fun e => by subst e; exact mixed h1 hx
        exact List.mem_cons_of_mem _ (ih.2 m w y z u h1 h2 h3 (by omega))

include T in
theorem fits {d : Diagram} (hd : loadCsv rows {} = .ok d) (E : EndsApart items) : ∀ es k p, Tail items k p es →
    ∀ meets, Entered meets (nodeNamed d p.order) → (meets = true → 0 < k ∧ k + 1 < items.length) → (strandOf d p es).Fits d meets none := by
  have K := known T hd
  obtain ⟨p0, es0, e0, ht0⟩ := whole T
  obtain ⟨-, O⟩ := optional_line T hd ht0
  have part := optional_mem T d es0 0 p0 ht0
  refine tail_induction T ?_ ?_ ?_
  · intro k p h meets hm hk
    have last : k + 1 = items.length := by
      have h1 := (List.getElem?_eq_some_iff.1 h.1).1
      have h2 := h.2 0
      simp at h2
      omega
    obtain ⟨hr, -⟩ := sp_order T (.line h.1)
    have hg := (T.line _ _ h.1).2.1
    have ht := (T.line _ _ h.1).2.2.2 last
    obtain ⟨k1, k2, k3⟩ := K.row hr hg
    rw [if_pos ht] at k3
    have two := E.two
    refine ⟨(K.named _ (.row hr hg)).1, hm, List.length_eq_zero_iff.1 k3, ?_, fun e => by have := hk e; omega⟩
    rw [k1, rowType, if_neg (fun e => by have := (row_type T h.1).1 e; omega), if_pos ht]
    decide
  · intro k p r t h h' ih meets hm hk
    obtain ⟨hr, -⟩ := sp_order T (.line h.1)
    have hg := (T.line _ _ h.1).2.1
    have hl := (List.getElem?_eq_some_iff.1 h'.1).1
    have ht : p.terminated ≠ "yes" := fun e => by have := (T.line _ _ h.1).2.2.1 e; omega
    have nr : TableNode rows r.order := (node_iff T _).2 (.inl ⟨_, _, h'.1, rfl⟩)
    refine ⟨(K.named _ (.row hr hg)).1, hm, ?_, ?_, ?_, ?_⟩
    · rw [(K.row hr hg).1, rowType, if_neg ht]
      split_ifs <;> decide
    · obtain ⟨i, h1, h2⟩ := single_out T K hr hg ht nr (.next h.1 h'.1)
      exact ⟨i, h1, by rw [strand_first]; exact h2⟩
    · refine ih false ?_ (by simp)
      have := (O.steps _ (part.1 k p r h.1 h'.1 (Nat.zero_le _))).1
      simp [Entered, this]
    · intro e hna
      exact absurd (activity T K h.1 (hk e).1 (by omega)).1 hna
  · intro k p x g q t h h' ih meets hm hk
    have hx : items[k + 1]? = some (.optional x g) := h.2 0
    obtain ⟨hr, -⟩ := sp_order T (.line h.1)
    have hg := (T.line _ _ h.1).2.1
    have hl := E.apart _ _ _ hx
    have ht : p.terminated ≠ "yes" := fun e => by have := (T.line _ _ h.1).2.2.1 e; omega
    have n1 : TableNode rows (p.order ++ "_split") := (node_iff T _).2 (.inr ⟨_, _, _, _, h.1, hx, .inl rfl⟩)
    have n2 : TableNode rows x.order := (node_iff T _).2 (.inr ⟨_, _, _, _, h.1, hx, .inr rfl⟩)
    have n3 : TableNode rows q.order := (node_iff T _).2 (.inl ⟨_, _, h'.1, rfl⟩)
    obtain ⟨-, o1, o2, o3, o4, o5, o6⟩ := O.skips _ _ _ (part.2 k p x g q h.1 hx h'.1 (Nat.zero_le _))
    have gt := K.gate h.1 hx
    have gty : (nodeNamed d (p.order ++ "_split")).2.type ≠ some "startEvent" ∧ (nodeNamed d (p.order ++ "_split")).2.type ≠ some "endEvent" := by
      simp only [gatewayTypes, List.mem_cons, List.not_mem_nil, or_false] at gt
      rcases gt with e | e | e <;> rw [e] <;> decide
    refine ⟨(K.named _ (.row hr hg)).1, hm, ?_, ?_, ?_, ?_⟩
    · rw [(K.row hr hg).1, rowType, if_neg ht]
      split_ifs <;> decide
    · exact single_out T K hr hg ht n1 (.split h.1 hx)
    · refine ⟨(K.named _ n1).1, by simp [Entered, o1], ⟨gty.1, gty.2, by omega, by omega⟩, by simp, ?_, ?_, ?_⟩
      · rw [strand_first]
        obtain ⟨i, j, e, hij⟩ := two_out T K h.1 hx h'.1 o2
        have xr := (T.optional _ _ _ hx).2
        have stepFits : (Strand.step (nodeNamed d x.order) .meet).Fits d false (some (nodeNamed d q.order)) := by
          refine ⟨(K.named _ n2).1, by simp [Entered, o3], ?_, ?_, ⟨rfl, rfl⟩, by simp⟩
          · rw [(K.row (start_of T hx).1 xr.1).1, rowType, if_neg xr.2.1]
            split_ifs <;> decide
          · exact single_out T K (start_of T hx).1 xr.1 xr.2.1 n3 (.back hx h'.1)
        rw [e]
        unfold branchesOf
        rcases hij with ⟨hh, h1, h2⟩ | ⟨hh, h1, h2⟩
        · rw [if_pos hh]
          exact ⟨i, [j], rfl, h1, stepFits, j, [], rfl, h2, ⟨rfl, rfl⟩, rfl⟩
        · rw [if_neg hh]
          exact ⟨i, [j], rfl, h1, ⟨rfl, rfl⟩, j, [], rfl, h2, stepFits, rfl⟩
      · unfold branchesOf
        split
        · exact .inl ⟨trivial, fun h => h⟩
        · exact .inr (.inl ⟨trivial, fun h => h⟩)
      · refine ih true ?_ fun _ => ⟨by omega, by omega⟩
        have act := activity T K h'.1 (by omega) (by omega)
        simp only [Entered, if_pos]
        exact ⟨by omega, act.2⟩
    · intro e hna
      exact absurd (activity T K h.1 (hk e).1 (by omega)).1 hna

include T in
theorem structured {d : Diagram} (hd : loadCsv rows {} = .ok d) (E : EndsApart items) {p : Row} {es : List Entry} (ht : Tail items 0 p es) : Structured d (strandOf d p es) := by
  obtain ⟨named, O⟩ := optional_line T hd ht
  obtain ⟨G, -⟩ := (goto_table T).ground (split_table T) (no_turn T) hd
  refine ⟨?_, G.supported, G.named, ?_, ?_⟩
  · rw [strand_nodes T d es 0 p ht, List.map_cons, ← parts_ids T d es 0 p ht]
    exact O.nodes
  · intro n hn
    rw [strand_first]
    constructor
    · intro h
      rcases List.mem_cons.1 (O.nodes.mem_iff.2 hn) with rfl | h'
      · rfl
      · obtain ⟨a, ha, hin⟩ := List.mem_flatMap.1 h'
        cases a with
        | step m =>
          simp only [Part.nodes, List.mem_singleton] at hin
          subst hin
          have := (O.steps _ ha).1
          simp [h] at this
        | optional g a j =>
          obtain ⟨-, o1, -, o3, -, o5, -⟩ := O.skips _ _ _ ha
          simp only [Part.nodes, List.mem_cons, List.not_mem_nil, or_false] at hin
          rcases hin with rfl | rfl | rfl <;> simp_all
    · intro h
      injection h with h
      rw [← h]
      exact O.start.1
  · refine fits T hd E es 0 p ht false ?_ (by simp)
    simp [Entered, O.start.1]

theorem row_written {d : Diagram} (K : Known rows items d) {r : Row} (hr : r ∈ rows) (hg : ¬GotoRow r) (h0 : r.order = "0" → r.terminated ≠ "yes") (o : String) :
    ∀ c, nodeRow (nodeNamed d r.order) o c = [{ written o r with condition := c }] := by
  intro c
  obtain ⟨k1, k2, -⟩ := K.row hr hg
  have tr := (K.silent _ (K.named _ (.row hr hg)).1).1
  unfold nodeRow
  rw [if_pos (by unfold HasRow; rw [k1]; unfold rowType; split_ifs <;> simp)]
  unfold caption written
  rw [k1, k2, tr]
  unfold rowType
  by_cases e0 : r.order = "0"
  · simp [e0, h0 e0]
  · by_cases e1 : r.terminated = "yes"
    · simp [e0, e1]
    · by_cases e2 : r.subprocess = "yes"
      · simp [e0, e1, e2]
      · simp [e0, e1, e2]

theorem no_condition {d : Diagram} (K : Known rows items d) {n : Node} (hn : n ∈ d.getNodes) (i : String) : splitCondition d n i = "" ∧ skipCondition d n i = "" := by
  unfold splitCondition skipCondition
  cases h : d.getFlowById i with
  | error e => exact ⟨rfl, rfl⟩
  | ok o =>
    cases o with
    | none => exact ⟨rfl, rfl⟩
    | some f =>
      simp only [branchCondition, flowCondition, K.blank i f h]
      rw [if_neg fun k => (K.silent n hn).2 i k.2]
      constructor <;> split_ifs <;> rfl

/-- The rows in the order in which they are written. -/
def rowsFrom (cell : Row → String) (first : Nat → Bool) : Nat → List Entry → List Row
  | _, [] => []
  | n, e :: t => (if first n then (e.written cell first n).rows else (e.written cell first n).rows.reverse) ++ rowsFrom cell first (n + 1) t

theorem rowsFrom_perm (cell : Row → String) (first : Nat → Bool) : ∀ (l : List Entry) (n : Nat), (rowsFrom cell first n l).Perm ((Entry.again cell first n l).flatMap Entry.rows)
  | [], n => by simp [rowsFrom, Entry.again]
  | e :: t, n => by
    simp only [rowsFrom, Entry.again, List.flatMap_cons]
    refine List.Perm.append ?_ (rowsFrom_perm cell first t (n + 1))
    split
    · exact List.Perm.refl _
    · exact List.reverse_perm _

theorem again_get (cell : Row → String) (first : Nat → Bool) : ∀ (l : List Entry) (k n : Nat), (Entry.again cell first k l)[n]? = l[n]?.map (Entry.written cell first (k + n))
  | [], k, n => by simp [Entry.again]
  | e :: t, k, 0 => by simp [Entry.again]
  | e :: t, k, n + 1 => by
    simp only [Entry.again, List.getElem?_cons_succ, again_get cell first t (k + 1) n]
    rw [show k + 1 + n = k + (n + 1) by omega]

theorem again_length (cell : Row → String) (first : Nat → Bool) : ∀ (l : List Entry) (k : Nat), (Entry.again cell first k l).length = l.length
  | [], k => rfl
  | e :: t, k => by simp [Entry.again, again_length cell first t (k + 1)]

open Classical in
/-- Whether the step of item `n` is branch `a`. -/
noncomputable def firstOf (items : List Entry) (d : Diagram) (n : Nat) : Bool :=
  decide (∃ (k : Nat) (w x g : Row), n = k + 1 ∧ items[k]? = some (.line w) ∧ items[n]? = some (.optional x g) ∧ HeadTo d w.order x.order)

theorem first_iff {d : Diagram} {k : Nat} {w x g : Row} (h1 : items[k]? = some (.line w)) (h2 : items[k + 1]? = some (.optional x g)) :
    firstOf items d (k + 1) = true ↔ HeadTo d w.order x.order := by
  unfold firstOf
  simp only [decide_eq_true_iff]
  constructor
  · rintro ⟨k', w', x', g', e, k1, k2, k3⟩
    obtain rfl : k = k' := by omega
    rw [h1] at k1
    rw [h2] at k2
    injection k1 with k1
    injection k1 with k1
    injection k2 with k2
    injection k2 with k2
    subst k1 k2
    exact k3
  · intro h
    exact ⟨k, w, x, g, rfl, h1, h2, h⟩

include T in
theorem strand_table {d : Diagram} (hd : loadCsv rows {} = .ok d) (E : EndsApart items) {D : Diagram} {cell : Row → String}
    (H : ∀ k p x g q, items[k]? = some (.line p) → items[k + 1]? = some (.optional x g) → items[k + 2]? = some (.line q) → ∀ i ∈ outs (nodeNamed d (p.order ++ "_split")),
      (LeadsTo d i (some (nodeNamed d x.order)) → splitCondition D (nodeNamed d (p.order ++ "_split")) i = cell x) ∧
      (LeadsTo d i (some (nodeNamed d q.order)) → skipCondition D (nodeNamed d (p.order ++ "_split")) i = "")) : ∀ es k p, Tail items k p es →
    ∀ meets, (meets = true → IsActivity (nodeNamed d p.order)) → (strandOf d p es).table D meets "" k "" = rowsFrom cell (firstOf items d) k (.line p :: es) := by
  have K := known T hd
  obtain ⟨p0, es0, e0, ht0⟩ := whole T
  obtain ⟨-, O⟩ := optional_line T hd ht0
  have part := optional_mem T d es0 0 p0 ht0
  have own : ∀ {k : Nat} {p : Row}, items[k]? = some (.line p) → nodeRow (nodeNamed d p.order) ("" ++ toString k) "" = [written (toString k) p] := by
    intro k p h
    rw [String.empty_append]
    refine row_written K (sp_order T (.line h)).1 (T.line _ _ h).2.1 (fun e0 ht => ?_) _ _
    have := (row_type T h).1 e0
    have := (T.line _ _ h).2.2.1 ht
    have := E.two
    omega
  have ownRows : ∀ (k : Nat) (p : Row), (if firstOf items d k then (Entry.written cell (firstOf items d) k (.line p)).rows else (Entry.written cell (firstOf items d) k (.line p)).rows.reverse) =
      [written (toString k) p] := by
    intro k p
    simp [Entry.written, Entry.rows]
  refine tail_induction T ?_ ?_ ?_
  · intro k p h meets hm
    simp only [strandOf, Strand.table, rowsFrom, ownRows, own h.1, List.append_nil]
  · intro k p r t h h' ih meets hm
    simp only [strandOf, Strand.table]
    rw [if_neg fun a => a.2 (hm a.1), ih false (by simp), own h.1]
    conv_rhs => rw [rowsFrom, ownRows]
  · intro k p x g q t h h' ih meets hm
    have hx : items[k + 1]? = some (.optional x g) := h.2 0
    have hl := E.apart _ _ _ hx
    have act := (activity T K h'.1 (by omega) (by omega)).1
    have n1 : TableNode rows (p.order ++ "_split") := (node_iff T _).2 (.inr ⟨_, _, _, _, h.1, hx, .inl rfl⟩)
    obtain ⟨-, o1, o2, -⟩ := O.skips _ _ _ (part.2 k p x g q h.1 hx h'.1 (Nat.zero_le _))
    obtain ⟨i, j, e, hij⟩ := two_out T K h.1 hx h'.1 o2
    have gate : nodeRow (nodeNamed d (p.order ++ "_split")) ("" ++ toString (k + 1)) "" = [] := by
      have gt := K.gate h.1 hx
      unfold nodeRow
      refine if_neg ?_
      unfold HasRow
      simp only [gatewayTypes, List.mem_cons, List.not_mem_nil, or_false] at gt
      rcases gt with e | e | e <;> rw [e] <;> simp
    have cond := H _ _ _ _ _ h.1 hx h'.1
    rw [e] at cond
    have ci := cond i (by simp)
    have cj := cond j (by simp)
    have xr := (T.optional _ _ _ hx).2
    have step : ∀ o c, nodeRow (nodeNamed d x.order) o c = [{ written o x with condition := c }] := row_written K (start_of T hx).1 xr.1 (fun _ => xr.2.1)
    simp only [strandOf, Strand.table]
    rw [if_neg fun a => a.2 (hm a.1), ih true (fun _ => act), own h.1, gate, e]
    conv_rhs => rw [rowsFrom, ownRows, rowsFrom]
    simp only [List.nil_append, List.append_assoc]
    congr 2
    have fi := first_iff (d := d) h.1 hx
    have sa : ∀ c : Char, "" ++ toString (k + 1) ++ String.ofList [c] ++ "1" = toString (k + 1) ++ String.ofList [c, '1'] := fun c => String.toList_injective (by simp)
    have t1 : toString 1 = "1" := rfl
    have la : letter 0 = 'a' := rfl
    have lb : letter 1 = 'b' := rfl
    have sA : String.ofList ['a', '1'] = "a1" := rfl
    have sB : String.ofList ['b', '1'] = "b1" := rfl
    have sg : "goto " ++ "" ++ toString (k + 1 + 1) = "goto " ++ toString (k + 1 + 1) := by rw [String.append_empty]
    unfold branchesOf
    rcases hij with ⟨hh, l1, l2⟩ | ⟨hh, l1, l2⟩
    · rw [if_pos hh]
      have f := fi.2 hh
      simp only [Spec.Branches.table, Strand.table, f, if_true, Entry.written, Entry.rows, ci.1 l1, cj.2 l2, step, t1, sa, la, lb, sA, sB, sg, Nat.zero_add, false_and, if_false,
        List.append_nil, List.cons_append, List.nil_append, Bool.false_eq_true]
    · rw [if_neg hh]
      have f : firstOf items d (k + 1) = false := by
        rw [← Bool.not_eq_true]
        exact fun a => hh (fi.1 a)
      simp only [Spec.Branches.table, Strand.table, f, if_true, Entry.written, Entry.rows, cj.1 l2, ci.2 l1, step, t1, sa, la, lb, sA, sB, sg, Nat.zero_add, false_and, if_false,
        List.append_nil, List.cons_append, List.nil_append, Bool.false_eq_true, List.reverse_cons, List.reverse_nil]

theorem digit_not_white {c : Char} (h : c.isDigit = true) : ¬White c := by
  intro w
  unfold White at w
  have hd := h
  simp only [Char.isDigit, Bool.and_eq_true, decide_eq_true_eq, UInt32.le_iff_toNat_le] at hd
  have : c.val.toNat = c.toNat := rfl
  simp only [List.mem_cons, List.not_mem_nil, or_false] at w
  have : '0'.val.toNat = 48 := rfl
  have : '9'.val.toNat = 57 := rfl
  omega

theorem written_goto {o : String} {r : Row} (h : ¬GotoRow r) : ¬GotoRow (written o r) := by
  rintro ⟨a, b, c, e, rest, h1, h2⟩
  unfold written at h1
  by_cases ht : r.terminated = "yes"
  · simp [ht] at h1
  · simp only [if_neg ht] at h1
    exact h ⟨a, b, c, e, rest, h1, h2⟩

include T in
/-- What is written is again a table with optional steps. -/
theorem again_table (cell : Row → String) (first : Nat → Bool) {rows' : List Row} (hp : rows'.Perm ((Entry.again cell first 0 items).flatMap Entry.rows)) : OptionalTable rows' (Entry.again cell first 0 items) := by
  have get : ∀ n, (Entry.again cell first 0 items)[n]? = items[n]?.map (Entry.written cell first n) := fun n => by rw [again_get]; simp
  have line_of : ∀ {n : Nat} {r : Row}, (Entry.again cell first 0 items)[n]? = some (.line r) → ∃ s, items[n]? = some (.line s) ∧ r = written (toString n) s := by
    intro n r h
    rw [get] at h
    cases e : items[n]? with
    | none => simp [e] at h
    | some a =>
      cases a with
      | line s => simp [e, Entry.written] at h; exact ⟨s, rfl, h.symm⟩
      | optional x g => simp [e, Entry.written] at h
  refine ⟨hp, ?_, ?_, ?_⟩
  · obtain ⟨r, hr⟩ := T.first
    exact ⟨written (toString 0) r, by rw [get, hr]; rfl⟩
  · intro n r h
    obtain ⟨s, hs, rfl⟩ := line_of h
    obtain ⟨-, h2, h3⟩ := T.line n s hs
    refine ⟨rfl, written_goto h2, ?_⟩
    rw [again_length, ← h3]
    simp [written]
  · intro n x g h
    rw [get] at h
    cases e : items[n]? with
    | none => simp [e] at h
    | some a =>
      cases a with
      | line s => simp [e, Entry.written] at h
      | optional y z =>
        simp only [e, Entry.written, Option.map_some, Option.some.injEq, Entry.optional.injEq] at h
        obtain ⟨rfl, rfl⟩ := h
        obtain ⟨-, h2, h3, -, -, q, hq, -⟩ := T.optional n y z e
        have dec : (toString n).toList = decimal n := rfl
        refine ⟨?_, (fun k => written_goto (o := "") h2 k), by simp [written, h3], ?_, by simp, written (toString (n + 1)) q, ?_, ?_⟩
        · cases first n
          · exact .inr ⟨by rw [← dec]; simp [written], by rw [← dec]; simp⟩
          · exact .inl ⟨by rw [← dec]; simp [written], by rw [← dec]; simp⟩
        · exact ⟨'g', 'o', 't', 'o', ' ' :: (toString (n + 1)).toList, by simp, by simp, by simp, by simp, by simp⟩
        · rw [get, hq]; rfl
        · refine ⟨['g', 'o', 't', 'o'], [' '], [], by simp [written], by simp, by unfold White; decide, by simp, by unfold White; decide, ?_, ?_, by simp⟩
          · intro e
            exact decimal_ne_nil (n + 1) (congrArg String.toList e)
          · intro c hc
            exact digit_not_white (decimal_isDigit (n := n + 1) hc)

include T in
theorem again_apart (E : EndsApart items) (cell : Row → String) (first : Nat → Bool) : EndsApart (Entry.again cell first 0 items) := by
  refine ⟨by rw [again_length]; exact E.two, fun n x g h => ?_⟩
  rw [again_length]
  rw [again_get] at h
  cases e : items[n]? with
  | none => simp [e] at h
  | some a =>
    cases a with
    | line s => simp [e, Entry.written] at h
    | optional y z => exact E.apart n y z e

end OptRows

open OptRows in
/-- **C137 (export).** A table with optional steps, none of them directly before the last row, is imported, and the diagram is exported to a table of the same form: the same numbers, activities and
marks, with a `goto` row at every optional step; the letters of a step and its `goto` may be exchanged. The condition cells, the persons and the text of the last row are gone. -/
theorem C137_export (rows : List Row) (items : List Entry) (T : OptionalTable rows items) (E : EndsApart items) :
    ∃ d, loadCsv rows {} = .ok d ∧ ∃ (first : Nat → Bool) (rows' : List Row), (∃ N, ∀ fuel ≥ N, exportRows d fuel = .ok rows') ∧
      OptionalTable rows' (Entry.again bare first 0 items) ∧ EndsApart (Entry.again bare first 0 items) := by
  obtain ⟨d, hd⟩ := imported T
  obtain ⟨p, es, rfl, ht⟩ := whole T
  have S := structured T hd E ht
  have c := ((OptRows.goto_table T).ground (OptRows.split_table T) (OptRows.no_turn T) hd).1.consistent
  refine ⟨d, hd, firstOf (.line p :: es) d, rowsFrom bare (firstOf (.line p :: es) d) 0 (.line p :: es), ?_, again_table T _ _ (rowsFrom_perm _ _ _ _), again_apart T E _ _⟩
  have K := known T hd
  rw [← strand_table (D := d) T hd E (fun k p x g q h1 h2 h3 i hi => ?_) es 0 p ht false (by simp)]
  · exact C96_rows d _ c S
  · have := no_condition K (K.named _ ((node_iff T _).2 (.inr ⟨_, _, _, _, h1, h2, .inl rfl⟩))).1 i
    exact ⟨fun _ => this.1, fun _ => this.2⟩

namespace OptRows

theorem same_written {rows : List Row} {items : List Entry} (T : OptionalTable rows items) (cell : Row → String) (first : Nat → Bool) : SameItems items (Entry.again cell first 0 items) := by
  refine ⟨(again_length cell first items 0).symm, fun n h h' => ?_⟩
  have g := again_get cell first items 0 n
  rw [List.getElem?_eq_getElem h, List.getElem?_eq_getElem h', Option.map_some, Nat.zero_add] at g
  rw [Option.some.inj g]
  cases e : items[n] with
  | line r =>
    have := (T.line n r (by rw [List.getElem?_eq_getElem h, e])).1
    exact ⟨String.toList_injective (by rw [this]; rfl), fun ht => by simp [written, ht]⟩
  | optional x g =>
    have := (T.optional n x g (by rw [List.getElem?_eq_getElem h, e])).2.2.1
    simp [Entry.written, written, this]

theorem same_trans {a b c : List Entry} {rows : List Row} (T : OptionalTable rows a) {rows' : List Row} (T' : OptionalTable rows' b) (h : SameItems a b) (h' : SameItems b c) : SameItems a c := by
  refine ⟨h.1.trans h'.1, fun n k k' => ?_⟩
  have kb : n < b.length := h.1 ▸ k
  have h1 := h.2 n k kb
  have h2 := h'.2 n kb k'
  cases ea : a[n] with
  | line r =>
    cases eb : b[n] with
    | line s =>
      cases ec : c[n] with
      | line t =>
        simp only [ea, eb, ec] at h1 h2 ⊢
        refine ⟨h2.1.trans h1.1, fun ht => ?_⟩
        have l1 := (T.line n r (by rw [List.getElem?_eq_getElem k, ea])).2.2
        have l2 := (T'.line n s (by rw [List.getElem?_eq_getElem kb, eb])).2.2
        have : s.terminated ≠ "yes" := fun hs => ht (l1.2 (by rw [h.1]; exact l2.1 hs))
        exact (h2.2 this).trans (h1.2 ht)
      | optional x g => simp only [ea, eb, ec] at h1 h2
    | optional x g => simp only [ea, eb] at h1
  | optional x g =>
    cases eb : b[n] with
    | line s => simp only [ea, eb] at h1
    | optional x' g' =>
      cases ec : c[n] with
      | line t => simp only [ea, eb, ec] at h2
      | optional x'' g'' =>
        simp only [ea, eb, ec] at h1 h2 ⊢
        exact h2.trans h1

theorem same_split : ∀ {a c : List Entry}, SameItems a c → ∀ {pre post : List Entry} {r : Row}, a = pre ++ .line r :: post →
    ∃ pre' post' r', c = pre' ++ .line r' :: post' ∧ r'.order = r.order ∧ Entry.width pre' = Entry.width pre ∧ Entry.skips pre' = Entry.skips pre := by
  intro a c h pre
  induction pre generalizing a c with
  | nil =>
    rintro post r rfl
    cases c with
    | nil => exact absurd h.1 (by simp)
    | cons e t =>
      have := h.2 0 (by simp) (by simp)
      cases e with
      | line r' => exact ⟨[], t, r', rfl, this.1, rfl, rfl⟩
      | optional x g => exact this.elim
  | cons e p ih =>
    rintro post r rfl
    cases c with
    | nil => exact absurd h.1 (by simp)
    | cons e' t =>
      have h0 := h.2 0 (by simp) (by simp)
      have ht : SameItems (p ++ .line r :: post) t := by
        refine ⟨by simpa using h.1, fun n k k' => ?_⟩
        have := h.2 (n + 1) (by simpa using k) (by simpa using k')
        simpa using this
      obtain ⟨pre', post', r', e1, e2, e3, e4⟩ := ih ht rfl
      refine ⟨e' :: pre', post', r', by rw [e1]; rfl, e2, ?_, ?_⟩
      · cases e <;> cases e' <;> simp_all [Entry.width]
      · cases e <;> cases e' <;> simp_all [Entry.skips]

end OptRows

open OptRows in
/-- **C137 (again and again).** However often such a table is imported and exported, it is a table with the same numbers, activities and optional steps. -/
theorem C137_again (k : Nat) : ∀ (rows : List Row) (items : List Entry), OptionalTable rows items → EndsApart items →
    ∃ rows' items', Copied k rows rows' ∧ OptionalTable rows' items' ∧ SameItems items items' := by
  induction k with
  | zero => exact fun rows items T E => ⟨rows, items, .none rows, T, rfl, fun n h h' => by cases items[n] <;> simp⟩
  | succ k ih =>
    intro rows items T E
    obtain ⟨d, hd, first, rows', ⟨N, hN⟩, T', E'⟩ := C137_export rows items T E
    obtain ⟨rows'', items'', h1, h2, h3⟩ := ih rows' _ T' E'
    exact ⟨rows'', items'', .more hd hN h1, h2, same_trans T T' (same_written T _ first) h3⟩

open OptRows in
/-- **C137 (drawing).** The copies are drawn like the first table: each row of the line stands at the same place. -/
theorem C137_drawn (rows : List Row) (items : List Entry) (T : OptionalTable rows items) (E : EndsApart items) (k : Nat) :
    ∃ rows' d e, Copied k rows rows' ∧ loadCsv rows {} = .ok d ∧ loadCsv rows' {} = .ok e ∧ ∃ bound, ∀ fuel ≥ bound, ∃ d' e', Layouter.generateLayout fuel d = .ok d' ∧ Layouter.generateLayout fuel e = .ok e' ∧
      ∀ r, .line r ∈ items → ∃ x y, DrawnId d' r.order x y ∧ DrawnId e' r.order x y := by
  obtain ⟨rows', items', hc, T', hs⟩ := C137_again k rows items T E
  obtain ⟨d, hd, b1, h1⟩ := C136_drawn _ _ T
  obtain ⟨e, he, b2, h2⟩ := C136_drawn _ _ T'
  refine ⟨rows', d, e, hc, hd, he, max b1 b2, fun fuel hf => ?_⟩
  obtain ⟨d', hd', k1, -⟩ := h1 fuel (le_trans (le_max_left _ _) hf)
  obtain ⟨e', he', k2, -⟩ := h2 fuel (le_trans (le_max_right _ _) hf)
  refine ⟨d', e', hd', he', fun r hr => ?_⟩
  obtain ⟨pre, post, eq⟩ := List.append_of_mem hr
  obtain ⟨pre', post', r', e1, e2, e3, e4⟩ := same_split hs eq
  have a := k1 _ _ _ eq
  have b := k2 _ _ _ e1
  rw [e2, e3, e4] at b
  exact ⟨_, _, a, b⟩

/-- **C137 (end).** An optional step directly before the last row is different: there is a table with optional steps which is imported and exported, but the exported table cannot be imported. -/
theorem C137_end : ∃ rows items, OptionalTable rows items ∧ ∃ d rows', loadCsv rows {} = .ok d ∧ (∃ N, ∀ fuel ≥ N, exportRows d fuel = .ok rows') ∧ ∀ d', loadCsv rows' {} ≠ .ok d' := by
  refine ⟨letterOptions, letterItems, letter_options, ?_⟩
  have check : (match loadCsv letterOptions {} with
    | .ok d => (match exportRows d 60 with | .ok r => (match loadCsv r {} with | .ok _ => false | .error _ => true) | .error _ => false)
    | .error _ => false) = true := by decide +kernel
  cases h1 : loadCsv letterOptions {} with
  | error e => simp [h1] at check
  | ok d =>
    cases h2 : exportRows d 60 with
    | error e => simp [h1, h2] at check
    | ok r =>
      refine ⟨d, r, rfl, ⟨60, fun fuel hf => exportRows_mono hf h2⟩, fun d' h3 => ?_⟩
      simp [h1, h2, h3] at check

/-! A case: two optional steps, rows not in order, and the last one is not directly before the end. -/

def parcelItems : List Entry :=
  [.line (Row.mk "0" "ordered" "" "" "" ""), .optional (Row.mk "1b1" "ask" "" "" "" "") (Row.mk "1a1" "goto 2" "known" "" "" ""), .line (Row.mk "2" "pack" "" "clerk" "yes" ""),
    .optional (Row.mk "3a1" "insure" "dear" "" "" "") (Row.mk "3b1" "GoTo 4" "" "" "" ""), .line (Row.mk "4" "send" "" "" "" ""), .line (Row.mk "5" "sent" "" "" "" "yes")]

def parcelRows : List Row :=
  [Row.mk "0" "ordered" "" "" "" "", Row.mk "2" "pack" "" "clerk" "yes" "", Row.mk "1a1" "goto 2" "known" "" "" "", Row.mk "1b1" "ask" "" "" "" "", Row.mk "5" "sent" "" "" "" "yes",
    Row.mk "3b1" "GoTo 4" "" "" "" "", Row.mk "3a1" "insure" "dear" "" "" "", Row.mk "4" "send" "" "" "" ""]

theorem parcel_table : OptionalTable parcelRows parcelItems := by
  have small : ∀ {n : Nat} {e : Entry}, parcelItems[n]? = some e → n < 6 := fun h => (List.getElem?_eq_some_iff.1 h).1
  refine ⟨by simp only [parcelItems, parcelRows, List.flatMap_cons, List.flatMap_nil, Entry.rows]; decide, ⟨_, rfl⟩, ?_, ?_⟩
  · intro n r h
    have hn := small h
    interval_cases n <;> simp [parcelItems] at h <;> subst h <;>
      exact ⟨by decide, goto_no (by decide), by simp [parcelItems]⟩
  · intro n x g h
    have hn := small h
    interval_cases n <;> simp [parcelItems] at h
    · obtain ⟨rfl, rfl⟩ := h
      refine ⟨by decide, goto_no (by decide), by decide, (isGoto_iff _).1 (by decide), by decide, _, rfl, ?_⟩
      exact ⟨['g', 'o', 't', 'o'], [' '], [], by decide, by decide, by unfold White; decide, by decide, by unfold White; decide, by decide, by unfold White; decide, by simp⟩
    · obtain ⟨rfl, rfl⟩ := h
      refine ⟨by decide, goto_no (by decide), by decide, (isGoto_iff _).1 (by decide), by decide, _, rfl, ?_⟩
      exact ⟨['G', 'o', 'T', 'o'], [' '], [], by decide, by decide, by unfold White; decide, by decide, by unfold White; decide, by decide, by unfold White; decide, by simp⟩

theorem parcel_apart : EndsApart parcelItems := by
  refine ⟨by decide, fun n x g h => ?_⟩
  have hn : n < 6 := (List.getElem?_eq_some_iff.1 h).1
  have : parcelItems.length = 6 := rfl
  interval_cases n <;> first | omega | simp [parcelItems] at h

example : ∃ rows', Copied 3 parcelRows rows' := by
  obtain ⟨r, -, h, -⟩ := C137_again 3 _ _ parcel_table parcel_apart
  exact ⟨r, h⟩

example : ∃ d first rows', loadCsv parcelRows {} = .ok d ∧ (∃ N, ∀ fuel ≥ N, exportRows d fuel = .ok rows') ∧ OptionalTable rows' (Entry.again bare first 0 parcelItems) := by
  obtain ⟨d, hd, first, r, h1, h2, -⟩ := C137_export _ _ parcel_table parcel_apart
  exact ⟨d, first, r, hd, h1, h2⟩

example : ∃ rows' d e, Copied 5 parcelRows rows' ∧ loadCsv parcelRows {} = .ok d ∧ loadCsv rows' {} = .ok e ∧ ∃ bound, ∀ fuel ≥ bound, ∃ d' e', Layouter.generateLayout fuel d = .ok d' ∧
    Layouter.generateLayout fuel e = .ok e' ∧ ∃ x y, DrawnId d' "4" x y ∧ DrawnId e' "4" x y := by
  obtain ⟨r, d, e, h1, h2, h3, b, h⟩ := C137_drawn _ _ parcel_table parcel_apart 5
  refine ⟨r, d, e, h1, h2, h3, b, fun fuel hf => ?_⟩
  obtain ⟨d', e', k1, k2, k3⟩ := h fuel hf
  exact ⟨d', e', k1, k2, k3 (Row.mk "4" "send" "" "" "" "") (by simp [parcelItems])⟩

end Bpmn.Props

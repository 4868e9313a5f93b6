import Verif.Lemmas.LoopTable
import Verif.Props.GotoLoops
import Verif.Props.LoopGrid
import Verif.Props.Workflow
import Mathlib.Data.List.Chain
/-!
# A table with one loop: the import, the drawing and the export (C120)
-/
set_option linter.unusedSimpArgs false
set_option linter.unusedVariables false

namespace Bpmn.Props
open Bpmn Spec Layouter Csv Spec.Csv

namespace LoopRows
variable {rows main back on rest : List Row} {j : Nat} {goto : Row} (L : LoopTable rows main j back goto on rest)

include L in
/-- What leads to a row. -/
theorem into_row {s : Row} {p : List Char} {n : Nat} (sp : Spot main back goto on rest s p n) {a : String} (h : TableFlow rows a s.order) :
    (∃ m w, n = m + 1 ∧ Spot main back goto on rest w p m ∧ a = w.order) ∨
    (main[j]? = some s ∧ ∃ w, back.getLast? = some w ∧ a = w.order) ∨
    (n = 1 ∧ p ≠ [] ∧ ∃ w, main.getLast? = some w ∧ a = w.order ++ "_split") ∨
    (rest[0]? = some s ∧ ∃ w, on.getLast? = some w ∧ a = w.order) := by
  have T := goto_table L
  obtain ⟨hs, es⟩ := spot_order L sp
  have same : ∀ {v : Row}, v ∈ rows → v.order = s.order → v = s := fun hv e => List.inj_on_of_nodup_map T.table.orders hv hs e
  have under := tableUnder T.table _ (List.mem_map_of_mem hs)
  have hsz := L.sizes
  have last : ∀ {w : Row} {o : List Char}, w ∈ rows → OpensSplit rows w.order.toList o → main.getLast? = some w := by
    intro w o hw ho
    obtain ⟨k, e1, e2, -⟩ := opens L ho
    have s1 := spot_at (p := []) L hw .nil e1
    have s2 : Spot main back goto on rest _ [] (main.length - 1) := .main (List.getElem?_eq_getElem (by omega))
    rw [show k = main.length - 1 by omega] at s1
    rw [s1.unique s2, List.getLast?_eq_getElem?, List.getElem?_eq_getElem (by omega)]
  have goto_only : ∀ {g q w : Row}, w ∈ rows → g ∈ rows → GotoRow g → q ∈ rows → GoesTo g q.order → ComesAfter rows w.order.toList g.order.toList →
      main[j]? = some q ∧ back.getLast? = some w := by
    intro g q w hw hg hgo hq hto ha
    have e := is_goto L hg hgo
    subst e
    exact ⟨goes_to L hq hto, before_goto L hw ha⟩
  generalize e : s.order = x at h
  cases h with
  | next h1 h2 h3 h4 h5 =>
    cases same h2 e.symm
    obtain ⟨q, m, hq, e1, e2⟩ := h5
    obtain ⟨rfl, rfl⟩ := step_eq sp.pref hq es e2
    exact .inl ⟨m, _, rfl, spot_at L h1 hq e1, rfl⟩
  | nextGoto h1 h2 h3 h4 h5 h6 h7 =>
    cases same h4 e.symm
    obtain ⟨k1, k2⟩ := goto_only h1 h2 h3 h4 h5 (comesAfter_next h7)
    exact .inr (.inl ⟨k1, _, k2, rfl⟩)
  | split h1 h2 h3 => exact absurd (e ▸ underscore_split _) under
  | branch h1 h2 h3 h4 h5 h6 =>
    cases same h4 e.symm
    obtain ⟨-, k⟩ := starts_at L h4 h6
    refine .inr (.inr (.inl ?_))
    rcases k with k | k
    · obtain ⟨rfl, rfl⟩ := step_eq sp.pref (prefA _) es (spot_order L (.back k)).2
      exact ⟨rfl, by simp, _, last h1 h3, rfl⟩
    · obtain ⟨rfl, rfl⟩ := step_eq sp.pref (prefB _) es (spot_order L (.on k)).2
      exact ⟨rfl, by simp, _, last h1 h3, rfl⟩
  | branchGoto h1 h2 h3 h4 h5 h6 h7 h8 =>
    have e := is_goto L h4 h5
    subst e
    exact absurd h6 (not_start L _)
  | toJoin h1 h2 h3 => exact absurd (e ▸ underscore_join _) under
  | join h1 h2 h3 =>
    have := (comes L h1).1.symm.trans (comes L h2).1
    injection this with this
    exact absurd this h3
  | alone h1 h2 =>
    cases same h1.2.1 e.symm
    obtain ⟨k1, k2⟩ := comes L h1
    exact .inr (.inr (.inr ⟨k2, _, k1, rfl⟩))

include L in
/-- One flow leads to every row but the one that the `goto` row names. -/
theorem into_once {s : Row} (hs : s ∈ rows) (hj : main[j]? ≠ some s) {a b : String} (ha : TableFlow rows a s.order) (hb : TableFlow rows b s.order) : a = b := by
  obtain ⟨p, n, sp⟩ := spot_of L hs
  have two : ∀ {l : List Row} {v w : Row}, l.getLast? = some v → l.getLast? = some w → v = w := fun h k => by rw [h] at k; injection k
  have zero : ∀ {w : Row} {p : List Char}, Spot main back goto on rest w p 0 → p = [] := by
    intro w p h
    rcases h.bound with h | h | h
    · exact h.1
    · omega
    · omega
  have gap : ∀ {w : Row} {m : Nat}, rest[0]? = some s → n = m + 1 → ¬Spot main back goto on rest w p m := by
    intro w m h e k
    obtain ⟨rfl, rfl⟩ := step_eq sp.pref .nil (spot_order L sp).2 (spot_order L (.rest h)).2
    rcases k.bound with h | h | h
    · omega
    · exact absurd h.1 (by simp)
    · exact absurd h.1 (by simp)
  have main0 : rest[0]? = some s → p ≠ [] → False := by
    intro h k
    exact k (step_eq sp.pref .nil (spot_order L sp).2 (spot_order L (.rest h)).2).1
  rcases into_row L sp ha with ⟨m, w, e1, s1, rfl⟩ | ⟨h, -⟩ | ⟨e1, hp, w, hw, rfl⟩ | ⟨h0, w, hw, rfl⟩
  · rcases into_row L sp hb with ⟨m', w', e1', s1', rfl⟩ | ⟨h, -⟩ | ⟨e1', hp, w', hw', rfl⟩ | ⟨h0, w', hw', rfl⟩
    · obtain rfl : m = m' := by omega
      rw [s1.unique s1']
    · exact absurd h hj
    · obtain rfl : m = 0 := by omega
      exact absurd (zero s1) hp
    · exact absurd s1 (gap h0 e1)
  · exact absurd h hj
  · rcases into_row L sp hb with ⟨m', w', e1', s1', rfl⟩ | ⟨h, -⟩ | ⟨e1', hp, w', hw', rfl⟩ | ⟨h0, w', hw', rfl⟩
    · obtain rfl : m' = 0 := by omega
      exact absurd (zero s1') hp
    · exact absurd h hj
    · rw [two hw hw']
    · exact absurd (main0 h0 hp) id
  · rcases into_row L sp hb with ⟨m', w', e1', s1', rfl⟩ | ⟨h, -⟩ | ⟨e1', hp, w', hw', rfl⟩ | ⟨h0, w', hw', rfl⟩
    · exact absurd s1' (gap h0 e1')
    · exact absurd h hj
    · exact absurd (main0 h0 hp) id
    · rw [two hw hw']

include L in
/-- A row leads to the one with the next number. -/
theorem flow_next {r s : Row} {p : List Char} {n : Nat} (hr : Spot main back goto on rest r p n) (hs : Spot main back goto on rest s p (n + 1)) (hg : ¬GotoRow s) :
    TableFlow rows r.order s.order := by
  obtain ⟨h1, h2⟩ := spot_order L hr
  obtain ⟨h3, h4⟩ := spot_order L hs
  refine .next h1 h3 hg (fun ht => ?_) ⟨p, n, hr.pref, h2, h4⟩
  obtain ⟨rfl, rfl⟩ := (ended L hr).1 ht
  have := L.sizes
  have : 0 < rest.length := List.length_pos_iff.2 (by grind)
  rcases hs.bound with h | h | h
  · omega
  · exact absurd h.1 (by simp)
  · exact absurd h.1 (by simp)

include L in
theorem flow_again {r q : Row} (hr : back.getLast? = some r) (hq : main[j]? = some q) : TableFlow rows r.order q.order := by
  obtain ⟨g1, g2⟩ := goto_mem L
  have pos : 0 < back.length := List.length_pos_iff.2 L.sizes.2.2.1
  rw [List.getLast?_eq_getElem?] at hr
  obtain ⟨h1, h2⟩ := spot_order L (.back hr)
  refine .nextGoto h1 g1 L.jump.1 (spot_order L (.main hq)).1 (L.jump.2.2 _ hq) (fun ht => ?_) ⟨_, _, prefA _, h2, ?_⟩
  · have := ((ended L (.back hr)).1 ht).1
    simp at this
  · rw [g2, show back.length - 1 + 1 + 1 = back.length + 1 by omega]

include L in
theorem flow_leave {r s : Row} (hr : on.getLast? = some r) (hs : rest[0]? = some s) : TableFlow rows r.order s.order := by
  refine .alone (comes_back L hr hs) fun z hz => ?_
  have := (comes L hz).1.symm.trans hr
  injection this

include L in
theorem flow_split {w : Row} (hw : main.getLast? = some w) : TableFlow rows w.order (w.order ++ "_split") ∧
    ∀ r, back[0]? = some r ∨ on[0]? = some r → TableFlow rows (w.order ++ "_split") r.order := by
  obtain ⟨h1, h2, h3⟩ := opens_here L hw
  refine ⟨.split h1 h2 h3, fun r hr => ?_⟩
  obtain ⟨k1, k2⟩ := start_of L hr
  refine .branch h1 h2 h3 k1 ?_ k2
  rcases hr with hr | hr
  · exact (L.others _ (by simp [List.mem_of_getElem? hr])).1
  · exact (L.others _ (by simp [List.mem_of_getElem? hr])).1

include L in
theorem nodes_are {w : Row} (hw : main.getLast? = some w) (x : String) : TableNode rows x ↔ x ∈ (main ++ back ++ on ++ rest).map Row.order ∨ x = w.order ++ "_split" := by
  constructor
  · intro h
    cases h with
    | @row r h1 h2 =>
      refine .inl (List.mem_map_of_mem ?_)
      have := L.all.mem_iff.1 h1
      simp only [List.mem_append, List.mem_singleton, or_assoc] at this ⊢
      rcases this with h | h | h | h | h
      · exact .inl h
      · exact .inr (.inl h)
      · exact absurd (h ▸ L.jump.1) h2
      · exact .inr (.inr (.inl h))
      · exact .inr (.inr (.inr h))
    | @split w' o h1 h2 h3 =>
      obtain ⟨k, e1, e2, -⟩ := opens L h3
      have s1 := spot_at (p := []) L h1 .nil e1
      rw [List.getLast?_eq_getElem?] at hw
      rw [show k = main.length - 1 by omega] at s1
      exact .inr (by rw [s1.unique (.main hw)])
    | join h1 h2 h3 =>
      have := (comes L h1).1.symm.trans (comes L h2).1
      injection this with this
      exact absurd this h3
  · rintro (h | rfl)
    · obtain ⟨r, hr, rfl⟩ := List.mem_map.1 h
      refine .row (L.all.mem_iff.2 ?_) (L.others r hr).1
      simp only [List.mem_append, List.mem_singleton, or_assoc] at hr ⊢
      grind
    · obtain ⟨h1, h2, h3⟩ := opens_here L hw
      exact .split h1 h2 h3

theorem chain_of {p : List Char} {k : Nat} {l : List Row} (h : ∀ i r, l[i]? = some r → Spot main back goto on rest r p (k + i)) (hg : ∀ r ∈ l, ¬GotoRow r)
    (L : LoopTable rows main j back goto on rest) : List.IsChain (TableFlow rows) (l.map Row.order) := by
  rw [List.isChain_iff_getElem]
  intro i hi
  simp only [List.length_map] at hi
  simp only [List.getElem_map]
  exact flow_next L (h i _ (List.getElem?_eq_getElem (by omega))) (h (i + 1) _ (List.getElem?_eq_getElem hi)) (hg _ (List.getElem_mem hi))

end LoopRows

section
variable {rows : List Row} (T : GotoTable rows) (S : SplitTable rows) (N : NoTurn rows)
include T S N

theorem table_ins_le {d : Diagram} (h : loadCsv rows {} = .ok d) {n : Node} (hn : n ∈ d.getNodes) {ys : List String} (hk : ∀ a, TableFlow rows a n.1 → a ∈ ys) :
    (ins n).length ≤ ys.length := by
  obtain ⟨d0, F, d1, d2, s⟩ := stages T.table h
  have f := T.tidy S N s
  have i := f.exact.inv
  rw [(id_of_node i hn).2.2.1]
  have sub : inOf d n.1 ⊆ ys.map (flowId · n.1) := by
    intro p hp
    obtain ⟨y, py, rfl⟩ := i.inI _ _ hp
    exact List.mem_map.2 ⟨y, hk y (T.sound S s N (f.exact.backIn _ _ py hp) py), rfl⟩
  simpa using ((f.exact.inNd n.1).subperm sub).length_le

theorem table_outs_le {d : Diagram} (h : loadCsv rows {} = .ok d) {n : Node} (hn : n ∈ d.getNodes) {ys : List String} (hk : ∀ a, TableFlow rows n.1 a → a ∈ ys) :
    (outs n).length ≤ ys.length := by
  obtain ⟨d0, F, d1, d2, s⟩ := stages T.table h
  have f := T.tidy S N s
  have i := f.exact.inv
  obtain ⟨k1, k2, -⟩ := id_of_node i hn
  rw [k2]
  have sub : outOf d n.1 ⊆ ys.map (flowId n.1) := by
    intro p hp
    obtain ⟨y, rfl⟩ := i.outI _ _ hp
    exact List.mem_map.2 ⟨y, hk y (T.sound S s N (f.exact.back _ _ hp) (i.plain _ k1)), rfl⟩
  simpa using ((f.exact.outNd n.1).subperm sub).length_le

theorem table_outs_ge {d : Diagram} (h : loadCsv rows {} = .ok d) {n : Node} (hn : n ∈ d.getNodes) {a b : String} (ha : TableFlow rows n.1 a) (hb : TableFlow rows n.1 b) (hne : a ≠ b) :
    2 ≤ (outs n).length := by
  obtain ⟨d0, F, d1, d2, s⟩ := stages T.table h
  have i := (T.tidy S N s).exact.inv
  rw [(id_of_node i hn).2.1]
  have wa := T.complete S s N ha
  have wb := T.complete S s N hb
  exact two_le_of_mem wa.out wb.out fun e => hne (flowId_inj (i.plain _ wa.src) (i.plain _ wb.src) e).2

omit S N in
/-- Where the gateway of a split leads. -/
theorem from_split {k b : String} (hk : k ∈ rows.map Row.order) (h : TableFlow rows (k ++ "_split") b) :
    ∃ r ∈ rows, ∃ w ∈ rows, ∃ o, OpensSplit rows w.order.toList o ∧ BranchStart o r.order.toList ∧ (¬GotoRow r ∧ b = r.order ∨ GotoRow r) := by
  have nr : ∀ {r : Row}, r ∈ rows → r.order ≠ k ++ "_split" := fun hr e => absurd (e ▸ underscore_split _) (tableUnder T.table _ (List.mem_map_of_mem hr))
  generalize e : k ++ "_split" = x at h
  cases h with
  | next h1 => exact absurd e.symm (nr h1)
  | nextGoto h1 => exact absurd e.symm (nr h1)
  | split h1 => exact absurd e.symm (nr h1)
  | branch h1 h2 h3 h4 h5 h6 => exact ⟨_, h4, _, h1, _, h3, h6, .inl ⟨h5, rfl⟩⟩
  | branchGoto h1 h2 h3 h4 h5 h6 h7 h8 => exact ⟨_, h4, _, h1, _, h3, h6, .inr h5⟩
  | toJoin h1 => exact absurd e.symm (nr h1.1)
  | join h1 => exact absurd e (split_ne_join _ _)
  | alone h1 => exact absurd e.symm (nr h1.1)
end

/-- The node with the given id. -/
def nodeNamed (d : Diagram) (x : String) : Node := (d.getNodeById x).getD ("", {})

theorem follows_chain {d : Diagram} (c : Consistent d) {R : String → String → Prop} (hf : ∀ n ∈ d.getNodes, ∀ m ∈ d.getNodes, R n.1 m.1 → Feeds n m) :
    ∀ {l : List String}, l.IsChain R → (∀ x ∈ l, nodeNamed d x ∈ d.getNodes ∧ (nodeNamed d x).1 = x) → Follows d (l.map (nodeNamed d))
  | [], _, _ => trivial
  | [_], _, _ => trivial
  | x :: y :: l, h, k => by
    rw [List.isChain_cons_cons] at h
    obtain ⟨h1, h2⟩ := k x (by simp)
    obtain ⟨h3, h4⟩ := k y (by simp)
    refine ⟨feeds_next c h1 h3 (hf _ h1 _ h3 ?_), follows_chain c hf (l := y :: l) h.2 fun z hz => k z (List.mem_cons_of_mem _ hz)⟩
    rw [h2, h4]
    exact h.1

namespace LoopRows
variable {rows main back on rest : List Row} {j : Nat} {goto : Row} (L : LoopTable rows main j back goto on rest)

include L in
/-- The diagram of the table. -/
theorem one_loop {d : Diagram} (hd : loadCsv rows {} = .ok d) {w q : Row} (hw : main.getLast? = some w) (hq : main[j]? = some q) :
    (∀ x, TableNode rows x → nodeNamed d x ∈ d.getNodes ∧ (nodeNamed d x).1 = x) ∧
    OneLoop d ((main.take j).map fun r => nodeNamed d r.order) (nodeNamed d q.order) ((main.drop (j + 1)).map fun r => nodeNamed d r.order)
      (nodeNamed d (w.order ++ "_split")) (back.map fun r => nodeNamed d r.order) ((on ++ rest).map fun r => nodeNamed d r.order) := by
  have T := goto_table L
  have S := split_table L
  have N := no_turn L
  have hsz := L.sizes
  obtain ⟨G, g1, g2, g3, g4⟩ := T.ground S N hd
  have c := G.consistent
  have named : ∀ x, TableNode rows x → nodeNamed d x ∈ d.getNodes ∧ (nodeNamed d x).1 = x := by
    intro x hx
    obtain ⟨n, hn, rfl⟩ := (C113_nodes T S N d hd x).2 hx
    rw [nodeNamed, c.getNodeById hn]
    exact ⟨hn, rfl⟩
  refine ⟨named, ?_⟩
  have isNode := nodes_are L hw
  have hrow : ∀ {r : Row}, r ∈ main ++ back ++ on ++ rest → TableNode rows r.order := fun hr => (isNode _).2 (.inl (List.mem_map_of_mem hr))
  have hsp : TableNode rows (w.order ++ "_split") := (isNode _).2 (.inr rfl)
  have inRows : ∀ {r : Row}, r ∈ main ++ back ++ on ++ rest → r ∈ rows := fun hr => L.all.mem_iff.2 (by
    simp only [List.mem_append, List.mem_singleton, or_assoc] at hr ⊢
    grind)
  obtain ⟨hj, ej⟩ := List.getElem?_eq_some_iff.1 hq
  have cut : main = main.take j ++ q :: main.drop (j + 1) := by
    rw [← ej, ← List.drop_eq_getElem_cons hj, List.take_append_drop]
  have wm : w ∈ main := List.mem_of_getLast? hw
  have qm : q ∈ main := List.mem_of_getElem? hq
  have e1 : (main.take j).map (fun r => nodeNamed d r.order) ++ nodeNamed d q.order :: ((main.drop (j + 1)).map (fun r => nodeNamed d r.order) ++
      nodeNamed d (w.order ++ "_split") :: ((on ++ rest).map fun r => nodeNamed d r.order)) =
      (main.map Row.order ++ (w.order ++ "_split") :: (on ++ rest).map Row.order).map (nodeNamed d) := by
    conv_rhs => rw [cut]
    simp [Function.comp_def]
  have spots : (∀ i r, main[i]? = some r → Spot main back goto on rest r [] (0 + i)) ∧ (∀ i r, back[i]? = some r → Spot main back goto on rest r (decimal main.length ++ ['a']) (1 + i)) ∧
      (∀ i r, on[i]? = some r → Spot main back goto on rest r (decimal main.length ++ ['b']) (1 + i)) ∧
      ∀ i r, rest[i]? = some r → Spot main back goto on rest r [] (main.length + 1 + i) :=
    ⟨fun i r h => by rw [Nat.zero_add]; exact .main h, fun i r h => by rw [Nat.add_comm]; exact .back h, fun i r h => by rw [Nat.add_comm]; exact .on h, fun i r h => .rest h⟩
  have pl : ∀ {r : Row}, r ∈ main ++ back ++ on ++ rest → ¬GotoRow r := fun hr => (L.others _ hr).1
  have cm := chain_of spots.1 (fun r hr => pl (by simp [hr])) L
  have cb := chain_of spots.2.1 (fun r hr => pl (by simp [hr])) L
  have co := chain_of spots.2.2.1 (fun r hr => pl (by simp [hr])) L
  have cr := chain_of spots.2.2.2 (fun r hr => pl (by simp [hr])) L
  obtain ⟨f1, f2⟩ := flow_split L hw
  have headGet : ∀ {l : List Row} {y : String}, y ∈ (l.map Row.order).head? → ∃ r, l[0]? = some r ∧ r.order = y := by
    intro l y hy
    cases l with
    | nil => simp at hy
    | cons a l => simp at hy; exact ⟨a, by simp, hy⟩
  have lastGet : ∀ {l : List Row} {y : String}, y ∈ (l.map Row.order).getLast? → ∃ r, l.getLast? = some r ∧ r.order = y := by
    intro l y hy
    rw [List.getLast?_map] at hy
    simpa using hy
  have onRest : List.IsChain (TableFlow rows) ((on ++ rest).map Row.order) := by
    rw [List.map_append, List.isChain_append]
    refine ⟨co, cr, ?_⟩
    intro x hx y hy
    obtain ⟨r, hr, rfl⟩ := lastGet hx
    obtain ⟨s, hs, rfl⟩ := headGet hy
    exact flow_leave L hr hs
  have feed : ∀ n ∈ d.getNodes, ∀ m ∈ d.getNodes, TableFlow rows n.1 m.1 → Feeds n m := fun n hn m hm h => (T.feeds S N hd hn hm).2 h
  have ids : ((main ++ back ++ on ++ rest).map Row.order).Nodup := by
    refine List.Nodup.sublist ?_ ((L.all.map Row.order).nodup_iff.1 (orders_nodup L))
    refine List.Sublist.map _ (List.Sublist.append_right (List.Sublist.append_right (List.Sublist.append_left ?_ _) _) _)
    exact List.sublist_append_left _ _
  have under : ∀ {r : Row}, r ∈ rows → r.order ≠ w.order ++ "_split" := fun hr e => absurd (e ▸ underscore_split _) (tableUnder T.table _ (List.mem_map_of_mem hr))
  have outRow : ∀ {r : Row}, r ∈ main ++ back ++ on ++ rest → (outs (nodeNamed d r.order)).length ≤ 1 := by
    intro r hr
    obtain ⟨n', k1, k2, k3⟩ := C62_one_way_on rows T.table d hd _ (inRows hr) (pl hr)
    obtain ⟨h1, h2⟩ := named _ (hrow hr)
    rw [c.node_eq h1 k1 (h2.trans k2.symm), k3]
    split <;> omega
  have cases : ∀ n ∈ d.getNodes, (∃ r ∈ main ++ back ++ on ++ rest, n = nodeNamed d r.order) ∨ n = nodeNamed d (w.order ++ "_split") := by
    intro n hn
    have hx := (C113_nodes T S N d hd n.1).1 ⟨n, hn, rfl⟩
    have e : n = nodeNamed d n.1 := by rw [nodeNamed, c.getNodeById hn]; rfl
    rcases (isNode _).1 hx with h | h
    · obtain ⟨r, hr, er⟩ := List.mem_map.1 h
      exact .inl ⟨r, hr, by rw [er]; exact e⟩
    · exact .inr (by rw [← h]; exact e)
  obtain ⟨b0, o0, hb0, ho0⟩ := first_two L
  refine ⟨?_, G.supported, ?_, ?_, ?_, ?_, ?_, ?_⟩
  · have e2 : (main.take j).map (fun r => nodeNamed d r.order) ++ nodeNamed d q.order :: ((main.drop (j + 1)).map (fun r => nodeNamed d r.order) ++
        nodeNamed d (w.order ++ "_split") :: (back.map (fun r => nodeNamed d r.order) ++ (on ++ rest).map fun r => nodeNamed d r.order)) =
        (main.map Row.order ++ (w.order ++ "_split") :: (back ++ on ++ rest).map Row.order).map (nodeNamed d) := by
      conv_rhs => rw [cut]
      simp [Function.comp_def]
    rw [e2]
    have nd : (main.map Row.order ++ (w.order ++ "_split") :: (back ++ on ++ rest).map Row.order).Nodup := by
      rw [List.nodup_middle, ← List.map_append, ← List.append_assoc, ← List.append_assoc, List.nodup_cons]
      refine ⟨fun h => ?_, ids⟩
      obtain ⟨r, hr, e⟩ := List.mem_map.1 h
      exact under (inRows hr) e
    have mem : ∀ x, x ∈ main.map Row.order ++ (w.order ++ "_split") :: (back ++ on ++ rest).map Row.order ↔ TableNode rows x := by
      intro x
      rw [isNode x]
      simp only [List.mem_append, List.mem_cons, List.map_append]
      grind
    refine (List.perm_ext_iff_of_nodup ?_ (List.Nodup.of_map _ c.ids)).2 ?_
    · refine List.Nodup.map_on ?_ nd
      intro x hx y hy e
      rw [← (named x ((mem x).1 hx)).2, e, (named y ((mem y).1 hy)).2]
    · intro n
      rw [List.mem_map]
      constructor
      · rintro ⟨x, hx, rfl⟩
        exact (named x ((mem x).1 hx)).1
      · intro hn
        exact ⟨n.1, (mem _).2 ((C113_nodes T S N d hd n.1).1 ⟨n, hn, rfl⟩), by rw [nodeNamed, c.getNodeById hn]; rfl⟩
  · rw [e1]
    refine follows_chain c feed ?_ fun x hx => named x ?_
    · rw [List.isChain_append]
      refine ⟨cm, ?_, ?_⟩
      · rw [List.isChain_cons]
        refine ⟨?_, onRest⟩
        intro y hy
        have hne : on ≠ [] := hsz.2.2.2.2.1
        cases on with
        | nil => exact absurd rfl hne
        | cons a l => simp at hy; exact hy ▸ f2 a (.inr (by simp))
      · intro x hx y hy
        obtain ⟨r, hr, rfl⟩ := lastGet hx
        rw [hw] at hr
        injection hr with hr
        subst hr
        simp at hy
        exact hy ▸ f1
    · rw [isNode x]
      simp only [List.mem_append, List.mem_cons, List.map_append] at hx ⊢
      grind
  · have e3 : nodeNamed d (w.order ++ "_split") :: (back.map (fun r => nodeNamed d r.order) ++ [nodeNamed d q.order]) =
        ((w.order ++ "_split") :: (back.map Row.order ++ [q.order])).map (nodeNamed d) := by simp [Function.comp_def]
    rw [e3]
    refine follows_chain c feed ?_ fun x hx => named x ?_
    · rw [List.isChain_cons]
      constructor
      · intro y hy
        have hne : back ≠ [] := hsz.2.2.1
        cases back with
        | nil => exact absurd rfl hne
        | cons a l => simp at hy; exact hy ▸ f2 a (.inl (by simp))
      · rw [List.isChain_append]
        refine ⟨cb, by simp, ?_⟩
        intro x hx y hy
        obtain ⟨r, hr, rfl⟩ := lastGet hx
        simp at hy
        exact hy ▸ flow_again L hr hq
    · rw [isNode x]
      simp only [List.mem_append, List.mem_cons, List.map_append, List.not_mem_nil, or_false] at hx ⊢
      have : q.order ∈ main.map Row.order := List.mem_map_of_mem qm
      grind
  · intro n hn
    have h0 : 0 < main.length := by omega
    have e : (main.take j).head? = some main[0] := by rw [List.head?_take, if_neg (by omega)]; simp [List.head?_eq_getElem?, h0]
    rw [List.head?_map, e] at hn
    simp at hn
    subst hn
    have m0 : main[0]? = some main[0] := List.getElem?_eq_getElem h0
    obtain ⟨k1, k2⟩ := named main[0].order (hrow (by simp))
    rw [g4 _ k1]
    intro a ha
    rw [k2] at ha
    rcases into_row L (.main m0) ha with ⟨m, w, e, -⟩ | ⟨h, -⟩ | ⟨-, h, -⟩ | ⟨h, -⟩
    · omega
    · have := (step_eq .nil .nil (spot_order L (.main m0)).2 (spot_order L (.main h)).2).2
      omega
    · exact h rfl
    · have := (step_eq .nil .nil (spot_order L (.main m0)).2 (spot_order L (.rest h)).2).2
      omega
  · intro n hn
    constructor
    · intro hne
      rcases cases n hn with ⟨r, hr, rfl⟩ | rfl
      · obtain ⟨k1, k2⟩ := named _ (hrow hr)
        refine g1 _ hn fun a b ha hb => ?_
        rw [k2] at ha hb
        refine into_once L (inRows hr) (fun h => hne ?_) ha hb
        rw [hq] at h
        injection h with h
        rw [h]
      · obtain ⟨k1, k2⟩ := named _ hsp
        refine g1 _ hn fun a b ha hb => ?_
        rw [k2] at ha hb
        rw [T.to_split ha, T.to_split hb]
    · intro hne
      rcases cases n hn with ⟨r, hr, rfl⟩ | rfl
      · exact outRow hr
      · exact absurd rfl hne
  · constructor
    · obtain ⟨k1, k2⟩ := named _ (hrow (r := q) (by simp [qm]))
      obtain ⟨v, hv⟩ : ∃ v, main[j - 1]? = some v := ⟨_, List.getElem?_eq_getElem (by omega)⟩
      obtain ⟨u, hu⟩ : ∃ u, back.getLast? = some u := by
        cases h : back.getLast? with
        | none => rw [List.getLast?_eq_none_iff] at h; exact absurd h hsz.2.2.1
        | some u => exact ⟨u, rfl⟩
      have le : (ins (nodeNamed d q.order)).length ≤ [v.order, u.order].length := by
        refine table_ins_le T S N hd k1 fun a ha => ?_
        rw [k2] at ha
        rcases into_row L (.main hq) ha with ⟨m, x, e, sx, rfl⟩ | ⟨-, x, hx, rfl⟩ | ⟨-, h, -⟩ | ⟨h, -⟩
        · have : Spot main back goto on rest v [] m := .main (by rw [← hv]; congr 1; omega)
          rw [sx.unique this]; simp
        · rw [hu] at hx
          injection hx with hx
          rw [hx]; simp
        · exact absurd rfl h
        · have := (step_eq .nil .nil (spot_order L (.main hq)).2 (spot_order L (.rest h)).2).2
          omega
      have ge : 2 ≤ (ins (nodeNamed d q.order)).length := by
        refine g2 _ k1 v.order u.order ?_ ?_ ?_
        · rw [k2]
          refine flow_next L (.main hv) (s := q) ?_ (pl (by simp [qm]))
          rw [show j - 1 + 1 = j by omega]
          exact .main hq
        · rw [k2]; exact flow_again L hu hq
        · intro e
          rw [List.getLast?_eq_getElem?] at hu
          have a1 := (spot_order L (.main hv)).2
          rw [e] at a1
          have := (step_eq .nil (prefA _) a1 (spot_order L (.back hu)).2).1
          simp at this
      simp at le
      omega
    · obtain ⟨k1, k2⟩ := named _ hsp
      have le : (outs (nodeNamed d (w.order ++ "_split"))).length ≤ [b0.order, o0.order].length := by
        refine table_outs_le T S N hd k1 fun a ha => ?_
        rw [k2] at ha
        obtain ⟨r, hr, x, hx, o, h1, h2, h3⟩ := from_split T (List.mem_map_of_mem (inRows (r := w) (by simp [wm]))) ha
        obtain ⟨-, h4⟩ := starts_at L hr h2
        rcases h3 with ⟨h3, rfl⟩ | h3
        · rcases h4 with h4 | h4
          · rw [hb0] at h4; injection h4 with h4; rw [h4]; simp
          · rw [ho0] at h4; injection h4 with h4; rw [h4]; simp
        · rw [is_goto L hr h3] at h2
          exact absurd h2 (not_start L _)
      have ge : 2 ≤ (outs (nodeNamed d (w.order ++ "_split"))).length := by
        refine table_outs_ge T S N hd k1 (a := b0.order) (b := o0.order) (by rw [k2]; exact f2 _ (.inl hb0)) (by rw [k2]; exact f2 _ (.inr ho0)) fun e => ?_
        exact apart L hb0 ho0 (List.inj_on_of_nodup_map T.table.orders (spot_order L (.back hb0)).1 (spot_order L (.on ho0)).1 e)
      simp at le
      omega
  · refine ⟨?_, by simpa using hsz.2.2.1, by simp [hsz.2.2.2.2.1]⟩
    simp
    constructor
    · omega
    · intro h; subst h; simp at hj

theorem drawnRow_of {d' : Diagram} {column y : Int} {ns : List Node} {is : List String} (h : InLine d' column y ns) (e : ns.map (·.1) = is) : DrawnRow d' column y is := by
  subst e
  intro i hi
  simp only [List.length_map] at hi
  simp only [List.getElem_map]
  exact h i hi

end LoopRows

open LoopRows in
/-- **C120 (drawing).** A table for a process with one loop, as in `LoopTable`, is imported, and the diagram is always laid out: the rows before the one that the `goto` row names at y = 250, this row and
the ones behind it at y = 150, with the gateway of the split at their end; the branch back and the branch onwards, with the rest of the main line, right of the gateway, one of them at
y = 350 and the other one at y = -50. -/
theorem C120_drawn (rows main : List Row) (j : Nat) (back : List Row) (goto : Row) (on rest : List Row) (L : LoopTable rows main j back goto on rest) (w : Row) (hw : main.getLast? = some w) :
    ∃ d, loadCsv rows {} = .ok d ∧ ∃ (bound : Nat) (y z : Int), (y = 350 ∧ z = -50 ∨ y = -50 ∧ z = 350) ∧ ∀ fuel ≥ bound, ∃ d', generateLayout fuel d = .ok d' ∧
      DrawnRow d' 1 250 ((main.take j).map Row.order) ∧ DrawnRow d' (j + 1) 150 ((main.drop j).map Row.order ++ [w.order ++ "_split"]) ∧
      DrawnRow d' (main.length + 2) y (back.map Row.order) ∧ DrawnRow d' (main.length + 2) z ((on ++ rest).map Row.order) := by
  obtain ⟨d, hd⟩ := imported L
  have hj := L.sizes.2.1
  have hq := List.getElem?_eq_getElem hj
  obtain ⟨named, O⟩ := one_loop L hd hw hq
  have c := ((LoopRows.goto_table L).ground (split_table L) (no_turn L) hd).1.consistent
  obtain ⟨bound, y, z, hyz, h⟩ := C116_one_loop d c O
  refine ⟨d, hd, bound, y, z, hyz, fun fuel hf => ?_⟩
  obtain ⟨d', h0, h1, h2, h3, h4⟩ := h fuel hf
  have idOf : ∀ l : List Row, (∀ r ∈ l, r ∈ main ++ back ++ on ++ rest) → (l.map fun r => nodeNamed d r.order).map (·.1) = l.map Row.order := by
    intro l hl
    rw [List.map_map]
    refine List.map_congr_left fun r hr => ?_
    exact (named _ ((nodes_are L hw _).2 (.inl (List.mem_map_of_mem (hl r hr))))).2
  have el : ((main.take j).map fun r => nodeNamed d r.order).length = j := by simp; omega
  have eb : ((main.drop (j + 1)).map fun r => nodeNamed d r.order).length = main.length - (j + 1) := by simp
  rw [el] at h2
  rw [el, eb] at h3 h4
  have ec : ((j : Int) + ((main.length - (j + 1) : Nat) : Int) + 3) = (main.length : Int) + 2 := by omega
  rw [ec] at h3 h4
  refine ⟨d', h0, drawnRow_of h1 (idOf _ fun r hr => by simp [List.mem_of_mem_take hr]), drawnRow_of h2 ?_, drawnRow_of h3 (idOf _ fun r hr => by simp [hr]),
    drawnRow_of h4 (idOf _ fun r hr => by simp only [List.mem_append] at hr ⊢; grind)⟩
  rw [List.drop_eq_getElem_cons hj]
  simp only [List.map_cons, List.map_append, List.cons_append, List.map_nil]
  rw [idOf (main.drop (j + 1)) fun r hr => by simp [List.mem_of_mem_drop hr], (named _ ((nodes_are L hw _).2 (.inr rfl))).2,
    (named _ ((nodes_are L hw _).2 (.inl (List.mem_map_of_mem (a := main[j]) (by simp))))).2]

namespace LoopRows
variable {rows main back on rest : List Row} {j : Nat} {goto : Row} (L : LoopTable rows main j back goto on rest)

include L in
theorem all_reached : AllReached rows := by
  intro r hr hg h0
  have hsz := L.sizes
  obtain ⟨w, hw⟩ : ∃ w, main.getLast? = some w := ⟨_, List.getLast?_eq_getElem? ▸ List.getElem?_eq_getElem (by omega)⟩
  obtain ⟨p, n, s⟩ := spot_of L hr
  have e := spot_order L s
  have lt : ∀ {l : List Row} {i : Nat}, l[i]? = some r → i < l.length := fun h => (List.getElem?_eq_some_iff.1 h).1
  cases s with
  | main h =>
    cases n with
    | zero => exact absurd (String.toList_injective (e.2.trans (by decide))) h0
    | succ n =>
      have := lt h
      exact ⟨_, flow_next L (.main (List.getElem?_eq_getElem (by omega))) (.main h) hg⟩
  | @back m h =>
    cases m with
    | zero => exact ⟨_, (flow_split L hw).2 r (.inl h)⟩
    | succ m =>
      have := lt h
      exact ⟨_, flow_next L (.back (List.getElem?_eq_getElem (by omega))) (.back h) hg⟩
  | goto h => exact absurd (h ▸ L.jump.1) hg
  | @on m h =>
    cases m with
    | zero => exact ⟨_, (flow_split L hw).2 r (.inr h)⟩
    | succ m =>
      have := lt h
      exact ⟨_, flow_next L (.on (List.getElem?_eq_getElem (by omega))) (.on h) hg⟩
  | @rest m h =>
    cases m with
    | zero =>
      have : 0 < on.length := List.length_pos_iff.2 hsz.2.2.2.2.1
      exact ⟨_, flow_leave L (List.getLast?_eq_getElem? ▸ List.getElem?_eq_getElem (by omega)) h⟩
    | succ m =>
      have := lt h
      exact ⟨_, flow_next L (.rest (List.getElem?_eq_getElem (by omega))) (.rest h) hg⟩

end LoopRows

/-- **C120 (saving).** The drawing of such a table can be saved as XML, and loading the file gives it back. -/
theorem C120_saved (rows main : List Row) (j : Nat) (back : List Row) (goto : Row) (on rest : List Row) (L : LoopTable rows main j back goto on rest) :
    ∃ d, loadCsv rows {} = .ok d ∧ ∃ bound, ∀ fuel ≥ bound, ∃ d', generateLayout fuel d = .ok d' ∧
      ∃ x N, (∀ n ≥ N, Export.exportXmlFile n d' = .ok x) ∧
        ∀ ord : List String → List String, (∀ l, (ord l).Perm l) → ∃ e, Import.load ord x.toDom {} = .ok e ∧ SavedAs d' e := by
  obtain ⟨d, hd, bound, y, z, -, h⟩ := C120_drawn rows main j back goto on rest L _ (List.getLast?_eq_getElem? ▸ List.getElem?_eq_getElem (by have := L.sizes; omega))
  refine ⟨d, hd, bound, fun fuel hf => ?_⟩
  obtain ⟨d', h1, -⟩ := h fuel hf
  exact ⟨d', h1, C89_saved rows (LoopRows.table L) d d' hd h1⟩

/-- **C120 (CSV export).** The CSV export of the imported diagram has only the rows before the one that the `goto` row names, without conditions and persons: the loop and all that is behind it are lost. -/
theorem C120_export (rows main : List Row) (j : Nat) (back : List Row) (goto : Row) (on rest : List Row) (L : LoopTable rows main j back goto on rest) :
    ∃ d, loadCsv rows {} = .ok d ∧ ∃ bound, ∀ fuel ≥ bound, exportRows d fuel = .ok ((main.take j).map fun r =>
      Row.mk r.order r.activity "" "" (if r.order ≠ "0" ∧ r.subprocess = "yes" then "yes" else "") "") := by
  obtain ⟨d, hd⟩ := LoopRows.imported L
  refine ⟨d, hd, ?_⟩
  have hsz := L.sizes
  have hne : back.length ≠ 0 := fun h => hsz.2.2.1 (List.eq_nil_of_length_eq_zero h)
  have hm : ∀ i, i < main.length → main[i]? = some (main.getD i goto) := fun i hi => by simp [List.getD, hi]
  have hb : back[back.length - 1]? = some _ := List.getElem?_eq_getElem (by omega)
  have spot : ∀ i, (h : i < main.length) → LoopRows.Spot main back goto on rest (main.getD i goto) [] i := fun i h => .main (hm i h)
  have key := C114_rows (LoopRows.goto_table L) (LoopRows.split_table L) (LoopRows.no_turn L) d hd (fun i => main.getD i goto) j
    ⟨fun i hi => ⟨(LoopRows.spot_order L (spot i (by omega))).1, by simpa using (LoopRows.spot_order L (spot i (by omega))).2⟩,
      fun i hi ht => by have := ((LoopRows.ended L (spot i (by omega))).1 ht).2; omega⟩
    hsz.1
    (fun i hi => ⟨fun g hg hgo hto => by
        rw [LoopRows.is_goto L hg hgo] at hto
        have := LoopRows.goes_to L (LoopRows.spot_order L (spot i (by omega))).1 hto
        have := (step_eq .nil .nil (LoopRows.spot_order L (spot i (by omega))).2 (LoopRows.spot_order L (.main this)).2).2
        omega,
      fun y hy => by
        have := (LoopRows.comes L hy).2
        have := (step_eq .nil .nil (LoopRows.spot_order L (spot i (by omega))).2 (LoopRows.spot_order L (.rest this)).2).2
        omega⟩)
    (fun ht => by have := ((LoopRows.ended L (spot j (by omega))).1 ht).2; omega)
    goto (LoopRows.goto_mem L).1 L.jump.1 (L.jump.2.2 _ (hm j (by omega)))
    _ (LoopRows.spot_order L (.back hb)).1
    (fun ht => by have := ((LoopRows.ended L (.back hb)).1 ht).1; simp at this)
    (.next (LoopRows.prefA _) (LoopRows.spot_order L (.back hb)).2 (by rw [(LoopRows.goto_mem L).2, show back.length - 1 + 1 + 1 = back.length + 1 by omega]))
    (LoopRows.all_reached L)
  obtain ⟨N, h⟩ := key
  refine ⟨N, fun fuel hf => ?_⟩
  rw [h fuel hf]
  congr 1
  refine List.ext_getElem (by simp; omega) fun i h1 h2 => ?_
  simp only [List.length_map, List.length_range] at h1
  simp only [List.getElem_map, List.getElem_range, List.getElem_take]
  have e := (LoopRows.spot_order L (spot i (by omega))).2
  rw [show main.getD i goto = main[i]'(by omega) by simp [List.getD, show i < main.length by omega]] at e ⊢
  have e' : main[i].order = toString i := String.toList_injective (by simpa [decimal] using e)
  rw [e']
  congr 1
  have : toString i = "0" ↔ i = 0 := by
    constructor
    · intro h
      have : decimal i = decimal 0 := congrArg String.toList h
      exact decimal_inj this
    · rintro rfl; rfl
  simp only [ne_eq, this]

/-! ## Examples -/

/-- A letter is written and checked, mended and checked again, or accepted and sent. -/
def letterTable : List Row :=
  [Row.mk "0" "asked" "" "" "" "", Row.mk "1" "write" "" "clerk" "" "", Row.mk "2" "check" "" "" "" "", Row.mk "3a1" "mend" "no" "" "" "", Row.mk "3a2" "goto 1" "" "" "" "",
    Row.mk "3b1" "accept" "yes" "" "" "", Row.mk "4" "print" "" "" "" "", Row.mk "5" "sent" "" "" "" "yes"]

theorem letter_loop : LoopTable letterTable [Row.mk "0" "asked" "" "" "" "", Row.mk "1" "write" "" "clerk" "" "", Row.mk "2" "check" "" "" "" ""] 1
    [Row.mk "3a1" "mend" "no" "" "" ""] (Row.mk "3a2" "goto 1" "" "" "" "") [Row.mk "3b1" "accept" "yes" "" "" ""]
    [Row.mk "4" "print" "" "" "" "", Row.mk "5" "sent" "" "" "" "yes"] := by
  refine ⟨by decide, by unfold NumberedFrom; decide, by unfold NumberedFrom; decide, by unfold NumberedFrom; decide, by unfold NumberedFrom; decide, ⟨(isGoto_iff _).1 (by decide), by decide, ?_⟩, ?_, by decide⟩
  · intro q hq
    simp at hq
    subst hq
    exact ⟨['g', 'o', 't', 'o'], [' '], [], by decide, by decide, by unfold White; decide, by decide, by unfold White; decide, by decide, by unfold White; decide, by simp⟩
  · intro r hr
    have key : ∀ r ∈ letterTable, r.order ≠ "3a2" → isGoto r.activity = false ∧ (r.terminated = "yes" ↔ r = Row.mk "5" "sent" "" "" "" "yes") := by decide
    have : r ∈ letterTable ∧ r.order ≠ "3a2" := by revert r; decide
    obtain ⟨k1, k2⟩ := key r this.1 this.2
    exact ⟨goto_no k1, by simpa [eq_comm] using k2⟩

/-- The example: the letter is drawn, with the loop; the CSV export has one row. -/
example : ∃ d, loadCsv letterTable {} = .ok d ∧ (∃ bound, ∀ fuel ≥ bound, exportRows d fuel = .ok [Row.mk "0" "asked" "" "" "" ""]) :=
  C120_export _ _ _ _ _ _ _ letter_loop

example : ∃ d, loadCsv letterTable {} = .ok d ∧ ∃ (bound : Nat) (y z : Int), (y = 350 ∧ z = -50 ∨ y = -50 ∧ z = 350) ∧ ∀ fuel ≥ bound, ∃ d', generateLayout fuel d = .ok d' ∧
    DrawnRow d' 1 250 ["0"] ∧ DrawnRow d' 2 150 ["1", "2", "2_split"] ∧ DrawnRow d' 5 y ["3a1"] ∧ DrawnRow d' 5 z ["3b1", "4", "5"] :=
  C120_drawn _ _ _ _ _ _ _ letter_loop _ rfl

end Bpmn.Props

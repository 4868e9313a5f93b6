import Verif.Lemmas.Layout
import Verif.Spec.Loops
/-!
The grid layout of diagrams in which no split is followed directly by a join.
-/
set_option linter.unusedSimpArgs false
set_option linter.unusedVariables false

namespace Bpmn.Layouter
open Bpmn Spec Classify

variable {d : Diagram}

/-! ### Flows in terms of the lists -/

theorem feeds_flow (h : Consistent d) {n m : Node} (hn : n ∈ d.getNodes) (hm : m ∈ d.getNodes) {i : String} (h1 : i ∈ outs n) (h2 : i ∈ ins m) :
    FlowFromTo d i n.1 m.1 := by
  obtain ⟨m', hm', hf, -⟩ := h.outFlow n hn i h1
  obtain ⟨n', hn', hf', -⟩ := h.inFlow m hm i h2
  have e : m'.1 = m.1 := by
    have a := flowFromTo_target hf
    rw [flowFromTo_target hf'] at a
    simpa using a.symm
  rw [← e]
  exact hf

theorem feeds_of_flow (h : Consistent d) {n m : Node} (hn : n ∈ d.getNodes) (hm : m ∈ d.getNodes) {i : String} (h1 : i ∈ outs n)
    (ht : flowTarget d i = .ok m.1) : Feeds n m := by
  obtain ⟨m', hm', hf, hi⟩ := h.outFlow n hn i h1
  have e : m'.1 = m.1 := by
    rw [flowFromTo_target hf] at ht
    simpa using ht
  have := h.node_eq hm' hm e
  subst this
  exact ⟨i, h1, hi⟩

theorem feeds_unique (h : Consistent d) {n n' m : Node} (hn : n ∈ d.getNodes) (hn' : n' ∈ d.getNodes) (hm : m ∈ d.getNodes) (h1 : Feeds n m)
    (h2 : Feeds n' m) (hj : ¬Joins m) : n = n' := by
  obtain ⟨i, a1, a2⟩ := h1
  obtain ⟨j, b1, b2⟩ := h2
  have hij : i = j := by
    unfold Joins at hj
    match hl : ins m, hj with
    | [], _ => rw [hl] at a2; simp at a2
    | [k], _ => rw [hl] at a2 b2; simp at a2 b2; rw [a2, b2]
    | _ :: _ :: _, hj => exfalso; simp at hj
  subst hij
  apply h.node_eq hn hn'
  have a := flowFromTo_source (feeds_flow h hn hm a1 a2)
  rw [flowFromTo_source (feeds_flow h hn' hm b1 b2)] at a
  simpa using a.symm

theorem exists_feeds (h : Consistent d) {m : Node} (hm : m ∈ d.getNodes) (hi : ins m ≠ []) : ∃ n ∈ d.getNodes, Feeds n m := by
  obtain ⟨i, hi⟩ := List.exists_mem_of_ne_nil _ hi
  obtain ⟨n, hn, -, ho⟩ := h.inFlow m hm i hi
  exact ⟨n, hn, i, ho, hi⟩

/-! ### The rows of the branches -/

theorem schedule_fst (n : Nat) (b : Int) : (schedule n b).map (·.1) = List.range n := by
  unfold schedule
  simp only
  split
  · rename_i h
    have : List.range n = List.range (n / 2) ++ [n / 2] ++ List.range' (n / 2 + 1) (n - (n / 2 + 1)) := by
      rw [← List.range_succ, List.range_eq_range', List.range_eq_range']
      have := List.range'_append_1 (s := 0) (m := n / 2 + 1) (n := n - (n / 2 + 1))
      simp only [Nat.zero_add] at this
      rw [this]
      congr 1
      omega
    rw [this]
    simp [List.map_map, Function.comp_def]
  · rename_i h
    have : List.range n = List.range (n / 2) ++ List.range' (n / 2) (n - n / 2) := by
      rw [List.range_eq_range', List.range_eq_range']
      have := List.range'_append_1 (s := 0) (m := n / 2) (n := n - n / 2)
      simp only [Nat.zero_add] at this
      rw [this]
      congr 1
      omega
    rw [this]
    simp [List.map_map, Function.comp_def]

theorem schedule_snd {n : Nat} {b : Int} {k : Nat} {r : Int} (h : (k, r) ∈ schedule n b) : k < n ∧ r = b + branchRow n k := by
  have hk : k < n := by
    have := List.mem_map_of_mem (f := Prod.fst) h
    rw [schedule_fst] at this
    simpa using this
  refine ⟨hk, ?_⟩
  unfold schedule at h
  simp only at h
  split at h
  · rename_i hn
    simp only [List.mem_append, List.mem_map, List.mem_range, List.mem_singleton, List.mem_range'_1, Prod.mk.injEq] at h
    rcases h with (⟨a, h1, rfl, rfl⟩ | ⟨rfl, rfl⟩) | ⟨a, h1, rfl, rfl⟩
    · rw [branchRow, if_pos h1, gridColumnWidth]; omega
    · rw [branchRow, if_neg (by omega), if_pos (by omega)]; omega
    · rw [branchRow, if_neg (by omega), if_pos (by omega), gridColumnWidth]; omega
  · rename_i hn
    simp only [List.mem_append, List.mem_map, List.mem_range, List.mem_range'_1, Prod.mk.injEq] at h
    rcases h with ⟨a, h1, rfl, rfl⟩ | ⟨a, h1, rfl, rfl⟩
    · rw [branchRow, if_pos h1, gridColumnWidth]; omega
    · rw [branchRow, if_neg (by omega), if_neg (by omega), gridColumnWidth]; omega

/-! ### Lists -/

theorem sublist_filter_eq {α : Type} {l s : List α} (hs : s.Nodup) (hl : l.Sublist s) (P : α → Bool) (h : ∀ x ∈ s, P x = true → x ∈ l) :
    l.filter P = s.filter P := by
  apply (hl.filter P).eq_of_length
  apply List.Perm.length_eq
  rw [List.perm_ext_iff_of_nodup ((hl.nodup hs).filter P) (hs.filter P)]
  intro x
  simp only [List.mem_filter]
  exact ⟨fun ⟨a, b⟩ => ⟨hl.subset a, b⟩, fun ⟨a, b⟩ => ⟨h x a b, b⟩⟩

/-- A flow that leaves a split. -/
def SplitStep (d : Diagram) (a b : Node) : Prop := a ∈ d.getNodes ∧ b ∈ d.getNodes ∧ Feeds a b ∧ Splits a

theorem not_before_self {l : List String} (h : l.Nodup) {a : String} : ¬Before l a a := by
  rintro ⟨pre, post, h1, h2⟩
  rw [h1] at h
  exact (List.nodup_append.1 h).2.2 a h2 a (by simp) rfl

theorem not_before_sublist {l : List String} (h : l.Nodup) {a b : String} (hs : List.Sublist [a, b] l) : ¬Before l b a := by
  rintro ⟨pre, post, h1, h3⟩
  rw [h1] at hs h
  have hpre : a ∉ pre := fun hh => (List.nodup_append.1 h).2.2 a hh a (by simp) rfl
  have hq2 : b ∈ post := by
    clear h1 h3 h
    induction pre with
    | nil =>
      rw [List.nil_append] at hs
      exact List.singleton_sublist.1 (List.cons_sublist_cons.1 hs)
    | cons c pre ih =>
      rw [List.cons_append] at hs
      cases hs with
      | cons _ h => exact ih h (fun h => hpre (by simp [h]))
      | cons_cons _ h => exact absurd (by simp) hpre
  have : b ∈ a :: post := by simp [hq2]
  exact (List.nodup_append.1 h).2.2 b h3 b this rfl

theorem before_of_sublist {l : List String} {a b : String} (hs : List.Sublist [a, b] l) : Before l a b := by
  obtain ⟨l1, l2, rfl, h1, h2⟩ := List.append_sublist_iff.1 (show List.Sublist ([a] ++ [b]) l from hs)
  obtain ⟨p, q, e⟩ := List.append_of_mem (List.singleton_sublist.1 h2)
  exact ⟨l1 ++ p, q, by rw [e]; simp, List.mem_append_left _ (List.singleton_sublist.1 h1)⟩

/-- The data of a layout: the order of the nodes, rows and columns. -/
structure Plan (d : Diagram) (sorted : List NC) (row col : String → Int) : Prop where
  con : Consistent d
  sup : ∀ n ∈ d.getNodes, Supported n
  apart : SplitsApart d
  perm : sorted.Perm ((byType d).map ncOf)
  topo : ∀ n ∈ d.getNodes, ∀ m ∈ d.getNodes, Feeds n m → ¬Joins m → Before (sorted.map (·.id)) n.1 m.1
  slow : ∀ r n m, Relation.ReflTransGen (SplitStep d) r n → r ∈ d.getNodes → n ∈ d.getNodes → m ∈ d.getNodes → Feeds n m → Joins m →
    Before (sorted.map (·.id)) r.1 m.1 → Before (sorted.map (·.id)) n.1 m.1
  grid : LoopGrid d (sorted.map (·.id)) row col

variable {sorted : List NC} {row col : String → Int}

namespace Plan

theorem mem (P : Plan d sorted row col) {x : NC} : x ∈ sorted ↔ ∃ n ∈ d.getNodes, x = ncOf n := by
  rw [P.perm.mem_iff, List.mem_map]
  constructor
  · rintro ⟨n, hn, rfl⟩; exact ⟨n, (mem_byType.1 hn).1, rfl⟩
  · rintro ⟨n, hn, rfl⟩; exact ⟨n, mem_byType.2 ⟨hn, P.sup n hn⟩, rfl⟩

theorem node (P : Plan d sorted row col) {n : Node} (hn : n ∈ d.getNodes) : ncOf n ∈ sorted := P.mem.2 ⟨n, hn, rfl⟩

theorem ids (P : Plan d sorted row col) : (sorted.map (·.id)).Nodup := by
  have := (P.perm.map (·.id)).nodup_iff
  rw [this, List.map_map]
  exact byType_ids P.con.ids

theorem nodup (P : Plan d sorted row col) : sorted.Nodup := P.ids.of_map

theorem nc_inj (P : Plan d sorted row col) {n m : Node} (hn : n ∈ d.getNodes) (hm : m ∈ d.getNodes) (h : (ncOf n).id = (ncOf m).id) : n = m :=
  P.con.node_eq hn hm h

end Plan

/-! ### The state of the loop -/

/-- The node has a cell. -/
def Has (p : Place) (i : String) : Prop := i ∈ p.grid.map (·.nodeId)

/-- What holds of the grid at every moment. -/
structure Ready (d : Diagram) (sorted : List NC) (row col : String → Int) (p : Place) : Prop where
  cells : ∀ c ∈ p.grid, c.row = row c.nodeId ∧ c.col = col c.nodeId
  nodup : (p.grid.map (·.nodeId)).Nodup
  known : ∀ i, Has p i → ∃ n ∈ d.getNodes, n.1 = i
  sub : p.rest.Sublist sorted
  lastCol : p.lastCol = 1
  single : ∀ n ∈ d.getNodes, ∀ m ∈ d.getNodes, Feeds n m → ¬Joins m → Has p m.1 → Has p n.1

theorem Ready.find {p : Place} (R : Ready d sorted row col p) {i : String} (h : Has p i) :
    p.grid.find? (fun c => c.nodeId == i) = some ⟨row i, col i, i⟩ := by
  obtain ⟨c, hc, rfl⟩ := List.mem_map.1 h
  cases hf : p.grid.find? (fun x => x.nodeId == c.nodeId) with
  | none =>
    have := List.find?_eq_none.1 hf c hc
    simp at this
  | some c' =>
    have e : c'.nodeId = c.nodeId := by simpa using List.find?_some hf
    have : c' = c := List.inj_on_of_nodup_map R.nodup (List.mem_of_find?_eq_some hf) hc e
    subst this
    obtain ⟨h1, h2⟩ := R.cells c' hc
    cases c'
    simp_all

theorem predStats_eq (ids : List String) (g : List Cell) (sum cl : Int) :
    predStats ids g sum cl = (sum + ((g.filter fun c => decide (c.nodeId ∈ ids)).map (·.row)).sum,
      ((g.filter fun c => decide (c.nodeId ∈ ids)).map (·.col)).foldl max cl) := by
  induction g generalizing sum cl with
  | nil => simp [predStats]
  | cons c g ih =>
    rw [predStats]
    split
    · rename_i h
      rw [ih, List.filter_cons_of_pos (by simpa using h)]
      simp only [List.map_cons, List.sum_cons, List.foldl_cons, Prod.mk.injEq]
      refine ⟨by omega, ?_⟩
      congr 1
      split <;> omega
    · rename_i h
      rw [ih, List.filter_cons_of_neg (by simpa using h)]

theorem foldl_max_eq (l : List Int) (a : Int) : l.foldl max a = max a (l.foldr max 0) ∨ l.foldl max a = max a (l.foldr max a) := by
  right
  induction l generalizing a with
  | nil => simp
  | cons x l ih =>
    simp only [List.foldl_cons, List.foldr_cons]
    rw [ih]
    have : ∀ (l : List Int) (a b : Int), l.foldr max (max a b) = max b (l.foldr max a) := by
      intro l a b
      induction l with
      | nil => simp [max_comm]
      | cons y l ih => simp only [List.foldr_cons, ih]; omega
    rw [this]
    omega

theorem foldr_max_perm {l l' : List Int} (h : l.Perm l') : l.foldr max 0 = l'.foldr max 0 := by
  induction h with
  | nil => rfl
  | cons x h ih => simp [ih]
  | swap x y l => simp only [List.foldr_cons]; omega
  | trans _ _ ih1 ih2 => rw [ih1, ih2]

theorem sum_perm {l l' : List Int} (h : l.Perm l') : l.sum = l'.sum := by
  induction h with
  | nil => rfl
  | cons x h ih => simp [ih]
  | swap x y l => simp only [List.sum_cons]; omega
  | trans _ _ ih1 ih2 => rw [ih1, ih2]

theorem foldr_max_nonneg (l : List Int) : 0 ≤ l.foldr max 0 := by
  cases l with
  | nil => simp
  | cons x l => 
    induction l generalizing x with
    | nil => simp
    | cons y l ih => have := ih y; simp only [List.foldr_cons] at this ⊢; omega

theorem endsOf_ok {get : String → Py String} {f : String → String} (l : List String) (h : ∀ i ∈ l, get i = .ok (f i)) : endsOf get l = .ok (l.map f) := by
  induction l with
  | nil => rfl
  | cons i l ih =>
    simp only [endsOf, h i (by simp), ih (fun j hj => h j (by simp [hj])), bind, Except.bind, pure, Except.pure, List.map_cons]

theorem endsOf_mem {get : String → Py String} (l : List String) (h : ∀ i ∈ l, ∃ s, get i = .ok s) :
    ∃ r, endsOf get l = .ok r ∧ r.length = l.length ∧ ∀ s, s ∈ r ↔ ∃ i ∈ l, get i = .ok s := by
  induction l with
  | nil => exact ⟨[], rfl, rfl, by simp⟩
  | cons i l ih =>
    obtain ⟨s, hs⟩ := h i (by simp)
    obtain ⟨r, h1, h2, h3⟩ := ih (fun j hj => h j (by simp [hj]))
    refine ⟨s :: r, by simp only [endsOf, hs, h1, bind, Except.bind, pure, Except.pure], by simp [h2], ?_⟩
    intro t
    simp only [List.mem_cons, h3]
    constructor
    · rintro (rfl | ⟨j, hj, e⟩)
      · exact ⟨i, .inl rfl, hs⟩
      · exact ⟨j, .inr hj, e⟩
    · rintro ⟨j, rfl | hj, e⟩
      · rw [hs] at e; left; simpa using e.symm
      · exact .inr ⟨j, hj, e⟩

/-- What the caller of `place_element_in_grid` has to grant for the node `m`. -/
structure Turn (d : Diagram) (sorted : List NC) (row : String → Int) (p : Place) (m : Node) (enf : Option Int) : Prop where
  fresh : ¬Has p m.1
  preds : ¬Joins m → ∀ n ∈ d.getNodes, Feeds n m → Has p n.1
  joined : Joins m → ∀ n ∈ d.getNodes, Feeds n m → (Has p n.1 ↔ Before (sorted.map (·.id)) n.1 m.1)
  first : ins m = [] → p.lastRow = row m.1
  row : (enf = none ∧ ∀ n ∈ d.getNodes, Feeds n m → ¬Splits n) ∨ (enf = some (row m.1) ∧ ∃ n ∈ d.getNodes, Feeds n m ∧ Splits n)

/-- `b` is the row relative to which branches of `m` are placed. -/
def Base (d : Diagram) (row : String → Int) (m : Node) (b : Int) : Prop :=
  ((∀ n ∈ d.getNodes, Feeds n m → ¬Splits n) → b = row m.1) ∧ ∀ n ∈ d.getNodes, Feeds n m → Splits n → b = row n.1

theorem placeSelf_plan (P : Plan d sorted row col) {p : Place} (R : Ready d sorted row col p) {m : Node} (hm : m ∈ d.getNodes) {enf : Option Int}
    (T : Turn d sorted row p m enf) : ∃ b, Base d row m b ∧
      placeSelf d (ncOf m) p enf = (insertIntoGrid p.grid (row m.1) (col m.1) m.1).bind fun g =>
        .ok ({ p with grid := g, lastRow := p.lastRow + (if ins m = [] then 2 else 0) }, b) := by
  have hins : (ncOf m).ins = ins m := rfl
  have hid : (ncOf m).id = m.1 := rfl
  by_cases h0 : ins m = []
  · obtain ⟨g1, g2⟩ := P.grid.start m hm h0
    have noFeed : ∀ n ∈ d.getNodes, ¬Feeds n m := by
      rintro n hn ⟨i, -, hi⟩; rw [h0] at hi; simp at hi
    have henf : enf = none := by
      rcases T.row with ⟨e, -⟩ | ⟨-, n, hn, hf, -⟩
      · exact e
      · exact absurd hf (noFeed n hn)
    subst henf
    refine ⟨row m.1, ⟨fun _ => rfl, fun n hn hf => absurd hf (noFeed n hn)⟩, ?_⟩
    rw [placeSelf, hins, h0, if_pos (by simp), T.first h0, R.lastCol, g1, hid]
    simp only [truthyOr, bind, pure, Except.pure, if_pos, gridColumnWidth]
  · have hpos : ¬(ins m).length = 0 := by simpa using h0
    by_cases hj : Joins m
    · have noSplit : ∀ n ∈ d.getNodes, Feeds n m → ¬Splits n := fun n hn hf hs => P.apart n hn m hm hf hs hj
      have henf : enf = none := by
        rcases T.row with ⟨e, -⟩ | ⟨-, n, hn, hf, hs⟩
        · exact e
        · exact absurd hs (noSplit n hn hf)
      subst henf
      obtain ⟨j1, j2⟩ := P.grid.join m hm hj
      have hlab : ¬("Join" ∉ (ncOf m).labels) := by
        rw [ncOf, join_mem_labels]; exact fun h => h hj
      obtain ⟨ids, e1, e2, e3⟩ := endsOf_mem (get := flowSource d) (ins m) (by
        intro i hi
        obtain ⟨n, hn, hf, -⟩ := P.con.inFlow m hm i hi
        exact ⟨_, flowFromTo_source hf⟩)
      have hmem : ∀ s, s ∈ ids ↔ ∃ n ∈ before d m, n.1 = s := by
        intro s
        rw [e3]
        constructor
        · rintro ⟨i, hi, hs⟩
          obtain ⟨n, hn, hf, ho⟩ := P.con.inFlow m hm i hi
          rw [flowFromTo_source hf] at hs
          refine ⟨n, List.mem_filter.2 ⟨hn, by simpa using ⟨i, ho, hi⟩⟩, by simpa using hs⟩
        · rintro ⟨n, hn, rfl⟩
          obtain ⟨hn, hf⟩ := List.mem_filter.1 hn
          obtain ⟨i, ho, hi⟩ : Feeds n m := by simpa using hf
          exact ⟨i, hi, flowFromTo_source (feeds_flow P.con hn hm ho hi)⟩
      have hperm : ((p.grid.filter fun c => decide (c.nodeId ∈ ids)).map (·.nodeId)).Perm ((earlierBefore d (sorted.map (·.id)) m).map (·.1)) := by
        have hmem' : ∀ n, n ∈ earlierBefore d (sorted.map (·.id)) m ↔ n ∈ before d m ∧ Before (sorted.map (·.id)) n.1 m.1 := by
          intro n; simp [earlierBefore]
        rw [List.perm_ext_iff_of_nodup]
        · intro s
          simp only [List.mem_map, List.mem_filter, decide_eq_true_eq, hmem, hmem']
          constructor
          · rintro ⟨c, ⟨hc, n, hn, e⟩, rfl⟩
            obtain ⟨hn', hf⟩ := List.mem_filter.1 hn
            exact ⟨n, ⟨hn, (T.joined hj n hn' (by simpa using hf)).1 (by rw [e]; exact List.mem_map_of_mem hc)⟩, e⟩
          · rintro ⟨n, ⟨hn, hbef⟩, rfl⟩
            obtain ⟨hn', hf⟩ := List.mem_filter.1 hn
            obtain ⟨c, hc, e⟩ := List.mem_map.1 ((T.joined hj n hn' (by simpa using hf)).2 hbef)
            exact ⟨c, ⟨hc, n, hn, e.symm⟩, e⟩
        · exact (List.filter_sublist.map _).nodup R.nodup
        · exact ((List.filter_sublist.trans List.filter_sublist).map _).nodup P.con.ids
      have rows : ((p.grid.filter fun c => decide (c.nodeId ∈ ids)).map (·.row)).Perm ((earlierBefore d (sorted.map (·.id)) m).map fun n => row n.1) := by
        have := hperm.map row
        rw [List.map_map, List.map_map] at this
        refine (List.Perm.of_eq ?_).trans this
        apply List.map_congr_left
        intro c hc
        exact (R.cells c (List.mem_filter.1 hc).1).1
      have cols : ((p.grid.filter fun c => decide (c.nodeId ∈ ids)).map (·.col)).Perm ((earlierBefore d (sorted.map (·.id)) m).map fun n => col n.1) := by
        have := hperm.map col
        rw [List.map_map, List.map_map] at this
        refine (List.Perm.of_eq ?_).trans this
        apply List.map_congr_left
        intro c hc
        exact (R.cells c (List.mem_filter.1 hc).1).2
      refine ⟨row m.1, ⟨fun _ => rfl, fun n hn hf hs => absurd hs (noSplit n hn hf)⟩, ?_⟩
      rw [placeSelf, hins, if_neg hpos, if_neg hlab, e1]
      simp only [bind, Except.bind, predStats_eq, truthyOr]
      rw [e2]
      have r1 : (0 + ((p.grid.filter fun c => decide (c.nodeId ∈ ids)).map (·.row)).sum).fdiv ((ins m).length : Int) = row m.1 := by
        rw [j2, sum_perm rows, Int.zero_add]
      have c1 : ((p.grid.filter fun c => decide (c.nodeId ∈ ids)).map (·.col)).foldl max 0 + 1 = col m.1 := by
        rw [j1, ← foldr_max_perm cols]
        have := foldr_max_nonneg ((p.grid.filter fun c => decide (c.nodeId ∈ ids)).map (·.col))
        rcases foldl_max_eq ((p.grid.filter fun c => decide (c.nodeId ∈ ids)).map (·.col)) 0 with e | e <;> rw [e] <;> omega
      rw [r1, c1, hid, if_neg h0, Int.add_zero]
      rfl
    · obtain ⟨i, hi⟩ : ∃ i, ins m = [i] := by
        unfold Joins at hj
        match hl : ins m with
        | [] => exact absurd hl h0
        | [k] => exact ⟨k, rfl⟩
        | _ :: _ :: _ => exfalso; rw [hl] at hj; simp at hj
      obtain ⟨n, hn, hf, ho⟩ := P.con.inFlow m hm i (by rw [hi]; simp)
      have feed : Feeds n m := ⟨i, ho, by rw [hi]; simp⟩
      have hlab : "Join" ∉ (ncOf m).labels := by rw [ncOf, join_mem_labels]; exact hj
      have hfind := R.find (T.preds hj n hn feed)
      have hcol : col m.1 = col n.1 + 1 := by
        by_cases hs : Splits n
        · exact (P.grid.branch n hn m hm feed hs).1
        · exact (P.grid.line n hn m hm feed hs hj).1
      refine ⟨row n.1, ⟨fun h => ?_, fun n' hn' hf' _ => ?_⟩, ?_⟩
      · exact (P.grid.line n hn m hm feed (h n hn feed) hj).2.symm
      · rw [feeds_unique P.con hn hn' hm feed hf' hj]
      · rw [placeSelf, hins, if_neg hpos, if_pos hlab, hi]
        simp only [pyIndex, List.getElem?_cons_zero, bind, Except.bind, flowFromTo_source hf, hfind]
        have hr : enf.getD (row n.1) = row m.1 := by
          rcases T.row with ⟨rfl, h⟩ | ⟨rfl, -⟩
          · exact ((P.grid.line n hn m hm feed (h n hn feed) hj).2).symm
          · rfl
        rw [hr, ← hcol, hid, if_neg (by simp), Int.add_zero]
        rfl

/-! ### Placing a node and its branches -/

/-- What placing nodes does. -/
structure Post (d : Diagram) (sorted : List NC) (row col : String → Int) (p p' : Place) (roots kept : List String) (extra : Int) : Prop where
  ready : Ready d sorted row col p'
  ext : p.grid <+: p'.grid
  placed : ∀ i ∈ roots, Has p' i
  rest : ∀ y, y ∈ p'.rest ↔ y ∈ p.rest ∧ (y.id ∈ kept ∨ Has p y.id ∨ ¬Has p' y.id)
  origin : ∀ m ∈ d.getNodes, Has p' m.1 → ¬Has p m.1 → m.1 ∈ roots ∨ ∃ n ∈ d.getNodes, Feeds n m ∧ Splits n ∧ ¬Has p n.1 ∧ Has p' n.1
  reach : ∀ m ∈ d.getNodes, Has p' m.1 → ¬Has p m.1 → ∃ r ∈ d.getNodes, r.1 ∈ roots ∧ Relation.ReflTransGen (SplitStep d) r m
  done : ∀ n ∈ d.getNodes, Splits n → Has p' n.1 → ¬Has p n.1 → ∀ m ∈ d.getNodes, Feeds n m → Has p' m.1
  lastRow : p'.lastRow = p.lastRow + extra

theorem has_mono {p p' : Place} (h : p.grid <+: p'.grid) {i : String} (hi : Has p i) : Has p' i := by
  obtain ⟨t, ht⟩ := h
  unfold Has
  rw [← ht, List.map_append]
  exact List.mem_append_left _ hi

/-- All nodes without a cell, but perhaps `m`, are still to be placed. -/
def Open (d : Diagram) (p : Place) (m : Node) : Prop := ∀ n ∈ d.getNodes, ¬Has p n.1 → n ≠ m → ncOf n ∈ p.rest

/-- All nodes without a cell are still to be placed. -/
def OpenAll (d : Diagram) (p : Place) : Prop := ∀ n ∈ d.getNodes, ¬Has p n.1 → ncOf n ∈ p.rest

/-- Placing the node works, or two nodes have the same cell. -/
def Works (d : Diagram) (sorted : List NC) (row col : String → Int) (fuel : Nat) (rec : NC → Place → Option Int → Py Place) : Prop :=
  ∀ m ∈ d.getNodes, ∀ p enf, Ready d sorted row col p → Turn d sorted row p m enf → Open d p m → sorted.length < fuel + p.grid.length →
    (∃ p', rec (ncOf m) p enf = .ok p' ∧ Post d sorted row col p p' [m.1] [m.1] (if ins m = [] then 2 else 0)) ∨
    (rec (ncOf m) p enf = .error .typeError ∧ ¬OneEach d row col)

theorem placeSuccessors_plan (P : Plan d sorted row col) {fuel : Nat} {rec : NC → Place → Option Int → Py Place}
    (W : Works d sorted row col fuel rec) {n : Node} (hn : n ∈ d.getNodes) (hsn : Splits n) (succs : List NC) {l : List (Nat × Int)} {ms : List Node}
    (F : List.Forall₂ (fun (kr : Nat × Int) m => m ∈ d.getNodes ∧ succs[kr.1]? = some (ncOf m) ∧ Feeds n m ∧ kr.2 = row m.1) l ms) :
    ∀ {p : Place}, Ready d sorted row col p → OpenAll d p → Has p n.1 → ms.Nodup → (∀ m ∈ ms, ¬Has p m.1) → sorted.length < fuel + p.grid.length →
    (∃ p', placeSuccessors rec succs l p = .ok p' ∧ Post d sorted row col p p' (ms.map (·.1)) [] 0 ∧ OpenAll d p') ∨
    (placeSuccessors rec succs l p = .error .typeError ∧ ¬OneEach d row col) := by
  induction F with
  | nil =>
    intro p R O _ _ _ _
    refine .inl ⟨p, rfl, ⟨R, List.prefix_rfl, by simp, ?_, ?_, ?_, ?_, by simp⟩, O⟩
    · intro y; simp only [List.not_mem_nil, false_or]; tauto
    · intro m _ h1 h2; exact absurd h1 h2
    · intro m _ h1 h2; exact absurd h1 h2
    · intro m _ _ h1 h2; exact absurd h1 h2
  | @cons kr m l ms hh F ih =>
    intro p R O hpn hnd hfree hfuel
    obtain ⟨k, r⟩ := kr
    obtain ⟨hm, hk, feed, hr⟩ := hh
    simp only at hk hr
    subst hr
    have hnj : ¬Joins m := P.apart n hn m hm feed hsn
    have hins : ins m ≠ [] := by
      obtain ⟨i, -, hi⟩ := feed; intro e; rw [e] at hi; simp at hi
    have T : Turn d sorted row p m (some (row m.1)) := by
      refine ⟨hfree m (by simp), ?_, fun h => absurd h hnj, fun e => absurd e hins, .inr ⟨rfl, n, hn, feed, hsn⟩⟩
      intro _ n' hn' hf'
      rw [← feeds_unique P.con hn hn' hm feed hf' hnj]
      exact hpn
    have hO : Open d p m := fun n' hn' h _ => O n' hn' h
    rw [placeSuccessors]
    simp only [pyIndex, hk, bind, Except.bind]
    rcases W m hm p _ R T hO hfuel with ⟨p1, e1, Q⟩ | ⟨e1, hno⟩
    · rw [if_neg hins] at Q
      rw [e1]
      simp only
      have hm1 : Has p1 m.1 := Q.placed _ (by simp)
      have hin : ncOf m ∈ p1.rest := (Q.rest _).2 ⟨O m hm (hfree m (by simp)), .inl (by simp [ncOf])⟩
      have hrem : pyRemove p1.rest (ncOf m) = .ok (p1.rest.erase (ncOf m)) := by simp [pyRemove, hin]
      rw [hrem]
      simp only
      have nd1 : p1.rest.Nodup := Q.ready.sub.nodup P.nodup
      have mem2 : ∀ y, y ∈ p1.rest.erase (ncOf m) ↔ y ∈ p1.rest ∧ y ≠ ncOf m := by
        intro y; rw [nd1.mem_erase_iff]; exact and_comm
      have neId : ∀ y ∈ p1.rest, y ≠ ncOf m → y.id ≠ m.1 := by
        intro y hy hne e
        obtain ⟨q, hq, rfl⟩ := P.mem.1 (Q.ready.sub.subset hy)
        exact hne (by rw [P.con.node_eq hq hm e])
      let p2 : Place := { p1 with rest := p1.rest.erase (ncOf m) }
      have hhas : ∀ i, Has p2 i ↔ Has p1 i := fun _ => Iff.rfl
      have R2 : Ready d sorted row col p2 :=
        ⟨Q.ready.cells, Q.ready.nodup, Q.ready.known, (List.erase_sublist).trans Q.ready.sub, Q.ready.lastCol, Q.ready.single⟩
      have O2 : OpenAll d p2 := by
        intro n' hn' h'
        have h0 : ¬Has p n'.1 := fun h => h' (has_mono Q.ext h)
        refine (mem2 _).2 ⟨(Q.rest _).2 ⟨O n' hn' h0, .inr (.inr h')⟩, ?_⟩
        intro e
        have : n'.1 = m.1 := congrArg NC.id e
        exact h' (by rw [this]; exact hm1)
      have free2 : ∀ m' ∈ ms, ¬Has p2 m'.1 := by
        intro m' hm' h'
        have hF : ∃ kr : Nat × Int, m' ∈ d.getNodes ∧ succs[kr.1]? = some (ncOf m') ∧ Feeds n m' ∧ kr.2 = row m'.1 := by
          clear * - F hm'
          induction F with
          | nil => simp at hm'
          | cons h _ ih =>
            rcases List.mem_cons.1 hm' with rfl | h'
            · exact ⟨_, h⟩
            · exact ih h'
        obtain ⟨_, hmn, -, hfd, -⟩ := hF
        rcases Q.origin m' hmn h' (hfree m' (by simp [hm'])) with e | ⟨n', hn', hf', hs', h0, -⟩
        · simp only [List.mem_singleton] at e
          have := P.con.node_eq hmn hm e
          subst this
          exact (List.nodup_cons.1 hnd).1 hm'
        · have := feeds_unique P.con hn hn' hmn hfd hf' (P.apart n hn m' hmn hfd hsn)
          subst this
          exact h0 hpn
      have fuel2 : sorted.length < fuel + p2.grid.length := by
        have := Q.ext.length_le
        show sorted.length < fuel + p1.grid.length
        omega
      rcases ih R2 O2 (has_mono Q.ext hpn) (List.nodup_cons.1 hnd).2 free2 fuel2 with ⟨p', e', Q', O'⟩ | ⟨e', hno⟩
      · refine .inl ⟨p', e', ⟨Q'.ready, Q.ext.trans Q'.ext, ?_, ?_, ?_, ?_, ?_, ?_⟩, O'⟩
        · intro i hi
          rcases List.mem_cons.1 hi with rfl | hi
          · exact has_mono Q'.ext hm1
          · exact Q'.placed i hi
        · intro y
          rw [Q'.rest]
          have : y ∈ p2.rest ↔ y ∈ p1.rest ∧ y ≠ ncOf m := mem2 y
          rw [this]
          simp only [List.not_mem_nil, false_or]
          constructor
          · rintro ⟨⟨h1, h2⟩, h3⟩
            have hid := neId y h1 h2
            obtain ⟨h4, h5⟩ := (Q.rest y).1 h1
            refine ⟨h4, ?_⟩
            rcases h5 with h5 | h5 | h5
            · exact absurd (by simpa using h5) hid
            · exact .inl h5
            · rcases h3 with h3 | h3
              · exact absurd h3 h5
              · exact .inr h3
          · rintro ⟨h1, h2 | h2⟩
            · refine ⟨⟨(Q.rest y).2 ⟨h1, .inr (.inl h2)⟩, ?_⟩, .inl (has_mono Q.ext h2)⟩
              rintro rfl
              exact hfree m (by simp) h2
            · have h3 : ¬Has p1 y.id := fun h => h2 (has_mono Q'.ext h)
              refine ⟨⟨(Q.rest y).2 ⟨h1, .inr (.inr h3)⟩, ?_⟩, .inr h2⟩
              rintro rfl
              exact h3 hm1
        · intro m0 hm0 h1 h2
          by_cases h3 : Has p1 m0.1
          · rcases Q.origin m0 hm0 h3 h2 with e | ⟨n', a, b, c, e, f⟩
            · left; simp only [List.mem_singleton] at e; simp [e]
            · exact .inr ⟨n', a, b, c, e, has_mono Q'.ext f⟩
          · rcases Q'.origin m0 hm0 h1 h3 with e | ⟨n', a, b, c, e, f⟩
            · left; simp [e]
            · exact .inr ⟨n', a, b, c, fun h => e (has_mono Q.ext h), f⟩
        · intro m0 hm0 h1 h2
          by_cases h3 : Has p1 m0.1
          · obtain ⟨q, hq, hq1, hq2⟩ := Q.reach m0 hm0 h3 h2
            exact ⟨q, hq, by simp only [List.mem_singleton] at hq1; simp [hq1], hq2⟩
          · obtain ⟨q, hq, hq1, hq2⟩ := Q'.reach m0 hm0 h1 h3
            exact ⟨q, hq, by rw [List.map_cons]; exact List.mem_cons_of_mem _ hq1, hq2⟩
        · intro n0 hn0 hs0 h1 h2 m0 hm0 hf0
          by_cases h3 : Has p1 n0.1
          · exact has_mono Q'.ext (Q.done n0 hn0 hs0 h3 h2 m0 hm0 hf0)
          · exact Q'.done n0 hn0 hs0 h1 h3 m0 hm0 hf0
        · rw [Q'.lastRow]
          show p1.lastRow + 0 = _
          rw [Q.lastRow]; omega
      · exact .inr ⟨e', hno⟩
    · rw [e1]
      exact .inr ⟨rfl, hno⟩

theorem exists_forall₂ {α β : Type} {R : α → β → Prop} (l : List α) (h : ∀ a ∈ l, ∃ b, R a b) : ∃ bs, List.Forall₂ R l bs := by
  induction l with
  | nil => exact ⟨[], .nil⟩
  | cons a l ih =>
    obtain ⟨b, hb⟩ := h a (by simp)
    obtain ⟨bs, hbs⟩ := ih (fun x hx => h x (by simp [hx]))
    exact ⟨b :: bs, .cons hb hbs⟩

theorem Ready.length_le (P : Plan d sorted row col) {p : Place} (R : Ready d sorted row col p) : p.grid.length ≤ sorted.length := by
  have : (p.grid.map (·.nodeId)).Subperm (sorted.map (·.id)) := by
    apply List.subperm_of_subset R.nodup
    intro i hi
    obtain ⟨n, hn, rfl⟩ := R.known i hi
    exact List.mem_map.2 ⟨ncOf n, P.node hn, rfl⟩
  simpa using this.length_le

/-- The branches of a split in the order of the list. -/
theorem branches (P : Plan d sorted row col) {m : Node} (hm : m ∈ d.getNodes) (hs : Splits m) {p : Place} (R : Ready d sorted row col p)
    (hO : Open d p m) (hfree : ¬Has p m.1) {b : Int} (hb : Base d row m b) :
    ∃ ids ms, endsOf (flowTarget d) (outs m) = .ok ids ∧ ms.Nodup ∧ (∀ c, c ∈ ms ↔ c ∈ d.getNodes ∧ Feeds m c) ∧
      List.Forall₂ (fun (kr : Nat × Int) c => c ∈ d.getNodes ∧ (p.rest.filter fun y => decide (y.id ∈ ids))[kr.1]? = some (ncOf c) ∧ Feeds m c ∧ kr.2 = row c.1)
        (schedule ids.length b) ms := by
  let f : String → String := fun i => match flowTarget d i with | .ok t => t | .error _ => ""
  have hf : ∀ i ∈ outs m, flowTarget d i = .ok (f i) := by
    intro i hi
    obtain ⟨c, hc, hfl, -⟩ := P.con.outFlow m hm i hi
    simp only [f, flowFromTo_target hfl]
  have hids := endsOf_ok (outs m) hf
  have memIds : ∀ c ∈ d.getNodes, c.1 ∈ (outs m).map f ↔ Feeds m c := by
    intro c hc
    constructor
    · intro h
      obtain ⟨i, hi, e⟩ := List.mem_map.1 h
      exact feeds_of_flow P.con hm hc hi (by rw [hf i hi, e])
    · rintro ⟨i, h1, h2⟩
      refine List.mem_map.2 ⟨i, h1, ?_⟩
      have := flowFromTo_target (feeds_flow P.con hm hc h1 h2)
      rw [hf i h1] at this
      simpa using this
  have ndIds : ((outs m).map f).Nodup := by
    apply List.Nodup.map_on _ (P.con.lists m hm).2.2.2
    intro i hi j hj e
    obtain ⟨c, hc, hfl, hic⟩ := P.con.outFlow m hm i hi
    obtain ⟨c', hc', hfl', hjc⟩ := P.con.outFlow m hm j hj
    have e1 := hf i hi
    have e2 := hf j hj
    rw [flowFromTo_target hfl] at e1
    rw [flowFromTo_target hfl'] at e2
    have : c = c' := P.con.node_eq hc hc' (by
      have a : c.1 = f i := by simpa using e1
      have b : c'.1 = f j := by simpa using e2
      rw [a, b, e])
    subst this
    have hnj : ¬Joins c := P.apart m hm c hc ⟨i, hi, hic⟩ hs
    unfold Joins at hnj
    match hl : ins c, hnj with
    | [], _ => rw [hl] at hic; simp at hic
    | [k], _ => rw [hl] at hic hjc; simp at hic hjc; rw [hic, hjc]
    | _ :: _ :: _, hnj => exfalso; simp at hnj
  have notSelf : ¬Feeds m m := by
    intro h
    exact not_before_self P.ids (P.topo m hm m hm h (P.apart m hm m hm h hs))
  have inRest : ∀ y ∈ sorted, decide (y.id ∈ (outs m).map f) = true → y ∈ p.rest := by
    intro y hy h
    obtain ⟨c, hc, rfl⟩ := P.mem.1 hy
    have feed := (memIds c hc).1 (by simpa [ncOf] using h)
    refine hO c hc ?_ ?_
    · intro h'
      exact hfree (R.single m hm c hc feed (P.apart m hm c hc feed hs) h')
    · rintro rfl
      exact notSelf feed
  have hsucc : (p.rest.filter fun y => decide (y.id ∈ (outs m).map f)) = sorted.filter fun y => decide (y.id ∈ (outs m).map f) :=
    sublist_filter_eq P.nodup R.sub _ inRest
  have permIds : ((sorted.filter fun y => decide (y.id ∈ (outs m).map f)).map (·.id)).Perm ((outs m).map f) := by
    rw [List.perm_ext_iff_of_nodup ((List.filter_sublist.map _).nodup P.ids) ndIds]
    intro t
    simp only [List.mem_map, List.mem_filter, decide_eq_true_eq]
    constructor
    · rintro ⟨y, ⟨-, h⟩, rfl⟩; exact h
    · rintro ⟨i, hi, rfl⟩
      obtain ⟨c, hc, hfl, hic⟩ := P.con.outFlow m hm i hi
      have e1 := hf i hi
      rw [flowFromTo_target hfl] at e1
      have a : c.1 = f i := by simpa using e1
      exact ⟨ncOf c, ⟨P.node hc, i, hi, a.symm⟩, a⟩
  have len : (sorted.filter fun y => decide (y.id ∈ (outs m).map f)).length = ((outs m).map f).length := by
    have := permIds.length_eq
    simpa using this
  have order : ∀ c ∈ d.getNodes, ∀ k : Nat, (sorted.filter fun y => decide (y.id ∈ (outs m).map f))[k]? = some (ncOf c) →
      placeAmong (sorted.map (·.id)) (behind d m) c.1 = k := by
    intro c hc k hk
    unfold placeAmong
    have e : ((sorted.map (·.id)).filter fun j => decide (j ∈ (behind d m).map (·.1))) =
        (sorted.filter fun y => decide (y.id ∈ (outs m).map f)).map (·.id) := by
      rw [List.filter_map]
      congr 1
      apply List.filter_congr
      intro y hy
      obtain ⟨c', hc', rfl⟩ := P.mem.1 hy
      simp only [Function.comp_apply, decide_eq_decide]
      have : (ncOf c').id = c'.1 := rfl
      rw [this, memIds c' hc']
      simp only [behind, List.mem_map, List.mem_filter, decide_eq_true_eq]
      constructor
      · rintro ⟨q, ⟨hq, hfq⟩, e⟩
        rw [← P.con.node_eq hq hc' e]; exact hfq
      · intro h; exact ⟨c', ⟨hc', h⟩, rfl⟩
    rw [e]
    obtain ⟨hk', hg⟩ := List.getElem?_eq_some_iff.1 hk
    have nd : ((sorted.filter fun y => decide (y.id ∈ (outs m).map f)).map (·.id)).Nodup := (List.filter_sublist.map _).nodup P.ids
    have g : ((sorted.filter fun y => decide (y.id ∈ (outs m).map f)).map (·.id))[k]'(by simpa using hk') = c.1 := by
      rw [List.getElem_map, hg]; rfl
    rw [← g, nd.idxOf_getElem]
  have each : ∀ kr ∈ schedule ((outs m).map f).length b, ∃ c, c ∈ d.getNodes ∧
      (p.rest.filter fun y => decide (y.id ∈ (outs m).map f))[kr.1]? = some (ncOf c) ∧ Feeds m c ∧ kr.2 = row c.1 := by
    rintro ⟨k, r⟩ hkr
    obtain ⟨h1, h2⟩ := schedule_snd hkr
    have hk : k < (sorted.filter fun y => decide (y.id ∈ (outs m).map f)).length := by rw [len]; exact h1
    have hget : (sorted.filter fun y => decide (y.id ∈ (outs m).map f))[k]? = some (sorted.filter fun y => decide (y.id ∈ (outs m).map f))[k] :=
      List.getElem?_eq_getElem hk
    have hmem := List.getElem_mem hk
    obtain ⟨hs1, hs2⟩ := List.mem_filter.1 hmem
    obtain ⟨c, hc, e⟩ := P.mem.1 hs1
    rw [e] at hs2 hget
    have feed := (memIds c hc).1 (by simpa [ncOf] using hs2)
    refine ⟨c, hc, by rw [hsucc]; exact hget, feed, ?_⟩
    simp only
    rw [h2, List.length_map]
    obtain ⟨-, g1, g2⟩ := P.grid.branch m hm c hc feed hs
    rw [order c hc k hget] at g1 g2
    by_cases hsp : ∃ q ∈ d.getNodes, Feeds q m ∧ Splits q
    · obtain ⟨q, hq, hfq, hsq⟩ := hsp
      rw [g2 q hq hfq hsq, hb.2 q hq hfq hsq]
    · have hno : ∀ q ∈ d.getNodes, Feeds q m → ¬Splits q := fun q hq hfq hsq => hsp ⟨q, hq, hfq, hsq⟩
      rw [g1 hno, hb.1 hno]
  obtain ⟨ms, hms⟩ := exists_forall₂ _ each
  have heq : (sorted.filter fun y => decide (y.id ∈ (outs m).map f)) = ms.map ncOf := by
    have a : (schedule ((outs m).map f).length b).map (fun kr => (p.rest.filter fun y => decide (y.id ∈ (outs m).map f))[kr.1]?) = ms.map fun c => some (ncOf c) := by
      generalize schedule ((outs m).map f).length b = sl at hms
      clear * - hms
      induction hms with
      | nil => rfl
      | cons h _ ih => simp only [List.map_cons, h.2.1, ih]
    have b1 : (schedule ((outs m).map f).length b).map (fun kr => (p.rest.filter fun y => decide (y.id ∈ (outs m).map f))[kr.1]?) =
        (List.range ((outs m).map f).length).map (fun k => (sorted.filter fun y => decide (y.id ∈ (outs m).map f))[k]?) := by
      rw [← schedule_fst _ b, List.map_map, hsucc]
      rfl
    rw [b1, ← len] at a
    have c1 : (List.range (sorted.filter fun y => decide (y.id ∈ (outs m).map f)).length).map
        (fun k => (sorted.filter fun y => decide (y.id ∈ (outs m).map f))[k]?) = (sorted.filter fun y => decide (y.id ∈ (outs m).map f)).map some := by
      generalize sorted.filter (fun y => decide (y.id ∈ (outs m).map f)) = l
      apply List.ext_getElem
      · simp
      · intro i h1 h2
        simp at h1
        simp [h1]
    rw [c1] at a
    have : (ms.map fun c => some (ncOf c)) = (ms.map ncOf).map some := by simp
    rw [this] at a
    exact (List.map_inj_right (fun _ _ => Option.some.inj)).1 a
  refine ⟨_, ms, hids, ?_, ?_, hms⟩
  · apply List.Nodup.of_map ncOf
    rw [← heq]
    exact P.nodup.filter _
  · intro c
    constructor
    · intro hc
      have : ncOf c ∈ sorted.filter fun y => decide (y.id ∈ (outs m).map f) := by rw [heq]; exact List.mem_map_of_mem hc
      clear this
      have : ∀ c ∈ ms, c ∈ d.getNodes ∧ Feeds m c := by
        generalize schedule ((outs m).map f).length b = sl at hms
        clear * - hms
        induction hms with
        | nil => simp
        | cons h _ ih =>
          intro c hc
          rcases List.mem_cons.1 hc with rfl | hc
          · exact ⟨h.1, h.2.2.1⟩
          · exact ih c hc
      exact this c hc
    · rintro ⟨hc, feed⟩
      have : ncOf c ∈ sorted.filter fun y => decide (y.id ∈ (outs m).map f) :=
        List.mem_filter.2 ⟨P.node hc, by simpa [ncOf] using (memIds c hc).2 feed⟩
      rw [heq] at this
      obtain ⟨c', hc', e⟩ := List.mem_map.1 this
      have hcn : c' ∈ d.getNodes := by
        generalize schedule ((outs m).map f).length b = sl at hms
        clear * - hms hc'
        induction hms with
        | nil => simp at hc'
        | cons h _ ih =>
          rcases List.mem_cons.1 hc' with rfl | hc
          · exact h.1
          · exact ih hc
      rw [P.con.node_eq hc hcn (congrArg NC.id e).symm]
      exact hc'

theorem placeElement_plan (P : Plan d sorted row col) (fuel : Nat) : Works d sorted row col fuel (placeElement d fuel) := by
  induction fuel with
  | zero =>
    intro m hm p enf R T O hfuel
    have := R.length_le P
    omega
  | succ fuel ih =>
    intro m hm p enf R T O hfuel
    rw [placeElement]
    obtain ⟨b, hb, hself⟩ := placeSelf_plan P R hm T
    rw [hself]
    by_cases hocc : ∃ c ∈ p.grid, c.row = row m.1 ∧ c.col = col m.1
    · right
      rw [insert_occupied _ hocc]
      refine ⟨rfl, ?_⟩
      obtain ⟨c, hc, h1, h2⟩ := hocc
      intro hinj
      have hhas : Has p c.nodeId := List.mem_map_of_mem hc
      obtain ⟨q, hq, e⟩ := R.known _ hhas
      obtain ⟨h3, h4⟩ := R.cells c hc
      have := hinj q hq m hm (by rw [e, ← h3, h1]) (by rw [e, ← h4, h2])
      exact T.fresh (by rw [← this, e]; exact hhas)
    · rw [insert_free _ (fun c hc h => hocc ⟨c, hc, h⟩)]
      simp only [Except.bind, bind]
      let p1 : Place := { p with grid := p.grid ++ [⟨row m.1, col m.1, m.1⟩], lastRow := p.lastRow + (if ins m = [] then 2 else 0) }
      have has1 : ∀ i, Has p1 i ↔ Has p i ∨ i = m.1 := by
        intro i; simp [Has, p1]
      have ext1 : p.grid <+: p1.grid := List.prefix_append _ _
      have R1 : Ready d sorted row col p1 := by
        refine ⟨?_, ?_, ?_, R.sub, R.lastCol, ?_⟩
        · intro c hc
          rcases List.mem_append.1 hc with h | h
          · exact R.cells c h
          · simp only [List.mem_singleton] at h; subst h; exact ⟨rfl, rfl⟩
        · show ((p.grid ++ [_]).map _).Nodup
          rw [List.map_append]
          refine List.nodup_append.2 ⟨R.nodup, by simp, ?_⟩
          intro a ha c hc e
          simp only [List.map_cons, List.map_nil, List.mem_singleton] at hc
          subst hc; subst e
          exact T.fresh ha
        · intro i hi
          rcases (has1 i).1 hi with h | rfl
          · exact R.known i h
          · exact ⟨m, hm, rfl⟩
        · intro n hn q hq hf hj hh
          rcases (has1 _).1 hh with h | h
          · exact (has1 _).2 (.inl (R.single n hn q hq hf hj h))
          · have := P.con.node_eq hq hm h
            subst this
            exact (has1 _).2 (.inl (T.preds hj n hn hf))
      have hm1 : Has p1 m.1 := (has1 _).2 (.inr rfl)
      by_cases hs : Splits m
      · have hlab : "Split" ∈ (ncOf m).labels := by rw [ncOf, split_mem_labels]; exact hs
        obtain ⟨ids, ms, hids, hnd, hmem, F⟩ := branches P hm hs R O T.fresh hb
        rw [if_pos hlab]
        have : (ncOf m).outs = outs m := rfl
        rw [this, hids]
        simp only
        have O1 : OpenAll d p1 := by
          intro n hn h
          refine O n hn (fun h' => h ((has1 _).2 (.inl h'))) ?_
          rintro rfl
          exact h hm1
        have free1 : ∀ c ∈ ms, ¬Has p1 c.1 := by
          intro c hc h
          obtain ⟨hc, feed⟩ := (hmem c).1 hc
          rcases (has1 _).1 h with h | h
          · exact T.fresh (R.single m hm c hc feed (P.apart m hm c hc feed hs) h)
          · have := P.con.node_eq hc hm h
            subst this
            exact not_before_self P.ids (P.topo c hc c hc feed (P.apart c hc c hc feed hs))
        have fuel1 : sorted.length < fuel + p1.grid.length := by
          have : p1.grid.length = p.grid.length + 1 := by simp [p1]
          omega
        rcases placeSuccessors_plan P ih hm hs (p1.rest.filter fun y => decide (y.id ∈ ids)) F R1 O1 hm1 hnd free1 fuel1 with ⟨p', e', Q, -⟩ | ⟨e', hno⟩
        · refine .inl ⟨p', e', ⟨Q.ready, ext1.trans Q.ext, ?_, ?_, ?_, ?_, ?_, ?_⟩⟩
          · intro i hi
            simp only [List.mem_singleton] at hi
            subst hi
            exact has_mono Q.ext hm1
          · intro y
            rw [Q.rest, has1]
            simp only [List.not_mem_nil, false_or, List.mem_singleton]
            show y ∈ p.rest ∧ _ ↔ _
            tauto
          · intro c hc h1 h2
            by_cases h3 : Has p1 c.1
            · rcases (has1 _).1 h3 with h | h
              · exact absurd h h2
              · left; simp [h]
            · rcases Q.origin c hc h1 h3 with e | ⟨n, a, b, c', e, f⟩
              · right
                obtain ⟨c0, hc0, e0⟩ := List.mem_map.1 e
                have := P.con.node_eq ((hmem c0).1 hc0).1 hc e0
                subst this
                exact ⟨m, hm, ((hmem c0).1 hc0).2, hs, T.fresh, has_mono Q.ext hm1⟩
              · exact .inr ⟨n, a, b, c', fun h => e (has_mono ext1 h), f⟩
          · intro c hc h1 h2
            by_cases h3 : Has p1 c.1
            · rcases (has1 _).1 h3 with h | h
              · exact absurd h h2
              · exact ⟨m, hm, by simp, by rw [P.con.node_eq hc hm h]⟩
            · obtain ⟨q, hq, hq1, hq2⟩ := Q.reach c hc h1 h3
              obtain ⟨q', hq', eq'⟩ := List.mem_map.1 hq1
              have := P.con.node_eq ((hmem q').1 hq').1 hq eq'
              subst this
              exact ⟨m, hm, by simp, .head ⟨hm, hq, ((hmem q').1 hq').2, hs⟩ hq2⟩
          · intro n hn hsn h1 h2 c hc feed
            by_cases h3 : Has p1 n.1
            · rcases (has1 _).1 h3 with h | h
              · exact absurd h h2
              · have := P.con.node_eq hn hm h
                subst this
                exact Q.placed _ (List.mem_map_of_mem ((hmem c).2 ⟨hc, feed⟩))
            · exact Q.done n hn hsn h1 h3 c hc feed
          · rw [Q.lastRow]
            show p.lastRow + _ + 0 = _
            omega
        · exact .inr ⟨e', hno⟩
      · have hlab : "Split" ∉ (ncOf m).labels := by rw [ncOf, split_mem_labels]; exact hs
        rw [if_neg hlab]
        refine .inl ⟨p1, rfl, ⟨R1, ext1, ?_, ?_, ?_, ?_, ?_, rfl⟩⟩
        · intro i hi
          simp only [List.mem_singleton] at hi
          subst hi
          exact hm1
        · intro y
          rw [has1]
          simp only [List.mem_singleton]
          show y ∈ p.rest ↔ _
          tauto
        · intro c hc h1 h2
          rcases (has1 _).1 h1 with h | h
          · exact absurd h h2
          · left; simp [h]
        · intro c hc h1 h2
          rcases (has1 _).1 h1 with h | h
          · exact absurd h h2
          · exact ⟨m, hm, by simp, by rw [P.con.node_eq hc hm h]⟩
        · intro n hn hsn h1 h2 c hc feed
          rcases (has1 _).1 h1 with h | h
          · exact absurd h h2
          · have := P.con.node_eq hn hm h
            subst this
            exact absurd hsn hs

/-! ### The whole grid -/

/-- A node without incoming flow. -/
abbrev isStart (y : NC) : Bool := decide (y.ins = [])

/-- What holds between two rounds of the loop. -/
structure Round (d : Diagram) (sorted : List NC) (row col : String → Int) (p : Place) : Prop where
  ready : Ready d sorted row col p
  todo : ∀ n ∈ d.getNodes, ncOf n ∈ p.rest ↔ ¬Has p n.1
  closed : ∀ n ∈ d.getNodes, Splits n → Has p n.1 → ∀ m ∈ d.getNodes, Feeds n m → Has p m.1
  roots : ∀ n ∈ d.getNodes, Has p n.1 → ∃ r ∈ d.getNodes, Relation.ReflTransGen (SplitStep d) r n ∧ ∀ y ∈ p.rest, Before (sorted.map (·.id)) r.1 y.id
  starts : ∃ l, sorted.filter isStart = l ++ p.rest.filter isStart ∧ p.lastRow = 2 + 2 * (l.length : Int)

theorem starts_order (P : Plan d sorted row col) {l l' : List NC} {m : Node} (hm : m ∈ d.getNodes) (h0 : ins m = [])
    (h : sorted.filter isStart = l ++ ncOf m :: l') : row m.1 = 2 + 2 * (l.length : Int) := by
  rw [(P.grid.start m hm h0).2]
  have e : ((sorted.map (·.id)).filter fun j => decide (j ∈ (d.getNodes.filter fun n => decide (ins n = [])).map (·.1))) = (sorted.filter isStart).map (·.id) := by
    rw [List.filter_map]
    congr 1
    apply List.filter_congr
    intro y hy
    obtain ⟨c, hc, rfl⟩ := P.mem.1 hy
    simp only [Function.comp_apply, decide_eq_decide, isStart]
    simp only [List.mem_map, List.mem_filter, decide_eq_true_eq]
    constructor
    · rintro ⟨q, ⟨hq, hfq⟩, e⟩
      rw [P.con.node_eq hq hc e] at hfq; exact hfq
    · intro h; exact ⟨c, ⟨hc, h⟩, rfl⟩
  have nd : ((sorted.filter isStart).map (·.id)).Nodup := (List.filter_sublist.map _).nodup P.ids
  unfold placeAmong
  rw [e]
  rw [h] at nd ⊢
  have hk : l.length < ((l ++ ncOf m :: l').map (·.id)).length := by simp
  have g : ((l ++ ncOf m :: l').map (·.id))[l.length] = m.1 := by simp [ncOf]
  have := nd.idxOf_getElem l.length hk
  rw [g] at this
  rw [this]

theorem gridLoop_plan (P : Plan d sorted row col) {fuel : Nat} (hfuel : sorted.length < fuel) (n : Nat) :
    ∀ p, Round d sorted row col p → p.rest.length < n →
    (∃ g, gridLoop d fuel n p = .ok g ∧ (∀ c ∈ g, c.row = row c.nodeId ∧ c.col = col c.nodeId) ∧ (g.map (·.nodeId)).Nodup ∧ (∀ c ∈ g, ∃ q ∈ d.getNodes, q.1 = c.nodeId) ∧
      ∀ n ∈ d.getNodes, ∃ c ∈ g, c.nodeId = n.1) ∨
    (gridLoop d fuel n p = .error .typeError ∧ ¬OneEach d row col) := by
  induction n with
  | zero => intro p _ h; omega
  | succ n ih =>
    intro p R hlen
    rw [gridLoop]
    match hr : p.rest with
    | [] =>
      refine .inl ⟨p.grid, rfl, R.ready.cells, R.ready.nodup, fun c hc => R.ready.known _ (List.mem_map_of_mem hc), ?_⟩
      intro q hq
      by_contra hno
      have : ncOf q ∈ p.rest := (R.todo q hq).2 (fun h => by
        obtain ⟨c, hc, e⟩ := List.mem_map.1 h
        exact hno ⟨c, hc, e⟩)
      rw [hr] at this
      simp at this
    | x :: rest =>
      simp only [bind, Except.bind]
      obtain ⟨m, hm, rfl⟩ := P.mem.1 (R.ready.sub.subset (by rw [hr]; simp : x ∈ p.rest))
      have nd : (ncOf m :: rest).Nodup := by rw [← hr]; exact R.ready.sub.nodup P.nodup
      have hfresh : ¬Has p m.1 := (R.todo m hm).1 (by rw [hr]; simp)
      let p0 : Place := { p with rest := rest }
      have R0 : Ready d sorted row col p0 :=
        ⟨R.ready.cells, R.ready.nodup, R.ready.known, (by have := R.ready.sub; rw [hr] at this; exact (List.sublist_cons_self _ _).trans this), R.ready.lastCol, R.ready.single⟩
      have ahead : ∀ y ∈ rest, Before (sorted.map (·.id)) m.1 y.id := by
        intro y hy
        have hsub := R.ready.sub
        rw [hr] at hsub
        have : List.Sublist [ncOf m, y] sorted := (List.Sublist.cons_cons _ (List.singleton_sublist.2 hy)).trans hsub
        exact before_of_sublist (this.map NC.id)
      have has : ∀ q ∈ d.getNodes, Before (sorted.map (·.id)) q.1 m.1 → Has p q.1 := by
        intro q hq hbef
        by_contra hno
        have := (R.todo q hq).2 hno
        rw [hr] at this
        rcases List.mem_cons.1 this with e | hin
        · have := P.con.node_eq hq hm (congrArg NC.id e)
          subst this
          exact not_before_self P.ids hbef
        · have hsub := R.ready.sub
          rw [hr] at hsub
          have : List.Sublist [ncOf m, ncOf q] sorted := (List.Sublist.cons_cons _ (List.singleton_sublist.2 hin)).trans hsub
          exact not_before_sublist P.ids (this.map NC.id) hbef
      have preds : ¬Joins m → ∀ n ∈ d.getNodes, Feeds n m → Has p n.1 := fun hj q hq hf => has q hq (P.topo q hq m hm hf hj)
      have joined : Joins m → ∀ n ∈ d.getNodes, Feeds n m → (Has p n.1 ↔ Before (sorted.map (·.id)) n.1 m.1) := by
        intro hj q hq hf
        refine ⟨fun hh => ?_, has q hq⟩
        obtain ⟨r, hr', hr1, hr2⟩ := R.roots q hq hh
        exact P.slow r q m hr1 hr' hq hm hf hj (hr2 (ncOf m) (by rw [hr]; simp))
      obtain ⟨l, hl1, hl2⟩ := R.starts
      have T : Turn d sorted row p0 m none := by
        refine ⟨hfresh, preds, joined, ?_, .inl ⟨rfl, ?_⟩⟩
        · intro h0
          rw [hr, List.filter_cons_of_pos (by simp [isStart, ncOf, h0])] at hl1
          rw [starts_order P hm h0 hl1]
          exact hl2
        · intro q hq hf hs
          exact hfresh (R.closed q hq hs (preds (P.apart q hq m hm hf hs) q hq hf) m hm hf)
      have O : Open d p0 m := by
        intro q hq h hne
        have := (R.todo q hq).2 h
        rw [hr] at this
        rcases List.mem_cons.1 this with e | h
        · exact absurd (P.con.node_eq hq hm (congrArg NC.id e)) hne
        · exact h
      rcases placeElement_plan P fuel m hm p0 none R0 T O (by omega) with ⟨p', e', Q⟩ | ⟨e', hno⟩
      · have e'' : placeElement d fuel (ncOf m) { p with rest := rest } none = .ok p' := e'
        rw [e'']
        simp only
        have hm' : Has p' m.1 := Q.placed _ (by simp)
        have hsubset : ∀ y ∈ p'.rest, y ∈ rest := fun y hy => ((Q.rest y).1 hy).1
        have nd' : p'.rest.Nodup := Q.ready.sub.nodup P.nodup
        have todo' : ∀ q ∈ d.getNodes, ncOf q ∈ p'.rest ↔ ¬Has p' q.1 := by
          intro q hq
          rw [Q.rest]
          constructor
          · rintro ⟨h1, h2⟩
            have hqm : q.1 ≠ m.1 := by
              intro e
              have := P.con.node_eq hq hm e
              subst this
              exact (List.nodup_cons.1 nd).1 h1
            have h3 : ¬Has p q.1 := (R.todo q hq).1 (by rw [hr]; exact List.mem_cons_of_mem _ h1)
            rcases h2 with h2 | h2 | h2
            · exact absurd (by simpa [ncOf] using h2) hqm
            · exact absurd h2 h3
            · exact h2
          · intro h
            refine ⟨O q hq (fun h' => h (has_mono Q.ext h')) ?_, .inr (.inr h)⟩
            rintro rfl
            exact h hm'
        have R' : Round d sorted row col p' := by
          refine ⟨Q.ready, todo', ?_, ?_, ?_⟩
          · intro q hq hs h c hc hf
            by_cases h0 : Has p q.1
            · exact has_mono Q.ext (R.closed q hq hs h0 c hc hf)
            · exact Q.done q hq hs h h0 c hc hf
          · intro q hq h
            by_cases h0 : Has p q.1
            · obtain ⟨r, hr', hr1, hr2⟩ := R.roots q hq h0
              exact ⟨r, hr', hr1, fun y hy => hr2 y (by rw [hr]; exact List.mem_cons_of_mem _ (hsubset y hy))⟩
            · obtain ⟨r, hr', hr1, hr2⟩ := Q.reach q hq h h0
              have : r = m := P.con.node_eq hr' hm (by simpa using hr1)
              subst this
              exact ⟨r, hr', hr2, fun y hy => ahead y (hsubset y hy)⟩
          · have hst : p'.rest.filter isStart = rest.filter isStart := by
              have hrs : rest.Sublist sorted := R0.sub
              have e1 : p'.rest.filter isStart = sorted.filter fun y => decide (y ∈ p'.rest) && isStart y := by
                have := sublist_filter_eq P.nodup Q.ready.sub (fun y => decide (y ∈ p'.rest) && isStart y) (fun x _ h => by simp at h; exact h.1)
                rw [← this]
                apply List.filter_congr
                intro y hy; simp [hy]
              have e2 : rest.filter isStart = sorted.filter fun y => decide (y ∈ rest) && isStart y := by
                have := sublist_filter_eq P.nodup hrs (fun y => decide (y ∈ rest) && isStart y) (fun x _ h => by simp at h; exact h.1)
                rw [← this]
                apply List.filter_congr
                intro y hy; simp [hy]
              rw [e1, e2]
              apply List.filter_congr
              intro y hy
              cases hsy : isStart y with
              | false => simp
              | true =>
                simp only [Bool.and_true, decide_eq_decide]
                constructor
                · exact hsubset y
                · intro h
                  obtain ⟨q, hq, rfl⟩ := P.mem.1 hy
                  rw [todo' q hq]
                  intro hq'
                  have h3 : ¬Has p q.1 := (R.todo q hq).1 (by rw [hr]; exact List.mem_cons_of_mem _ h)
                  rcases Q.origin q hq hq' h3 with e | ⟨n', -, hf, -⟩
                  · simp only [List.mem_singleton] at e
                    have := P.con.node_eq hq hm e
                    subst this
                    exact (List.nodup_cons.1 nd).1 h
                  · obtain ⟨i, -, hi⟩ := hf
                    have : ins q = [] := of_decide_eq_true hsy
                    rw [this] at hi
                    simp at hi
            rw [hst]
            by_cases h0 : ins m = []
            · refine ⟨l ++ [ncOf m], ?_, ?_⟩
              · rw [hl1, hr, List.filter_cons_of_pos (by simp [isStart, ncOf, h0])]
                simp
              · rw [Q.lastRow, if_pos h0]
                show p.lastRow + 2 = _
                rw [hl2]
                simp
                omega
            · refine ⟨l, ?_, ?_⟩
              · rw [hl1, hr, List.filter_cons_of_neg (p := isStart) (a := ncOf m) (fun h => h0 (of_decide_eq_true h))]
              · rw [Q.lastRow, if_neg h0]
                show p.lastRow + 0 = _
                rw [hl2]
                omega
        have hlen' : p'.rest.length < n := by
          have := (List.subperm_of_subset nd' hsubset).length_le
          rw [hr] at hlen
          simp at hlen
          omega
        exact ih p' R' hlen'
      · have e'' : placeElement d fuel (ncOf m) { p with rest := rest } none = .error .typeError := e'
        rw [e'']
        exact .inr ⟨rfl, hno⟩

theorem gridLayout_plan (P : Plan d sorted row col) {fuel : Nat} (hfuel : sorted.length < fuel) :
    (∃ g, gridLayout fuel d sorted = .ok g ∧ (∀ c ∈ g, c.row = row c.nodeId ∧ c.col = col c.nodeId) ∧ (g.map (·.nodeId)).Nodup ∧ (∀ c ∈ g, ∃ q ∈ d.getNodes, q.1 = c.nodeId) ∧
      ∀ n ∈ d.getNodes, ∃ c ∈ g, c.nodeId = n.1) ∨
    (gridLayout fuel d sorted = .error .typeError ∧ ¬OneEach d row col) := by
  apply gridLoop_plan P hfuel
  · refine ⟨⟨by simp, by simp, by simp [Has], List.Sublist.refl _, rfl, by simp [Has]⟩, ?_, by simp [Has], by simp [Has], ⟨[], rfl, rfl⟩⟩
    intro n hn
    simp [Has, P.node hn]
  · exact hfuel

/-! ### Rows and columns exist -/

/-- Values given by rules that only look at values of lower rank. -/
theorem exists_values {α : Type} {ns : List Node} (hids : ∀ n ∈ ns, ∀ m ∈ ns, n.1 = m.1 → n = m) (rank : Node → Nat) (F : (String → α) → Node → α)
    (a : α) (hF : ∀ n ∈ ns, ∀ v w : String → α, (∀ m ∈ ns, rank m < rank n → v m.1 = w m.1) → F v n = F w n) :
    ∃ v : String → α, ∀ n ∈ ns, v n.1 = F v n := by
  classical
  have step : ∀ N, ∃ v : String → α, ∀ n ∈ ns, rank n < N → v n.1 = F v n := by
    intro N
    induction N with
    | zero => exact ⟨fun _ => a, fun _ _ h => absurd h (by omega)⟩
    | succ N ih =>
      obtain ⟨v, hv⟩ := ih
      let w : String → α := fun i => if h : ∃ n ∈ ns, n.1 = i ∧ rank n = N then F v h.choose else v i
      have wEq : ∀ n ∈ ns, rank n = N → w n.1 = F v n := by
        intro n hn hr
        have h : ∃ m ∈ ns, m.1 = n.1 ∧ rank m = N := ⟨n, hn, rfl, hr⟩
        have : h.choose = n := hids _ h.choose_spec.1 _ hn h.choose_spec.2.1
        show (if h : ∃ m ∈ ns, m.1 = n.1 ∧ rank m = N then F v h.choose else v n.1) = _
        rw [dif_pos h, this]
      have wNe : ∀ n ∈ ns, rank n ≠ N → w n.1 = v n.1 := by
        intro n hn hr
        have h : ¬∃ m ∈ ns, m.1 = n.1 ∧ rank m = N := by
          rintro ⟨m, hm, e, hr'⟩
          rw [hids m hm n hn e] at hr'
          exact hr hr'
        show (if h : ∃ m ∈ ns, m.1 = n.1 ∧ rank m = N then F v h.choose else v n.1) = _
        rw [dif_neg h]
      refine ⟨w, fun n hn hr => ?_⟩
      have agree : F v n = F w n := hF n hn v w (fun m hm hmr => (wNe m hm (by omega)).symm)
      rcases Nat.lt_succ_iff_lt_or_eq.1 hr with h | h
      · rw [wNe n hn (by omega), hv n hn h, agree]
      · rw [wEq n hn h, agree]
  obtain ⟨v, hv⟩ := step ((ns.map rank).foldr max 0 + 1)
  refine ⟨v, fun n hn => hv n hn ?_⟩
  have : ∀ (l : List Nat) (x : Nat), x ∈ l → x ≤ l.foldr max 0 := by
    intro l
    induction l with
    | nil => simp
    | cons y l ih =>
      intro x hx
      rcases List.mem_cons.1 hx with rfl | h
      · simp
      · have := ih x h; simp; omega
  have := this _ _ (List.mem_map_of_mem (f := rank) hn)
  omega

/-- Where a node is drawn, from the places of the nodes before it. -/
noncomputable def place (d : Diagram) (order : List String) (v : String → Int × Int) (m : Node) : Int × Int :=
  if ins m = [] then (1, 2 + 2 * (placeAmong order (d.getNodes.filter fun n => decide (ins n = [])) m.1 : Nat))
  else if 2 ≤ (ins m).length then
    (((earlierBefore d order m).map fun n => (v n.1).1).foldr max 0 + 1, Int.fdiv ((earlierBefore d order m).map fun n => (v n.1).2).sum (ins m).length)
  else match before d m with
    | [] => (0, 0)
    | q :: _ =>
      ((v q.1).1 + 1,
        if 2 ≤ (outs q).length then
          (match (before d q).find? fun n => decide (2 ≤ (outs n).length) with
            | some p => (v p.1).2
            | none => (v q.1).2) + branchRow (outs q).length (placeAmong order (behind d q) m.1)
        else (v q.1).2)

theorem mem_before {m n : Node} : n ∈ before d m ↔ n ∈ d.getNodes ∧ Feeds n m := by
  simp [before]

theorem mem_earlierBefore {order : List String} {m n : Node} : n ∈ earlierBefore d order m ↔ n ∈ d.getNodes ∧ Feeds n m ∧ Before order n.1 m.1 := by
  simp [earlierBefore, mem_before, and_assoc]

theorem before_lower {order : List String} (hnd : order.Nodup) {a b : String} (h : Before order a b) : order.idxOf a < order.idxOf b := by
  obtain ⟨pre, post, e, hpre⟩ := h
  rw [e] at hnd ⊢
  have h1 : b ∉ pre := fun h => (List.nodup_append.1 hnd).2.2 b h b (by simp) rfl
  rw [List.idxOf_append_of_mem hpre, List.idxOf_append_of_notMem h1]
  have := List.idxOf_lt_length_of_mem hpre
  omega

theorem exists_loopGrid (h : Consistent d) (hap : SplitsApart d) {order : List String} (hnd : order.Nodup)
    (topo : ∀ n ∈ d.getNodes, ∀ m ∈ d.getNodes, Feeds n m → ¬Joins m → Before order n.1 m.1) : ∃ row col, LoopGrid d order row col := by
  have lower : ∀ n ∈ d.getNodes, ∀ m ∈ d.getNodes, Feeds n m → ¬Joins m → order.idxOf n.1 < order.idxOf m.1 :=
    fun n hn m hm hf hj => before_lower hnd (topo n hn m hm hf hj)
  obtain ⟨v, hv⟩ := exists_values (ns := d.getNodes) (fun n hn m hm e => h.node_eq hn hm e) (fun n => order.idxOf n.1) (place d order) (0, 0) (by
    intro m hm v w hvw
    unfold place
    split
    · rfl
    · split
      · have e : ∀ n ∈ earlierBefore d order m, v n.1 = w n.1 := fun n hn =>
          hvw n (mem_earlierBefore.1 hn).1 (before_lower hnd (mem_earlierBefore.1 hn).2.2)
        rw [List.map_congr_left (f := fun n : Node => (v n.1).1) (g := fun n : Node => (w n.1).1) (fun n hn => by rw [e n hn]),
          List.map_congr_left (f := fun n : Node => (v n.1).2) (g := fun n : Node => (w n.1).2) (fun n hn => by rw [e n hn])]
      · rename_i hj
        match hb : before d m with
        | [] => rfl
        | q :: r =>
          obtain ⟨hq, hf⟩ := mem_before.1 (by rw [hb]; simp : q ∈ before d m)
          have hlt := lower q hq m hm hf hj
          simp only [hvw q hq hlt]
          match hb2 : (before d q).find? fun n => decide (2 ≤ (outs n).length) with
          | none => rfl
          | some p =>
            obtain ⟨hp, hfp⟩ := mem_before.1 (List.mem_of_find?_eq_some hb2)
            have hsp : Splits p := by simpa [Splits] using List.find?_some hb2
            have := lower p hp q hq hfp (hap p hp q hq hfp hsp)
            simp only [hvw p hp (by omega)])
  refine ⟨fun i => (v i).2, fun i => (v i).1, ?_, ?_, ?_, ?_⟩
  · intro n hn h0
    simp only [hv n hn]
    rw [place, if_pos h0]
    exact ⟨rfl, rfl⟩
  · intro n hn m hm hf hs hj
    have h0 : ins m ≠ [] := by obtain ⟨i, -, hi⟩ := hf; intro e; rw [e] at hi; simp at hi
    simp only [hv m hm]
    rw [place, if_neg h0, if_neg (show ¬ 2 ≤ (ins m).length from hj)]
    match hb : before d m with
    | [] => have := mem_before.2 ⟨hn, hf⟩; rw [hb] at this; simp at this
    | q :: r =>
      obtain ⟨hq, hfq⟩ := mem_before.1 (by rw [hb]; simp : q ∈ before d m)
      have := feeds_unique h hq hn hm hfq hf hj
      subst this
      simp only
      rw [if_neg (show ¬ 2 ≤ (outs q).length from hs)]
      exact ⟨trivial, rfl⟩
  · intro n hn m hm hf hs
    have hj := hap n hn m hm hf hs
    have h0 : ins m ≠ [] := by obtain ⟨i, -, hi⟩ := hf; intro e; rw [e] at hi; simp at hi
    simp only [hv m hm]
    rw [place, if_neg h0, if_neg (show ¬ 2 ≤ (ins m).length from hj)]
    match hb : before d m with
    | [] => have := mem_before.2 ⟨hn, hf⟩; rw [hb] at this; simp at this
    | q :: r =>
      obtain ⟨hq, hfq⟩ := mem_before.1 (by rw [hb]; simp : q ∈ before d m)
      have := feeds_unique h hq hn hm hfq hf hj
      subst this
      simp only
      rw [if_pos (show 2 ≤ (outs q).length from hs)]
      refine ⟨trivial, ?_, ?_⟩
      · intro hno
        have : (before d q).find? (fun n => decide (2 ≤ (outs n).length)) = none := by
          rw [List.find?_eq_none]
          intro p hp
          have := hno p (mem_before.1 hp).1 (mem_before.1 hp).2
          intro hsp
          exact this (show 2 ≤ (outs p).length from of_decide_eq_true hsp)
        rw [this]
      · intro p hp hfp hsp
        match hb2 : (before d q).find? fun n => decide (2 ≤ (outs n).length) with
        | none =>
          have := List.find?_eq_none.1 hb2 p (mem_before.2 ⟨hp, hfp⟩)
          exact absurd (decide_eq_true (p := 2 ≤ (outs p).length) hsp) this
        | some p' =>
          obtain ⟨hp', hfp'⟩ := mem_before.1 (List.mem_of_find?_eq_some hb2)
          rw [feeds_unique h hp' hp hq hfp' hfp (hap p hp q hq hfp hsp)]
  · intro m hm hj
    have h0 : ins m ≠ [] := by intro e; unfold Joins at hj; rw [e] at hj; simp at hj
    simp only [hv m hm]
    rw [place, if_neg h0, if_pos (show 2 ≤ (ins m).length from hj)]
    exact ⟨rfl, rfl⟩

theorem earlierBefore_all {order : List String} {m : Node} (h : ∀ n ∈ d.getNodes, Feeds n m → Before order n.1 m.1) : earlierBefore d order m = before d m := by
  unfold earlierBefore
  rw [List.filter_eq_self]
  intro n hn
  simpa using h n (mem_before.1 hn).1 (mem_before.1 hn).2

/-- If every node comes after the ones that lead to it, the two sets of rules are the same. -/
theorem loopGrid_iff {order : List String} (topo : ∀ n ∈ d.getNodes, ∀ m ∈ d.getNodes, Feeds n m → Before order n.1 m.1) {row col : String → Int} :
    LoopGrid d order row col ↔ OnGrid d order row col := by
  constructor
  · intro g
    refine ⟨g.start, g.line, g.branch, fun m hm hj => ?_⟩
    have := g.join m hm hj
    rwa [earlierBefore_all fun n hn hf => topo n hn m hm hf] at this
  · intro g
    refine ⟨g.start, g.line, g.branch, fun m hm hj => ?_⟩
    rw [earlierBefore_all fun n hn hf => topo n hn m hm hf]
    exact g.join m hm hj

/-! ### The branches of a split -/

theorem mem_behind {n m : Node} : m ∈ behind d n ↔ m ∈ d.getNodes ∧ Feeds n m := by
  simp [behind]

/-- The successors of a split that leads to no join are as many as its outgoing flows. -/
theorem behind_length (h : Consistent d) {n : Node} (hn : n ∈ d.getNodes) (hap : ∀ m ∈ d.getNodes, Feeds n m → ¬Joins m) :
    (behind d n).length = (outs n).length := by
  have hnd : (behind d n).Nodup := (h.ids.of_map).filter _
  -- every flow has its own target
  have ex : ∀ i ∈ outs n, ∃ m ∈ d.getNodes, i ∈ ins m := fun i hi => by
    obtain ⟨m, hm, -, hi'⟩ := h.outFlow n hn i hi
    exact ⟨m, hm, hi'⟩
  obtain ⟨ms, F⟩ := exists_forall₂ (R := fun i m => m ∈ d.getNodes ∧ i ∈ outs n ∧ i ∈ ins m) (outs n) (fun i hi => by
    obtain ⟨m, hm, hi'⟩ := ex i hi
    exact ⟨m, hm, hi, hi'⟩)
  have hlen : ms.length = (outs n).length := F.length_eq.symm
  have mem : ∀ m, m ∈ ms ↔ m ∈ behind d n := by
    intro m
    rw [mem_behind]
    constructor
    · intro hm
      have : ∀ os ms, List.Forall₂ (fun i m => m ∈ d.getNodes ∧ i ∈ outs n ∧ i ∈ ins m) os ms → m ∈ ms → m ∈ d.getNodes ∧ Feeds n m := by
        intro os ms F hm
        induction F with
        | nil => simp at hm
        | cons hh _ ih =>
          rcases List.mem_cons.1 hm with rfl | hm
          · exact ⟨hh.1, _, hh.2⟩
          · exact ih hm
      exact this _ _ F hm
    · rintro ⟨hm, i, h1, h2⟩
      have : ∀ os ms, List.Forall₂ (fun i m => m ∈ d.getNodes ∧ i ∈ outs n ∧ i ∈ ins m) os ms → i ∈ os → m ∈ ms := by
        intro os ms F hi
        induction F with
        | nil => simp at hi
        | @cons a b l l' hh _ ih =>
          rcases List.mem_cons.1 hi with rfl | hi
          · have : b = m := by
              apply h.node_eq hh.1 hm
              have a := flowFromTo_target (feeds_flow h hn hh.1 h1 hh.2.2)
              rw [flowFromTo_target (feeds_flow h hn hm h1 h2)] at a
              simpa using a.symm
            simp [this]
          · exact List.mem_cons_of_mem _ (ih hi)
      exact this _ _ F h1
  have msNd : ms.Nodup := by
    have nd := (h.lists n hn).2.2.2
    have : ∀ os ms, os.Nodup → List.Forall₂ (fun i m => m ∈ d.getNodes ∧ i ∈ outs n ∧ i ∈ ins m) os ms → ms.Nodup := by
      intro os ms nd F
      induction F with
      | nil => simp
      | @cons a b l l' hh F ih =>
        rw [List.nodup_cons] at nd ⊢
        refine ⟨?_, ih nd.2⟩
        intro hb
        have : ∀ l l', List.Forall₂ (fun i m => m ∈ d.getNodes ∧ i ∈ outs n ∧ i ∈ ins m) l l' → b ∈ l' → ∃ j ∈ l, j ∈ ins b := by
          intro l l' F hb
          induction F with
          | nil => simp at hb
          | cons hh _ ih =>
            rcases List.mem_cons.1 hb with rfl | hb
            · exact ⟨_, by simp, hh.2.2⟩
            · obtain ⟨j, h1, h2⟩ := ih hb
              exact ⟨j, by simp [h1], h2⟩
        obtain ⟨j, hj, hj'⟩ := this l l' F hb
        have hnj := hap b hh.1 ⟨a, hh.2⟩
        have haj : a = j := by
          have ha := hh.2.2
          unfold Joins at hnj
          match hl : ins b, hnj with
          | [], _ => rw [hl] at ha; simp at ha
          | [k], _ => rw [hl] at ha hj'; simp at ha hj'; rw [ha, hj']
          | _ :: _ :: _, hnj => exfalso; simp at hnj
        subst haj
        exact nd.1 hj
    exact this _ _ nd F
  rw [← hlen]
  exact ((List.perm_ext_iff_of_nodup hnd msNd).2 (fun m => (mem m).symm)).length_eq

/-- Each place among the successors of a split is taken. -/
theorem exists_branch (h : Consistent d) {order : List String} (ho : order.Perm (d.getNodes.map (·.1))) {n : Node} (hn : n ∈ d.getNodes)
    (hap : ∀ m ∈ d.getNodes, Feeds n m → ¬Joins m) {k : Nat} (hk : k < (outs n).length) :
    ∃ m ∈ d.getNodes, Feeds n m ∧ placeAmong order (behind d n) m.1 = k := by
  have ndo : order.Nodup := ho.nodup_iff.2 h.ids
  have nd : (order.filter fun j => decide (j ∈ (behind d n).map (·.1))).Nodup := ndo.filter _
  have hp : (order.filter fun j => decide (j ∈ (behind d n).map (·.1))).Perm ((behind d n).map (·.1)) := by
    have nd2 : ((behind d n).map (·.1)).Nodup := (List.filter_sublist.map _).nodup h.ids
    rw [List.perm_ext_iff_of_nodup nd nd2]
    intro i
    simp only [List.mem_filter, decide_eq_true_eq]
    constructor
    · exact fun h => h.2
    · intro hi
      refine ⟨?_, hi⟩
      obtain ⟨m, hm, rfl⟩ := List.mem_map.1 hi
      exact ho.mem_iff.2 (List.mem_map_of_mem (mem_behind.1 hm).1)
  have hlen : k < (order.filter fun j => decide (j ∈ (behind d n).map (·.1))).length := by
    rw [hp.length_eq, List.length_map, behind_length h hn hap]; exact hk
  have hg := List.getElem_mem hlen
  obtain ⟨m, hm, e⟩ := List.mem_map.1 (hp.mem_iff.1 hg)
  refine ⟨m, (mem_behind.1 hm).1, (mem_behind.1 hm).2, ?_⟩
  unfold placeAmong
  rw [e, nd.idxOf_getElem]

theorem placeAmong_lt (h : Consistent d) {order : List String} (ho : FlowOrder d order) {n m : Node} (hn : n ∈ d.getNodes) (hm : m ∈ d.getNodes)
    (hap : ∀ m ∈ d.getNodes, Feeds n m → ¬Joins m) (hf : Feeds n m) : placeAmong order (behind d n) m.1 < (outs n).length := by
  rw [← behind_length h hn hap]
  unfold placeAmong
  have hin : m.1 ∈ order.filter fun j => decide (j ∈ (behind d n).map (·.1)) := by
    simp only [List.mem_filter, decide_eq_true_eq]
    exact ⟨ho.all.mem_iff.2 (List.mem_map_of_mem hm), List.mem_map_of_mem (mem_behind.2 ⟨hm, hf⟩)⟩
  have nd : (order.filter fun j => decide (j ∈ (behind d n).map (·.1))).Nodup := (ho.all.nodup_iff.2 h.ids).filter _
  have hle : (order.filter fun j => decide (j ∈ (behind d n).map (·.1))).length ≤ ((behind d n).map (·.1)).length :=
    (List.subperm_of_subset nd (fun i hi => by simpa using (List.mem_filter.1 hi).2)).length_le
  rw [List.length_map] at hle
  have := List.idxOf_lt_length_of_mem hin
  omega

theorem placeAmong_inj {order : List String} {ns : List Node} {i j : String} (hi : i ∈ order) (hi' : i ∈ ns.map (·.1))
    (e : placeAmong order ns i = placeAmong order ns j) : i = j := by
  unfold placeAmong at e
  have hin : i ∈ order.filter fun j => decide (j ∈ ns.map (·.1)) := by
    simp only [List.mem_filter, decide_eq_true_eq]; exact ⟨hi, hi'⟩
  exact (List.idxOf_inj hin).1 e

theorem branchRow_inj {n k l : Nat} (hk : k < n) (hl : l < n) (e : branchRow n k = branchRow n l) : k = l := by
  unfold branchRow at e
  split at e <;> split at e <;> (try split at e) <;> omega

theorem branchRow_first {n : Nat} (h : 2 ≤ n) : branchRow n 0 = 2 := by
  unfold branchRow; rw [if_pos (by omega)]; rfl

/-- A split has a branch just above itself. -/
theorem branchRow_above {n : Nat} (h : 2 ≤ n) : ∃ k < n, branchRow n k = -2 := by
  by_cases ho : n % 2 = 1
  · refine ⟨n / 2 + 1, by omega, ?_⟩
    unfold branchRow
    rw [if_neg (by omega), if_pos ho]
    omega
  · refine ⟨n / 2, by omega, ?_⟩
    unfold branchRow
    rw [if_neg (by omega), if_neg ho]
    omega

end Bpmn.Layouter

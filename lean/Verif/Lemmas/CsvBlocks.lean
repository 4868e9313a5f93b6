import Verif.Props.CsvFlat
import Verif.Spec.CsvDrawn
import Mathlib.Data.List.Nodup
/-!
The diagram of a flat table without terminated branches is a line of steps and blocks.
-/
set_option linter.unusedSimpArgs false
set_option linter.unusedVariables false

namespace Bpmn.Csv
open Bpmn.Spec Bpmn.Spec.Csv

section
variable {t : FlatTable} {d : Diagram} {F : List (String × String)}

/-- The node with this id. -/
def nodeAt (d : Diagram) (x : Id) : Node := (x.name, (d.graph.nodes.get? x.name).getD {})

/-- The ids of a branch. -/
def legIds (k j : Nat) (leg : Leg) : List Id := (List.range leg.steps.length).map fun m => .row (.leg (k + 1) j (m + 1))

/-- The parts for the items from index `k` on, and the end. -/
def piecesFrom (d : Diagram) : Nat → List Item → List Piece
  | k, [] => [.step (nodeAt d (.row (.main (k + 1))))]
  | k, .step _ :: r => .step (nodeAt d (.row (.main (k + 1)))) :: piecesFrom d (k + 1) r
  | k, .block legs :: r =>
    .block (nodeAt d (.split k)) (legs.mapIdx fun j leg => (legIds k j leg).map (nodeAt d)) (nodeAt d (.join (k + 2))) :: piecesFrom d (k + 1) r

/-- Their ids. -/
def idsFrom : Nat → List Item → List Id
  | k, [] => [.row (.main (k + 1))]
  | k, .step _ :: r => .row (.main (k + 1)) :: idsFrom (k + 1) r
  | k, .block legs :: r => .split k :: ((legs.mapIdx fun j leg => legIds k j leg).flatten ++ [.join (k + 2)]) ++ idsFrom (k + 1) r

theorem pieces_nodes (d : Diagram) : ∀ (l : List Item) (k : Nat), (piecesFrom d k l).flatMap Piece.nodes = (idsFrom k l).map (nodeAt d)
  | [], k => rfl
  | .step c :: r, k => by
    simp [piecesFrom, idsFrom, Piece.nodes, pieces_nodes d r (k + 1)]
  | .block legs :: r, k => by
    simp only [piecesFrom, idsFrom, List.flatMap_cons, Piece.nodes, pieces_nodes d r (k + 1), List.map_append, List.map_cons, List.map_nil,
      List.map_flatten, map_mapIdx_list]

/-- The number of the item an id belongs to. -/
def Id.rank : Id → Nat
  | .row (.main k) => k
  | .row (.leg k _ _) => k
  | .split k => k + 1
  | .join k => k - 1

theorem mem_legIds {k j : Nat} {leg : Leg} {x : Id} : x ∈ legIds k j leg ↔ ∃ m, 1 ≤ m ∧ m ≤ leg.steps.length ∧ x = .row (.leg (k + 1) j m) := by
  simp only [legIds, List.mem_map, List.mem_range]
  constructor
  · rintro ⟨m, h, rfl⟩; exact ⟨m + 1, by omega, by omega, rfl⟩
  · rintro ⟨m, h1, h2, rfl⟩; exact ⟨m - 1, by omega, by rw [show m - 1 + 1 = m by omega]⟩

theorem idsFrom_rank : ∀ (l : List Item) (k : Nat), ∀ x ∈ idsFrom k l, k + 1 ≤ x.rank
  | [], k, x, h => by
    simp only [idsFrom, List.mem_singleton] at h
    subst h; simp [Id.rank]
  | .step c :: r, k, x, h => by
    simp only [idsFrom, List.mem_cons] at h
    rcases h with rfl | h
    · simp [Id.rank]
    · have := idsFrom_rank r (k + 1) x h; omega
  | .block legs :: r, k, x, h => by
    simp only [idsFrom, List.mem_cons, List.mem_append, List.mem_flatten, List.mem_mapIdx, List.not_mem_nil, or_false] at h
    rcases h with (rfl | ⟨l, ⟨j, hj, rfl⟩, h⟩ | rfl) | h
    · simp [Id.rank]
    · obtain ⟨m, -, -, rfl⟩ := mem_legIds.1 h
      simp [Id.rank]
    · simp [Id.rank]
    · have := idsFrom_rank r (k + 1) x h; omega

theorem idsFrom_nodup : ∀ (l : List Item) (k : Nat), (idsFrom k l).Nodup
  | [], k => by simp [idsFrom]
  | .step c :: r, k => by
    simp only [idsFrom, List.nodup_cons]
    refine ⟨fun h => ?_, idsFrom_nodup r (k + 1)⟩
    have := idsFrom_rank r (k + 1) _ h
    simp only [Id.rank] at this
    omega
  | .block legs :: r, k => by
    simp only [idsFrom]
    refine List.nodup_append'.2 ⟨?_, idsFrom_nodup r (k + 1), ?_⟩
    · refine List.nodup_cons.2 ⟨?_, List.nodup_append'.2 ⟨?_, by simp, ?_⟩⟩
      · intro h
        simp only [List.mem_append, List.mem_flatten, List.mem_mapIdx, List.mem_singleton] at h
        rcases h with ⟨l, ⟨j, hj, rfl⟩, h⟩ | h
        · obtain ⟨m, -, -, h⟩ := mem_legIds.1 h; cases h
        · cases h
      · refine nodup_mapIdx_flatten ?_ ?_
        · intro j leg _
          refine List.Nodup.map ?_ List.nodup_range
          intro a b h
          simp only [Id.row.injEq, Pos.leg.injEq] at h
          omega
        · intro i j a b hij _ _ x hx hy
          obtain ⟨m, -, -, rfl⟩ := mem_legIds.1 hx
          obtain ⟨m', -, -, h⟩ := mem_legIds.1 hy
          simp only [Id.row.injEq, Pos.leg.injEq] at h
          omega
      · intro x hx hy
        simp only [List.mem_flatten, List.mem_mapIdx] at hx
        obtain ⟨l, ⟨j, hj, rfl⟩, h⟩ := hx
        obtain ⟨m, -, -, rfl⟩ := mem_legIds.1 h
        simp at hy
    · intro x hx hy
      have h1 := idsFrom_rank r (k + 1) x hy
      simp only [List.mem_cons, List.mem_append, List.mem_flatten, List.mem_mapIdx, List.not_mem_nil, or_false] at hx
      rcases hx with rfl | ⟨l, ⟨j, hj, rfl⟩, h⟩ | rfl
      · simp only [Id.rank] at h1; omega
      · obtain ⟨m, -, -, rfl⟩ := mem_legIds.1 h
        simp only [Id.rank] at h1; omega
      · simp only [Id.rank] at h1; omega

/-! ### Which ids there are -/

theorem mem_idsFrom {x : Id} : ∀ {l : List Item} {k : Nat}, x ∈ idsFrom k l ↔ x = .row (.main (k + l.length + 1)) ∨
    (∃ i c, l[i]? = some (.step c) ∧ x = .row (.main (k + i + 1))) ∨
    ∃ i legs, l[i]? = some (.block legs) ∧ (x = .split (k + i) ∨ x = .join (k + i + 2) ∨
      ∃ j leg m, legs[j]? = some leg ∧ 1 ≤ m ∧ m ≤ leg.steps.length ∧ x = .row (.leg (k + i + 1) j m))
  | [], k => by simp [idsFrom]
  | .step c :: r, k => by
    simp only [idsFrom, List.mem_cons, mem_idsFrom (l := r) (k := k + 1)]
    constructor
    · rintro (rfl | rfl | ⟨i, c', h, rfl⟩ | ⟨i, legs, h, h'⟩)
      · exact .inr (.inl ⟨0, c, rfl, rfl⟩)
      · exact .inl (by rw [List.length_cons]; congr 2; omega)
      · exact .inr (.inl ⟨i + 1, c', h, by congr 2; omega⟩)
      · refine .inr (.inr ⟨i + 1, legs, h, ?_⟩)
        rw [show k + (i + 1) = k + 1 + i by omega]
        exact h'
    · rintro (rfl | ⟨i, c', h, rfl⟩ | ⟨i, legs, h, h'⟩)
      · exact .inr (.inl (by rw [List.length_cons]; congr 2; omega))
      · cases i with
        | zero => exact .inl rfl
        | succ i => exact .inr (.inr (.inl ⟨i, c', h, by congr 2; omega⟩))
      · cases i with
        | zero => cases h
        | succ i =>
          refine .inr (.inr (.inr ⟨i, legs, h, ?_⟩))
          rw [show k + 1 + i = k + (i + 1) by omega]
          exact h'
  | .block ls :: r, k => by
    simp only [idsFrom, List.mem_cons, List.mem_append, List.mem_flatten, List.mem_mapIdx, List.not_mem_nil, or_false, mem_idsFrom (l := r) (k := k + 1)]
    constructor
    · rintro ((rfl | ⟨l, ⟨j, hj, rfl⟩, h⟩ | rfl) | rfl | ⟨i, c', h, rfl⟩ | ⟨i, legs, h, h'⟩)
      · exact .inr (.inr ⟨0, ls, rfl, .inl rfl⟩)
      · obtain ⟨m, h1, h2, rfl⟩ := mem_legIds.1 h
        exact .inr (.inr ⟨0, ls, rfl, .inr (.inr ⟨j, _, m, List.getElem?_eq_getElem hj, h1, h2, rfl⟩)⟩)
      · exact .inr (.inr ⟨0, ls, rfl, .inr (.inl rfl)⟩)
      · exact .inl (by rw [List.length_cons]; congr 2; omega)
      · exact .inr (.inl ⟨i + 1, c', h, by congr 2; omega⟩)
      · refine .inr (.inr ⟨i + 1, legs, h, ?_⟩)
        rw [show k + (i + 1) = k + 1 + i by omega]
        exact h'
    · rintro (rfl | ⟨i, c', h, rfl⟩ | ⟨i, legs, h, h'⟩)
      · exact .inr (.inl (by rw [List.length_cons]; congr 2; omega))
      · cases i with
        | zero => cases h
        | succ i => exact .inr (.inr (.inl ⟨i, c', h, by congr 2; omega⟩))
      · cases i with
        | zero =>
          cases h
          rcases h' with rfl | rfl | ⟨j, leg, m, h1, h2, h3, rfl⟩
          · exact .inl (.inl rfl)
          · exact .inl (.inr (.inr rfl))
          · obtain ⟨hj, rfl⟩ := List.getElem?_eq_some_iff.1 h1
            exact .inl (.inr (.inl ⟨_, ⟨j, hj, rfl⟩, mem_legIds.2 ⟨m, h2, h3, rfl⟩⟩))
        | succ i =>
          refine .inr (.inr (.inr ⟨i, legs, h, ?_⟩))
          rw [show k + 1 + i = k + (i + 1) by omega]
          exact h'

/-- All ids of the diagram. -/
def allIds (t : FlatTable) : List Id := .row (.main 0) :: idsFrom 0 t.items

theorem allIds_nodup (t : FlatTable) : (allIds t).Nodup := by
  refine List.nodup_cons.2 ⟨fun h => ?_, idsFrom_nodup _ _⟩
  have := idsFrom_rank _ _ _ h
  simp only [Id.rank] at this
  omega

theorem cell_allIds {p : Pos} (h : (cell t p).isSome = true) : .row p ∈ allIds t := by
  match p, h with
  | .main 0, _ => exact List.mem_cons_self ..
  | .main (k + 1), h =>
    refine List.mem_cons_of_mem _ (mem_idsFrom.2 ?_)
    simp only [cell] at h
    split at h
    · rename_i e; subst e; exact .inl (by simp)
    · split at h
      · rename_i c hc; exact .inr (.inl ⟨k, c, hc, by simp⟩)
      · cases h
  | .leg k j m, h =>
    obtain ⟨⟨c, b⟩, hc⟩ := Option.isSome_iff_exists.1 h
    obtain ⟨i, n, legs, leg, rfl, rfl, h1, h2, h3, -⟩ := cell_leg hc
    have := (List.getElem?_eq_some_iff.1 h3).1
    exact List.mem_cons_of_mem _ (mem_idsFrom.2 (.inr (.inr ⟨i, legs, h1, .inr (.inr ⟨j, leg, n + 1, h2, by omega, by omega, by simp⟩)⟩)))

theorem behind_cell (g : t.Good) {k : Nat} {legs : List Leg} (h : t.items[k]? = some (.block legs)) : (cell t (.main (k + 2))).isSome = true := by
  have hk := (List.getElem?_eq_some_iff.1 h).1
  simp only [cell]
  by_cases e : k + 1 = t.items.length
  · rw [if_pos e]; rfl
  · rw [if_neg e]
    obtain ⟨x, hx⟩ : ∃ x, t.items[k + 1]? = some x := ⟨_, List.getElem?_eq_getElem (by omega)⟩
    rw [hx]
    cases x with
    | step c => rfl
    | block ls => exact absurd hx (g.apart k legs ls h)

theorem link_allIds (g : t.Good) {x y : Id} (h : Link t x y) : y ∈ allIds t := by
  cases h with
  | step h1 h2 => exact cell_allIds h2
  | @enter k legs h1 => exact List.mem_cons_of_mem _ (mem_idsFrom.2 (.inr (.inr ⟨k, legs, h1, .inl (by simp)⟩)))
  | branch h1 h2 => exact cell_allIds (branch_cell g h1 h2)
  | inside h1 h2 => exact cell_allIds h2
  | @close k j m legs leg h1 h2 h3 h4 => exact List.mem_cons_of_mem _ (mem_idsFrom.2 (.inr (.inr ⟨k, legs, h1, .inr (.inl (by simp))⟩)))
  | leave h1 => exact cell_allIds (behind_cell g h1)

theorem Made.known_ids (m : Made t d F) (g : t.Good) {x : Id} (h : x ∈ allIds t) : x.Small ∧ x.name ∈ ids d := by
  have row : ∀ p, (cell t p).isSome = true → (Id.row p).Small ∧ (Id.row p).name ∈ ids d := by
    intro p hp
    obtain ⟨⟨c, b⟩, hc⟩ := Option.isSome_iff_exists.1 hp
    exact ⟨cell_small g hp, (m.rows p c b hc).1⟩
  rcases List.mem_cons.1 h with rfl | h
  · exact row _ rfl
  · rcases mem_idsFrom.1 h with rfl | ⟨i, c, hi, rfl⟩ | ⟨i, legs, hi, rfl | rfl | ⟨j, leg, n, h1, h2, h3, rfl⟩⟩
    · exact row _ (by simp [cell])
    · exact row _ (by
        have := (List.getElem?_eq_some_iff.1 hi).1
        simp only [cell]
        rw [if_neg (by omega), Nat.zero_add, hi]
        rfl)
    · refine ⟨trivial, ?_⟩
      have : flowId (Id.row (.main i)).name (Id.split i).name ∈ inOf d (Id.split i).name := by
        rw [m.inn]; exact mem_entering.2 ⟨_, m.flow (Link.enter hi), rfl⟩
      rw [Nat.zero_add]
      exact inOf_mem this
    · refine ⟨trivial, ?_⟩
      have : flowId (Id.join (i + 2)).name (Id.row (.main (i + 2))).name ∈ outOf d (Id.join (i + 2)).name := by
        rw [m.out]; exact mem_leaving.2 ⟨_, m.flow (Link.leave hi), rfl⟩
      rw [Nat.zero_add]
      exact outOf_mem this
    · refine row _ ?_
      obtain ⟨q, rfl⟩ : ∃ q, n = q + 1 := ⟨n - 1, by omega⟩
      rw [Nat.zero_add]
      simp [cell, hi, h1, List.getElem?_eq_getElem (show q < leg.steps.length by omega)]

theorem nodeAt_mem {x : Id} (h : x.name ∈ ids d) : nodeAt d x ∈ d.getNodes := by
  obtain ⟨a, ha⟩ := Option.isSome_iff_exists.1 ((Dict.get?_isSome_iff _ _).2 h)
  have : nodeAt d x = (x.name, a) := by simp [nodeAt, ha]
  rw [this]
  exact Dict.mem_of_get? ha

theorem nodeAt_outs (d : Diagram) (x : Id) : Spec.outs (nodeAt d x) = outOf d x.name := by
  unfold nodeAt Spec.outs outOf
  cases d.graph.nodes.get? x.name <;> simp

theorem nodeAt_ins (d : Diagram) (x : Id) : Spec.ins (nodeAt d x) = inOf d x.name := by
  unfold nodeAt Spec.ins inOf
  cases d.graph.nodes.get? x.name <;> simp

theorem Made.perm (m : Made t d F) (g : t.Good) : ((allIds t).map (nodeAt d)).Perm d.getNodes := by
  refine (List.perm_ext_iff_of_nodup ?_ m.consistent.ids.of_map).2 ?_
  · refine List.Nodup.map_on ?_ (allIds_nodup t)
    intro x hx y hy e
    exact Id.name_inj (m.known_ids g hx).1 (m.known_ids g hy).1 (congrArg Prod.fst e)
  · intro n
    constructor
    · intro h
      obtain ⟨x, hx, rfl⟩ := List.mem_map.1 h
      exact nodeAt_mem (m.known_ids g hx).2
    · intro hn
      have key : ∀ x, x ∈ allIds t → n.1 = x.name → n ∈ (allIds t).map (nodeAt d) := by
        intro x hx e
        exact List.mem_map.2 ⟨x, hx, m.same (nodeAt_mem (m.known_ids g hx).2) hn e.symm⟩
      rcases m.nodes _ (id_of_node m.inv hn).1 with ⟨p, c, b, hc, e⟩ | ⟨-, he⟩
      · exact key (.row p) (cell_allIds (by rw [hc]; rfl)) e
      · obtain ⟨f, hf⟩ := List.exists_mem_of_ne_nil _ he
        obtain ⟨s, hs, -⟩ := mem_entering.1 hf
        obtain ⟨x, y, hl, e⟩ := (m.flows _).1 hs
        exact key y (link_allIds g hl) (congrArg Prod.snd e)

/-! ### The flows between the parts -/

theorem Link.fwd (g : t.Good) {x y y' : Id} (hx : ∀ k, x ≠ .split k) (h : Link t x y) (h' : Link t x y') : y' = y := by
  cases h with
  | step a b =>
    cases h' with
    | step => rfl
    | enter e => obtain ⟨_, _, e⟩ := block_before g e; rw [e] at b; cases b
  | enter e =>
    cases h' with
    | step a b => obtain ⟨_, _, e⟩ := block_before g e; rw [e] at b; cases b
    | enter => rfl
  | branch => exact absurd rfl (hx _)
  | inside a b =>
    cases h' with
    | inside => rfl
    | close e1 e2 e3 e4 => subst e4; rw [(close_cell g e1 e2).2] at b; cases b
  | close e1 e2 e3 e4 =>
    cases h' with
    | inside a b => subst e4; rw [(close_cell g e1 e2).2] at b; cases b
    | close => rfl
  | leave => cases h' with | leave => rfl

theorem Link.bwd (g : t.Good) {x x' y : Id} (hy : ∀ k, y ≠ .join k) (h : Link t x y) (h' : Link t x' y) : x' = x := by
  match y, h, h' with
  | .row p, h, h' => exact Link.back g h' h
  | .split k, h, h' => cases h; cases h'; rfl
  | .join k, h, h' => exact absurd rfl (hy k)

theorem entering_only {F : List (String × String)} (nd : F.Nodup) {x y : String} (h : (x, y) ∈ F) (u : ∀ z, (z, y) ∈ F → z = x) : entering y F = [flowId x y] := by
  have : F.filter (·.2 = y) = [(x, y)] := by
    refine only_one (nd.filter _) (List.mem_filter.2 ⟨h, by simp⟩) ?_
    rintro ⟨a, b⟩ hb
    obtain ⟨h1, h2⟩ := List.mem_filter.1 hb
    simp at h2
    subst h2
    rw [u a h1]
  rw [entering, this]; rfl

theorem Made.outs_one (m : Made t d F) (g : t.Good) {x y : Id} (h : Link t x y) (hx : ∀ k, x ≠ .split k) : Spec.outs (nodeAt d x) = [flowId x.name y.name] := by
  rw [nodeAt_outs, m.out, m.one g h fun z hz => Link.fwd g hx h hz]

theorem Made.ins_one (m : Made t d F) (g : t.Good) {x y : Id} (h : Link t x y) (hy : ∀ k, y ≠ .join k) : Spec.ins (nodeAt d y) = [flowId x.name y.name] := by
  rw [nodeAt_ins, m.inn]
  refine entering_only m.nodup (m.flow h) ?_
  intro z hz
  obtain ⟨x', h1, rfl⟩ := m.link' g (h.small g).2 hz
  rw [Link.bwd g hy h h1]

theorem Made.spec_link (m : Made t d F) (g : t.Good) {x y : Id} (h : Link t x y) (hx : ∀ k, x ≠ .split k) (hy : ∀ k, y ≠ .join k) :
    Spec.Link (nodeAt d x) (nodeAt d y) := ⟨_, m.outs_one g h hx, m.ins_one g h hy⟩

/-- A block. -/
theorem Made.block_ok (m : Made t d F) (g : t.Good) (meets : t.Meets) {k : Nat} {legs : List Leg} (hk : t.items[k]? = some (.block legs)) :
    (Piece.block (nodeAt d (.split k)) (legs.mapIdx fun j leg => (legIds k j leg).map (nodeAt d)) (nodeAt d (.join (k + 2)))).Ok := by
  have two := g.two legs (List.mem_of_getElem? hk)
  have hlen := List.length_filter_le (fun l : Leg => !l.stops) legs
  have hstop : ∀ {j : Nat} {leg : Leg}, legs[j]? = some leg → leg.stops = false := fun {j leg} h => meets legs (List.mem_of_getElem? hk) leg (List.mem_of_getElem? h)
  have hend : ∀ {j : Nat} {leg : Leg}, legs[j]? = some leg → Link t (.row (.leg (k + 1) j leg.steps.length)) (.join (k + 2)) :=
    fun {j leg} h => Link.close hk h (hstop h) rfl
  refine ⟨by rw [List.length_mapIdx]; omega, ?_, ?_, ?_⟩
  · rw [nodeAt_outs, m.out, m.fork k legs hk]
    simp
  · rw [nodeAt_ins, m.inn]
    have hp : (F.filter (·.2 = (Id.join (k + 2)).name)).Perm
        (legs.mapIdx fun j leg => ((Id.row (.leg (k + 1) j leg.steps.length)).name, (Id.join (k + 2)).name)) := by
      refine (List.perm_ext_iff_of_nodup (m.nodup.filter _) ?_).2 ?_
      · rw [List.nodup_iff_injective_get]
        rintro ⟨i, hi⟩ ⟨j, hj⟩ e
        simp only [List.get_eq_getElem, List.getElem_mapIdx, Prod.mk.injEq, and_true] at e
        rw [List.length_mapIdx] at hi hj
        have := Id.name_inj ((hend (List.getElem?_eq_getElem hi)).small g).1 ((hend (List.getElem?_eq_getElem hj)).small g).1 e
        simp only [Id.row.injEq, Pos.leg.injEq] at this
        exact Fin.ext this.2.1
      · rintro ⟨a, b⟩
        simp only [List.mem_filter, decide_eq_true_eq, List.mem_mapIdx, Prod.mk.injEq]
        constructor
        · rintro ⟨h1, rfl⟩
          obtain ⟨x, hl, rfl⟩ := m.link' g (y := .join (k + 2)) trivial h1
          cases hl with
          | close e1 e2 e3 e4 =>
            subst e4
            rw [hk] at e1
            cases e1
            obtain ⟨hj, rfl⟩ := List.getElem?_eq_some_iff.1 e2
            exact ⟨_, hj, rfl, rfl⟩
        · rintro ⟨j, hj, rfl, rfl⟩
          exact ⟨m.flow (hend (List.getElem?_eq_getElem hj)), rfl⟩
    rw [entering, List.length_map, hp.length_eq, List.length_mapIdx, List.length_mapIdx]
  · intro b hb
    obtain ⟨j, hj, rfl⟩ := List.mem_mapIdx.1 hb
    have hleg := List.getElem?_eq_getElem hj
    generalize hL : legs[j] = leg at hleg
    obtain ⟨s1, -⟩ := g.short legs (List.mem_of_getElem? hk) leg (List.mem_of_getElem? hleg)
    have hcell : ∀ q, q < leg.steps.length → (cell t (.leg (k + 1) j (q + 1))).isSome = true := by
      intro q hq
      simp [cell, hk, hleg, List.getElem?_eq_getElem hq]
    refine ⟨?_, ?_, ?_, ?_⟩
    · intro e
      have := congrArg List.length e
      simp only [legIds, List.length_map, List.length_range, List.length_nil] at this
      omega
    · rw [legIds, List.map_map, List.isChain_map, List.isChain_iff_getElem]
      intro i hi
      simp only [List.length_range] at hi
      simp only [List.getElem_range, Function.comp]
      exact m.spec_link g (Link.inside (hcell i (by omega)) (hcell (i + 1) hi)) (by simp) (by simp)
    · intro n hn
      have : n = nodeAt d (.row (.leg (k + 1) j 1)) := by
        rw [legIds, List.map_map, List.head?_map, List.head?_range, if_neg (by omega)] at hn
        simpa using hn.symm
      subst this
      have hl : Link t (.split k) (.row (.leg (k + 1) j 1)) := Link.branch hk hj
      refine ⟨_, ?_, m.ins_one g hl (by simp)⟩
      rw [nodeAt_outs, m.out]
      exact mem_leaving.2 ⟨_, m.flow hl, rfl⟩
    · intro n hn
      have : n = nodeAt d (.row (.leg (k + 1) j leg.steps.length)) := by
        rw [legIds, List.map_map, List.getLast?_map, List.getLast?_range, if_neg (by omega)] at hn
        simp only [Option.map_some, Option.mem_def, Option.some.injEq, Function.comp] at hn
        rw [← hn, show leg.steps.length - 1 + 1 = leg.steps.length by omega]
      subst this
      refine ⟨_, ?_, m.outs_one g (hend hleg) (by simp)⟩
      rw [nodeAt_ins, m.inn]
      exact mem_entering.2 ⟨_, m.flow (hend hleg), rfl⟩

theorem drop_get {α : Type} {l : List α} {k : Nat} {x : α} {r : List α} (h : l.drop k = x :: r) : l[k]? = some x ∧ l.drop (k + 1) = r := by
  constructor
  · have := congrArg (·[0]?) h
    simpa using this
  · rw [← List.drop_drop, h]; rfl

theorem Made.parts_ok (m : Made t d F) (g : t.Good) (meets : t.Meets) : ∀ (l : List Item) (k : Nat), t.items.drop k = l → ∀ p ∈ piecesFrom d k l, p.Ok
  | [], k, _, p, hp => by
    simp only [piecesFrom, List.mem_singleton] at hp
    subst hp; trivial
  | .step c :: r, k, h, p, hp => by
    simp only [piecesFrom, List.mem_cons] at hp
    rcases hp with rfl | hp
    · trivial
    · exact m.parts_ok g meets r (k + 1) (drop_get h).2 p hp
  | .block legs :: r, k, h, p, hp => by
    simp only [piecesFrom, List.mem_cons] at hp
    rcases hp with rfl | hp
    · exact m.block_ok g meets (drop_get h).1
    · exact m.parts_ok g meets r (k + 1) (drop_get h).2 p hp

theorem pieces_head : ∀ (l : List Item) (k : Nat), t.items.drop k = l → ∀ p ∈ (piecesFrom d k l).head?, p.first = nodeAt d (nextId t k)
  | [], k, h, p, hp => by
    simp only [piecesFrom, List.head?_cons, Option.mem_def, Option.some.injEq] at hp
    subst hp
    have hk : t.items[k]? = none := List.getElem?_eq_none (List.drop_eq_nil_iff.1 h)
    simp [Piece.first, nextId, hk]
  | .step c :: r, k, h, p, hp => by
    simp only [piecesFrom, List.head?_cons, Option.mem_def, Option.some.injEq] at hp
    subst hp
    simp [Piece.first, nextId, (drop_get h).1]
  | .block legs :: r, k, h, p, hp => by
    simp only [piecesFrom, List.head?_cons, Option.mem_def, Option.some.injEq] at hp
    subst hp
    simp [Piece.first, nextId, (drop_get h).1]

theorem nextId_not_join (t : FlatTable) (k q : Nat) : nextId t k ≠ .join q := by
  unfold nextId
  split <;> simp

theorem step_cell {k : Nat} {c : Cell} (h : t.items[k]? = some (.step c)) : cell t (.main (k + 1)) = some (c, false) := by
  have := (List.getElem?_eq_some_iff.1 h).1
  simp only [cell]
  rw [if_neg (by omega), h]

theorem Made.line_ok (m : Made t d F) (g : t.Good) : ∀ (l : List Item) (k : Nat), t.items.drop k = l →
    List.IsChain (fun p q => Spec.Link p.last q.first) (piecesFrom d k l)
  | [], k, _ => List.isChain_singleton _
  | .step c :: r, k, h => by
    obtain ⟨h1, h2⟩ := drop_get h
    rw [piecesFrom, List.isChain_cons]
    refine ⟨?_, m.line_ok g r (k + 1) h2⟩
    intro p hp
    rw [pieces_head (d := d) r (k + 1) h2 p hp]
    exact m.spec_link g (next_link g (step_cell h1)) (by simp) (nextId_not_join t _)
  | .block legs :: r, k, h => by
    obtain ⟨h1, h2⟩ := drop_get h
    rw [piecesFrom, List.isChain_cons]
    refine ⟨?_, m.line_ok g r (k + 1) h2⟩
    intro p hp
    rw [pieces_head (d := d) r (k + 1) h2 p hp]
    have : nextId t (k + 1) = .row (.main (k + 2)) := by
      unfold nextId
      split
      · rename_i ls e; exact absurd e (g.apart k legs ls h1)
      · rfl
    rw [this]
    exact m.spec_link g (Link.leave h1) (by simp) (by simp)

theorem pieces_last : ∀ (l : List Item) (k : Nat), (piecesFrom d k l).getLast? = some (.step (nodeAt d (.row (.main (k + l.length + 1)))))
  | [], k => rfl
  | .step c :: r, k => by
    rw [piecesFrom, List.getLast?_cons, pieces_last r (k + 1), Option.getD_some, List.length_cons]
    congr 6; omega
  | .block legs :: r, k => by
    rw [piecesFrom, List.getLast?_cons, pieces_last r (k + 1), Option.getD_some, List.length_cons]
    congr 6; omega

/-- All parts. -/
def allPieces (t : FlatTable) (d : Diagram) : List Piece := .step (nodeAt d (.row (.main 0))) :: piecesFrom d 0 t.items

theorem Made.blocks (m : Made t d F) (g : t.Good) (meets : t.Meets) (sup : ∀ n ∈ d.getNodes, Supported n) : Blocks d (allPieces t d) := by
  refine ⟨?_, sup, ?_, ?_, ?_, ?_⟩
  · have := m.perm g
    unfold allPieces
    rw [List.flatMap_cons, pieces_nodes]
    exact this
  · intro p hp
    rcases List.mem_cons.1 hp with rfl | hp
    · trivial
    · exact m.parts_ok g meets t.items 0 rfl p hp
  · unfold allPieces
    rw [List.isChain_cons]
    refine ⟨?_, m.line_ok g t.items 0 rfl⟩
    intro p hp
    rw [pieces_head (t := t) (d := d) t.items 0 rfl p hp]
    exact m.spec_link g (next_link g (c := t.first) rfl) (by simp) (nextId_not_join t _)
  · intro p hp
    simp only [allPieces, List.head?_cons, Option.mem_def, Option.some.injEq] at hp
    subst hp
    change Spec.ins (nodeAt d (.row (.main 0))) = []
    rw [nodeAt_ins, m.inn, List.eq_nil_iff_forall_not_mem]
    intro f hf
    obtain ⟨s, hs, -⟩ := mem_entering.1 hf
    obtain ⟨x, hl, -⟩ := m.link' g (y := .row (.main 0)) trivial hs
    cases hl
  · intro p hp
    unfold allPieces at hp
    rw [List.getLast?_cons, pieces_last] at hp
    simp only [Option.getD_some, Option.mem_def, Option.some.injEq] at hp
    subst hp
    change Spec.outs (nodeAt d _) = []
    rw [nodeAt_outs, m.out, List.eq_nil_iff_forall_not_mem]
    intro f hf
    obtain ⟨s, hs, -⟩ := mem_leaving.1 hf
    obtain ⟨x, hl, -⟩ := m.link g (x := .row (.main (0 + t.items.length + 1))) trivial hs
    cases hl with
    | step a b => simp [cell] at a
    | enter a => simp at a

end
end Bpmn.Csv

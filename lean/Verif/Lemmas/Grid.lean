import Verif.Lemmas.TopoSort
import Std.Data.String.ToInt
/-!
The grid, the coordinates and the waypoints.
-/
set_option linter.unusedSimpArgs false
set_option linter.unusedVariables false

namespace Bpmn.Layouter
open Bpmn Spec Classify

variable {d : Diagram}

theorem shiftRows_error {row : Int} {grid : List Cell} (h : ∃ c ∈ grid, c.row ≥ row) : shiftRows row grid = .error .typeError := by
  induction grid with
  | nil => simp at h
  | cons c r ih =>
    rw [shiftRows]
    split
    · rfl
    · rename_i hc
      have : ∃ c ∈ r, c.row ≥ row := by
        obtain ⟨c', hc', h'⟩ := h
        rcases List.mem_cons.1 hc' with rfl | hc'
        · exact absurd h' hc
        · exact ⟨c', hc', h'⟩
      rw [ih this]; rfl

theorem insert_occupied {grid : List Cell} {row col : Int} (id : String) (h : ∃ c ∈ grid, c.row = row ∧ c.col = col) :
    insertIntoGrid grid row col id = .error .typeError := by
  unfold insertIntoGrid
  obtain ⟨c, hc, h1, h2⟩ := h
  cases hf : grid.find? (fun c => c.row == row && c.col == col) with
  | none =>
    have := List.find?_eq_none.1 hf c hc
    simp [h1, h2] at this
  | some c' =>
    simp only
    rw [shiftRows_error ⟨c, hc, by omega⟩]; rfl

theorem insert_free {grid : List Cell} {row col : Int} (id : String) (h : ∀ c ∈ grid, ¬(c.row = row ∧ c.col = col)) :
    insertIntoGrid grid row col id = .ok (grid ++ [⟨row, col, id⟩]) := by
  unfold insertIntoGrid
  have : grid.find? (fun c => c.row == row && c.col == col) = none := by
    rw [List.find?_eq_none]
    intro c hc
    simpa using h c hc
  rw [this]

theorem insert_ok {grid g : List Cell} {row col : Int} {id : String} (h : insertIntoGrid grid row col id = .ok g) :
    (∀ c ∈ grid, ¬(c.row = row ∧ c.col = col)) ∧ g = grid ++ [⟨row, col, id⟩] := by
  by_cases hc : ∃ c ∈ grid, c.row = row ∧ c.col = col
  · rw [insert_occupied id hc] at h; cases h
  · have : ∀ c ∈ grid, ¬(c.row = row ∧ c.col = col) := fun c h1 h2 => hc ⟨c, h1, h2⟩
    rw [insert_free id this] at h
    cases h
    exact ⟨this, rfl⟩

/-- What a successful `placeSelf` does: one free cell is appended, in a column determined by the incoming list. -/
theorem placeSelf_ok {x : NC} {p : Place} {enf : Option Int} {r} (h : placeSelf d x p enf = .ok r) :
    ∃ row col, (∀ c ∈ p.grid, ¬(c.row = row ∧ c.col = col)) ∧ r.1.grid = p.grid ++ [⟨row, col, x.id⟩] ∧
      r.1.rest = p.rest ∧ r.1.lastCol = p.lastCol ∧
      (x.ins = [] → col = p.lastCol) ∧
      (∀ i l, x.ins = i :: l → "Join" ∉ x.labels →
        ∃ s c, flowSource d i = .ok s ∧ p.grid.find? (fun c => c.nodeId == s) = some c ∧ col = c.col + 1 ∧ row = enf.getD c.row ∧ r.2 = c.row) := by
  unfold placeSelf at h
  split at h
  · rename_i h0
    cases hi : insertIntoGrid p.grid (truthyOr enf p.lastRow) p.lastCol x.id with
    | error e => rw [hi] at h; cases h
    | ok g =>
      rw [hi] at h
      cases h
      obtain ⟨h1, rfl⟩ := insert_ok hi
      refine ⟨_, _, h1, rfl, rfl, rfl, fun _ => rfl, ?_⟩
      intro i l e
      rw [e] at h0; simp at h0
  · rename_i h0
    split at h
    · rename_i hj
      cases hx : x.ins with
      | nil => simp [hx] at h0
      | cons i l =>
        rw [hx] at h
        simp only [pyIndex, List.getElem?_cons_zero, bind, Except.bind] at h
        cases hs : flowSource d i with
        | error e => rw [hs] at h; cases h
        | ok s =>
          rw [hs] at h
          simp only at h
          cases hf : p.grid.find? (fun c => c.nodeId == s) with
          | none => rw [hf] at h; cases h
          | some c =>
            rw [hf] at h
            simp only at h
            cases hi : insertIntoGrid p.grid (enf.getD c.row) (c.col + 1) x.id with
            | error e => rw [hi] at h; cases h
            | ok g =>
              rw [hi] at h
              cases h
              obtain ⟨h1, rfl⟩ := insert_ok hi
              refine ⟨_, _, h1, rfl, rfl, rfl, ?_, ?_⟩
              · intro e; cases e
              · intro i' l' e hj'
                cases e
                exact ⟨s, c, hs, hf, rfl, rfl, rfl⟩
    · rename_i hj
      cases he : endsOf (flowSource d) x.ins with
      | error e => rw [he] at h; cases h
      | ok ids =>
        rw [he] at h
        simp only [bind, Except.bind] at h
        cases hi : insertIntoGrid p.grid (truthyOr enf (Int.fdiv (predStats ids p.grid 0 0).1 ids.length)) ((predStats ids p.grid 0 0).2 + 1) x.id with
        | error e => rw [hi] at h; cases h
        | ok g =>
          rw [hi] at h
          cases h
          obtain ⟨h1, rfl⟩ := insert_ok hi
          refine ⟨_, _, h1, rfl, rfl, rfl, ?_, ?_⟩
          · intro e; rw [e] at h0; simp at h0
          · intro i l e hn; exact absurd hn hj

theorem pyRemove_subset {α : Type} [DecidableEq α] {l r : List α} {x : α} (h : pyRemove l x = .ok r) : r ⊆ l := by
  unfold pyRemove at h
  split at h
  · cases h; exact List.erase_subset
  · cases h

/-- Any property of the state that is kept by placing one classified node is kept by `place_element_in_grid`. -/
theorem placeElement_inv {all : List NC} (Q : List Cell → Int → Prop)
    (step : ∀ x ∈ all, ∀ p enf r, Q p.grid p.lastCol → placeSelf d x p enf = .ok r → Q r.1.grid r.1.lastCol)
    (fuel : Nat) {x : NC} {p : Place} {enf : Option Int} {r} (hx : x ∈ all) (hr : p.rest ⊆ all) (hQ : Q p.grid p.lastCol)
    (h : placeElement d fuel x p enf = .ok r) : Q r.grid r.lastCol ∧ r.rest ⊆ all := by
  induction fuel generalizing x p enf r with
  | zero => cases h
  | succ fuel ih =>
    rw [placeElement] at h
    cases hs : placeSelf d x p enf with
    | error e => rw [hs] at h; cases h
    | ok q =>
      rw [hs] at h
      simp only [bind, Except.bind] at h
      have hQ' := step x hx p enf q hQ hs
      have hr' : q.1.rest ⊆ all := by
        obtain ⟨row, col, -, -, h3, -⟩ := placeSelf_ok hs
        rw [h3]; exact hr
      split at h
      · cases he : endsOf (flowTarget d) x.outs with
        | error e => rw [he] at h; cases h
        | ok ids =>
          rw [he] at h
          simp only at h
          have succs : ∀ s ∈ (q.1.rest.filter fun y => decide (y.id ∈ ids)), s ∈ all :=
            fun s hs => hr' (List.mem_of_mem_filter hs)
          revert h
          generalize (q.1.rest.filter fun y => decide (y.id ∈ ids)) = ss at succs
          generalize schedule ids.length q.2 = sch
          obtain ⟨p', row⟩ := q
          simp only at hQ' hr'
          clear hs
          intro h
          simp only at h
          induction sch generalizing p' with
          | nil => cases h; exact ⟨hQ', hr'⟩
          | cons t ts ihs =>
            obtain ⟨k, row'⟩ := t
            rw [placeSuccessors] at h
            simp only [pyIndex] at h
            cases hk : ss[k]? with
            | none => rw [hk] at h; cases h
            | some s =>
              rw [hk] at h
              simp only [bind, Except.bind] at h
              cases hp : placeElement d fuel s p' (some row') with
              | error e => rw [hp] at h; cases h
              | ok p'' =>
                rw [hp] at h
                simp only at h
                obtain ⟨h1, h2⟩ := ih (succs s (List.mem_of_getElem? hk)) hr' hQ' hp
                cases hrm : pyRemove p''.rest s with
                | error e => rw [hrm] at h; cases h
                | ok rest =>
                  rw [hrm] at h
                  exact ihs { p'' with rest := rest } h1 (fun y hy => h2 (pyRemove_subset hrm hy)) h
      · cases h; exact ⟨hQ', hr'⟩

theorem gridLoop_inv {all : List NC} (Q : List Cell → Int → Prop)
    (step : ∀ x ∈ all, ∀ p enf r, Q p.grid p.lastCol → placeSelf d x p enf = .ok r → Q r.1.grid r.1.lastCol)
    (fuel n : Nat) {p : Place} {g} (hr : p.rest ⊆ all) (hQ : Q p.grid p.lastCol) (h : gridLoop d fuel n p = .ok g) :
    ∃ c, Q g c := by
  induction n generalizing p with
  | zero => cases h
  | succ n ih =>
    rw [gridLoop] at h
    split at h
    · cases h; exact ⟨_, hQ⟩
    · rename_i x rest e
      cases hp : placeElement d fuel x { p with rest := rest } none with
      | error e => rw [hp] at h; cases h
      | ok p' =>
        rw [hp] at h
        obtain ⟨h1, h2⟩ := placeElement_inv Q step fuel (hr (by rw [e]; simp))
          (p := { p with rest := rest }) (fun y hy => hr (by rw [e]; exact List.mem_cons_of_mem _ hy)) hQ hp
        exact ih h2 h1 h

/-- Cells are pairwise different positions. -/
def CellsDistinct (g : List Cell) : Prop := (g.map fun c => (c.row, c.col)).Nodup

theorem gridLayout_distinct {fuel : Nat} {sorted : List NC} {g} (h : gridLayout fuel d sorted = .ok g) : CellsDistinct g := by
  obtain ⟨c, hc⟩ := gridLoop_inv (all := sorted) (fun g _ => CellsDistinct g) (by
    intro x hx p enf r hQ hs
    obtain ⟨row, col, h1, h2, -⟩ := placeSelf_ok hs
    rw [h2, CellsDistinct, List.map_append]
    refine List.nodup_append.2 ⟨hQ, by simp, ?_⟩
    intro a ha b hb hab
    simp only [List.map_cons, List.map_nil, List.mem_singleton] at hb
    obtain ⟨c, hc, rfl⟩ := List.mem_map.1 ha
    rw [hb] at hab
    simp only [Prod.mk.injEq] at hab
    exact h1 c hc hab) fuel fuel (by simp) (by simp [CellsDistinct]) h
  exact hc

/-- The column of each cell is determined by earlier cells. -/
def ColumnsRight (d : Diagram) (all : List NC) (g : List Cell) : Prop :=
  ∀ pre c post, g = pre ++ c :: post → ∃ x ∈ all, x.id = c.nodeId ∧ (x.ins = [] → c.col = 1) ∧
    (∀ i l, x.ins = i :: l → "Join" ∉ x.labels →
      ∃ s pc, flowSource d i = .ok s ∧ pre.find? (fun c => c.nodeId == s) = some pc ∧ c.col = pc.col + 1)

theorem gridLayout_columns {fuel : Nat} {sorted : List NC} {g} (h : gridLayout fuel d sorted = .ok g) :
    ColumnsRight d sorted g := by
  obtain ⟨c, hc⟩ := gridLoop_inv (all := sorted) (fun g col => ColumnsRight d sorted g ∧ col = 1) (by
    rintro x hx p enf r ⟨hQ, hcol⟩ hs
    obtain ⟨row, col, h1, h2, -, h3, h4, h5⟩ := placeSelf_ok hs
    refine ⟨?_, by rw [h3, hcol]⟩
    rw [h2]
    intro pre c post e
    rcases List.append_eq_append_iff.1 e with ⟨as, e1, e2⟩ | ⟨bs, e1, e2⟩
    · cases as with
      | nil =>
        simp only [List.append_nil] at e1
        simp only [List.nil_append, List.cons.injEq] at e2
        obtain ⟨rfl, -⟩ := e2
        subst e1
        refine ⟨x, hx, rfl, fun e => by rw [h4 e, hcol], ?_⟩
        intro i l e hj
        obtain ⟨s, c, a1, a2, a3, -⟩ := h5 i l e hj
        exact ⟨s, c, a1, a2, a3⟩
      | cons a as =>
        have := congrArg List.length e2
        simp at this
    · cases bs with
      | nil =>
        simp only [List.append_nil] at e1
        simp only [List.nil_append, List.cons.injEq] at e2
        obtain ⟨rfl, -⟩ := e2
        subst e1
        refine ⟨x, hx, rfl, fun e => by simp only [h4 e, hcol], ?_⟩
        intro i l e hj
        obtain ⟨s, c, a1, a2, a3, -⟩ := h5 i l e hj
        exact ⟨s, c, a1, a2, a3⟩
      | cons b bs =>
        simp only [List.cons_append, List.cons.injEq] at e2
        obtain ⟨rfl, e2⟩ := e2
        exact hQ pre c bs e1) fuel fuel (p := ⟨[], gridColumnWidth, 1, sorted⟩) (by simp) ⟨by intro pre c post e; simp at e, rfl⟩ h
  exact hc.1

/-! ### Coordinates -/

/-- The node with the coordinates of a cell. -/
def atCell (n : Node) (c : Cell) : Node :=
  (n.1, { n.2 with x := some (toString (c.col * 150 + 50)), y := some (toString (c.row * 100 + 50)) })

theorem setCoordinates_ok {grid : List Cell} {l r : List Node} (h : setCoordinates grid l = .ok r) :
    ∀ m ∈ r, ∃ n ∈ l, ∃ c, grid.find? (fun c => c.nodeId == n.1) = some c ∧ m = atCell n c := by
  induction l generalizing r with
  | nil => cases h; simp
  | cons n l ih =>
    rw [setCoordinates] at h
    cases hf : grid.find? (fun c => c.nodeId == n.1) with
    | none => rw [hf] at h; cases h
    | some c =>
      rw [hf] at h
      simp only [bind, Except.bind] at h
      cases hs : setCoordinates grid l with
      | error e => rw [hs] at h; cases h
      | ok rest =>
        rw [hs] at h
        cases h
        intro m hm
        rcases List.mem_cons.1 hm with rfl | hm
        · exact ⟨n, by simp, c, hf, rfl⟩
        · obtain ⟨n', hn', c', h1, h2⟩ := ih hs m hm
          exact ⟨n', by simp [hn'], c', h1, h2⟩

theorem setCoordinates_all {grid : List Cell} {l r : List Node} (h : setCoordinates grid l = .ok r) :
    ∀ n ∈ l, ∃ c, grid.find? (fun c => c.nodeId == n.1) = some c ∧ atCell n c ∈ r := by
  induction l generalizing r with
  | nil => simp
  | cons n l ih =>
    rw [setCoordinates] at h
    cases hf : grid.find? (fun c => c.nodeId == n.1) with
    | none => rw [hf] at h; cases h
    | some c =>
      rw [hf] at h
      simp only [bind, Except.bind] at h
      cases hs : setCoordinates grid l with
      | error e => rw [hs] at h; cases h
      | ok rest =>
        rw [hs] at h
        cases h
        intro m hm
        rcases List.mem_cons.1 hm with rfl | hm
        · exact ⟨c, hf, by simp [atCell]⟩
        · obtain ⟨c', h1, h2⟩ := ih hs m hm
          exact ⟨c', h1, List.mem_cons_of_mem _ h2⟩

/-- A node without its coordinates. -/
def bareNode (n : Node) : Node := (n.1, { n.2 with x := none, y := none })
/-- Flow attributes without the waypoints. -/
def bareAttrs (a : EdgeAttrs) : EdgeAttrs := { a with waypoints := none }
/-- An edge without its waypoints. -/
def bareEdge (e : Edge) : Edge := { e with attrs := bareAttrs e.attrs }

theorem setCoordinates_bare {grid : List Cell} {l r : List Node} (h : setCoordinates grid l = .ok r) :
    r.map bareNode = l.map bareNode := by
  induction l generalizing r with
  | nil => cases h; rfl
  | cons n l ih =>
    rw [setCoordinates] at h
    cases hf : grid.find? (fun c => c.nodeId == n.1) with
    | none => rw [hf] at h; cases h
    | some c =>
      rw [hf] at h
      simp only [bind, Except.bind] at h
      cases hs : setCoordinates grid l with
      | error e => rw [hs] at h; cases h
      | ok rest =>
        rw [hs] at h
        cases h
        simp [ih hs, bareNode]

theorem setCoordinates_congr {grid : List Cell} {l l' : List Node} (h : l.map bareNode = l'.map bareNode) :
    setCoordinates grid l = setCoordinates grid l' := by
  induction l generalizing l' with
  | nil =>
    cases l' with
    | nil => rfl
    | cons => simp at h
  | cons n l ih =>
    cases l' with
    | nil => simp at h
    | cons n' l' =>
      simp only [List.map_cons, List.cons.injEq] at h
      obtain ⟨h1, h2⟩ := h
      have e1 : n.1 = n'.1 := by
        have := congrArg (Prod.fst : Node → String) h1
        exact this
      have e2 : ∀ a b, ({ n.2 with x := a, y := b } : NodeAttrs) = { n'.2 with x := a, y := b } := by
        intro a b
        have := congrArg (Prod.snd : Node → NodeAttrs) h1
        simp only [bareNode, NodeAttrs.mk.injEq] at this ⊢
        obtain ⟨a1, a2, a3, a4, a5, a6, a7, a8, -, -, a9⟩ := this
        exact ⟨a1, a2, a3, a4, a5, a6, a7, a8, trivial, trivial, a9⟩
      rw [setCoordinates, setCoordinates, e1, ih h2]
      simp only [e2]

/-! ### Waypoints -/

/-- The waypoints that `set_flows_waypoints` computes for a flow. -/
def waypointsOf (d : Diagram) (f : Flow) : Py (List (String × String)) := do
  let s ← need f.2.2.sourceRef
  let t ← need f.2.2.targetRef
  let sa ← nodeAttrsById d s
  let ta ← nodeAttrsById d t
  flowWaypoints sa ta

theorem setWaypoints_cons (f : Flow) (fs : List Flow) (g : Graph) :
    setWaypoints d (f :: fs) g = (waypointsOf d f).bind fun w =>
      setWaypoints d fs (g.modifyEdge f.1 f.2.1 fun a => { a with waypoints := some w }) := by
  rw [setWaypoints, waypointsOf]
  cases need f.2.2.sourceRef with
  | error e => rfl
  | ok s =>
    cases need f.2.2.targetRef with
    | error e => rfl
    | ok t =>
      simp only [bind, Except.bind]
      cases nodeAttrsById d s with
      | error e => rfl
      | ok sa =>
        simp only
        cases nodeAttrsById d t with
        | error e => rfl
        | ok ta => rfl

/-- The assignments made by the loop: for each flow, its ends and the new waypoints. -/
def assignments (d : Diagram) : List Flow → Py (List (String × String × List (String × String)))
  | [] => .ok []
  | f :: fs => do
    let w ← waypointsOf d f
    let ws ← assignments d fs
    pure ((f.1, f.2.1, w) :: ws)

/-- The last assignment to the edge between `u` and `v`. -/
def lastWrite (u v : String) : List (String × String × List (String × String)) → Option (List (String × String))
  | [] => none
  | (a, b, w) :: r => (lastWrite u v r).or (if (⟨u, v, {}⟩ : Edge).joins a b then some w else none)

/-- The edge after the assignments. -/
def written (ws : List (String × String × List (String × String))) (e : Edge) : Edge :=
  match lastWrite e.u e.v ws with
  | some w => { e with attrs := { e.attrs with waypoints := some w } }
  | none => e

theorem setWaypoints_eq (fs : List Flow) (g : Graph) :
    setWaypoints d fs g = (assignments d fs).bind fun ws => .ok { g with edges := g.edges.map (written ws) } := by
  induction fs generalizing g with
  | nil =>
    have : written [] = id := by funext e; rfl
    simp [setWaypoints, assignments, Except.bind, this]
  | cons f fs ih =>
    rw [setWaypoints_cons, assignments]
    cases waypointsOf d f with
    | error e => rfl
    | ok w =>
      simp only [bind, Except.bind]
      rw [ih]
      cases assignments d fs with
      | error e => rfl
      | ok ws =>
        simp only [Except.bind, pure, Except.pure, Graph.modifyEdge, List.map_map, Except.ok.injEq, Graph.mk.injEq, true_and]
        apply List.map_congr_left
        intro e he
        simp only [Function.comp, written, lastWrite]
        have hj : (⟨e.u, e.v, {}⟩ : Edge).joins f.1 f.2.1 = e.joins f.1 f.2.1 := rfl
        rw [hj]
        by_cases h : e.joins f.1 f.2.1
        · rw [if_pos h, if_pos h]
          simp only
          cases lastWrite e.u e.v ws <;> simp
        · simp only [h, if_false, Bool.false_eq_true]
          cases lastWrite e.u e.v ws <;> simp

theorem written_written (ws) (e : Edge) : written ws (written ws e) = written ws e := by
  unfold written
  cases h : lastWrite e.u e.v ws with
  | none => simp [h]
  | some w => simp [h]

theorem bareEdge_written (ws) (e : Edge) : bareEdge (written ws e) = bareEdge e := by
  unfold written
  cases h : lastWrite e.u e.v ws <;> rfl

/-! ### Flows without waypoints -/

theorem incident_bare (es : List Edge) (seen : List String) (n : String) :
    Graph.incident (es.map bareEdge) seen n = (Graph.incident es seen n).map fun f => (f.1, f.2.1, bareAttrs f.2.2) := by
  simp only [Graph.incident, List.filterMap_map, List.map_filterMap]
  congr 1
  funext e
  obtain ⟨u, v, a⟩ := e
  by_cases h1 : u = n <;> by_cases h2 : v = n <;> by_cases h3 : u ∈ seen <;> by_cases h4 : v ∈ seen <;>
    simp_all [bareEdge, Function.comp]

theorem iterFrom_bare (es : List Edge) (seen ns : List String) :
    Graph.iterFrom (es.map bareEdge) seen ns = (Graph.iterFrom es seen ns).map fun f => (f.1, f.2.1, bareAttrs f.2.2) := by
  induction ns generalizing seen with
  | nil => rfl
  | cons n ns ih => rw [Graph.iterFrom, Graph.iterFrom, ih, incident_bare, List.map_append]

/-- A flow without its waypoints. -/
def bareFlow (f : Flow) : Flow := (f.1, f.2.1, bareAttrs f.2.2)

/-- Equal up to coordinates and waypoints. -/
structure SameBut (d d' : Diagram) : Prop where
  nodes : d'.graph.nodes.map bareNode = d.graph.nodes.map bareNode
  edges : d'.graph.edges.map bareEdge = d.graph.edges.map bareEdge

theorem SameBut.flows {d d' : Diagram} (h : SameBut d d') : d'.getFlows.map bareFlow = d.getFlows.map bareFlow := by
  have e1 : ∀ x : Diagram, x.getFlows.map bareFlow = Graph.iterFrom (x.graph.edges.map bareEdge) [] (Dict.keys (x.graph.nodes.map bareNode)) := by
    intro x
    rw [iterFrom_bare]
    simp only [Diagram.getFlows, Graph.flows, Dict.keys, List.map_map]
    rfl
  rw [e1, e1, h.nodes, h.edges]

theorem flowAttrs_pyFind (fs fs' : List Flow) (h : fs'.map bareFlow = fs.map bareFlow) (i : String) :
    (pyFind (fun f : Flow => do let j ← need f.2.2.id; pure (j == i)) fs').map (Option.map bareFlow) =
    (pyFind (fun f : Flow => do let j ← need f.2.2.id; pure (j == i)) fs).map (Option.map bareFlow) := by
  induction fs generalizing fs' with
  | nil =>
    cases fs' with
    | nil => rfl
    | cons => simp at h
  | cons f fs ih =>
    cases fs' with
    | nil => simp at h
    | cons f' fs' =>
      simp only [List.map_cons, List.cons.injEq] at h
      have hid : f'.2.2.id = f.2.2.id := by
        have := congrArg (fun f : Flow => f.2.2.id) h.1
        exact this
      rw [pyFind, pyFind, hid]
      cases f.2.2.id with
      | none => rfl
      | some j =>
        simp only [need, bind, Except.bind, pure, Except.pure]
        split
        · simp [Except.map, h.1]
        · exact ih fs' h.2

theorem SameBut.flowAttrs {d d' : Diagram} (h : SameBut d d') (i : String) :
    (flowAttrs d' i).map bareAttrs = (flowAttrs d i).map bareAttrs := by
  have := flowAttrs_pyFind d.getFlows d'.getFlows h.flows i
  unfold Layouter.flowAttrs Diagram.getFlowById
  simp only [Diagram.getFlows] at this
  revert this
  generalize pyFind _ d'.graph.flows = a
  generalize pyFind _ d.graph.flows = b
  intro this
  cases a with
  | error e =>
    cases b with
    | error e' => simpa [Except.map, bind, Except.bind] using this
    | ok y => simp [Except.map] at this
  | ok x =>
    cases b with
    | error e' => simp [Except.map] at this
    | ok y =>
      simp only [Except.map, Except.ok.injEq] at this
      cases x with
      | none =>
        cases y with
        | none => rfl
        | some _ => simp at this
      | some f =>
        cases y with
        | none => simp at this
        | some g =>
          simp only [Option.map_some, Option.some.injEq] at this
          have := congrArg (fun f : Flow => f.2.2) this
          simpa [Except.map, bind, Except.bind, pure, Except.pure, bareFlow] using this

theorem SameBut.source {d d' : Diagram} (h : SameBut d d') : flowSource d' = flowSource d := by
  funext i
  have := h.flowAttrs i
  unfold flowSource
  revert this
  generalize Layouter.flowAttrs d' i = a
  generalize Layouter.flowAttrs d i = b
  intro this
  cases a <;> cases b <;> simp [Except.map] at this
  · rw [this]
  · simp only [bind, Except.bind]
    congr 1
    have := congrArg EdgeAttrs.sourceRef this
    exact this

theorem SameBut.target {d d' : Diagram} (h : SameBut d d') : flowTarget d' = flowTarget d := by
  funext i
  have := h.flowAttrs i
  unfold flowTarget
  revert this
  generalize Layouter.flowAttrs d' i = a
  generalize Layouter.flowAttrs d i = b
  intro this
  cases a <;> cases b <;> simp [Except.map] at this
  · rw [this]
  · simp only [bind, Except.bind]
    congr 1
    have := congrArg EdgeAttrs.targetRef this
    exact this

/-! ### The loops depend on sources and targets only -/

section congr
variable {d' : Diagram} (hs : flowSource d' = flowSource d) (ht : flowTarget d' = flowTarget d)
include hs ht

theorem releaseTargets_congr (is tmp) : releaseTargets d' is tmp = releaseTargets d is tmp := by
  induction is generalizing tmp with
  | nil => rfl
  | cons i r ih => simp only [releaseTargets, ht, ih]

theorem takeNode_congr (all x tmp sorted) : takeNode d' all x tmp sorted = takeNode d all x tmp sorted := by
  simp only [takeNode, releaseTargets_congr hs ht]

theorem takeNodes_congr (all xs tmp sorted) : takeNodes d' all xs tmp sorted = takeNodes d all xs tmp sorted := by
  induction xs generalizing tmp sorted with
  | nil => rfl
  | cons i r ih => simp only [takeNodes, takeNode_congr hs ht, ih]

theorem cutFlows_congr (is tmp back) : cutFlows d' is tmp back = cutFlows d is tmp back := by
  induction is generalizing tmp back with
  | nil => rfl
  | cons i r ih => simp only [cutFlows, hs, ht, ih]

theorem cutJoins_congr (ks tmp back) : cutJoins d' ks tmp back = cutJoins d ks tmp back := by
  induction ks generalizing tmp back with
  | nil => rfl
  | cons i r ih => simp only [cutJoins, cutFlows_congr hs ht, ih]

theorem sortLoop_congr (all fuel tmp sorted back) : sortLoop d' all fuel tmp sorted back = sortLoop d all fuel tmp sorted back := by
  induction fuel generalizing tmp sorted back with
  | zero => rfl
  | succ fuel ih => simp only [sortLoop, takeNodes_congr hs ht, cutJoins_congr hs ht, ih]

theorem placeSelf_congr (x p enf) : placeSelf d' x p enf = placeSelf d x p enf := by simp only [placeSelf, hs]

theorem placeElement_congr (fuel x p enf) : placeElement d' fuel x p enf = placeElement d fuel x p enf := by
  induction fuel generalizing x p enf with
  | zero => rfl
  | succ fuel ih =>
    have : placeElement d' fuel = placeElement d fuel := by funext x p enf; exact ih x p enf
    simp only [placeElement, placeSelf_congr hs ht, ht, this]

theorem gridLoop_congr (fuel n p) : gridLoop d' fuel n p = gridLoop d fuel n p := by
  induction n generalizing p with
  | zero => rfl
  | succ n ih => simp only [gridLoop, placeElement_congr hs ht, ih]

end congr

theorem pyFilter_bare (q : NodeAttrs → Py Bool) (hq : ∀ a, q { a with x := none, y := none } = q a) (l : List Node) :
    (pyFilter (fun n : Node => q n.2) l).map (List.map bareNode) = pyFilter (fun n : Node => q n.2) (l.map bareNode) := by
  induction l with
  | nil => rfl
  | cons n l ih =>
    rw [pyFilter, List.map_cons, pyFilter, ← ih]
    simp only [bareNode, hq]
    cases q n.2 with
    | error e => rfl
    | ok b =>
      simp only [bind, Except.bind]
      cases pyFilter (fun n : Node => q n.2) l with
      | error e => rfl
      | ok r => cases b <;> rfl

theorem classifyElements_bare (labels : List String) (l : List Node) :
    classifyElements labels (l.map bareNode) = classifyElements labels l := by
  induction l with
  | nil => rfl
  | cons n l ih => simp only [List.map_cons, classifyElements, ih]; rfl

theorem SameBut.elementsLoop {d d' : Diagram} (h : SameBut d d') (ts : List (String × List String)) :
    elementsLoop d' ts = elementsLoop d ts := by
  induction ts with
  | nil => rfl
  | cons t r ih =>
    obtain ⟨ty, labels⟩ := t
    rw [Classify.elementsLoop, Classify.elementsLoop, ih]
    have key : (d'.getNodesOfType (some ty)).map (List.map bareNode) = (d.getNodesOfType (some ty)).map (List.map bareNode) := by
      unfold Diagram.getNodesOfType
      split
      · simp only [Except.map, h.nodes]
      · rw [pyFilter_bare (fun a => do let t ← need a.type; pure (some t == some ty)) (fun _ => rfl),
          pyFilter_bare (fun a => do let t ← need a.type; pure (some t == some ty)) (fun _ => rfl), h.nodes]
    revert key
    generalize d'.getNodesOfType (some ty) = a
    generalize d.getNodesOfType (some ty) = b
    intro key
    cases a <;> cases b <;> simp [Except.map] at key
    · rw [key]
    · rename_i x y
      simp only [bind, Except.bind]
      rw [← classifyElements_bare labels x, key, classifyElements_bare]

end Bpmn.Layouter

import Verif.Lemmas.Structured
import Verif.Props.CsvFlat
import Verif.Spec.FlatProcess
/-! Flat processes: their table, and their nodes and flows. -/
set_option linter.unusedSimpArgs false
set_option linter.unusedVariables false

namespace Bpmn.Csv
open Bpmn.Spec Bpmn.Spec.Csv

/-- The text of the row of a node. -/
def cellOf (n : Node) (c : String) : Cell := ⟨(caption n).1, c, "", (caption n).2.1⟩

def legCells (d : Diagram) (s : Node) (i : String) (leg : FlatLeg) : Leg :=
  ⟨leg.steps.mapIdx fun m n => cellOf n (if m = 0 then splitCondition d s i else ""), leg.stops⟩

def itemOf (d : Diagram) : FlatPart → Item
  | .step n => .step (cellOf n "")
  | .block s legs j => .block (legs.mapIdx fun a leg => legCells d s ((outs s)[a]?.getD "") leg)

/-- The table of a flat process. -/
def tableOf (d : Diagram) (p : FlatProcess) : FlatTable := ⟨cellOf p.first "", p.parts.map (itemOf d), cellOf p.last ""⟩

/-! ## The rows -/

theorem row_activity {n : Node} (h : IsActivity n) (P : List Char) (o : Nat) (c : String) :
    nodeRow n (String.ofList P ++ toString o) c = [(cellOf n c).row (P ++ decimal o) false] := by
  have hr : HasRow n := by rcases h with h | h <;> simp [HasRow, h]
  have ht : (caption n).2.2 = "" := by rcases h with h | h <;> simp [caption, h]
  rw [nodeRow, if_pos hr, ht, Cell.row, String.ofList_append, name_str]
  rfl

theorem row_end' {n : Node} (h : n.2.type = some "endEvent") (P : List Char) (o : Nat) (c : String) :
    nodeRow n (String.ofList P ++ toString o) c = [(cellOf n c).row (P ++ decimal o) true] := by
  have hr : HasRow n := by simp [HasRow, h]
  have ht : (caption n).2.2 = "yes" := by simp [caption, h]
  rw [nodeRow, if_pos hr, ht, Cell.row, String.ofList_append, name_str]
  rfl

theorem row_start {n : Node} (h : n.2.type = some "startEvent") (c : String) : nodeRow n ("" ++ toString 0) c = [(cellOf n c).row (decimal 0) false] := by
  have hr : HasRow n := by simp [HasRow, h]
  have ht : (caption n).2.2 = "" := by simp [caption, h]
  rw [nodeRow, if_pos hr, ht, Cell.row, name_str]
  rfl

theorem gateway_silent {n : Node} (h : IsGateway n) : ¬HasRow n ∧ ¬IsActivity n := by
  simp only [IsGateway, List.mem_cons, List.not_mem_nil, or_false] at h
  rcases h with h | h | h | h | h <;> simp [HasRow, IsActivity, h]

theorem leg_table {d : Diagram} {stops : Bool} {P : List Char} : ∀ (steps : List Node) (o : Nat) (c : String),
    (∀ (m : Nat) (n : Node), steps[m]? = some n → if stops = true ∧ m + 1 = steps.length then n.2.type = some "endEvent" else IsActivity n) →
    (legStrand stops steps).table d false (String.ofList P) o c =
      steps.mapIdx fun m n => (cellOf n (if m = 0 then c else "")).row (P ++ decimal (o + m)) (stops && decide (m + 1 = steps.length))
  | [], o, c, _ => rfl
  | [n], o, c, h => by
    have := h 0 n rfl
    cases stops with
    | true =>
      simp at this
      rw [legStrand, if_pos rfl, Strand.table, row_end' this]
      simp
    | false =>
      simp at this
      rw [legStrand, if_neg (by simp), Strand.table, if_neg (by simp), row_activity this]
      simp [Strand.table]
  | n :: m :: r, o, c, h => by
    have h0 := h 0 n rfl
    simp at h0
    have ih := leg_table (d := d) (stops := stops) (P := P) (m :: r) (o + 1) "" (by
      intro a b e
      have := h (a + 1) b (by simpa using e)
      simpa using this)
    rw [legStrand, Strand.table, if_neg (by simp), ih, row_activity h0, List.singleton_append]
    conv_rhs => rw [List.mapIdx_cons]
    refine congrArg₂ List.cons ?_ ?_
    · simp
    · have e : ∀ i, o + 1 + i = o + (i + 1) := fun i => by omega
      have e3 : (fun (a : Nat) (b : Node) => (cellOf b (if a = 0 then "" else "")).row (P ++ decimal (o + 1 + a)) (stops && decide (a + 1 = (m :: r).length))) =
          fun (a : Nat) (b : Node) => (cellOf b (if a + 1 = 0 then c else "")).row (P ++ decimal (o + (a + 1))) (stops && decide (a + 1 + 1 = (n :: m :: r).length)) := by
        funext a b
        simp [e]
      rw [e3]

theorem legs_table {d : Diagram} {s : Node} {P : List Char} {o : Nat} : ∀ (legs : List FlatLeg) (fs : List String) (k : Nat), fs.length = legs.length →
    (∀ leg ∈ legs, leg.steps ≠ [] ∧ ∀ (m : Nat) (n : Node), leg.steps[m]? = some n → if leg.stops = true ∧ m + 1 = leg.steps.length then n.2.type = some "endEvent" else IsActivity n) →
    (legBranches legs).table d s (String.ofList P) o fs k =
      (legs.mapIdx fun a leg => legRows (P ++ decimal o ++ [letter (k + a)]) (legCells d s (fs[a]?.getD "") leg)).flatten
  | [], fs, k, _, _ => by simp [legBranches, Branches.table]
  | leg :: r, [], k, hl, _ => by simp at hl
  | leg :: r, i :: fs, k, hl, h => by
    obtain ⟨h1, h2⟩ := h leg (by simp)
    have ih := legs_table (d := d) (s := s) (P := P) (o := o) r fs (k + 1) (by simpa using hl) fun l hl => h l (List.mem_cons_of_mem _ hl)
    have hm : ¬(legStrand leg.stops leg.steps).IsMeet := by
      match hs : leg.steps, h1 with
      | [n], _ => rw [legStrand]; split <;> simp [Strand.IsMeet]
      | n :: m :: r, _ => simp [legStrand, Strand.IsMeet]
    have e : String.ofList P ++ toString o ++ String.ofList [letter k] = String.ofList (P ++ decimal o ++ [letter k]) := by
      rw [String.ofList_append, String.ofList_append, name_str]
    rw [legBranches, cons_table hm, ih, e, leg_table _ _ _ h2, List.mapIdx_cons, List.flatten_cons]
    congr 1
    · simp only [legRows, legCells, List.mapIdx_mapIdx, Nat.add_zero, List.length_mapIdx, List.getElem?_cons_zero, Option.getD_some]
      simp [Function.comp_def, Nat.add_comm]
    · have e2 : ∀ a, k + 1 + a = k + (a + 1) := fun a => by omega
      simp [e2]

theorem parts_table {d : Diagram} {last : Node} : ∀ (parts : List FlatPart) (k : Nat), last.2.type = some "endEvent" → (∀ n, FlatPart.step n ∈ parts → IsActivity n) →
    (∀ s legs j, FlatPart.block s legs j ∈ parts → IsGateway s ∧ IsGateway j ∧ (outs s).length = legs.length ∧ ∀ leg ∈ legs, leg.steps ≠ [] ∧
      ∀ (m : Nat) (n : Node), leg.steps[m]? = some n → if leg.stops = true ∧ m + 1 = leg.steps.length then n.2.type = some "endEvent" else IsActivity n) →
    (partsStrand last parts).table d false "" k "" =
      linesFrom k (parts.map (itemOf d)) ++ [(cellOf last "").row (decimal (k + parts.length)) true]
  | [], k, h, _, _ => by
    have := row_end' h [] k ""
    simpa [partsStrand, Strand.table, linesFrom] using this
  | .step n :: r, k, h, h1, h2 => by
    have ih := parts_table (d := d) r (k + 1) h (fun n hn => h1 n (List.mem_cons_of_mem _ hn)) fun s l j hn => h2 s l j (List.mem_cons_of_mem _ hn)
    have := row_activity (h1 n (by simp)) [] k ""
    rw [partsStrand, Strand.table, if_neg (by simp), ih, show ("" : String) = String.ofList [] from rfl, this, List.map_cons, itemOf, linesFrom, itemRows]
    simp [Nat.add_comm, Nat.add_left_comm]
  | .block s legs j :: r, k, h, h1, h2 => by
    have ih := parts_table (d := d) r (k + 1) h (fun n hn => h1 n (List.mem_cons_of_mem _ hn)) fun s l j hn => h2 s l j (List.mem_cons_of_mem _ hn)
    obtain ⟨g1, g2, g3, g4⟩ := h2 s legs j (by simp)
    have gs : nodeRow s ("" ++ toString k) "" = [] := by rw [nodeRow, if_neg (gateway_silent g1).1]
    have hl := legs_table (d := d) (s := s) (P := []) (o := k) legs (outs s) 0 g3 g4
    rw [partsStrand, Strand.table, Strand.table, if_pos ⟨rfl, (gateway_silent g2).2⟩, ih, gs, show ("" : String) = String.ofList [] from rfl, hl, List.map_cons, itemOf, linesFrom, itemRows]
    simp [Nat.add_comm, Nat.add_left_comm, List.mapIdx_mapIdx, Function.comp_def]

/-! ## The places of the nodes -/

/-- The node at a place. -/
inductive Place (p : FlatProcess) : Id → Node → Prop where
  | first : Place p (.row (.main 0)) p.first
  | step {k : Nat} {n : Node} : p.parts[k]? = some (.step n) → Place p (.row (.main (k + 1))) n
  | split {k : Nat} {s j : Node} {legs : List FlatLeg} : p.parts[k]? = some (.block s legs j) → Place p (.split k) s
  | inside {k i m : Nat} {s j n : Node} {legs : List FlatLeg} {leg : FlatLeg} : p.parts[k]? = some (.block s legs j) → legs[i]? = some leg →
      leg.steps[m]? = some n → Place p (.row (.leg (k + 1) i (m + 1))) n
  | join {k : Nat} {s j : Node} {legs : List FlatLeg} : p.parts[k]? = some (.block s legs j) → Place p (.join (k + 2)) j
  | last : Place p (.row (.main (p.parts.length + 1))) p.last

theorem at_iff {p : FlatProcess} {n : Node} {a : String} : p.At n a ↔ ∃ x, Place p x n ∧ a = x.name := by
  constructor
  · intro h
    cases h with
    | first => exact ⟨_, .first, (main_str 0).symm⟩
    | step h => exact ⟨_, .step h, (main_str _).symm⟩
    | split h => exact ⟨_, .split h, (split_str _).symm⟩
    | inside h1 h2 h3 => exact ⟨_, .inside h1 h2 h3, rfl⟩
    | join h => exact ⟨_, .join h, (join_str _).symm⟩
    | last => exact ⟨_, .last, (main_str _).symm⟩
  · rintro ⟨x, h, rfl⟩
    cases h with
    | first => rw [main_str]; exact .first
    | step h => rw [main_str]; exact .step h
    | split h => rw [split_str]; exact .split h
    | inside h1 h2 h3 => exact .inside h1 h2 h3
    | join h => rw [join_str]; exact .join h
    | last => rw [main_str]; exact .last

theorem Place.fun {p : FlatProcess} {x : Id} {n m : Node} (h : Place p x n) (h' : Place p x m) : n = m := by
  cases h with
  | first => cases h'; rfl
  | step h =>
    cases h' with
    | step h' => rw [h] at h'; cases h'; rfl
    | last => simp at h
  | split h => cases h' with | split h' => rw [h] at h'; cases h'; rfl
  | inside h1 h2 h3 =>
    cases h' with
    | inside g1 g2 g3 =>
      rw [h1] at g1; cases g1
      rw [h2] at g2; cases g2
      rw [h3] at g3; cases g3; rfl
  | join h => cases h' with | join h' => rw [h] at h'; cases h'; rfl
  | last =>
    cases h' with
    | step h => simp at h
    | last => rfl

def partPlaces (k : Nat) : FlatPart → List (Id × Node)
  | .step n => [(.row (.main (k + 1)), n)]
  | .block s legs j => (.split k, s) :: ((legs.mapIdx fun i leg => leg.steps.mapIdx fun m n => (Id.row (.leg (k + 1) i (m + 1)), n)).flatten ++ [(.join (k + 2), j)])

/-- All places and their nodes. -/
def places (p : FlatProcess) : List (Id × Node) :=
  (.row (.main 0), p.first) :: ((p.parts.mapIdx partPlaces).flatten ++ [(.row (.main (p.parts.length + 1)), p.last)])

theorem mem_places {p : FlatProcess} {x : Id} {n : Node} : (x, n) ∈ places p ↔ Place p x n := by
  constructor
  · intro h
    simp only [places, List.mem_cons, List.mem_append, List.mem_flatten, List.mem_mapIdx, List.not_mem_nil, or_false] at h
    rcases h with h | ⟨l, ⟨k, hk, rfl⟩, h⟩ | h
    · cases h; exact .first
    · have hk' := List.getElem?_eq_getElem hk
      cases e : p.parts[k] with
      | step m =>
        rw [e] at h hk'
        simp only [partPlaces, List.mem_singleton] at h
        cases h
        exact .step hk'
      | block s legs j =>
        rw [e] at h hk'
        simp only [partPlaces, List.mem_cons, List.mem_append, List.mem_flatten, List.mem_mapIdx, List.not_mem_nil, or_false] at h
        rcases h with h | ⟨l, ⟨i, hi, rfl⟩, h⟩ | h
        · cases h; exact .split hk'
        · rw [List.mem_mapIdx] at h
          obtain ⟨m, hm, h⟩ := h
          cases h
          exact .inside hk' (List.getElem?_eq_getElem hi) (List.getElem?_eq_getElem hm)
        · cases h; exact .join hk'
    · cases h; exact .last
  · intro h
    have part : ∀ {k : Nat} {q : FlatPart} {z : Id × Node}, p.parts[k]? = some q → z ∈ partPlaces k q → z ∈ places p := by
      intro k q z hq hz
      obtain ⟨hk, rfl⟩ := List.getElem?_eq_some_iff.1 hq
      simp only [places, List.mem_cons, List.mem_append, List.mem_flatten, List.mem_mapIdx]
      exact .inr (.inl ⟨_, ⟨k, hk, rfl⟩, hz⟩)
    cases h with
    | first => simp [places]
    | step h => exact part h (by simp [partPlaces])
    | split h => exact part h (by simp [partPlaces])
    | @inside k i m s j n legs leg h1 h2 h3 =>
      refine part h1 ?_
      simp only [partPlaces, List.mem_cons, List.mem_append, List.mem_flatten, List.mem_mapIdx]
      obtain ⟨hi, rfl⟩ := List.getElem?_eq_some_iff.1 h2
      obtain ⟨hm, rfl⟩ := List.getElem?_eq_some_iff.1 h3
      exact .inr (.inl ⟨_, ⟨i, hi, rfl⟩, by rw [List.mem_mapIdx]; exact ⟨m, hm, rfl⟩⟩)
    | join h => exact part h (by simp [partPlaces])
    | last => simp [places]

theorem legStrand_nodes {stops : Bool} : ∀ steps : List Node, (legStrand stops steps).nodes = steps
  | [] => rfl
  | [n] => by rw [legStrand]; split <;> rfl
  | n :: m :: r => by rw [legStrand, Strand.nodes, legStrand_nodes (m :: r)]

theorem legBranches_nodes : ∀ legs : List FlatLeg, (legBranches legs).nodes = (legs.map (·.steps)).flatten
  | [] => rfl
  | leg :: r => by rw [legBranches, Branches.nodes, legStrand_nodes, legBranches_nodes r, List.map_cons, List.flatten_cons]

theorem mapIdx_const {α β : Type} (f : α → β) (l : List α) : (l.mapIdx fun _ a => f a) = l.map f := by
  induction l with
  | nil => rfl
  | cons a r ih => simp [List.mapIdx_cons, ih]

theorem partPlaces_nodes (k : Nat) (q : FlatPart) : (partPlaces k q).map (·.2) = match q with | .step n => [n] | .block s legs j => s :: ((legs.map (·.steps)).flatten ++ [j]) := by
  cases q with
  | step n => rfl
  | block s legs j =>
    simp only [partPlaces, List.map_cons, List.map_append, List.map_flatten, List.map_nil, map_mapIdx_list, Function.comp_def]
    congr 3
    have e : (fun (_ : Nat) (leg : FlatLeg) => leg.steps.mapIdx fun (_ : Nat) (n : Node) => n) = fun _ leg => leg.steps := by
      funext _ leg
      rw [mapIdx_const (fun n => n), List.map_id']
    rw [e, mapIdx_const]

theorem partsStrand_nodes {last : Node} : ∀ (parts : List FlatPart) (f : Nat → Nat), (partsStrand last parts).nodes =
    ((parts.mapIdx fun k q => partPlaces (f k) q).flatten.map (·.2)) ++ [last]
  | [], _ => rfl
  | .step n :: r, f => by
    rw [partsStrand, Strand.nodes, partsStrand_nodes r (fun k => f (k + 1)), List.mapIdx_cons, List.flatten_cons, List.map_append, partPlaces_nodes]
    rfl
  | .block s legs j :: r, f => by
    rw [partsStrand, Strand.nodes, Strand.nodes, legBranches_nodes, partsStrand_nodes r (fun k => f (k + 1)), List.mapIdx_cons, List.flatten_cons, List.map_append, partPlaces_nodes]
    simp

theorem places_nodes (p : FlatProcess) : (places p).map (·.2) = p.strand.nodes := by
  rw [FlatProcess.strand, Strand.nodes, partsStrand_nodes p.parts id, places]
  simp

/-! ## The flows -/

theorem parts_fit {d : Diagram} {last : Node} : ∀ (parts : List FlatPart) (b : Bool), (partsStrand last parts).Fits d b none → ∀ k : Nat,
    (∀ n, parts[k]? = some (.step n) → ∃ i, outs n = [i] ∧ LeadsTo d i ((partsStrand last (parts.drop (k + 1))).first none)) ∧
    (∀ s legs j, parts[k]? = some (.block s legs j) → IsSplit s ∧ (legBranches legs).Fit d (some j) (outs s) ∧
      ∃ i, outs j = [i] ∧ LeadsTo d i ((partsStrand last (parts.drop (k + 1))).first none)) ∧ outs last = []
  | [], b, h, k => by
    refine ⟨by simp, by simp, h.2.2.1⟩
  | .step n :: r, b, h, 0 => by
    obtain ⟨-, -, -, h1, h2, -⟩ := h
    refine ⟨?_, by simp, (parts_fit r _ h2 0).2.2⟩
    intro m e
    simp at e
    subst e
    exact h1
  | .step n :: r, b, h, k + 1 => by
    obtain ⟨-, -, -, h1, h2, -⟩ := h
    simpa using parts_fit r _ h2 k
  | .block s legs j :: r, b, h, 0 => by
    obtain ⟨-, -, h1, -, h2, -, h3⟩ := h
    obtain ⟨-, -, -, h4, h5, -⟩ := h3
    refine ⟨by simp, ?_, (parts_fit r _ h5 0).2.2⟩
    intro s' legs' j' e
    simp at e
    obtain ⟨rfl, rfl, rfl⟩ := e
    exact ⟨h1, h2, h4⟩
  | .block s legs j :: r, b, h, k + 1 => by
    obtain ⟨-, -, h1, -, h2, -, h3⟩ := h
    obtain ⟨-, -, -, h4, h5, -⟩ := h3
    simpa using parts_fit r _ h5 k

theorem legs_fit {d : Diagram} {j : Node} : ∀ (legs : List FlatLeg) (fs : List String), (legBranches legs).Fit d (some j) fs → fs.length = legs.length ∧
    ∀ (i : Nat) (leg : FlatLeg), legs[i]? = some leg → ∃ f, fs[i]? = some f ∧ LeadsTo d f ((legStrand leg.stops leg.steps).first (some j)) ∧ (legStrand leg.stops leg.steps).Fits d false (some j)
  | [], fs, h => by
    have : fs = [] := h
    subst this
    simp
  | leg :: r, fs, h => by
    obtain ⟨i, gs, rfl, h1, h2, h3⟩ := h
    obtain ⟨e, ih⟩ := legs_fit r gs h3
    refine ⟨by simp [e], ?_⟩
    intro a l hl
    cases a with
    | zero => simp at hl; subst hl; exact ⟨i, by simp, h1, h2⟩
    | succ a => simpa using ih a l (by simpa using hl)

theorem leg_fit {d : Diagram} {stops : Bool} {j : Node} : ∀ (steps : List Node), (legStrand stops steps).Fits d false (some j) → ∀ (m : Nat) (n : Node), steps[m]? = some n →
    (m + 1 < steps.length → ∃ i, outs n = [i] ∧ LeadsTo d i steps[m + 1]?) ∧
    (m + 1 = steps.length → if stops then outs n = [] else ∃ i, outs n = [i] ∧ LeadsTo d i (some j))
  | [], _, m, n, h => by simp at h
  | [a], h, m, n, hm => by
    cases m with
    | succ m => simp at hm
    | zero =>
      simp at hm
      subst hm
      refine ⟨by simp, fun _ => ?_⟩
      rw [legStrand] at h
      cases stops with
      | true => exact h.2.2.1
      | false => exact h.2.2.2.1
  | a :: b :: r, h, m, n, hm => by
    rw [legStrand] at h
    obtain ⟨-, -, -, h1, h2, -⟩ := h
    cases m with
    | zero =>
      simp at hm
      subst hm
      refine ⟨fun _ => ?_, by simp⟩
      have e : (legStrand stops (b :: r)).first (some j) = some b := by
        cases r with
        | nil => rw [legStrand]; split <;> rfl
        | cons c r => rfl
      simpa [e] using h1
    | succ m =>
      simpa using leg_fit (b :: r) h2 m n (by simpa using hm)

section
variable {d : Diagram} {p : FlatProcess} (f : p.Flat d) (c : Consistent d)
include f

theorem FlatP.block_in {k : Nat} {legs : List Leg} : (tableOf d p).items[k]? = some (.block legs) ↔ ∃ s ls j, p.parts[k]? = some (.block s ls j) ∧
    legs = ls.mapIdx fun a leg => legCells d s ((outs s)[a]?.getD "") leg := by
  simp only [tableOf, List.getElem?_map, Option.map_eq_some_iff]
  constructor
  · rintro ⟨q, h1, h2⟩
    cases q with
    | step n => simp [itemOf] at h2
    | block s ls j => simp only [itemOf, Item.block.injEq] at h2; exact ⟨s, ls, j, h1, h2.symm⟩
  · rintro ⟨s, ls, j, h1, rfl⟩
    exact ⟨_, h1, rfl⟩

theorem FlatP.fit : (partsStrand p.last p.parts).Fits d false none := f.structured.fits.2.2.2.2.1

theorem FlatP.cell_of {q : Pos} {n : Node} (h : Place p (.row q) n) : ∃ cond, cell (tableOf d p) q = some (cellOf n cond, decide (n.2.type = some "endEvent")) ∧ HasRow n := by
  have act : ∀ {n : Node}, IsActivity n → decide (n.2.type = some "endEvent") = false ∧ HasRow n := by
    intro n h
    rcases h with h | h <;> simp [HasRow, h]
  cases h with
  | first => exact ⟨"", by simp [cell, tableOf, f.begins], by simp [HasRow, f.begins]⟩
  | @step k n h =>
    obtain ⟨a, b⟩ := act (f.steps n (List.mem_of_getElem? h))
    have hk := (List.getElem?_eq_some_iff.1 h).1
    refine ⟨"", ?_, b⟩
    rw [a, cell, if_neg (by simp only [tableOf, List.length_map]; omega)]
    simp [tableOf, h, itemOf]
  | @inside k i m s j n legs leg h1 h2 h3 =>
    have hi := f.inside s legs j (List.mem_of_getElem? h1) leg (List.mem_of_getElem? h2) m n h3
    have e : decide (n.2.type = some "endEvent") = (leg.stops && decide (m + 1 = leg.steps.length)) := by
      split at hi
      · rename_i e; simp [hi, e]
      · rename_i e
        rw [(act hi).1]
        symm
        simpa using e
    refine ⟨if m = 0 then splitCondition d s ((outs s)[i]?.getD "") else "", ?_, ?_⟩
    · rw [e]
      simp [cell, tableOf, h1, itemOf, h2, h3, legCells]
    · split at hi
      · simp [HasRow, hi]
      · exact (act hi).2
  | last =>
    refine ⟨"", ?_, by simp [HasRow, f.ends]⟩
    rw [cell, if_pos (by simp [tableOf])]
    simp [tableOf, f.ends]

theorem FlatP.place_of {q : Pos} (h : (cell (tableOf d p) q).isSome = true) : ∃ n, Place p (.row q) n := by
  obtain ⟨⟨c, b⟩, h⟩ := Option.isSome_iff_exists.1 h
  cases q with
  | main k =>
    cases k with
    | zero => exact ⟨_, .first⟩
    | succ k =>
      by_cases e : k = p.parts.length
      · subst e; exact ⟨_, .last⟩
      · rw [cell, if_neg (by simpa [tableOf] using e)] at h
        split at h
        · rename_i c' hc
          simp only [tableOf, List.getElem?_map, Option.map_eq_some_iff] at hc
          obtain ⟨q, h1, h2⟩ := hc
          cases q with
          | step n => exact ⟨n, .step h1⟩
          | block s ls j => simp [itemOf] at h2
        · cases h
  | leg k i m =>
    obtain ⟨k, m, legs, leg, rfl, rfl, h1, h2, h3, -⟩ := cell_leg h
    obtain ⟨s, ls, j, g1, rfl⟩ := (FlatP.block_in f).1 h1
    simp only [List.getElem?_mapIdx, Option.map_eq_some_iff] at h2
    obtain ⟨l, g2, rfl⟩ := h2
    simp only [legCells, List.getElem?_mapIdx, Option.map_eq_some_iff] at h3
    obtain ⟨n, g3, -⟩ := h3
    exact ⟨n, .inside g1 g2 g3⟩

theorem FlatP.mem {x : Id} {n : Node} (h : Place p x n) : n ∈ d.getNodes := by
  rw [← f.structured.nodes.mem_iff, ← places_nodes]
  exact List.mem_map.2 ⟨_, mem_places.2 h, rfl⟩

theorem FlatP.place {n : Node} (h : n ∈ d.getNodes) : ∃ x, Place p x n := by
  rw [← f.structured.nodes.mem_iff, ← places_nodes] at h
  obtain ⟨⟨x, m⟩, h1, rfl⟩ := List.mem_map.1 h
  exact ⟨x, mem_places.1 h1⟩

theorem FlatP.place_inj (c : Consistent d) {x y : Id} {n : Node} (h : Place p x n) (h' : Place p y n) : x = y := by
  have nd : ((places p).map (·.2)).Nodup := by
    rw [places_nodes]
    exact f.structured.nodes.nodup_iff.2 (c.ids.of_map _)
  have := List.inj_on_of_nodup_map nd (mem_places.2 h) (mem_places.2 h') rfl
  exact congrArg (·.1) this

omit f in
theorem filter_mapIdx {α β : Type} {q : α → Bool} {r : β → Bool} : ∀ (l : List α) (g : Nat → α → β), (∀ i a, r (g i a) = q a) → ((l.mapIdx g).filter r).length = (l.filter q).length
  | [], g, h => rfl
  | a :: l, g, h => by
    rw [List.mapIdx_cons, List.filter_cons, List.filter_cons, h]
    have := filter_mapIdx (q := q) (r := r) l (fun i => g (i + 1)) fun i a => h _ _
    split <;> simp [this]

theorem FlatP.good : (tableOf d p).Good := by
  have split : ∀ {legs}, Item.block legs ∈ (tableOf d p).items → ∃ s ls j, FlatPart.block s ls j ∈ p.parts ∧ IsSplit s ∧ (outs s).length = ls.length ∧
      legs = ls.mapIdx fun a leg => legCells d s ((outs s)[a]?.getD "") leg := by
    intro legs h
    obtain ⟨k, hk⟩ := List.mem_iff_getElem?.1 h
    obtain ⟨s, ls, j, h1, h2⟩ := (FlatP.block_in f).1 hk
    obtain ⟨g1, g2, -⟩ := (parts_fit _ _ (FlatP.fit f) k).2.1 s ls j h1
    exact ⟨s, ls, j, List.mem_of_getElem? h1, g1, (legs_fit _ _ g2).1, h2⟩
  refine ⟨?_, ?_, ?_, ?_, ?_⟩
  · intro legs h
    obtain ⟨s, ls, j, h1, h2, h3, rfl⟩ := split h
    rw [List.length_mapIdx, ← h3]
    exact h2.2.2.2
  · intro legs h
    obtain ⟨s, ls, j, h1, h2, h3, rfl⟩ := split h
    rw [filter_mapIdx (q := fun l : FlatLeg => !l.stops) (r := fun l : Leg => !l.stops) ls (fun a leg => legCells d s ((outs s)[a]?.getD "") leg) (fun _ _ => rfl)]
    exact f.two s ls j h1
  · intro legs h leg hl
    obtain ⟨s, ls, j, h1, h2, h3, rfl⟩ := split h
    rw [List.mem_mapIdx] at hl
    obtain ⟨i, hi, rfl⟩ := hl
    simpa [legCells] using f.short s ls j h1 _ (List.getElem_mem hi)
  · intro i legs legs' h h'
    obtain ⟨s, ls, j, h1, -⟩ := (FlatP.block_in f).1 h
    obtain ⟨s', ls', j', h2, -⟩ := (FlatP.block_in f).1 h'
    exact f.apart i s ls j s' ls' j' h1 h2
  · intro r hr
    obtain ⟨q, c, b, h1, rfl⟩ := mem_rows.1 hr
    obtain ⟨n, hn⟩ := FlatP.place_of f (q := q) (by rw [h1]; rfl)
    obtain ⟨cond, h2, h3⟩ := FlatP.cell_of f hn
    rw [h1] at h2
    cases h2
    exact f.plain n (FlatP.mem f hn) h3

theorem FlatP.rows_eq : p.strand.table d false "" 0 "" = (tableOf d p).rows := by
  have := parts_table (d := d) (last := p.last) p.parts 1 f.ends f.steps fun s legs j h => by
    obtain ⟨k, hk⟩ := List.mem_iff_getElem?.1 h
    obtain ⟨g1, g2, -⟩ := (parts_fit _ _ (FlatP.fit f) k).2.1 s legs j hk
    refine ⟨(f.gateways s legs j h).1, (f.gateways s legs j h).2, (legs_fit _ _ g2).1, fun leg hl => ⟨?_, f.inside s legs j h leg hl⟩⟩
    have := (f.short s legs j h leg hl).1
    intro e
    simp [e] at this
  rw [FlatProcess.strand, Strand.table, if_neg (by simp), row_start f.begins, this, FlatTable.rows]
  simp [tableOf, Nat.add_comm]

theorem FlatP.head {k : Nat} (hk : k ≤ p.parts.length) : ∃ m, (partsStrand p.last (p.parts.drop k)).first none = some m ∧ Place p (nextId (tableOf d p) k) m := by
  by_cases e : k = p.parts.length
  · subst e
    refine ⟨p.last, by simp [partsStrand, Strand.first], ?_⟩
    have : nextId (tableOf d p) p.parts.length = .row (.main (p.parts.length + 1)) := by simp [nextId, tableOf]
    rw [this]
    exact .last
  · have hk : k < p.parts.length := by omega
    have hq := List.getElem?_eq_getElem hk
    rw [List.drop_eq_getElem_cons hk]
    cases h : p.parts[k] with
    | step n =>
      rw [h] at hq
      refine ⟨n, rfl, ?_⟩
      have : nextId (tableOf d p) k = .row (.main (k + 1)) := by simp [nextId, tableOf, hq, itemOf]
      rw [this]
      exact .step hq
    | block s legs j =>
      rw [h] at hq
      refine ⟨s, rfl, ?_⟩
      have : nextId (tableOf d p) k = .split k := by simp [nextId, tableOf, hq, itemOf]
      rw [this]
      exact .split hq

end

/-- The number of the branch that a link enters. -/
def branchOf : Id → Id → Nat
  | .split _, .row (.leg _ j _) => j
  | _, _ => 0

theorem leadsTo_same {d : Diagram} (c : Consistent d) {i : String} {n m : Node} (h : LeadsTo d i (some n)) (h' : LeadsTo d i (some m)) : n = m := by
  obtain ⟨n', hn, e, fl, h1, h2⟩ := h
  cases e
  obtain ⟨m', hm, e, fl', g1, g2⟩ := h'
  cases e
  rw [h1] at g1
  cases g1
  rw [h2] at g2
  exact List.inj_on_of_nodup_map c.ids hn hm (Option.some.inj g2)

theorem goes_one {d : Diagram} (c : Consistent d) {n q m : Node} {i : String} {a : Nat} (ho : outs n = [i]) (hl : LeadsTo d i (some q)) : Goes d n a m ↔ a = 0 ∧ m = q := by
  constructor
  · rintro ⟨i', hi, h⟩
    rw [ho] at hi
    cases a with
    | zero =>
      simp at hi
      subst hi
      exact ⟨rfl, leadsTo_same c h hl⟩
    | succ a => simp at hi
  · rintro ⟨rfl, rfl⟩
    exact ⟨i, by simp [ho], hl⟩

section
variable {d : Diagram} {p : FlatProcess} (f : p.Flat d) (c : Consistent d)
include f c

/-- The flows of the diagram are the links of its table. -/
theorem FlatP.goes_iff {x : Id} {n m : Node} {a : Nat} (h : Place p x n) : Goes d n a m ↔ ∃ y, Link (tableOf d p) x y ∧ a = branchOf x y ∧ Place p y m := by
  have g := FlatP.good f
  have fit := parts_fit _ _ (FlatP.fit f)
  have one : ∀ {i : String} {q : Node} {y : Id}, outs n = [i] → LeadsTo d i (some q) → Link (tableOf d p) x y → Place p y q →
      (∀ z, branchOf x z = 0) → (∀ z, Link (tableOf d p) x z → z = y) → (Goes d n a m ↔ ∃ y, Link (tableOf d p) x y ∧ a = branchOf x y ∧ Place p y m) := by
    intro i q y h1 h2 h3 h4 hb h5
    rw [goes_one c h1 h2]
    constructor
    · rintro ⟨rfl, rfl⟩; exact ⟨y, h3, (hb y).symm, h4⟩
    · rintro ⟨z, h6, h8, h7⟩
      rw [h5 z h6] at h7
      exact ⟨h8.trans (hb z), h7.fun h4⟩
  have stop : outs n = [] → (∀ z, ¬Link (tableOf d p) x z) → (Goes d n a m ↔ ∃ y, Link (tableOf d p) x y ∧ a = branchOf x y ∧ Place p y m) := by
    intro h1 h2
    constructor
    · rintro ⟨i, hi, -⟩; simp [h1] at hi
    · rintro ⟨z, hz, -⟩; exact absurd hz (h2 z)
  have line : ∀ {k : Nat} {i : String}, x = .row (.main k) → k ≤ p.parts.length → outs n = [i] → LeadsTo d i ((partsStrand p.last (p.parts.drop k)).first none) →
      n.2.type ≠ some "endEvent" → (Goes d n a m ↔ ∃ y, Link (tableOf d p) x y ∧ a = branchOf x y ∧ Place p y m) := by
    rintro k i rfl hk ho hl ht
    obtain ⟨q, hq, hp⟩ := FlatP.head f hk
    rw [hq] at hl
    obtain ⟨cond, hc, -⟩ := FlatP.cell_of f h
    have hx := next_link g (k := k) (c := cellOf n cond) (by rw [hc]; simp [ht])
    exact one ho hl hx hp (fun _ => rfl) fun z hz => Link.unique g hz hx
  cases h with
  | first =>
    obtain ⟨-, -, -, ⟨i, h1, h2⟩, -⟩ := f.structured.fits
    exact line rfl (by omega) h1 (by simpa using h2) (by simp [f.begins])
  | @step k n h =>
    obtain ⟨i, h1, h2⟩ := (fit k).1 n h
    have ht : n.2.type ≠ some "endEvent" := by rcases f.steps n (List.mem_of_getElem? h) with h | h <;> simp [h]
    have := (List.getElem?_eq_some_iff.1 h).1
    exact line rfl (by omega) h1 h2 ht
  | @split k s j legs h =>
    obtain ⟨hs, hf, -⟩ := (fit k).2.1 _ _ _ h
    obtain ⟨hl, hb⟩ := legs_fit _ _ hf
    have hi := (FlatP.block_in f).2 ⟨_, _, _, h, rfl⟩
    have first : ∀ {i : Nat} {leg : FlatLeg}, legs[i]? = some leg → ∃ q, leg.steps[0]? = some q ∧ (legStrand leg.stops leg.steps).first (some j) = some q := by
      intro i leg hi
      have := (f.short n legs j (List.mem_of_getElem? h) leg (List.mem_of_getElem? hi)).1
      match hs : leg.steps, this with
      | [n], _ => exact ⟨n, rfl, by rw [legStrand]; split <;> rfl⟩
      | n :: m :: r, _ => exact ⟨n, rfl, rfl⟩
    constructor
    · rintro ⟨i, ha, h2'⟩
      have hlt : a < legs.length := by rw [← hl]; exact (List.getElem?_eq_some_iff.1 ha).1
      have hg := List.getElem?_eq_getElem hlt
      obtain ⟨i', h1, h2, -⟩ := hb a _ hg
      rw [ha] at h1
      cases h1
      obtain ⟨q, h3, h4⟩ := first hg
      rw [h4] at h2
      cases leadsTo_same c h2 h2'
      exact ⟨_, Link.branch hi (by simpa using hlt), rfl, .inside h hg h3⟩
    · rintro ⟨y, hx, ha, hy⟩
      cases hx with
      | @branch _ b legs' h1 h2 =>
        have ha : a = b := ha
        subst ha
        cases hy with
        | @inside _ _ _ s' j' _ legs'' leg g1 g2 g3 =>
          rw [h] at g1
          cases g1
          obtain ⟨i', k1, k2, -⟩ := hb _ _ g2
          obtain ⟨q, h3, h4⟩ := first g2
          rw [h4] at k2
          rw [g3] at h3
          cases h3
          exact ⟨i', k1, k2⟩
  | @inside k i b s j n legs leg h1 h2 h3 =>
    obtain ⟨hs, hf, -⟩ := (fit k).2.1 _ _ _ h1
    obtain ⟨fl, -, -, hb⟩ := (legs_fit _ _ hf).2 i leg h2
    have hh := leg_fit _ hb b n h3
    have lt := (List.getElem?_eq_some_iff.1 h3).1
    obtain ⟨cond, hc, -⟩ := FlatP.cell_of f (.inside h1 h2 h3)
    by_cases hlt : b + 1 < leg.steps.length
    · obtain ⟨i', k1, k2⟩ := hh.1 hlt
      rw [List.getElem?_eq_getElem hlt] at k2
      have hp : Place p _ _ := .inside h1 h2 (List.getElem?_eq_getElem hlt)
      obtain ⟨cond', hc', -⟩ := FlatP.cell_of f hp
      have hx : Link (tableOf d p) (.row (.leg (k + 1) i (b + 1))) (.row (.leg (k + 1) i (b + 1 + 1))) := Link.inside (by rw [hc]; rfl) (by rw [hc']; rfl)
      exact one k1 k2 hx hp (fun _ => rfl) fun z hz => Link.unique g hz hx
    · have e : b + 1 = leg.steps.length := by omega
      have he := hh.2 e
      have hi := f.inside s legs j (List.mem_of_getElem? h1) leg (List.mem_of_getElem? h2) b n h3
      cases hst : leg.stops with
      | true =>
        simp only [hst, if_true] at he
        rw [if_pos ⟨hst, e⟩] at hi
        refine stop he fun z hz => ?_
        rw [hi] at hc
        exact hz.not_stop g (c := cellOf n cond) (by simpa using hc)
      | false =>
        simp only [hst, Bool.false_eq_true, if_false] at he
        obtain ⟨i', k1, k2⟩ := he
        have hx : Link (tableOf d p) (.row (.leg (k + 1) i (b + 1))) (.join (k + 2)) :=
          Link.close ((FlatP.block_in f).2 ⟨_, _, _, h1, rfl⟩) (leg := legCells d s ((outs s)[i]?.getD "") leg) (by simp [List.getElem?_mapIdx, h2]) hst (by simp [legCells, e])
        exact one k1 k2 hx (.join h1) (fun _ => rfl) fun z hz => Link.unique g hz hx
  | @join k s j legs h =>
    obtain ⟨-, -, i, h1, h2⟩ := (fit k).2.1 _ _ _ h
    have hk := (List.getElem?_eq_some_iff.1 h).1
    obtain ⟨q, hq, hp⟩ := FlatP.head f (k := k + 1) (by omega)
    rw [hq] at h2
    have hn : nextId (tableOf d p) (k + 1) = .row (.main (k + 2)) := by
      unfold nextId
      split
      · rename_i legs' e
        exact absurd e (g.apart k _ legs' ((FlatP.block_in f).2 ⟨_, _, _, h, rfl⟩))
      · rfl
    rw [hn] at hp
    exact one h1 h2 (Link.leave ((FlatP.block_in f).2 ⟨_, _, _, h, rfl⟩)) hp (fun _ => rfl) fun z hz => by cases hz; rfl
  | last =>
    refine stop (fit 0).2.2 fun z hz => ?_
    obtain ⟨cond, hc, -⟩ := FlatP.cell_of f (.last)
    rw [f.ends] at hc
    exact hz.not_stop g (c := cellOf p.last cond) (by simpa using hc)

omit c in
theorem FlatP.small {x : Id} {n : Node} (h : Place p x n) : x.Small := by
  cases x with
  | row q =>
    obtain ⟨cond, h1, -⟩ := FlatP.cell_of f h
    exact cell_small (FlatP.good f) (by rw [h1]; rfl)
  | split => trivial
  | join => trivial

end

/-- The flows of the imported diagram. -/
theorem Formed.goes {t : FlatTable} {d : Diagram} {F : List (String × String)} (m : Formed t d F) (g : t.Good) {x : Id} (hx : x.Small) {n q : Node} (hn : n ∈ d.getNodes)
    (e : n.1 = x.name) (a : Nat) : Goes d n a q ↔ ∃ y, Link t x y ∧ a = branchOf x y ∧ q ∈ d.getNodes ∧ q.1 = y.name := by
  have ho : outs n = leaving x.name F := by
    obtain ⟨-, e2, -⟩ := id_of_node m.inv hn
    rw [e2, m.out, e]
  have tgt : ∀ {y : Id}, Link t x y → (LeadsTo d (flowId x.name y.name) (some q) ↔ q ∈ d.getNodes ∧ q.1 = y.name) := by
    intro y hl
    obtain ⟨fl, w, hw, e1, e2, -⟩ := m.target g hl
    have hw' : LeadsTo d (flowId x.name y.name) (some w) := by
      refine ⟨w, hw, rfl, ?_⟩
      obtain ⟨f1, k1, e2⟩ := except_bind_eq_ok e2
      obtain ⟨f2, k2, e2⟩ := except_bind_eq_ok e2
      obtain ⟨v, k3, e2⟩ := except_bind_eq_ok e2
      simp only [except_pure, Except.ok.injEq, Prod.mk.injEq] at e2
      cases f1 with
      | none => simp [found] at k2
      | some f1 =>
        simp only [found, Except.ok.injEq] at k2
        subst k2
        refine ⟨f1, k1, ?_⟩
        have : w.1 = v := by
          have := e2.2
          rw [getNodeById_eq, Option.map_eq_some_iff] at this
          obtain ⟨_, -, rfl⟩ := this
          rfl
        rw [this]
        cases h : f1.2.2.targetRef with
        | none => rw [h] at k3; simp [need] at k3
        | some u => rw [h] at k3; simp [need] at k3; rw [k3]
    constructor
    · intro h
      cases leadsTo_same m.consistent h hw'
      exact ⟨hw, e1⟩
    · rintro ⟨h1, h2⟩
      rw [m.same h1 hw (h2.trans e1.symm)]
      exact hw'
  have one : ∀ {y : Id}, Link t x y → (∀ z, branchOf x z = 0) → (∀ z, Link t x z → z = y) → (Goes d n a q ↔ ∃ y, Link t x y ∧ a = branchOf x y ∧ q ∈ d.getNodes ∧ q.1 = y.name) := by
    intro y h1 h2 h3
    have h4 := m.one g h1 h3
    constructor
    · rintro ⟨i, hi, hl⟩
      rw [ho, h4] at hi
      cases a with
      | succ a => simp at hi
      | zero =>
        simp at hi
        subst hi
        exact ⟨y, h1, (h2 y).symm, (tgt h1).1 hl⟩
    · rintro ⟨z, g1, g2, g3⟩
      rw [h2] at g2
      subst g2
      cases h3 z g1
      exact ⟨_, by rw [ho, h4]; rfl, (tgt h1).2 g3⟩
  have none : (∀ z, ¬Link t x z) → (Goes d n a q ↔ ∃ y, Link t x y ∧ a = branchOf x y ∧ q ∈ d.getNodes ∧ q.1 = y.name) := by
    intro h
    constructor
    · rintro ⟨i, hi, -⟩
      obtain ⟨u, hu, -⟩ := mem_leaving.1 (ho ▸ List.mem_of_getElem? hi)
      obtain ⟨y, h1, -⟩ := m.link g hx hu
      exact absurd h1 (h y)
    · rintro ⟨z, g1, -⟩; exact absurd g1 (h z)
  by_cases hex : ∃ y, Link t x y
  · obtain ⟨y, hy⟩ := hex
    cases x with
    | row p => exact one hy (fun _ => rfl) fun z hz => Link.unique g hz hy
    | join k => exact one hy (fun _ => rfl) fun z hz => by cases hz; cases hy; rfl
    | split k =>
      cases hy with
      | @branch _ j legs hk hj =>
        have hf := m.fork k legs hk
        constructor
        · rintro ⟨i, hi, hl⟩
          rw [ho, hf, List.getElem?_map, Option.map_eq_some_iff] at hi
          obtain ⟨b, hb, rfl⟩ := hi
          obtain ⟨hb1, hb2⟩ := List.getElem?_eq_some_iff.1 hb
          rw [List.getElem_range] at hb2
          subst hb2
          have h1 : Link t (.split k) (.row (.leg (k + 1) a 1)) := Link.branch hk (by simpa using hb1)
          exact ⟨_, h1, rfl, (tgt h1).1 hl⟩
        · rintro ⟨z, g1, g2, g3⟩
          cases g1 with
          | @branch _ b legs' hk' hb =>
            have g2 : a = b := g2
            subst g2
            rw [hk] at hk'
            cases hk'
            refine ⟨_, ?_, (tgt (Link.branch hk hb)).2 g3⟩
            rw [ho, hf]
            simp [hb]
  · exact none fun z hz => hex ⟨z, hz⟩

end Bpmn.Csv

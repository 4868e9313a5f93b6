import Verif.Lemmas.CsvFlatImport
import Verif.Lemmas.CsvRun
/-! The CSV export of the diagram made of a flat table. -/
set_option linter.unusedSimpArgs false
set_option linter.unusedVariables false

namespace Bpmn.Csv
open Bpmn.Spec Bpmn.Spec.Csv

/-- The export of a node gives this result, with enough budget. -/
def Ex (d : Diagram) (n : Node) (o : Nat) (pre c w : String) (j : Bool) (rows : List Row) (res : List Row × Option Node) : Prop :=
  ∃ f, exportNode d (table d) f (some n) o pre c w j rows = .ok res

/-- A known node. -/
structure Known (d : Diagram) (n : Node) (ty name : String) (is os : List String) : Prop where
  mem : n ∈ d.getNodes
  type : n.2.type = some ty
  name : n.2.nodeName = some name
  ins : ins n = is
  outs : n.2.outgoing = some os
  events : n.2.eventDefinitions.getD [] = []
  default : ∀ f, n.2.default ≠ some (some f)
  labels : (table d).get? n.1 = some (Spec.labels n)

/-- A known gateway. -/
structure Gate (d : Diagram) (n : Node) (ty : String) (is os : List String) : Prop where
  mem : n ∈ d.getNodes
  isGateway : ty = "exclusiveGateway" ∨ ty = "parallelGateway" ∨ ty = "inclusiveGateway"
  type : n.2.type = some ty
  ins : ins n = is
  outs : n.2.outgoing = some os
  default : ∀ f, n.2.default ≠ some (some f)
  labels : (table d).get? n.1 = some (Spec.labels n)

theorem Gate.outs_eq {d : Diagram} {n : Node} {ty : String} {is os : List String} (h : Gate d n ty is os) : Spec.outs n = os := by
  simp [Spec.outs, h.outs]

theorem Known.outs_eq {d : Diagram} {n : Node} {ty name : String} {is os : List String} (h : Known d n ty name is os) : Spec.outs n = os := by
  simp [Spec.outs, h.outs]

theorem ex_task {d : Diagram} {n m : Node} {ty name i : String} {is : List String} (k : Known d n ty name is [i]) (hty : ty = "task" ∨ ty = "subProcess")
    (hi : is.length ≤ 1) {fl : Flow} (ht : flowTarget d i = .ok (fl, some m)) {o : Nat} {pre c w : String} {j : Bool} {rows : List Row} {res : List Row × Option Node}
    (h : Ex d m (o + 1) pre "" w false (rows ++ [Row.mk (pre ++ toString o) name c w (if ty = "subProcess" then "yes" else "") ""]) res) : Ex d n o pre c w j rows res := by
  obtain ⟨f, hf⟩ := h
  refine ⟨f + 1, ?_⟩
  have nj : ¬"Join" ∈ Spec.labels n := by rw [join_mem_labels, k.ins]; omega
  have ns : ¬"Split" ∈ Spec.labels n := by rw [split_mem_labels, k.outs_eq]; simp
  rcases hty with rfl | rfl
  · simp only [exportNode, found, except_bind_ok, k.type, need_some, show ¬("task" = "startEvent") by decide, show ¬("task" = "endEvent") by decide, if_false,
      exportElement, k.labels, nj, false_and, ownRow, if_true, k.name, except_pure, exportNext, k.outs, ns, List.length_singleton, pyIndex_cons_zero, ht]
    simpa using hf
  · simp only [exportNode, found, except_bind_ok, k.type, need_some, show ¬("subProcess" = "startEvent") by decide, show ¬("subProcess" = "endEvent") by decide, if_false,
      exportElement, k.labels, nj, false_and, ownRow, if_true, k.name, except_pure, exportNext, k.outs, ns, List.length_singleton, pyIndex_cons_zero, ht,
      show ¬("subProcess" = "task") by decide]
    simpa using hf

theorem ex_end {d : Diagram} {n : Node} {name : String} {is os : List String} (k : Known d n "endEvent" name is os) {o : Nat} {pre c w : String} {j : Bool} {rows : List Row} :
    Ex d n o pre c w j rows (rows ++ [Row.mk (pre ++ toString o) name c w "" "yes"], none) := by
  refine ⟨1, ?_⟩
  have ev : n.2.eventDefinitions = none ∨ n.2.eventDefinitions = some [] := by
    have := k.events
    cases e : n.2.eventDefinitions with
    | none => simp
    | some l => simp [e] at this; simp [this]
  simp only [exportNode, found, except_bind_ok, k.type, need_some, show ¬("endEvent" = "startEvent") by decide, if_false, if_true, exportEnd, k.name]
  rcases ev with e | e <;> simp [e]

theorem ex_start {d : Diagram} {n m : Node} {name i : String} {is : List String} (k : Known d n "startEvent" name is [i]) {fl : Flow}
    (ht : flowTarget d i = .ok (fl, some m)) {o : Nat} {pre c w : String} {j : Bool} {rows : List Row} {res : List Row × Option Node}
    (h : Ex d m (o + 1) pre w "" false (rows ++ [Row.mk (pre ++ toString o) name c w "" ""]) res) : Ex d n o pre c w j rows res := by
  obtain ⟨f, hf⟩ := h
  refine ⟨f + 1, ?_⟩
  have ev : n.2.eventDefinitions = none ∨ n.2.eventDefinitions = some [] := by
    have := k.events
    cases e : n.2.eventDefinitions with
    | none => simp
    | some l => simp [e] at this; simp [this]
  simp only [exportNode, found, except_bind_ok, k.type, need_some, if_true, exportStart, k.name, k.outs, pyIndex_cons_zero, ht]
  rcases ev with e | e <;> simpa [e] using hf

theorem ex_join {d : Diagram} {n m : Node} {ty i : String} {is : List String} (k : Gate d n ty is [i]) (hi : 2 ≤ is.length) {fl : Flow}
    (ht : flowTarget d i = .ok (fl, some m)) {o : Nat} {pre c w : String} {rows : List Row} : Ex d n o pre c w false rows (rows, some m) := by
  refine ⟨1, ?_⟩
  have hty := k.isGateway
  have hj : "Join" ∈ Spec.labels n := by rw [join_mem_labels, k.ins]; omega
  have n1 : ty ≠ "startEvent" := by rcases hty with rfl | rfl | rfl <;> decide
  have n2 : ty ≠ "endEvent" := by rcases hty with rfl | rfl | rfl <;> decide
  have n3 : ¬(ty = "task" ∨ ty = "subProcess") := by rcases hty with rfl | rfl | rfl <;> decide
  simp only [exportNode, found, except_bind_ok, k.type, need_some, n1, n2, if_false, exportElement, k.labels, hj, and_self, if_true, retract, n3, k.outs,
    pyIndex_cons_zero, ht, except_pure]

/-- A branch that is exported. -/
structure Leaf (d : Diagram) (ty pre : String) (i : Nat) (flow : String) (own : List Row) (res : Option Node) : Prop where
  run : ∃ fl n, flowTarget d flow = .ok (fl, some n) ∧ (table d).get? n.1 = some (Spec.labels n) ∧ (Spec.ins n).length ≤ 1 ∧
    ∀ rows, Ex d n 1 (pre ++ String.ofList [letter i]) (if ty ≠ "parallelGateway" then fl.2.2.name.getD "" else "") "" false rows (rows ++ own, res)

theorem asciiLower_letter {i : Nat} (h : i < 26) : asciiLower i = .ok (String.ofList [letter i]) := by
  unfold asciiLower
  have := letter_ok h
  unfold Letter at this
  simp only [pyIndex_ok this, except_bind_ok, except_pure]

/-- The later of two results. -/
def later (a r : Option Node) : Option Node := match r with | some n => some n | none => a

theorem split_loop {d : Diagram} {ty : String} {o : Nat} {pre : String} : ∀ {fs : List String} {owns : List (List Row)} {res : List (Option Node)} {i : Nat},
    i + fs.length ≤ 26 → fs.length = owns.length → fs.length = res.length →
    (∀ j f own r, fs[j]? = some f → owns[j]? = some own → res[j]? = some r → Leaf d ty (pre ++ toString o) (i + j) f own r) →
    ∀ next rows, ∃ F, ∀ g ≥ F, splitLoop d (table d) (exportNode d (table d) g) ty none o pre "" fs i rows next = .ok (rows ++ owns.flatten, res.foldl later next)
  | [], owns, res, i, _, h1, h2, _, next, rows => by
    have : owns = [] := List.length_eq_zero_iff.1 h1.symm
    subst this
    have : res = [] := List.length_eq_zero_iff.1 h2.symm
    subst this
    exact ⟨0, fun g _ => by simp [splitLoop]⟩
  | f :: fs, owns, res, i, h26, h1, h2, hl, next, rows => by
    obtain ⟨own, owns, rfl⟩ := List.exists_cons_of_length_pos (l := owns) (by simp at h1; omega)
    obtain ⟨r, res, rfl⟩ := List.exists_cons_of_length_pos (l := res) (by simp at h2; omega)
    obtain ⟨fl, n, e1, e3, e4, e5⟩ := (hl 0 f own r rfl rfl rfl).run
    rw [Nat.add_zero] at e5
    simp only [List.length_cons] at h26 h1 h2
    obtain ⟨F, hF⟩ := split_loop (d := d) (ty := ty) (o := o) (pre := pre) (fs := fs) (owns := owns) (res := res) (i := i + 1)
      (by omega) (by omega) (by omega)
      (by
        intro j f' own' r' a b c
        have := hl (j + 1) f' own' r' a b c
        rwa [← Nat.add_assoc, Nat.add_right_comm] at this) (later next r) (rows ++ own)
    obtain ⟨G, hG⟩ := e5 rows
    refine ⟨max F G, fun g hg => ?_⟩
    have nj : ¬"Join" ∈ Spec.labels n := by rw [join_mem_labels]; omega
    simp only [splitLoop, e1, except_bind_ok, asciiLower_letter (show i < 26 by omega), found, e3, need_some, nj, if_false,
      show ¬(some f = (none : Option String)) by simp, exportNode_mono (show G ≤ g by omega) _ _ _ _ _ _ _ _ hG]
    have := hF g (by omega)
    cases r with
    | none => exact this.trans (by simp [List.append_assoc, later])
    | some q => exact this.trans (by simp [List.append_assoc, later])

theorem ex_split {d : Diagram} {n m : Node} {ty : String} {is os : List String} (k : Gate d n ty is os) (hi : is.length ≤ 1) (ho : 2 ≤ os.length) (h26 : os.length ≤ 26)
    {owns : List (List Row)} {res : List (Option Node)} {o : Nat} {pre c : String} {j : Bool} {rows : List Row} {out : List Row × Option Node}
    (h1 : os.length = owns.length) (h2 : os.length = res.length)
    (hl : ∀ j f own r, os[j]? = some f → owns[j]? = some own → res[j]? = some r → Leaf d ty (pre ++ toString o) j f own r)
    (hm : res.foldl later none = some m) (h : Ex d m (o + 1) pre "" "" true (rows ++ owns.flatten) out) : Ex d n o pre c "" j rows out := by
  obtain ⟨f, hf⟩ := h
  obtain ⟨G, hG⟩ := split_loop (d := d) (ty := ty) (o := o) (pre := pre) (i := 0) (by omega) h1 h2 (by simpa using hl) none rows
  refine ⟨max f G + 1, ?_⟩
  have nj : ¬"Join" ∈ Spec.labels n := by rw [join_mem_labels, k.ins]; omega
  have hty := k.isGateway
  have hs : "Split" ∈ Spec.labels n := by rw [split_mem_labels, k.outs_eq]; omega
  have n1 : ty ≠ "startEvent" := by rcases hty with rfl | rfl | rfl <;> decide
  have n2 : ty ≠ "endEvent" := by rcases hty with rfl | rfl | rfl <;> decide
  have n3 : ty ≠ "task" := by rcases hty with rfl | rfl | rfl <;> decide
  have n4 : ty ≠ "subProcess" := by rcases hty with rfl | rfl | rfl <;> decide
  have df : defaultFlow n ty = none := by
    unfold defaultFlow
    split
    · split
      · rename_i f hf; exact absurd hf (k.default f)
      · rfl
    · rfl
  simp only [exportNode, found, except_bind_ok, k.type, need_some, n1, n2, n3, n4, if_false, exportElement, k.labels, nj, false_and, ownRow, List.append_nil,
    exportNext, k.outs, hs, if_true, df, hG (max f G) (by omega), hm]
  exact exportNode_mono (by omega) _ _ _ _ _ _ _ _ hf

/-! ## The nodes and flows of the imported diagram -/

theorem only_one {α : Type} [DecidableEq α] {l : List α} {a : α} (nd : l.Nodup) (ha : a ∈ l) (h : ∀ b ∈ l, b = a) : l = [a] := by
  match l, ha with
  | [b], _ => rw [h b (by simp)]
  | b :: c :: r, _ =>
    have h1 := h b (by simp)
    have h2 := h c (by simp)
    subst h1; subst h2
    simp at nd

theorem leaving_only {F : List (String × String)} (nd : F.Nodup) {x y : String} (h : (x, y) ∈ F) (u : ∀ z, (x, z) ∈ F → z = y) : leaving x F = [flowId x y] := by
  have : F.filter (·.1 = x) = [(x, y)] := by
    refine only_one (nd.filter _) (List.mem_filter.2 ⟨h, by simp⟩) ?_
    rintro ⟨a, b⟩ hb
    obtain ⟨h1, h2⟩ := List.mem_filter.1 hb
    simp at h2
    subst h2
    rw [u b h1]
  rw [leaving, this]; rfl

theorem entering_few {F : List (String × String)} (nd : F.Nodup) {x y : String} (u : ∀ z, (z, y) ∈ F → z = x) : (entering y F).length ≤ 1 := by
  rw [entering, List.length_map]
  by_cases h : (x, y) ∈ F
  · have : F.filter (·.2 = y) = [(x, y)] := by
      refine only_one (nd.filter _) (List.mem_filter.2 ⟨h, by simp⟩) ?_
      rintro ⟨a, b⟩ hb
      obtain ⟨h1, h2⟩ := List.mem_filter.1 hb
      simp at h2
      subst h2
      rw [u a h1]
    rw [this]; simp
  · have : F.filter (·.2 = y) = [] := by
      rw [List.filter_eq_nil_iff]
      rintro ⟨a, b⟩ hb e
      simp at e
      subst e
      exact h (u a hb ▸ hb)
    rw [this]; simp

theorem Link.back {t : FlatTable} (g : t.Good) {x x' : Id} {p : Pos} (h : Link t x (.row p)) (h' : Link t x' (.row p)) : x = x' := by
  cases h with
  | step a b =>
    cases h' with
    | step => rfl
    | leave e => obtain ⟨_, _, e⟩ := block_before g e; rw [e] at a; cases a
  | leave e =>
    cases h' with
    | step a b => obtain ⟨_, _, e⟩ := block_before g e; rw [e] at a; cases a
    | leave => rfl
  | branch a b =>
    cases h' with
    | branch => rfl
    | inside a b => simp [cell] at a
  | inside a b =>
    cases h' with
    | branch => simp [cell] at a
    | inside => rfl

theorem cell_before {t : FlatTable} (g : t.Good) {p : Pos} (h : (cell t p).isSome = true) (h0 : p ≠ .main 0) : ∃ x, Link t x (.row p) := by
  match p, h with
  | .main 0, _ => exact absurd rfl h0
  | .main (k + 1), h =>
    have hk : k ≤ t.items.length := by
      by_cases e : k = t.items.length
      · omega
      · simp only [cell, if_neg e] at h
        split at h
        · rename_i e; have := (List.getElem?_eq_some_iff.1 e).1; omega
        · cases h
    cases k with
    | zero => exact ⟨_, Link.step (c := t.first) rfl h⟩
    | succ i =>
      obtain ⟨x, hx⟩ : ∃ x, t.items[i]? = some x := ⟨_, List.getElem?_eq_getElem (by omega)⟩
      cases x with
      | step c => exact ⟨_, Link.step (c := c) (by simp only [cell, hx]; rw [if_neg (by omega)]) h⟩
      | block legs => exact ⟨_, Link.leave hx⟩
  | .leg k j m, h =>
    obtain ⟨⟨c, b⟩, hc⟩ := Option.isSome_iff_exists.1 h
    obtain ⟨i, n, legs, leg, rfl, rfl, h1, h2, h3, h4⟩ := cell_leg hc
    cases n with
    | zero => exact ⟨_, Link.branch h1 (List.getElem?_eq_some_iff.1 h2).1⟩
    | succ n =>
      refine ⟨_, Link.inside ?_ h⟩
      have := (List.getElem?_eq_some_iff.1 h3).1
      simp [cell, h1, h2, List.getElem?_eq_getElem (show n < leg.steps.length by omega)]

theorem join_in {t : FlatTable} (g : t.Good) {k : Nat} {legs : List Leg} (hk : t.items[k]? = some (.block legs)) :
    ∃ i j m n, i < j ∧ Link t (.row (.leg (k + 1) i m)) (.join (k + 2)) ∧ Link t (.row (.leg (k + 1) j n)) (.join (k + 2)) := by
  obtain ⟨i, j, a, b, hij, ha, hb, pa, pb⟩ := two_of_filter (g.two legs (List.mem_of_getElem? hk))
  exact ⟨i, j, _, _, hij, Link.close hk ha (by simpa using pa) rfl, Link.close hk hb (by simpa using pb) rfl⟩

section
variable {t : FlatTable} {d : Diagram} {F : List (String × String)}

theorem Formed.flow (m : Formed t d F) {x y : Id} (h : Link t x y) : (x.name, y.name) ∈ F := (m.flows _).2 ⟨x, y, h, rfl⟩

theorem Formed.link (m : Formed t d F) (g : t.Good) {x : Id} (hx : x.Small) {z : String} (h : (x.name, z) ∈ F) : ∃ y, Link t x y ∧ z = y.name := by
  obtain ⟨a, b, hl, e⟩ := (m.flows _).1 h
  have := Id.name_inj hx (hl.small g).1 (congrArg Prod.fst e)
  subst this
  exact ⟨b, hl, congrArg Prod.snd e⟩

theorem Formed.link' (m : Formed t d F) (g : t.Good) {y : Id} (hy : y.Small) {z : String} (h : (z, y.name) ∈ F) : ∃ x, Link t x y ∧ z = x.name := by
  obtain ⟨a, b, hl, e⟩ := (m.flows _).1 h
  have := Id.name_inj hy (hl.small g).2 (congrArg Prod.snd e)
  subst this
  exact ⟨a, hl, congrArg Prod.fst e⟩

theorem Formed.one (m : Formed t d F) (g : t.Good) {x y : Id} (h : Link t x y) (u : ∀ z, Link t x z → z = y) : leaving x.name F = [flowId x.name y.name] := by
  refine leaving_only m.nodup (m.flow h) ?_
  intro z hz
  obtain ⟨y', h1, rfl⟩ := m.link g (h.small g).1 hz
  rw [u y' h1]

theorem Formed.few (m : Formed t d F) (g : t.Good) {x y : Id} (hy : y.Small) (u : ∀ z, Link t z y → z = x) : (entering y.name F).length ≤ 1 := by
  refine entering_few m.nodup (x := x.name) ?_
  intro z hz
  obtain ⟨y', h1, rfl⟩ := m.link' g hy hz
  rw [u y' h1]

theorem Formed.same (m : Formed t d F) {n n' : Node} (h : n ∈ d.getNodes) (h' : n' ∈ d.getNodes) (e : n.1 = n'.1) : n = n' :=
  List.inj_on_of_nodup_map m.consistent.ids h h' e

/-- The flow between two nodes. -/
theorem Formed.target (m : Formed t d F) (g : t.Good) {x y : Id} (h : Link t x y) :
    ∃ fl n, n ∈ d.getNodes ∧ n.1 = y.name ∧ flowTarget d (flowId x.name y.name) = .ok (fl, some n) ∧
      ∃ e ∈ d.graph.edges, e.attrs = fl.2.2 ∧ e.attrs.id = some (flowId x.name y.name) := by
  have ho : flowId x.name y.name ∈ outOf d x.name := by rw [m.out]; exact mem_leaving.2 ⟨_, m.flow h, rfl⟩
  obtain ⟨n, hn, e1, e2, -⟩ := node_of_id m.inv (outOf_mem ho)
  rw [← e2] at ho
  obtain ⟨q, hq, ⟨a, b, e, f1, f2, f3, f4⟩, -⟩ := m.consistent.outFlow n hn _ ho
  obtain ⟨ed, k1, k2, k3, -⟩ := getFlowById_some m.inv.sane f1
  obtain ⟨s, u, l1, l2, l3, -, -, w⟩ := m.inv.edgeI ed k1
  rw [k3] at l1
  have px : Plain x.name := e1 ▸ m.inv.plain _ (id_of_node m.inv hn).1
  obtain ⟨-, rfl⟩ := flowId_inj px (m.inv.plain _ w.src) (Option.some.inj l1)
  rw [k2] at l3
  have : q.1 = y.name := Option.some.inj (f4.symm.trans l3)
  refine ⟨(a, b, e), q, hq, this, ?_, ?_⟩
  · simp [flowTarget, f1, f4, found, m.consistent.getNodeById hq]
  · exact ⟨ed, k1, k2, k3⟩

/-- What is known about a node that is not an end of the table. -/
theorem Formed.known (m : Formed t d F) {n : Node} (hn : n ∈ d.getNodes) {ty name : String} (h1 : kind d n.1 = some ty) (h2 : ty ∈ supportedTypes)
    (h3 : title d n.1 = some name) (h4 : events d n.1 = []) : Known d n ty name (entering n.1 F) (leaving n.1 F) := by
  have ha : d.graph.nodes.get? n.1 = some n.2 := Dict.get?_of_mem m.inv.nodup hn
  obtain ⟨e1, e2, e3, e4, e5⟩ := id_of_node m.inv hn
  refine ⟨hn, e4.trans h1, e5.trans h3, by rw [e3, m.inn], ?_, ?_, ?_, table_get m.consistent hn ⟨ty, h2, e4.trans h1⟩⟩
  · obtain ⟨-, hs, -⟩ := m.consistent.lists n hn
    obtain ⟨l, hl⟩ := Option.isSome_iff_exists.1 hs
    have : Spec.outs n = l := by simp [Spec.outs, hl]
    rw [hl, ← this, e2, m.out]
  · simpa [Csv.events, ha] using h4
  · intro f hf
    exact m.default n.1 f (by simp [defaultOf, ha, hf])

/-- The node of a row. -/
theorem Formed.row (m : Formed t d F) {p : Pos} {c : Cell} {b : Bool} (h : cell t p = some (c, b)) {n : Node} (hn : n ∈ d.getNodes)
    (e : n.1 = (Id.row p).name) :
    Known d n (rowType (c.row p.order b)) (if rowType (c.row p.order b) = "endEvent" then "" else c.activity) (entering (Id.row p).name F) (leaving (Id.row p).name F) := by
  obtain ⟨-, l⟩ := m.rows p c b h
  rw [← e]
  have e' : n.1 = String.ofList p.order := e
  rw [← e'] at l
  refine m.known hn (by rw [l.kind, kindOf_row]) ?_ (by rw [l.title, nameFor_row]; rfl) l.events
  rcases rowType_cases (c.row p.order b) with h | h | h | h <;> rw [h] <;> decide

theorem Formed.gate (m : Formed t d F) (g : t.Good) {x : Id} (hx : x.Small) (hr : ∀ p, x ≠ .row p) {n : Node} (hn : n ∈ d.getNodes) (e : n.1 = x.name) :
    ∃ ty, Gate d n ty (entering x.name F) (leaving x.name F) := by
  have ha : d.graph.nodes.get? n.1 = some n.2 := Dict.get?_of_mem m.inv.nodup hn
  obtain ⟨e1, e2, e3, e4, -⟩ := id_of_node m.inv hn
  rcases m.nodes _ e1 with ⟨p, c, b, hc, h⟩ | ⟨hk, -⟩
  · exact absurd (Id.name_inj hx (y := .row p) (cell_small g (by rw [hc]; rfl)) (e.symm.trans h)) (hr p)
  · obtain ⟨ty, k1, k2⟩ := gatewayKind_iff.1 hk
    rw [← e]
    refine ⟨ty, hn, k2, e4.trans k1, by rw [e3, m.inn], ?_, ?_, table_get m.consistent hn ⟨ty, ?_, e4.trans k1⟩⟩
    · obtain ⟨-, hs, -⟩ := m.consistent.lists n hn
      obtain ⟨l, hl⟩ := Option.isSome_iff_exists.1 hs
      have : Spec.outs n = l := by simp [Spec.outs, hl]
      rw [hl, ← this, e2, m.out]
    · intro f hf
      exact m.default n.1 f (by simp [defaultOf, ha, hf])
    · rcases k2 with rfl | rfl | rfl <;> decide

/-- A node for every row. -/
theorem Formed.at (m : Formed t d F) {p : Pos} (h : (cell t p).isSome = true) : ∃ n ∈ d.getNodes, n.1 = (Id.row p).name := by
  obtain ⟨⟨c, b⟩, hc⟩ := Option.isSome_iff_exists.1 h
  obtain ⟨n, hn, e, -⟩ := node_of_id m.inv (m.rows p c b hc).1
  exact ⟨n, hn, e⟩

theorem order_zero {p : Pos} (hp : p.Small) (h : String.ofList p.order = "0") : p = .main 0 := by
  refine Pos.order_inj hp (q := .main 0) trivial (ofList_inj (h.trans ?_))
  decide

theorem row_end {p : Pos} {c : Cell} (h0 : p ≠ .main 0) (hp : p.Small) : rowType (c.row p.order true) = "endEvent" ∧
    kept (c.row p.order true) = Row.mk (String.ofList p.order) "" "" "" "" "yes" := by
  have : String.ofList p.order ≠ "0" := fun h => h0 (order_zero hp h)
  simp [rowType, kept, Cell.row, this]

theorem row_mid {p : Pos} {c : Cell} (h0 : p ≠ .main 0) (hp : p.Small) : (rowType (c.row p.order false) = "task" ∨ rowType (c.row p.order false) = "subProcess") ∧
    kept (c.row p.order false) = Row.mk (String.ofList p.order) c.activity "" "" (if rowType (c.row p.order false) = "subProcess" then "yes" else "") "" := by
  have : String.ofList p.order ≠ "0" := fun h => h0 (order_zero hp h)
  by_cases e : c.subprocess = "yes" <;> simp [rowType, kept, Cell.row, this, e]

/-- The row with another condition. -/
def withCond (c : String) (r : Row) : Row := { r with condition := c }

/-- The rows with another condition in the first one. -/
def setFirst (c : String) : List Row → List Row
  | [] => []
  | r :: rs => withCond c r :: rs

theorem setFirst_kept (rows : List Row) : setFirst "" (rows.map kept) = rows.map kept := by cases rows <;> rfl

/-- A step that is not terminated. -/
theorem Formed.ex_mid (m : Formed t d F) (g : t.Good) {p : Pos} {c : Cell} (h : cell t p = some (c, false)) (h0 : p ≠ .main 0) {y : Id} (hl : Link t (.row p) y)
    {n q : Node} (hn : n ∈ d.getNodes) (e : n.1 = (Id.row p).name) (hq : q ∈ d.getNodes) (e' : q.1 = y.name) {o : Nat} {pre : String}
    (ho : pre ++ toString o = String.ofList p.order) {j : Bool} {rows : List Row} {res : List Row × Option Node}
    {c0 : String} (hx : Ex d q (o + 1) pre "" "" false (rows ++ [withCond c0 (kept (c.row p.order false))]) res) : Ex d n o pre c0 "" j rows res := by
  have hs := cell_small g (p := p) (by rw [h]; rfl)
  obtain ⟨ty, ke⟩ := row_mid (c := c) h0 hs
  obtain ⟨fl, q', hq', e1, e2, -⟩ := m.target g hl
  cases m.same hq hq' (e'.trans e1.symm)
  have k := m.row h hn e
  rw [m.one g hl fun z hz => (hz.unique g hl)] at k
  obtain ⟨x, hx0⟩ := cell_before g (p := p) (by rw [h]; rfl) h0
  refine ex_task k ty (m.few g hs (x := x) fun z hz => hz.back g hx0) e2 ?_
  rw [if_neg (by rcases ty with ty | ty <;> rw [ty] <;> decide), ho]
  rw [ke] at hx
  exact hx

/-- A terminated step. -/
theorem Formed.ex_last (m : Formed t d F) (g : t.Good) {p : Pos} {c : Cell} (h : cell t p = some (c, true)) (h0 : p ≠ .main 0)
    {n : Node} (hn : n ∈ d.getNodes) (e : n.1 = (Id.row p).name) {o : Nat} {pre : String}
    (ho : pre ++ toString o = String.ofList p.order) {j : Bool} {rows : List Row} {c0 : String} : Ex d n o pre c0 "" j rows (rows ++ [withCond c0 (kept (c.row p.order true))], none) := by
  have hs := cell_small g (p := p) (by rw [h]; rfl)
  obtain ⟨ty, ke⟩ := row_end (c := c) h0 hs
  have k := m.row h hn e
  rw [ty, if_pos rfl] at k
  rw [ke, ← ho]
  exact ex_end k

/-- The join of a block leads to the next row of the main line. -/
theorem Formed.ex_close (m : Formed t d F) (g : t.Good) {k : Nat} {legs : List Leg} (hk : t.items[k]? = some (.block legs)) {n q : Node} (hn : n ∈ d.getNodes)
    (e : n.1 = (Id.join (k + 2)).name) (hq : q ∈ d.getNodes) (e' : q.1 = (Id.row (.main (k + 2))).name) {o : Nat} {pre c w : String} {rows : List Row} :
    Ex d n o pre c w false rows (rows, some q) := by
  obtain ⟨ty, k'⟩ := m.gate g (x := .join (k + 2)) trivial (by simp) hn e
  have hl := Link.leave hk
  rw [m.one g hl (by intro z hz; cases hz; rfl)] at k'
  obtain ⟨fl, q', hq', e1, e2, -⟩ := m.target g hl
  cases m.same hq hq' (e'.trans e1.symm)
  refine ex_join k' ?_ e2
  obtain ⟨i, j, a, b, hij, h1, h2⟩ := join_in g hk
  refine entering_length (l := [_, _]) ?_ (by
    intro y hy
    simp only [List.mem_cons, List.not_mem_nil, or_false] at hy
    rcases hy with rfl | rfl
    · exact m.flow h1
    · exact m.flow h2)
  simp only [List.nodup_cons, List.mem_singleton, List.not_mem_nil, not_false_eq_true, List.nodup_nil, and_true]
  intro e
  have := Id.name_inj (h1.small g).1 (h2.small g).1 e
  simp at this
  omega

/-- The rest of a branch from its step `a` on. -/
theorem Formed.ex_leg (m : Formed t d F) (g : t.Good) {k j : Nat} {legs : List Leg} {leg : Leg} (hk : t.items[k]? = some (.block legs)) (hj : legs[j]? = some leg)
    {q : Node} (hq : q ∈ d.getNodes) (e' : q.1 = (Id.row (.main (k + 2))).name) :
    ∀ (s : List Cell) (a : Nat), leg.steps.drop a = s → s ≠ [] → ∀ {n : Node}, n ∈ d.getNodes → n.1 = (Id.row (.leg (k + 1) j (a + 1))).name → ∀ c0 rows,
      Ex d n (a + 1) (toString (k + 1) ++ String.ofList [letter j]) c0 "" false rows
        (rows ++ setFirst c0 ((s.mapIdx fun i c => c.row (decimal (k + 1) ++ [letter j] ++ decimal (a + i + 1)) (leg.stops && decide (a + i + 1 = leg.steps.length))).map kept),
          if leg.stops then none else some q)
  | [], _, _, h, _, _, _, _, _ => absurd rfl h
  | c :: s, a, ha, _, n, hn, e, c0, rows => by
    have hc : leg.steps[a]? = some c := by
      have := congrArg (·[0]?) ha
      simpa using this
    have hlen : a + s.length + 1 = leg.steps.length := by
      have := congrArg List.length ha
      simp at this; omega
    have hdrop : leg.steps.drop (a + 1) = s := by
      rw [← List.drop_drop, ha]; rfl
    have hcell : cell t (.leg (k + 1) j (a + 1)) = some (c, leg.stops && decide (a + 1 = leg.steps.length)) := by simp [cell, hk, hj, hc]
    have ho : toString (k + 1) ++ String.ofList [letter j] ++ toString (a + 1) = String.ofList (Pos.leg (k + 1) j (a + 1)).order := by
      rw [← name_str, ← name_str, ← String.ofList_append, ← String.ofList_append]; rfl
    rw [List.mapIdx_cons, List.map_cons, Nat.add_zero, setFirst]
    have tail : (s.mapIdx fun i c => c.row (decimal (k + 1) ++ [letter j] ++ decimal (a + (i + 1) + 1)) (leg.stops && decide (a + (i + 1) + 1 = leg.steps.length))) =
        s.mapIdx fun i c => c.row (decimal (k + 1) ++ [letter j] ++ decimal (a + 1 + i + 1)) (leg.stops && decide (a + 1 + i + 1 = leg.steps.length)) := by
      simp only [show ∀ i, a + (i + 1) + 1 = a + 1 + i + 1 from fun i => by omega]
    rw [tail, show decimal (k + 1) ++ [letter j] ++ decimal (a + 1) = (Pos.leg (k + 1) j (a + 1)).order from rfl]
    cases s with
    | nil =>
      have el : a + 1 = leg.steps.length := by simpa using hlen
      rw [decide_eq_true el, Bool.and_true] at hcell ⊢
      cases hs : leg.stops with
      | true =>
        rw [hs] at hcell
        simp only [List.mapIdx_nil, List.map_nil, if_true]
        exact m.ex_last g hcell (by simp) hn e ho
      | false =>
        rw [hs] at hcell
        simp only [List.mapIdx_nil, List.map_nil, Bool.false_eq_true, if_false]
        have hl := Link.close hk hj hs el
        obtain ⟨fl, q', hq', e1, -⟩ := m.target g hl
        exact m.ex_mid g hcell (by simp) hl hn e hq' e1 ho (m.ex_close g hk hq' e1 hq e')
    | cons c' s =>
      have el : ¬(a + 1 = leg.steps.length) := by simp at hlen; omega
      rw [decide_eq_false el, Bool.and_false] at hcell ⊢
      have hl : Link t (.row (.leg (k + 1) j (a + 1))) (.row (.leg (k + 1) j (a + 1 + 1))) := by
        refine Link.inside (by rw [hcell]; rfl) ?_
        have : leg.steps[a + 1]? = some c' := by
          have := congrArg (·[0]?) hdrop
          simpa using this
        simp [cell, hk, hj, this]
      obtain ⟨fl, q', hq', e1, -⟩ := m.target g hl
      refine m.ex_mid g hcell (by simp) hl hn e hq' e1 ho ?_
      have := Formed.ex_leg m g hk hj hq e' (c' :: s) (a + 1) hdrop (by simp) hq' e1 "" (rows ++ [withCond c0 (kept (c.row (Pos.leg (k + 1) j (a + 1)).order false))])
      rw [List.append_assoc, setFirst_kept] at this
      exact this

theorem later_fold {q : Node} : ∀ {l : List Leg} {a : Option Node}, (a = some q ∨ ∃ x ∈ l, x.stops = false) → (a = none ∨ a = some q) →
    (l.map fun leg => if leg.stops then none else some q).foldl later a = some q
  | [], a, h, _ => by simpa using h
  | x :: l, a, h, h' => by
    rw [List.map_cons, List.foldl_cons]
    cases hx : x.stops with
    | true =>
      refine later_fold ?_ h'
      rcases h with h | ⟨y, hy, e⟩
      · exact Or.inl h
      · rcases List.mem_cons.1 hy with rfl | hy
        · rw [hx] at e; cases e
        · exact Or.inr ⟨y, hy, e⟩
    | false => exact later_fold (Or.inl rfl) (Or.inr rfl)

/-- The node behind the item with number `k`. -/
def nextId (t : FlatTable) (k : Nat) : Id := match t.items[k]? with | some (.block _) => .split k | _ => .row (.main (k + 1))

theorem next_link (g : t.Good) {k : Nat} {c : Cell} (h : cell t (.main k) = some (c, false)) : Link t (.row (.main k)) (nextId t k) := by
  rcases main_way h with hn | ⟨legs, h1, h2⟩
  · unfold nextId
    split
    · rename_i legs e; obtain ⟨_, _, e⟩ := block_before g e; rw [e] at hn; cases hn
    · exact Link.step h hn
  · simp only [nextId, h1]; exact Link.enter h1

theorem main_order (k : Nat) : "" ++ toString k = String.ofList (Pos.main k).order := by
  rw [String.empty_append, ← name_str]; rfl

/-- The rows of an item, with these conditions at the beginnings of the branches. -/
def itemShown (cond : Nat → Nat → String) (k : Nat) : Item → List Row
  | .step c => [kept (c.row (decimal k) false)]
  | .block legs => (legs.mapIdx fun j leg => setFirst (cond k j) ((legRows (decimal k ++ [letter j]) leg).map kept)).flatten

/-- The rows of the items from number `k` on. -/
def linesShown (cond : Nat → Nat → String) (k : Nat) : List Item → List Row
  | [] => []
  | i :: r => itemShown cond k i ++ linesShown cond (k + 1) r

/-- What the export writes as conditions of the branches. -/
def Labels (t : FlatTable) (d : Diagram) (cond : Nat → Nat → String) : Prop :=
  ∀ k legs j, t.items[k]? = some (.block legs) → j < legs.length → ∀ ty, kind d (Id.split k).name = some ty → ∀ e ∈ d.graph.edges,
    e.attrs.id = some (flowId (Id.split k).name (Id.row (.leg (k + 1) j 1)).name) →
      (if ty ≠ "parallelGateway" then e.attrs.name.getD "" else "") = cond (k + 1) j

/-- The rest of the main line behind the item with number `k`. -/
theorem Formed.ex_main (m : Formed t d F) (g : t.Good) {cond : Nat → Nat → String} (hc : Labels t d cond) : ∀ (s : List Item) (k : Nat), k ≤ t.items.length → t.items.drop k = s →
    ∀ {n : Node}, n ∈ d.getNodes → n.1 = (nextId t k).name → ∀ j rows,
      Ex d n (k + 1) "" "" "" j rows (rows ++ (linesShown cond (k + 1) s ++ [kept (t.last.row (decimal (t.items.length + 1)) true)]), none)
  | [], k, hk, hd, n, hn, e, j, rows => by
    have el : k = t.items.length := by
      have := congrArg List.length hd
      simp at this; omega
    subst el
    have hcell : cell t (.main (t.items.length + 1)) = some (t.last, true) := by simp [cell]
    have e' : n.1 = (Id.row (.main (t.items.length + 1))).name := by simpa [nextId] using e
    exact m.ex_last g hcell (by simp) hn e' (main_order _)
  | .step c :: s, k, hk, hd, n, hn, e, j, rows => by
    have hi : t.items[k]? = some (.step c) := by
      have := congrArg (·[0]?) hd
      simpa using this
    have hlt := (List.getElem?_eq_some_iff.1 hi).1
    have hcell : cell t (.main (k + 1)) = some (c, false) := by simp only [cell, hi]; rw [if_neg (by omega)]
    have e' : n.1 = (Id.row (.main (k + 1))).name := by simpa [nextId, hi] using e
    have hl := next_link g hcell
    obtain ⟨fl, q, hq, e1, -⟩ := m.target g hl
    refine m.ex_mid g hcell (by simp) hl hn e' hq e1 (main_order _) ?_
    have := Formed.ex_main m g hc s (k + 1) (by omega) (by rw [← List.drop_drop, hd]; rfl) hq e1 false (rows ++ [kept (c.row (Pos.main (k + 1)).order false)])
    rw [List.append_assoc] at this
    exact this
  | .block legs :: s, k, hk, hd, n, hn, e, j, rows => by
    have hi : t.items[k]? = some (.block legs) := by
      have := congrArg (·[0]?) hd
      simpa using this
    have hlt := (List.getElem?_eq_some_iff.1 hi).1
    have e' : n.1 = (Id.split k).name := by simpa [nextId, hi] using e
    obtain ⟨q, hq, eq⟩ := m.at (block_after g hi)
    have hnext : nextId t (k + 1) = .row (.main (k + 2)) := by
      unfold nextId
      split
      · rename_i legs' e; exact absurd e (g.apart k legs legs' hi)
      · rfl
    obtain ⟨ty, gt⟩ := m.gate g (x := .split k) trivial (by simp) hn e'
    have hfork := m.fork k legs hi
    have htwo := g.two legs (List.mem_of_getElem? hi)
    have hle := List.length_filter_le (fun l : Leg => !l.stops) legs
    have hlen : (leaving (Id.split k).name F).length = legs.length := by rw [hfork]; simp
    have h26 := g.few legs (List.mem_of_getElem? hi)
    refine ex_split gt (m := q) (m.few g (y := .split k) (x := .row (.main k)) trivial (by intro z hz; cases hz; rfl)) (by omega) (by omega)
      (owns := legs.mapIdx fun j leg => setFirst (cond (k + 1) j) ((legRows (decimal (k + 1) ++ [letter j]) leg).map kept))
      (res := legs.map fun leg => if leg.stops then none else some q) (by simp [hlen]) (by simp [hlen]) ?_ ?_ ?_
    · intro i f own r h1 h2 h3
      have hil : i < legs.length := by
        have := (List.getElem?_eq_some_iff.1 h1).1
        omega
      obtain ⟨leg, hleg⟩ : ∃ leg, legs[i]? = some leg := ⟨_, List.getElem?_eq_getElem hil⟩
      rw [List.getElem?_mapIdx, hleg] at h2
      rw [List.getElem?_map, hleg] at h3
      simp only [Option.map_some, Option.some.injEq] at h2 h3
      subst h2 h3
      rw [hfork, List.getElem?_map, List.getElem?_range hil] at h1
      simp only [Option.map_some, Option.some.injEq] at h1
      subst h1
      have hl := Link.branch hi hil
      obtain ⟨fl, p, hp, p1, p2, ed, p3, p4, p5⟩ := m.target g hl
      have hcell := branch_cell g hi hil
      obtain ⟨⟨c, b⟩, hc'⟩ := Option.isSome_iff_exists.1 hcell
      have kn := m.row hc' hp p1
      refine ⟨fl, p, p2, kn.labels, ?_, ?_⟩
      · rw [kn.ins]; exact m.few g (x := .split k) (hl.small g).2 fun z hz => hz.back g hl
      · intro rows
        have ne : leg.steps ≠ [] := by
          have := (g.short legs (List.mem_of_getElem? hi) leg (List.mem_of_getElem? hleg)).1
          intro h0; rw [h0] at this; simp at this
        have hcond := hc k legs i hi hil ty (by rw [← e', ← (id_of_node m.inv hn).2.2.2.1]; exact gt.type) ed p3 p5
        have := m.ex_leg g hi hleg hq eq leg.steps 0 rfl ne hp p1 (cond (k + 1) i) rows
        simp only [Nat.zero_add] at this
        rw [String.empty_append, ← p4, hcond]
        exact this
    · refine later_fold (Or.inr ?_) (Or.inl rfl)
      obtain ⟨x, r, ex⟩ := List.exists_cons_of_length_pos (by omega : 0 < (legs.filter fun l => !l.stops).length)
      have hx : x ∈ legs.filter fun l => !l.stops := by rw [ex]; simp
      obtain ⟨a, b⟩ := List.mem_filter.1 hx
      exact ⟨x, a, by simpa using b⟩
    · have := Formed.ex_main m g hc s (k + 1) (by omega) (by rw [← List.drop_drop, hd]; rfl) hq (by rw [hnext]; exact eq) true
        (rows ++ (legs.mapIdx fun j leg => setFirst (cond (k + 1) j) ((legRows (decimal (k + 1) ++ [letter j]) leg).map kept)).flatten)
      rw [List.append_assoc] at this
      rw [linesShown, List.append_assoc, itemShown]
      exact this

/-- The export writes the rows of the table, as far as they are kept, with these conditions of the branches. -/
theorem Formed.rows_shown (m : Formed t d F) (g : t.Good) {cond : Nat → Nat → String} (hc : Labels t d cond) : ∃ N, ∀ fuel ≥ N, exportRows d fuel =
    .ok (kept (t.first.row (decimal 0) false) :: (linesShown cond 1 t.items ++ [kept (t.last.row (decimal (t.items.length + 1)) true)])) := by
  have h0 : cell t (.main 0) = some (t.first, false) := rfl
  obtain ⟨n, hn, e⟩ := m.at (p := .main 0) rfl
  have hl := next_link g h0
  obtain ⟨fl, q, hq, e1, e2, -⟩ := m.target g hl
  have k := m.row h0 hn e
  rw [m.one g hl fun z hz => hz.unique g hl] at k
  have zero : String.ofList (Pos.main 0).order = "0" := by decide
  have ty : rowType (t.first.row (Pos.main 0).order false) = "startEvent" := by simp [rowType, Cell.row, zero]
  rw [ty, if_neg (by decide)] at k
  have hx := m.ex_main g hc t.items 0 (by omega) rfl hq e1 false [kept (t.first.row (decimal 0) false)]
  have ke : kept (t.first.row (decimal 0) false) = Row.mk ("" ++ toString 0) t.first.activity "" "" "" "" := by
    have : String.ofList (decimal 0) = "0" := by decide
    simp [kept, Cell.row, this]; rfl
  obtain ⟨f, hf⟩ := ex_start (o := 0) (pre := "") (c := "") (w := "") (j := false) (rows := []) k e2 (by rw [← ke]; exact hx)
  refine ⟨f, fun fuel hfuel => exportRows_mono hfuel ?_⟩
  unfold exportRows
  have starts : d.getNodes.filter (fun n => (Spec.ins n).length = 0) = [n] := by
    refine only_one (m.consistent.ids.of_map.filter _) (List.mem_filter.2 ⟨hn, ?_⟩) ?_
    · rw [k.ins, decide_eq_true_eq, List.length_eq_zero_iff, List.eq_nil_iff_forall_not_mem]
      intro f hf
      obtain ⟨s, hs, -⟩ := mem_entering.1 hf
      obtain ⟨x, hx, -⟩ := m.link' g (y := .row (.main 0)) trivial hs
      cases hx
    · intro b hb
      obtain ⟨hb1, hb2⟩ := List.mem_filter.1 hb
      rw [decide_eq_true_eq, List.length_eq_zero_iff] at hb2
      obtain ⟨i1, -, i3, -⟩ := id_of_node m.inv hb1
      rw [i3, m.inn] at hb2
      rcases m.nodes _ i1 with ⟨p, c, bb, hc, hp⟩ | ⟨-, h⟩
      · by_cases hp0 : p = .main 0
        · subst hp0; exact m.same hb1 hn (hp.trans e.symm)
        · obtain ⟨x, hx⟩ := cell_before g (p := p) (by rw [hc]; rfl) hp0
          have : flowId x.name (Id.row p).name ∈ entering b.1 F := by rw [hp]; exact mem_entering.2 ⟨_, m.flow hx, rfl⟩
          rw [hb2] at this; simp at this
      · exact absurd hb2 h
  rw [startNodes_eq fun n hn => (m.consistent.lists n hn).1, starts]
  simp only [except_bind_ok, nodes_eq m.consistent.complete m.consistent.ids]
  rw [show (byType d).map (fun n => (n.1, Spec.labels n)) = table d from rfl, hf]
  rfl

theorem linesShown_none (k : Nat) (l : List Item) : linesShown (fun _ _ => "") k l = (linesFrom k l).map kept := by
  induction l generalizing k with
  | nil => rfl
  | cons i r ih =>
    rw [linesShown, linesFrom, List.map_append, ih]
    congr 1
    cases i with
    | step c => rfl
    | block legs => simp only [itemShown, itemRows, List.map_flatten, map_mapIdx_list, setFirst_kept]

/-- The export of the imported diagram writes the rows of the table, as far as they are kept. -/
theorem Made.rows_eq (m : Made t d F) (g : t.Good) : ∃ N, ∀ fuel ≥ N, exportRows d fuel = .ok (t.rows.map kept) := by
  obtain ⟨N, hN⟩ := m.toFormed.rows_shown g (cond := fun _ _ => "") (by
    intro k legs j _ _ ty _ e he _
    rw [m.names e he]; split <;> rfl)
  refine ⟨N, fun fuel hf => ?_⟩
  rw [hN fuel hf, linesShown_none, FlatTable.rows, List.map_cons, List.map_append]
  rfl

end

end Bpmn.Csv

import Verif.Spec.OptionalEnd
import Verif.Props.OptionalProcess
/-!
# Processes whose last step is optional, exported (C140)
-/
set_option linter.unusedSimpArgs false
set_option linter.unusedVariables false

namespace Bpmn.Props
open Bpmn Spec Csv Spec.Csv

namespace OptEnd
variable {d : Diagram}

theorem loop_goto (G : Ground d) {q : Node} {i : String} (hi : LeadsTo d i (some q)) (hq : 2 ≤ (ins q).length) (ty : String) (df : Option String) (o k : Nat) (hk : k < 26) :
    ∃ c, ∀ (rec : Rec) (rest : List String) (rows : List Row) (next : Option Node), splitLoop d (table d) rec ty df o "" "" (i :: rest) k rows next =
      splitLoop d (table d) rec ty df o "" "" rest (k + 1) (rows ++ [Row.mk (toString o ++ String.ofList [letter k] ++ "1") ("goto " ++ toString (o + 1)) c "" "" ""]) next := by
  obtain ⟨n, hn, e, f, hf, ht⟩ := G.target hi
  injection e with e
  subst e
  have jl : "Join" ∈ Spec.labels q := by rw [join_mem_labels]; exact hq
  refine ⟨if ty ≠ "parallelGateway" then f.2.2.name.getD "" else "", fun rec rest rows next => ?_⟩
  simp only [splitLoop, ht, except_bind_ok, asciiLower_letter hk, found, G.labels hn, need_some, jl, if_true, String.empty_append]
  rfl

theorem loop_branch (G : Ground d) {x : Node} {i : String} (hi : LeadsTo d i (some x)) (hx : (ins x).length ≤ 1) (ty : String) (df : Option String) (o k : Nat) (hk : k < 26) {tmp : Option Node}
    (hX : ∀ pre c rows, ∃ R, Ex d x 1 pre c "" false rows (rows ++ R, tmp) ∧ ∀ r ∈ R, ∃ m : Nat, r.order = pre ++ toString m) (rest : List String) (rows : List Row)
    (next : Option Node) : ∃ R F, (∀ fu ≥ F, splitLoop d (table d) (exportNode d (table d) fu) ty df o "" "" (i :: rest) k rows next =
      splitLoop d (table d) (exportNode d (table d) fu) ty df o "" "" rest (k + 1) (rows ++ R) (later next tmp)) ∧
      ∀ r ∈ R, ∃ m : Nat, r.order = toString o ++ String.ofList [letter k] ++ toString m := by
  obtain ⟨n, hn, e, f, hf, ht⟩ := G.target hi
  injection e with e
  subst e
  have nj : ¬"Join" ∈ Spec.labels x := by rw [join_mem_labels]; omega
  obtain ⟨R, ⟨F, hF⟩, hR⟩ := hX (toString o ++ String.ofList [letter k]) (if some i = df then "else" else if ty ≠ "parallelGateway" then f.2.2.name.getD "" else "") rows
  refine ⟨R, F, fun fu hfu => ?_, hR⟩
  simp only [splitLoop, ht, except_bind_ok, asciiLower_letter hk, found, G.labels hn, need_some, nj, if_false, String.empty_append]
  rw [exportNode_mono hfu _ _ _ _ _ _ _ _ hF]
  cases tmp <;> rfl

/-- An order with a letter in it. -/
def Lettered (s : String) : Prop := ∃ c ∈ s.toList, c.isDigit = false

theorem lettered_ne {s : String} (h : Lettered s) (m : Nat) : s ≠ toString m := by
  rintro rfl
  obtain ⟨c, h1, h2⟩ := h
  rw [decimal_isDigit (n := m) h1] at h2
  cases h2

theorem lettered (a b : String) (k : Nat) : Lettered (a ++ String.ofList [letter k] ++ b) := ⟨letter k, by simp, letter_digit k⟩

/-- The two ways of a gateway: one row that refers to the next number, and the rows of the step. -/
theorem two_loop (G : Ground d) {x q : Node} {i i' : String} (hi : LeadsTo d i (some x)) (hi' : LeadsTo d i' (some q)) (hx : (ins x).length ≤ 1) (hq : 2 ≤ (ins q).length) {fs : List String} (hfs : fs = [i, i'] ∨ fs = [i', i])
    (ty : String) (df : Option String) (o : Nat) {tmp : Option Node} (hX : ∀ pre c rows, ∃ R, Ex d x 1 pre c "" false rows (rows ++ R, tmp) ∧ ∀ r ∈ R, ∃ m : Nat, r.order = pre ++ toString m) (rows : List Row) :
    ∃ R, (∃ F, ∀ fu ≥ F, splitLoop d (table d) (exportNode d (table d) fu) ty df o "" "" fs 0 rows none = .ok (rows ++ R, tmp)) ∧ (∃ r ∈ R, r.activity = "goto " ++ toString (o + 1)) ∧ ∀ r ∈ R, Lettered r.order := by
  have pick : later none tmp = tmp := by cases tmp <;> rfl
  obtain ⟨c0, g0⟩ := loop_goto G hi' hq ty df o 0 (by omega)
  obtain ⟨c1, g1⟩ := loop_goto G hi' hq ty df o 1 (by omega)
  rcases hfs with rfl | rfl
  · obtain ⟨R, F, h1, h2⟩ := loop_branch G hi hx ty df o 0 (by omega) hX [i'] rows none
    refine ⟨R ++ [Row.mk (toString o ++ String.ofList [letter 1] ++ "1") ("goto " ++ toString (o + 1)) c1 "" "" ""], ⟨F, fun fu hfu => ?_⟩, ⟨_, List.mem_append_right _ (List.mem_singleton_self _), rfl⟩, ?_⟩
    · rw [h1 fu hfu, g1, pick, splitLoop, List.append_assoc]
    · intro r hr
      rcases List.mem_append.1 hr with hr | hr
      · obtain ⟨m, e⟩ := h2 r hr
        rw [e]
        exact lettered _ _ _
      · rw [List.mem_singleton.1 hr]
        exact lettered _ _ _
  · obtain ⟨R, F, h1, h2⟩ := loop_branch G hi hx ty df o 1 (by omega) hX [] (rows ++ [Row.mk (toString o ++ String.ofList [letter 0] ++ "1") ("goto " ++ toString (o + 1)) c0 "" "" ""]) none
    refine ⟨Row.mk (toString o ++ String.ofList [letter 0] ++ "1") ("goto " ++ toString (o + 1)) c0 "" "" "" :: R, ⟨F, fun fu hfu => ?_⟩, ⟨_, List.mem_cons_self, rfl⟩, ?_⟩
    · rw [g0, h1 fu hfu, pick, splitLoop, List.append_assoc]
      rfl
    · intro r hr
      rcases List.mem_cons.1 hr with rfl | hr
      · exact lettered _ _ _
      · obtain ⟨m, e⟩ := h2 r hr
        rw [e]
        exact lettered _ _ _

theorem head_list {g a e : Node} (l : List Part) : ∃ r, l.flatMap Part.nodes ++ [g, a, e] = OptProc.headNode g l :: r := by
  cases l with
  | nil => exact ⟨_, rfl⟩
  | cons p t => cases p <;> exact ⟨_, rfl⟩

variable {s g a e : Node} {parts : List Part} (c : Consistent d) (P : OptionalEnd d s parts g a e)

include c P in
theorem ground : Ground d := ⟨c, P.known, P.named⟩

include P in
theorem all_mem {p : Part} (hp : p ∈ parts ++ [.optional g a e]) {n : Node} (hn : n ∈ p.nodes) : n ∈ d.getNodes :=
  P.line.nodes.mem_iff.1 (List.mem_cons_of_mem _ (List.mem_flatMap.2 ⟨p, hp, hn⟩))

include P in
theorem head_mem {l : List Part} (hl : ∀ p ∈ l, p ∈ parts) : OptProc.headNode g l ∈ d.getNodes := by
  cases l with
  | nil => exact all_mem P (p := .optional g a e) (by simp) (by simp [Part.nodes, OptProc.headNode])
  | cons p t =>
    have := List.mem_append_left [.optional g a e] (hl p (by simp))
    cases p <;> exact all_mem P this (by simp [Part.nodes, OptProc.headNode])

/-- The two flows that leave a gateway. -/
theorem gate_flows (c : Consistent d) {g a j : Node} (ha : a ∈ d.getNodes) (hj : j ∈ d.getNodes) (h1 : Feeds g a) (h2 : Feeds g j) (hl : (outs g).length = 2) (hne : (ins a).length ≠ (ins j).length) :
    ∃ i i', LeadsTo d i (some a) ∧ LeadsTo d i' (some j) ∧ (outs g = [i, i'] ∨ outs g = [i', i]) := by
  obtain ⟨i, i1, i2⟩ := OptProc.leads_of c ha h1
  obtain ⟨i', j1, j2⟩ := OptProc.leads_of c hj h2
  have ne : i ≠ i' := by
    rintro rfl
    exact hne (by rw [c.node_eq ha hj (OptRows.leads_unique i2 j2)])
  obtain ⟨x, y, hxy⟩ := List.length_eq_two.1 hl
  rw [hxy] at i1 j1 ⊢
  simp only [List.mem_cons, List.not_mem_nil, or_false] at i1 j1
  refine ⟨i, i', i2, j2, ?_⟩
  rcases i1 with rfl | rfl
  · rw [j1.resolve_left (Ne.symm ne)]
    exact .inl rfl
  · rw [j1.resolve_right (Ne.symm ne)]
    exact .inr rfl

theorem own_order {n : Node} {o c : String} : ∀ r ∈ nodeRow n o c, r.order = o := fun r hr => (nodeRow_order hr).1

/-- What the export of a part of the line gives, from number `k` on. -/
def Goes (d : Diagram) (n : Node) (k : Nat) : Prop := ∀ flag rows, ∃ R m, Ex d n k "" "" "" flag rows (rows ++ R, none) ∧ k ≤ m ∧ (∃ r ∈ R, r.activity = "goto " ++ toString (m + 1)) ∧ ∀ r ∈ R, r.order ≠ toString (m + 1)

/-- A node with one flow into it, before a part of the line. -/
theorem before (G : Ground d) {n m : Node} (hn : n ∈ d.getNodes) (hm : m ∈ d.getNodes) (h1 : n.2.type ≠ some "endEvent") (hf : Feeds n m) (ho : (outs n).length ≤ 1) (k : Nat) (h : Goes d m (k + 1)) (flag : Bool)
    (hj : (ins n).length ≤ 1 ∨ flag = true) (rows : List Row) :
    ∃ R m, Ex d n k "" "" "" flag rows (rows ++ R, none) ∧ k ≤ m ∧ (∃ r ∈ R, r.activity = "goto " ++ toString (m + 1)) ∧ ∀ r ∈ R, r.order ≠ toString (m + 1) := by
  obtain ⟨i, ho, hl⟩ := OptProc.only_way G.consistent hm hf ho
  obtain ⟨m', -, e, f, -, ht⟩ := G.target hl
  injection e with e
  subst e
  obtain ⟨R, b, hx, hb, ⟨r, hr, ha⟩, hR⟩ := h false (rows ++ nodeRow n ("" ++ toString k) "")
  rw [List.append_assoc] at hx
  obtain ⟨ty, -, hty⟩ := G.supported _ hn
  refine ⟨nodeRow n ("" ++ toString k) "" ++ R, b, ?_, by omega, ⟨r, List.mem_append_right _ hr, ha⟩, fun q hq => ?_⟩
  · by_cases he : ty = "startEvent"
    · subst he
      exact G.start hn hty ho ht hx
    · exact G.inner hn hty he (by rintro rfl; exact h1 hty) ho ht hj hx
  · rcases List.mem_append.1 hq with hq | hq
    · rw [own_order _ hq, String.empty_append]
      intro e
      have := decimal_inj (congrArg String.toList e)
      omega
    · exact hR q hq

include c P in
theorem inner_node {n : Node} (hn : n ∈ d.getNodes) (h1 : ins n ≠ []) (h : n ≠ e) : n.2.type ≠ some "startEvent" ∧ n.2.type ≠ some "endEvent" := by
  refine ⟨fun k => ?_, fun k => h ((P.events n hn).2.1 k)⟩
  rw [(P.events n hn).1.1 k] at h1
  exact h1 P.line.start.1

/-- The export of a node where ways meet: there the export goes on. -/
theorem step_back (G : Ground d) {a j r : Node} (ha : a ∈ d.getNodes) (hj : j ∈ d.getNodes) (ta : a.2.type ≠ some "startEvent" ∧ a.2.type ≠ some "endEvent") (tj : j.2.type ≠ some "startEvent" ∧ j.2.type ≠ some "endEvent")
    (ia : (ins a).length = 1) (oa : (outs a).length = 1) (ij : (ins j).length = 2) (hf : Feeds a j) (hr : (IsActivity j ∧ r = j) ∨ (¬IsActivity j ∧ ∃ i f, outs j = [i] ∧ flowTarget d i = .ok (f, some r))) :
    ∀ pre c rows, ∃ R, Ex d a 1 pre c "" false rows (rows ++ R, some r) ∧ ∀ r ∈ R, ∃ m : Nat, r.order = pre ++ toString m := by
  intro pre c rows
  obtain ⟨i, ho, hl⟩ := OptProc.only_way G.consistent hj hf (by omega)
  obtain ⟨m', -, e, f, -, ht⟩ := G.target hl
  injection e with e
  subst e
  obtain ⟨ty, -, hty⟩ := G.supported _ ha
  exact ⟨nodeRow a (pre ++ toString 1) c, G.inner ha hty (by rintro rfl; exact ta.1 hty) (by rintro rfl; exact ta.2 hty) ho ht (.inl (by omega)) (G.turned hj tj.1 tj.2 (by omega) hr), fun r hr => ⟨1, own_order r hr⟩⟩

/-- The step before the end: its branch has a row for the end. -/
theorem step_end (G : Ground d) {a e : Node} (ha : a ∈ d.getNodes) (he : e ∈ d.getNodes) (ta : a.2.type ≠ some "startEvent" ∧ a.2.type ≠ some "endEvent") (te : e.2.type = some "endEvent")
    (ia : (ins a).length = 1) (oa : (outs a).length = 1) (hf : Feeds a e) :
    ∀ pre c rows, ∃ R, Ex d a 1 pre c "" false rows (rows ++ R, none) ∧ ∀ r ∈ R, ∃ m : Nat, r.order = pre ++ toString m := by
  intro pre c rows
  obtain ⟨i, ho, hl⟩ := OptProc.only_way G.consistent he hf (by omega)
  obtain ⟨m', -, e', f, -, ht⟩ := G.target hl
  injection e' with e'
  subst e'
  obtain ⟨ty, -, hty⟩ := G.supported _ ha
  refine ⟨nodeRow a (pre ++ toString 1) c ++ nodeRow e (pre ++ toString 2) "", ?_, fun r hr => ?_⟩
  · rw [← List.append_assoc]
    exact G.inner ha hty (by rintro rfl; exact ta.1 hty) (by rintro rfl; exact ta.2 hty) ho ht (.inl (by omega)) (G.end he te)
  · rcases List.mem_append.1 hr with hr | hr
    · exact ⟨1, own_order r hr⟩
    · exact ⟨2, own_order r hr⟩

/-- A gateway, given what comes behind its two ways. -/
theorem at_gate (G : Ground d) {g a j : Node} (hg : g ∈ d.getNodes) (ha : a ∈ d.getNodes) (hj : j ∈ d.getNodes) (tg : g.2.type ≠ some "startEvent" ∧ g.2.type ≠ some "endEvent") (ig : (ins g).length = 1)
    (og : (outs g).length = 2) (ia : (ins a).length = 1) (ij : (ins j).length = 2) (h1 : Feeds g a) (h2 : Feeds g j) {tmp : Option Node}
    (hX : ∀ pre c rows, ∃ R, Ex d a 1 pre c "" false rows (rows ++ R, tmp) ∧ ∀ r ∈ R, ∃ m : Nat, r.order = pre ++ toString m) (k : Nat)
    (hn : ∀ n, tmp = some n → ∀ rows, ∃ R m, Ex d n (k + 1) "" "" "" true rows (rows ++ R, none) ∧ k + 1 ≤ m ∧ (∃ r ∈ R, r.activity = "goto " ++ toString (m + 1)) ∧ ∀ r ∈ R, r.order ≠ toString (m + 1)) : Goes d g k := by
  intro flag rows
  obtain ⟨i, i', l1, l2, hfs⟩ := gate_flows G.consistent ha hj h1 h2 og (by omega)
  obtain ⟨ty, -, hty⟩ := G.supported _ hg
  obtain ⟨R, hl, hgo, hR⟩ := two_loop G l1 l2 (by omega) (by omega) hfs ty (defaultFlow g ty) k hX (rows ++ nodeRow g ("" ++ toString k) "")
  have own : ∀ m, k ≤ m → ∀ r ∈ nodeRow g ("" ++ toString k) "", r.order ≠ toString (m + 1) := by
    intro m hm r hr
    rw [own_order _ hr, String.empty_append]
    intro e
    have := decimal_inj (congrArg String.toList e)
    omega
  cases tmp with
  | none =>
    refine ⟨nodeRow g ("" ++ toString k) "" ++ R, k, G.split hg hty (by rintro rfl; exact tg.1 hty) (by rintro rfl; exact tg.2 hty) (by omega) (.inl (by omega)) hl ?_, Nat.le_refl _, ?_, ?_⟩
    · simp only [List.append_assoc]
    · obtain ⟨r, hr, h⟩ := hgo
      exact ⟨r, List.mem_append_right _ hr, h⟩
    · intro r hr
      rcases List.mem_append.1 hr with hr | hr
      · exact own k (Nat.le_refl _) r hr
      · exact lettered_ne (hR r hr) _
  | some n =>
    obtain ⟨R', m, hx, hm, ⟨r, hr, h⟩, hR'⟩ := hn n rfl (rows ++ nodeRow g ("" ++ toString k) "" ++ R)
    refine ⟨nodeRow g ("" ++ toString k) "" ++ R ++ R', m, G.split hg hty (by rintro rfl; exact tg.1 hty) (by rintro rfl; exact tg.2 hty) (by omega) (.inl (by omega)) hl ?_, by omega, ?_, ?_⟩
    · simpa only [List.append_assoc] using hx
    · exact ⟨r, List.mem_append_right _ hr, h⟩
    · intro q hq
      rcases List.mem_append.1 hq with hq | hq
      · rcases List.mem_append.1 hq with hq | hq
        · exact own m (by omega) q hq
        · exact lettered_ne (hR q hq) _
      · exact hR' q hq

include c P in
theorem run : ∀ (l : List Part), (∀ p ∈ l, p ∈ parts) → (l.flatMap Part.nodes ++ [g, a, e]).IsChain Feeds → ∀ k, Goes d (OptProc.headNode g l) k
  | [], hl, hc, k => by
    have G := ground c P
    have mem : .optional g a e ∈ parts ++ [.optional g a e] := by simp
    have mg := all_mem P mem (n := g) (by simp [Part.nodes])
    have ma := all_mem P mem (n := a) (by simp [Part.nodes])
    have me := all_mem P mem (n := e) (by simp [Part.nodes])
    obtain ⟨f1, o1, o2, o3, o4, o5, o6⟩ := P.line.skips g a e mem
    have ge : g ≠ e := by rintro rfl; omega
    have ae : a ≠ e := by rintro rfl; omega
    have tg := inner_node c P mg (by intro k; simp [k] at o1) ge
    have ta := inner_node c P ma (by intro k; simp [k] at o3) ae
    have te := (P.events e me).2.2 rfl
    simp only [List.flatMap_nil, List.nil_append, List.isChain_cons_cons] at hc
    exact at_gate G mg ma me tg o1 o2 o3 o5 hc.1 f1 (step_end G ma me ta te o3 o4 hc.2.1) k (by simp)
  | .step n :: t, hl, hc, k => by
    have G := ground c P
    have mem : .step n ∈ parts ++ [.optional g a e] := List.mem_append_left _ (hl _ (by simp))
    have mn := all_mem P mem (n := n) (by simp [Part.nodes])
    obtain ⟨h1, h2⟩ := P.line.steps n mem
    have o5 := (P.line.skips g a e (by simp)).2.2.2.2.2.1
    have ne : n ≠ e := by rintro rfl; omega
    have tn := inner_node c P mn (by intro k; simp [k] at h1) ne
    have ht : ∀ p ∈ t, p ∈ parts := fun p hp => hl p (by simp [hp])
    obtain ⟨r, hr⟩ := head_list t
    simp only [List.flatMap_cons, Part.nodes, List.cons_append, List.nil_append] at hc
    rw [hr] at hc
    have hc' := List.isChain_cons_cons.1 hc
    have ih := run t ht (by rw [hr]; exact hc'.2) (k + 1)
    exact fun flag rows => before G mn (head_mem P ht) tn.2 hc'.1 h2 k ih flag (.inl (by omega)) rows
  | .optional g' a' j :: t, hl, hc, k => by
    have G := ground c P
    have mem : .optional g' a' j ∈ parts ++ [.optional g a e] := List.mem_append_left _ (hl _ (by simp))
    have mg := all_mem P mem (n := g') (by simp [Part.nodes])
    have ma := all_mem P mem (n := a') (by simp [Part.nodes])
    have mj := all_mem P mem (n := j) (by simp [Part.nodes])
    obtain ⟨f1, o1, o2, o3, o4, o5, o6⟩ := P.line.skips g' a' j mem
    have e5 := (P.line.skips g a e (by simp)).2.2.2.2.2.1
    have ht : ∀ p ∈ t, p ∈ parts := fun p hp => hl p (by simp [hp])
    obtain ⟨r, hr⟩ := head_list t
    simp only [List.flatMap_cons, Part.nodes, List.cons_append, List.nil_append] at hc
    rw [hr] at hc
    obtain ⟨c1, hc⟩ := List.isChain_cons_cons.1 hc
    obtain ⟨c2, hc⟩ := List.isChain_cons_cons.1 hc
    obtain ⟨c3, hc⟩ := List.isChain_cons_cons.1 hc
    have ih := run t ht (by rw [hr]; exact hc)
    have ge : g' ≠ e := by rintro rfl; omega
    have ae : a' ≠ e := by rintro rfl; omega
    have je : j ≠ e := by
      have nd := P.line.nodes.nodup_iff.2 c.ids.of_map
      rw [List.flatMap_append] at nd
      have := (List.nodup_append.1 (List.nodup_cons.1 nd).2).2.2
      exact this j (List.mem_flatMap.2 ⟨_, hl (.optional g' a' j) (by simp), by simp [Part.nodes]⟩) e (by simp [Part.nodes])
    have tg := inner_node c P mg (by intro k; simp [k] at o1) ge
    have ta := inner_node c P ma (by intro k; simp [k] at o3) ae
    have tj := inner_node c P mj (by intro k; simp [k] at o5) je
    by_cases act : IsActivity j
    · refine at_gate G mg ma mj tg o1 o2 o3 o5 c1 f1 (step_back G ma mj ta tj o3 o4 o5 c2 (.inl ⟨act, rfl⟩)) k ?_
      intro n hn rows
      injection hn with hn
      subst hn
      exact before G mj (head_mem P ht) tj.2 c3 o6 (k + 1) (ih (k + 2)) true (.inr rfl) rows
    · obtain ⟨i, ho, hle⟩ := OptProc.only_way G.consistent (head_mem P ht) c3 o6
      obtain ⟨m', -, e', f, -, htg⟩ := G.target hle
      injection e' with e'
      refine at_gate G mg ma mj tg o1 o2 o3 o5 c1 f1 (step_back G ma mj ta tj o3 o4 o5 c2 (.inr ⟨act, i, f, ho, htg⟩)) k ?_
      intro n hn rows
      injection hn with hn
      subst hn
      rw [← e']
      exact ih (k + 1) true rows

include c P in
theorem only_start : ∀ n ∈ d.getNodes, ins n = [] ↔ n = s := by
  intro n hn
  refine ⟨fun h => ?_, fun h => h ▸ P.line.start.1⟩
  rcases List.mem_cons.1 (P.line.nodes.mem_iff.2 hn) with h' | h'
  · exact h'
  · obtain ⟨p, hp, hin⟩ := List.mem_flatMap.1 h'
    cases p with
    | step m =>
      simp only [Part.nodes, List.mem_singleton] at hin
      subst hin
      have := (P.line.steps _ hp).1
      simp [h] at this
    | optional g a j =>
      obtain ⟨-, o1, -, o3, -, o5, -⟩ := P.line.skips _ _ _ hp
      simp only [Part.nodes, List.mem_cons, List.not_mem_nil, or_false] at hin
      rcases hin with rfl | rfl | rfl <;> simp [h] at o1 o3 o5

include c P in
theorem exported : ∃ R, (∃ N, ∀ fuel ≥ N, exportRows d fuel = .ok R) ∧ ∃ m, (∃ r ∈ R, r.activity = "goto " ++ toString (m + 1)) ∧ ∀ r ∈ R, r.order ≠ toString (m + 1) := by
  have G := ground c P
  have sm : s ∈ d.getNodes := P.line.nodes.mem_iff.1 (by simp)
  have flat : (parts ++ [Part.optional g a e]).flatMap Part.nodes = parts.flatMap Part.nodes ++ [g, a, e] := by simp [Part.nodes]
  have line := P.line.line
  rw [flat] at line
  obtain ⟨r, hr⟩ := head_list (g := g) (a := a) (e := e) parts
  rw [hr] at line
  obtain ⟨l1, l2⟩ := List.isChain_cons_cons.1 line
  have go := run c P parts (fun _ h => h) (by rw [hr]; exact l2) 1
  have ts := (P.events s sm).1.2 rfl
  obtain ⟨R, m, ⟨f, hf⟩, -, h1, h2⟩ := before G sm (head_mem P fun _ h => h) (by rw [ts]; simp) l1 P.line.start.2 0 go false (.inl (by simp [P.line.start.1])) []
  refine ⟨R, ⟨f, fun fuel hfuel => exportRows_mono hfuel ?_⟩, m, h1, h2⟩
  have starts : d.getNodes.filter (fun n => (Spec.ins n).length = 0) = [s] := by
    refine only_one (c.ids.of_map.filter _) (List.mem_filter.2 ⟨sm, by simp [P.line.start.1]⟩) ?_
    intro b hb
    obtain ⟨hb1, hb2⟩ := List.mem_filter.1 hb
    rw [decide_eq_true_eq, List.length_eq_zero_iff] at hb2
    exact (only_start c P b hb1).1 hb2
  unfold exportRows
  rw [startNodes_eq fun n hn => (c.lists n hn).1, starts]
  simp only [except_bind_ok, nodes_eq c.complete c.ids]
  rw [show (byType d).map (fun n => (n.1, Spec.labels n)) = table d from rfl, hf]
  simp

end OptEnd

open OptEnd in
/-- **C140 (refused).** A process whose last step is optional and leads to the end like the way past it is exported, but the table has a `goto` to a number that no row has, and the import refuses it. -/
theorem C140_refused (d : Diagram) (c : Consistent d) (s g a e : Node) (parts : List Part) (P : OptionalEnd d s parts g a e) :
    ∃ rows, (∃ N, ∀ fuel ≥ N, exportRows d fuel = .ok rows) ∧ (∃ m, (∃ r ∈ rows, r.activity = "goto " ++ toString (m + 1)) ∧ ∀ r ∈ rows, r.order ≠ toString (m + 1)) ∧ ∀ d', loadCsv rows {} ≠ .ok d' := by
  obtain ⟨rows, ⟨N, hN⟩, m, ⟨r, hr, h1⟩, h2⟩ := exported c P
  refine ⟨rows, ⟨N, hN⟩, ⟨m, ⟨r, hr, h1⟩, h2⟩, ?_⟩
  obtain ⟨ho, hi⟩ := C42_orders d N _ (hN N (Nat.le_refl _))
  obtain ⟨g1, g2⟩ := OptProc.goes_to (k := m) (g := r) h1
  exact C110_target rows ⟨ho, fun r hr => order_alnum (hi r hr)⟩ r hr g1 _ g2 (.inr ⟨fun hu => absurd (decimal_isDigit (n := m + 1) hu) (by decide), h2⟩)

namespace OptEnd
variable {rows : List Row} {items : List Entry} (T : OptionalTable rows items)

include T in
theorem last_part (d : Diagram) {n : Nat} {x g : Row} (hx : items[n]? = some (.optional x g)) (hn : n + 2 = items.length) : ∀ es k p, OptRows.Tail items k p es → k < n →
    ∃ parts w q, items[n + 1]? = some (.line q) ∧ OptRows.partsOf d p es = parts ++ [.optional w (nodeNamed d x.order) (nodeNamed d q.order)] := by
  refine OptRows.tail_induction T ?_ ?_ ?_
  · intro k p h hk
    have := h.2 0
    simp at this
    omega
  · intro k p r t h h' ih hk
    by_cases e : k + 1 = n
    · subst e
      rw [h'.1] at hx
      cases hx
    · obtain ⟨parts, w, q, h1, h2⟩ := ih (by omega)
      exact ⟨_ :: parts, w, q, h1, by rw [OptRows.partsOf, h2]; rfl⟩
  · intro k p x' g' q t h h' ih hk
    by_cases e : k + 1 = n
    · subst e
      have h1 := h.2 0
      simp only [Nat.add_zero, List.getElem?_cons_zero] at h1
      rw [hx] at h1
      injection h1 with h1
      injection h1 with h1
      subst h1
      have h2 := h.2 2
      rw [List.getElem?_eq_none (by omega)] at h2
      simp at h2
      have : t = [] := by
        cases t with
        | nil => rfl
        | cons a b => simp at h2
      subst this
      exact ⟨[], _, q, h'.1, rfl⟩
    · have : k + 2 ≠ n := by
        rintro rfl
        rw [h'.1] at hx
        cases hx
      obtain ⟨parts, w, u, h1, h2⟩ := ih (by omega)
      exact ⟨_ :: parts, w, u, h1, by rw [OptRows.partsOf, h2]; rfl⟩

include T in
theorem of_table {d : Diagram} (hd : loadCsv rows {} = .ok d) {n : Nat} {x g : Row} (hx : items[n]? = some (.optional x g)) (hn : n + 2 = items.length) :
    ∃ s parts g a e, OptionalEnd d s parts g a e := by
  obtain ⟨p, es, e0, ht⟩ := OptRows.whole T
  obtain ⟨named, O⟩ := OptRows.optional_line T hd ht
  obtain ⟨G, -⟩ := (OptRows.goto_table T).ground (OptRows.split_table T) (OptRows.no_turn T) hd
  have K := OptRows.known T hd
  have c := G.consistent
  have n0 : 0 < n := by
    rcases Nat.eq_zero_or_pos n with h | h
    · subst h
      rw [ht.1] at hx
      cases hx
    · exact h
  obtain ⟨parts, w, q, hq, hp⟩ := last_part T d hx hn es 0 p ht n0
  rw [hp] at O
  have mp := (OptRows.sp_order T (.line ht.1)).1
  have mq := (OptRows.sp_order T (.line hq)).1
  have gp := (T.line _ _ ht.1).2.1
  have gq := (T.line _ _ hq).2.1
  have tq := (T.line _ _ hq).2.2.2 (by omega)
  have p0 : p.order = "0" := (OptRows.row_type T ht.1).2 rfl
  have q0 : q.order ≠ "0" := fun k => by have := (OptRows.row_type T hq).1 k; omega
  have ts : (nodeNamed d p.order).2.type = some "startEvent" := by rw [(K.row mp gp).1, rowType, if_pos p0]
  have te : (nodeNamed d q.order).2.type = some "endEvent" := by rw [(K.row mq gq).1, rowType, if_neg q0, if_pos tq]
  refine ⟨_, _, _, _, _, O, G.supported, G.named, fun m hm => ⟨⟨fun k => ?_, fun k => k ▸ ts⟩, ⟨fun k => ?_, fun k => k ▸ te⟩⟩⟩
  · rcases (C60_nodes rows (OptRows.goto_table T).table d hd).2 m hm with ⟨r, hr, hg, e⟩ | ⟨-, h⟩
    · obtain ⟨k1, k2⟩ := named _ (.row hr hg)
      have em := c.node_eq hm k1 (e.symm.trans k2.symm)
      rw [em, (K.row hr hg).1, rowType] at k
      have : r.order = "0" := by
        by_contra h
        rw [if_neg h] at k
        split_ifs at k <;> simp at k
      rw [em, this, p0]
    · simp [gatewayTypes, k] at h
  · rcases (C60_nodes rows (OptRows.goto_table T).table d hd).2 m hm with ⟨r, hr, hg, e⟩ | ⟨-, h⟩
    · obtain ⟨k1, k2⟩ := named _ (.row hr hg)
      have em := c.node_eq hm k1 (e.symm.trans k2.symm)
      rw [em, (K.row hr hg).1, rowType] at k
      have ty : r.terminated = "yes" := by
        by_contra h
        rw [if_neg h] at k
        split_ifs at k <;> simp at k
      obtain ⟨en, hen, hr'⟩ := List.mem_flatMap.1 (T.all.mem_iff.1 hr)
      obtain ⟨i, hi⟩ := List.mem_iff_getElem?.1 hen
      cases en with
      | line r' =>
        simp only [Entry.rows, List.mem_singleton] at hr'
        subst hr'
        have := (T.line _ _ hi).2.2.1 ty
        rw [show i = n + 1 by omega, hq] at hi
        injection hi with hi
        injection hi with hi
        rw [em, ← hi]
      | optional y z =>
        obtain ⟨-, -, h1, -, h2, -⟩ := T.optional _ _ _ hi
        simp only [Entry.rows, List.mem_cons, List.not_mem_nil, or_false] at hr'
        rcases hr' with rfl | rfl
        · exact absurd ty h1
        · exact absurd ty h2
    · simp [gatewayTypes, k] at h

end OptEnd

/-- **C140 (table).** A table in which an optional step stands directly before the last row is imported, and the diagram is exported, but the new table is refused. -/
theorem C140_table (rows : List Row) (items : List Entry) (T : OptionalTable rows items) (n : Nat) (x g : Row) (hx : items[n]? = some (.optional x g)) (hn : n + 2 = items.length) :
    ∃ d, loadCsv rows {} = .ok d ∧ ∃ rows', (∃ N, ∀ fuel ≥ N, exportRows d fuel = .ok rows') ∧ ∀ d', loadCsv rows' {} ≠ .ok d' := by
  obtain ⟨d, hd⟩ := OptRows.imported T
  obtain ⟨s, parts, u, a, e, P⟩ := OptEnd.of_table T hd hx hn
  obtain ⟨G, -⟩ := (OptRows.goto_table T).ground (OptRows.split_table T) (OptRows.no_turn T) hd
  obtain ⟨rows', h1, -, h2⟩ := C140_refused d G.consistent s u a e parts P
  exact ⟨d, hd, rows', h1, h2⟩

/-- A table with three optional steps, the last one before the end. -/
example : ∃ d, loadCsv letterOptions {} = .ok d ∧ ∃ rows', (∃ N, ∀ fuel ≥ N, exportRows d fuel = .ok rows') ∧ ∀ d', loadCsv rows' {} ≠ .ok d' :=
  C140_table _ _ letter_options 6 _ _ rfl rfl

/-- A process with an optional step before an activity, then a step with a gateway behind it, and one before the end. -/
def openEndOps : List Op :=
  [.createNew "d" "D", .addProcess "p" false true "None" "PL" "P",
   .addStartEvent "P" "s" none false true (some "s") "u1" "u2",
   .addExclusiveGateway "P" "g" "Diverging" none none "g", .addTask "P" "a" (some "a") "u4", .addTask "P" "t" (some "t") "u6",
   .addExclusiveGateway "P" "h" "Diverging" none none "h", .addTask "P" "b" (some "b") "u5", .addExclusiveGateway "P" "k" "Converging" none none "k",
   .addExclusiveGateway "P" "i" "Diverging" none none "i", .addTask "P" "c" (some "c") "u9",
   .addEndEvent "P" "e" none (some "e") "u7" "u8",
   .addSequenceFlow "P" "s" "g" "" "f1", .addSequenceFlow "P" "g" "t" "" "f3", .addSequenceFlow "P" "g" "a" "" "f2", .addSequenceFlow "P" "a" "t" "" "f4",
   .addSequenceFlow "P" "t" "h" "" "f5", .addSequenceFlow "P" "h" "b" "" "f6", .addSequenceFlow "P" "h" "k" "" "f8", .addSequenceFlow "P" "b" "k" "" "f9",
   .addSequenceFlow "P" "k" "i" "" "fa", .addSequenceFlow "P" "i" "c" "" "fb", .addSequenceFlow "P" "i" "e" "" "fc", .addSequenceFlow "P" "c" "e" "" "fd"]

theorem openEnd_allowed : AllowedHistory {} openEndOps := by
  simp [openEndOps, AllowedHistory, Allowed, step, declaredNode, declaredFlow, directionArg, directions, chosen]

def openEndParts : List Part :=
  let n := Props.nodeOf (Op.run {} openEndOps)
  [.optional (n "g") (n "a") (n "t"), .optional (n "h") (n "b") (n "k")]

set_option maxRecDepth 8000 in
theorem openEnd_process : OptionalEnd (Op.run {} openEndOps) (Props.nodeOf (Op.run {} openEndOps) "s") openEndParts (Props.nodeOf (Op.run {} openEndOps) "i") (Props.nodeOf (Op.run {} openEndOps) "c")
    (Props.nodeOf (Op.run {} openEndOps) "e") := by
  refine ⟨⟨by decide +kernel, by decide +kernel, by decide +kernel, ?_, ?_⟩, by decide +kernel, by decide +kernel, by decide +kernel⟩
  · intro n hn
    simp [openEndParts] at hn
  · intro g a j hn
    simp only [openEndParts, List.cons_append, List.nil_append, List.mem_cons, List.not_mem_nil, or_false, reduceCtorEq, Part.optional.injEq, false_or] at hn
    rcases hn with ⟨rfl, rfl, rfl⟩ | ⟨rfl, rfl, rfl⟩ | ⟨rfl, rfl, rfl⟩ <;> decide +kernel

example : ∃ rows, (∃ N, ∀ fuel ≥ N, exportRows (Op.run {} openEndOps) fuel = .ok rows) ∧ ∀ d', loadCsv rows {} ≠ .ok d' := by
  obtain ⟨rows, h1, -, h2⟩ := C140_refused _ (consistent_of_allowed _ openEnd_allowed) _ _ _ _ _ openEnd_process
  exact ⟨rows, h1, h2⟩

end Bpmn.Props

import Verif.Spec.OptionalProcess
import Verif.Props.OptionalFiled
import Verif.Props.Dangling
/-!
# Processes with optional steps, exported and imported (C139)
-/
set_option linter.unusedSimpArgs false
set_option linter.unusedVariables false

namespace Bpmn.Props
open Bpmn Spec Csv Spec.Csv

namespace OptProc
variable {d : Diagram} {s e : Node} {parts : List Part}

def headNode (e : Node) : List Part → Node
  | [] => e
  | .step n :: _ => n
  | .optional g _ _ :: _ => g

theorem list_head (e : Node) (l : List Part) : ∃ r, l.flatMap Part.nodes ++ [e] = headNode e l :: r := by
  cases l with
  | nil => exact ⟨[], rfl⟩
  | cons p t => cases p <;> exact ⟨_, rfl⟩

/-- The flow to the optional step is the first one. -/
def firstOf (d : Diagram) (g a : Node) : Prop := ∃ i, (outs g).head? = some i ∧ LeadsTo d i (some a)

open Classical in
noncomputable def twoWays (d : Diagram) (g a : Node) : Spec.Branches :=
  if firstOf d g a then .cons (.step a .meet) (.cons .meet .nil) else .cons .meet (.cons (.step a .meet) .nil)

noncomputable def tailStrand (d : Diagram) (e : Node) : List Part → Strand
  | [] => .stop e
  | .step n :: t => .step n (tailStrand d e t)
  | .optional g a j :: t => .block g (twoWays d g a) (.step j (tailStrand d e t))

theorem tail_first (l : List Part) (j : Option Node) : (tailStrand d e l).first j = some (headNode e l) := by
  cases l with
  | nil => rfl
  | cons p t => cases p <;> rfl

theorem tail_noMeet (l : List Part) : ¬(tailStrand d e l).IsMeet := by
  cases l with
  | nil => simp [tailStrand, Strand.IsMeet]
  | cons p t => cases p <;> simp [tailStrand, Strand.IsMeet]

theorem ways_nodes (g a : Node) : (twoWays d g a).nodes = [a] := by
  unfold twoWays
  split_ifs <;> rfl

theorem tail_nodes (l : List Part) : (tailStrand d e l).nodes = l.flatMap Part.nodes ++ [e] := by
  induction l with
  | nil => rfl
  | cons p t ih => cases p <;> simp [tailStrand, Strand.nodes, ih, Part.nodes, ways_nodes]

theorem leads_of (c : Consistent d) {n m : Node} (hm : m ∈ d.getNodes) (h : Feeds n m) : ∃ i ∈ outs n, LeadsTo d i (some m) := by
  obtain ⟨i, h1, h2⟩ := h
  obtain ⟨q, -, ⟨a, b, f, hf, -, -, ht⟩, -⟩ := c.inFlow m hm i h2
  exact ⟨i, h1, m, hm, rfl, _, hf, ht⟩

theorem only_way (c : Consistent d) {n m : Node} (hm : m ∈ d.getNodes) (h : Feeds n m) (hl : (outs n).length ≤ 1) : ∃ i, outs n = [i] ∧ LeadsTo d i (some m) := by
  obtain ⟨i, h1, h2⟩ := leads_of c hm h
  match ho : outs n, h1 with
  | [k], h1 =>
    rw [List.mem_singleton] at h1
    exact ⟨k, rfl, h1 ▸ h2⟩
  | k :: l :: t, _ => rw [ho] at hl; simp at hl

variable (c : Consistent d) (P : OptionalProcess d s parts e)

include P in
theorem mem_part {p : Part} (hp : p ∈ parts) {n : Node} (hn : n ∈ p.nodes) : n ∈ d.getNodes :=
  P.line.nodes.mem_iff.1 (List.mem_cons_of_mem _ (List.mem_flatMap.2 ⟨p, List.mem_append_left _ hp, hn⟩))

include P in
theorem mem_end : e ∈ d.getNodes :=
  P.line.nodes.mem_iff.1 (List.mem_cons_of_mem _ (List.mem_flatMap.2 ⟨.step e, by simp, by simp [Part.nodes]⟩))

include c P in
theorem step_ne_join {g a j : Node} (h : .optional g a j ∈ parts) : a.1 ≠ j.1 := by
  intro k
  have := c.node_eq (mem_part P h (by simp [Part.nodes])) (mem_part P h (by simp [Part.nodes])) k
  obtain ⟨-, -, -, h1, -, h2, -⟩ := P.line.skips g a j (List.mem_append_left _ h)
  rw [this] at h1
  omega

include c P in
theorem ways {g a j : Node} (h : .optional g a j ∈ parts) (hf : Feeds g a) :
    ∃ i i', LeadsTo d i (some a) ∧ LeadsTo d i' (some j) ∧ (firstOf d g a ∧ outs g = [i, i'] ∨ ¬firstOf d g a ∧ outs g = [i', i]) := by
  obtain ⟨k1, -, k2, -⟩ := P.line.skips g a j (List.mem_append_left _ h)
  obtain ⟨i, i1, i2⟩ := leads_of c (mem_part P h (by simp [Part.nodes])) hf
  obtain ⟨i', j1, j2⟩ := leads_of c (mem_part P h (by simp [Part.nodes])) k1
  have ne : i ≠ i' := by
    rintro rfl
    exact step_ne_join c P h (OptRows.leads_unique i2 j2)
  obtain ⟨x, y, hxy⟩ := List.length_eq_two.1 k2
  rw [hxy] at i1 j1
  simp only [List.mem_cons, List.not_mem_nil, or_false] at i1 j1
  refine ⟨i, i', i2, j2, ?_⟩
  rcases i1 with rfl | rfl
  · refine .inl ⟨⟨i, by rw [hxy]; rfl, i2⟩, ?_⟩
    rw [hxy, j1.resolve_left (Ne.symm ne)]
  · have : i' = x := j1.resolve_right (Ne.symm ne)
    subst this
    refine .inr ⟨?_, hxy⟩
    rintro ⟨z, hz, hl⟩
    rw [hxy] at hz
    simp only [List.head?_cons, Option.some.injEq] at hz
    subst hz
    exact step_ne_join c P h (OptRows.leads_unique hl j2)

include P in
theorem tail_mem {l : List Part} (hl : ∀ p ∈ l, p ∈ parts) : headNode e l ∈ d.getNodes := by
  cases l with
  | nil => exact mem_end P
  | cons p t =>
    have := hl p (by simp)
    cases p <;> exact mem_part P this (by simp [Part.nodes, headNode])

theorem not_activity {n : Node} (h : n.2.type ∈ gatewayTypes) : ¬IsActivity n ∧ ¬HasRow n ∧ n.2.type ≠ some "startEvent" ∧ n.2.type ≠ some "endEvent" := by
  simp only [gatewayTypes, List.mem_cons, List.not_mem_nil, or_false] at h
  unfold IsActivity HasRow
  rcases h with h | h | h <;> simp [h]

theorem activity_row {n : Node} (h : IsActivity n) : HasRow n ∧ n.2.type ≠ some "startEvent" ∧ n.2.type ≠ some "endEvent" := by
  unfold HasRow
  rcases h with h | h <;> simp [h]

include c P in
theorem tail_fits : ∀ l : List Part, (∀ p ∈ l, p ∈ parts) → (l.flatMap Part.nodes ++ [e]).IsChain Feeds → (tailStrand d e l).Fits d false none
  | [], hl, hc => by
    have he := P.line.steps e (by simp)
    exact ⟨mem_end P, by simp [Entered, he.1], P.ends.2, by rw [P.ends.1]; decide, by simp⟩
  | .step n :: t, hl, hc => by
    have hn := hl (.step n) (by simp)
    have k := P.line.steps n (List.mem_append_left _ hn)
    obtain ⟨r, hr⟩ := list_head e t
    simp only [List.flatMap_cons, Part.nodes, List.cons_append, List.nil_append] at hc
    have hf : Feeds n (headNode e t) := by
      rw [hr] at hc
      exact (List.isChain_cons_cons.1 hc).1
    have ht : ∀ p ∈ t, p ∈ parts := fun p hp => hl p (List.mem_cons_of_mem _ hp)
    refine ⟨mem_part P hn (by simp [Part.nodes]), by simp [Entered, k.1], (activity_row (P.steps n hn)).2.2, ?_, tail_fits t ht hc.tail, by simp⟩
    rw [tail_first]
    exact only_way c (tail_mem P ht) hf k.2
  | .optional g a j :: t, hl, hc => by
    have hn := hl (.optional g a j) (by simp)
    obtain ⟨k0, k1, k2, k3, k4, k5, k6⟩ := P.line.skips g a j (List.mem_append_left _ hn)
    obtain ⟨t1, t2, t3⟩ := P.skips g a j hn
    obtain ⟨r, hr⟩ := list_head e t
    simp only [List.flatMap_cons, Part.nodes, List.cons_append, List.nil_append] at hc
    have ht : ∀ p ∈ t, p ∈ parts := fun p hp => hl p (List.mem_cons_of_mem _ hp)
    have fga : Feeds g a := (List.isChain_cons_cons.1 hc).1
    have faj : Feeds a j := (List.isChain_cons_cons.1 hc.tail).1
    have hj := hc.tail.tail
    simp only [List.tail_cons] at hj
    have fj : Feeds j (headNode e t) := by
      rw [hr] at hj
      exact (List.isChain_cons_cons.1 hj).1
    have gm := mem_part P hn (n := g) (by simp [Part.nodes])
    have am := mem_part P hn (n := a) (by simp [Part.nodes])
    have jm := mem_part P hn (n := j) (by simp [Part.nodes])
    have ng := not_activity t1
    have nj := not_activity t3
    have fa : (Strand.step a .meet).Fits d false (some j) :=
      ⟨am, by simp [Entered, k3], (activity_row t2).2.2, only_way c jm faj (by omega), ⟨rfl, rfl⟩, by simp⟩
    refine ⟨gm, by simp [Entered, k1], ⟨ng.2.2.1, ng.2.2.2, by omega, by omega⟩, by simp, ?_, ?_, jm, ?_, nj.2.2.2, ?_, tail_fits t ht hj.tail, fun _ _ => tail_noMeet t⟩
    · obtain ⟨i, i', l1, l2, h⟩ := ways c P hn fga
      unfold twoWays
      show Spec.Branches.Fit d (some j) _ _
      rcases h with ⟨h, ho⟩ | ⟨h, ho⟩
      · rw [if_pos h, ho]
        exact ⟨i, [i'], rfl, l1, fa, i', [], rfl, l2, ⟨rfl, rfl⟩, rfl⟩
      · rw [if_neg h, ho]
        exact ⟨i', [i], rfl, l2, ⟨rfl, rfl⟩, i, [], rfl, l1, fa, rfl⟩
    · unfold twoWays
      split_ifs <;> simp [Spec.Branches.SomeGoOn, Strand.GoesOn, Strand.IsMeet]
    · simp [Entered, k5, nj]
    · rw [tail_first]
      exact only_way c (tail_mem P ht) fj k6

include c P in
theorem structured : Structured d (.step s (tailStrand d e parts)) := by
  have flat : (parts ++ [Part.step e]).flatMap Part.nodes = parts.flatMap Part.nodes ++ [e] := by simp [Part.nodes]
  have line := P.line.line
  rw [flat] at line
  have sm : s ∈ d.getNodes := P.line.nodes.mem_iff.1 (by simp)
  have each : ∀ n ∈ d.getNodes, n = s ∨ n = e ∨ .step n ∈ parts ∨ ∃ g a j, .optional g a j ∈ parts ∧ (n = g ∨ n = a ∨ n = j) := by
    intro n hn
    have := P.line.nodes.mem_iff.2 hn
    rw [flat] at this
    simp only [List.mem_cons, List.mem_append, List.mem_flatMap, List.not_mem_nil, or_false] at this
    rcases this with h | ⟨p, hp, hn⟩ | h
    · exact .inl h
    · cases p with
      | step m =>
        simp only [Part.nodes, List.mem_singleton] at hn
        exact .inr (.inr (.inl (hn ▸ hp)))
      | optional g a j =>
        simp only [Part.nodes, List.mem_cons, List.not_mem_nil, or_false] at hn
        exact .inr (.inr (.inr ⟨g, a, j, hp, hn⟩))
    · exact .inr (.inl h)
  refine ⟨?_, ?_, P.named, ?_, ?_⟩
  · have := P.line.nodes
    rw [flat] at this
    rw [Strand.nodes, tail_nodes]
    exact this
  · intro n hn
    have ac : ∀ {m : Node}, IsActivity m → Supported m := by
      rintro m (h | h)
      · exact ⟨_, by simp [supportedTypes], h⟩
      · exact ⟨_, by simp [supportedTypes], h⟩
    have ga : ∀ {m : Node}, m.2.type ∈ gatewayTypes → Supported m := by
      intro m h
      simp only [gatewayTypes, List.mem_cons, List.not_mem_nil, or_false] at h
      rcases h with h | h | h <;> exact ⟨_, by simp [supportedTypes], h⟩
    rcases each n hn with rfl | rfl | h | ⟨g, a, j, h, rfl | rfl | rfl⟩
    · exact ⟨_, by simp [supportedTypes], P.starts⟩
    · exact ⟨_, by simp [supportedTypes], P.ends.1⟩
    · exact ac (P.steps n h)
    · exact ga (P.skips _ _ _ h).1
    · exact ac (P.skips _ _ _ h).2.1
    · exact ga (P.skips _ _ _ h).2.2
  · intro n hn
    constructor
    · intro h
      rcases each n hn with rfl | rfl | k | ⟨g, a, j, k, ho⟩
      · rfl
      · have := (P.line.steps n (by simp)).1
        simp [h] at this
      · have := (P.line.steps n (List.mem_append_left _ k)).1
        simp [h] at this
      · obtain ⟨-, o1, -, o2, -, o3, -⟩ := P.line.skips g a j (List.mem_append_left _ k)
        rcases ho with rfl | rfl | rfl <;> simp_all
    · intro h
      injection h with h
      exact h ▸ P.line.start.1
  · obtain ⟨r, hr⟩ := list_head e parts
    have hf : Feeds s (headNode e parts) := by
      rw [hr] at line
      exact (List.isChain_cons_cons.1 line).1
    refine ⟨sm, by simp [Entered, P.line.start.1], by rw [P.starts]; decide, ?_, tail_fits c P parts (fun _ h => h) line.tail, by simp⟩
    rw [tail_first]
    exact only_way c (tail_mem P fun _ h => h) hf P.line.start.2

theorem entries_get (first : Node → Bool) (done past : Node → String) : ∀ (l : List Part) (k n : Nat), (entries first done past k l)[n]? = l[n]?.map (Part.entry first done past (k + n))
  | [], k, n => by simp [entries]
  | p :: t, k, 0 => by simp [entries]
  | p :: t, k, n + 1 => by
    simp only [entries, List.getElem?_cons_succ, entries_get first done past t (k + 1) n]
    rw [show k + 1 + n = k + (n + 1) by omega]

theorem entries_length (first : Node → Bool) (done past : Node → String) : ∀ (l : List Part) (k : Nat), (entries first done past k l).length = l.length
  | [], k => rfl
  | p :: t, k => by simp [entries, entries_length first done past t (k + 1)]

theorem own_row {n : Node} (h : HasRow n) (k : Nat) : nodeRow n ("" ++ toString k) "" = [Row.mk (toString k) (caption n).1 "" "" (caption n).2.1 (caption n).2.2] := by
  unfold nodeRow
  rw [if_pos h, String.empty_append]

include c P in
/-- The table of the tail. -/
theorem tail_table {first : Node → Bool} {done past : Node → String} (D : Describes d parts first done past)
    (fo : ∀ g a j, .optional g a j ∈ parts → (first g = true ↔ firstOf d g a)) : ∀ (l : List Part) (k : Nat), (∀ p ∈ l, p ∈ parts) →
    ((tailStrand d e l).table d false "" k "").Perm ((entries first done past k (l ++ [.step e])).flatMap Entry.rows)
  | [], k, hl => by
    have he : HasRow e := by unfold HasRow; simp [P.ends.1]
    simp only [tailStrand, Strand.table, List.nil_append, entries, Part.entry, List.flatMap_cons, Entry.rows, List.flatMap_nil, List.append_nil, own_row he]
    exact List.Perm.refl _
  | .step n :: t, k, hl => by
    have hn := (activity_row (P.steps n (hl _ (by simp)))).1
    simp only [tailStrand, Strand.table, Bool.false_eq_true, false_and, if_false, List.cons_append, entries, Part.entry, List.flatMap_cons, Entry.rows, own_row hn]
    exact List.Perm.cons _ (tail_table D fo t (k + 1) fun p hp => hl p (List.mem_cons_of_mem _ hp))
  | .optional g a j :: t, k, hl => by
    have hn := hl (.optional g a j) (by simp)
    obtain ⟨t1, t2, t3⟩ := P.skips g a j hn
    obtain ⟨i, i', ho, l1, l2, c1, c2⟩ := D g a j hn
    have ha := (activity_row t2).1
    have ng : ∀ o, nodeRow g o "" = [] := fun o => if_neg (not_activity t1).2.1
    have step : ∀ o c, nodeRow a o c = [Row.mk o (caption a).1 c "" (caption a).2.1 (caption a).2.2] := fun o c => if_pos ha
    have sa : ∀ c : Char, "" ++ toString k ++ String.ofList [c] ++ "1" = toString k ++ String.ofList [c, '1'] := fun c => String.toList_injective (by simp)
    have t1' : toString 1 = "1" := rfl
    have la : letter 0 = 'a' := rfl
    have lb : letter 1 = 'b' := rfl
    have sA : String.ofList ['a', '1'] = "a1" := rfl
    have sB : String.ofList ['b', '1'] = "b1" := rfl
    have sg : "goto " ++ "" ++ toString (k + 1) = "goto " ++ toString (k + 1) := by rw [String.append_empty]
    simp only [tailStrand, Strand.table, ng, List.nil_append, List.cons_append, entries, List.flatMap_cons]
    rw [if_pos ⟨trivial, (not_activity t3).1⟩]
    refine List.Perm.append ?_ (tail_table D fo t (k + 1) fun p hp => hl p (List.mem_cons_of_mem _ hp))
    have fi := fo g a j hn
    unfold twoWays
    cases hfirst : first g with
    | true =>
      rw [if_pos (fi.1 hfirst), ho, hfirst]
      simp only [Spec.Branches.table, Strand.table, Part.entry, hfirst, if_true, Entry.rows, ← c1, ← c2, step, t1', sa, la, lb, sA, sB, sg, Nat.zero_add, false_and, if_false,
        List.append_nil, List.cons_append, List.nil_append, Bool.false_eq_true]
      exact List.Perm.refl _
    | false =>
      rw [if_neg (fun h => by rw [fi.2 h] at hfirst; cases hfirst), ho, hfirst]
      simp only [Spec.Branches.table, Strand.table, Part.entry, hfirst, if_true, Entry.rows, ← c1, ← c2, step, t1', sa, la, lb, sA, sB, sg, Nat.zero_add, false_and, if_false,
        List.append_nil, List.cons_append, List.nil_append, Bool.false_eq_true]
      exact List.Perm.swap _ _ _

open Classical in
/-- The first flow of the gateway leads to an activity. -/
noncomputable def toActivity (d : Diagram) (g : Node) : Bool := decide (∃ i m, (outs g).head? = some i ∧ LeadsTo d i (some m) ∧ IsActivity m)

include c P in
theorem feeds_step {g a j : Node} (h : .optional g a j ∈ parts) : Feeds g a := by
  obtain ⟨l, r, e1⟩ := List.append_of_mem h
  have := P.line.line
  rw [e1] at this
  simp only [List.append_assoc, List.cons_append, List.flatMap_append, List.flatMap_cons, Part.nodes, List.nil_append] at this
  rw [← List.cons_append] at this
  exact (List.isChain_cons_cons.1 (List.isChain_append.1 this).2.1).1

include c P in
theorem describes : ∃ done past, Describes d parts (toActivity d) done past ∧ ∀ g a j, .optional g a j ∈ parts → (toActivity d g = true ↔ firstOf d g a) := by
  have key : ∀ g a j, .optional g a j ∈ parts → (toActivity d g = true ↔ firstOf d g a) := by
    intro g a j h
    obtain ⟨-, t2, t3⟩ := P.skips g a j h
    unfold toActivity
    simp only [decide_eq_true_iff]
    constructor
    · rintro ⟨i, m, h1, h2, h3⟩
      obtain ⟨x, y, l1, l2, ⟨k, -⟩ | ⟨-, ho⟩⟩ := ways c P h (feeds_step c P h)
      · exact k
      · rw [ho] at h1
        simp only [List.head?_cons, Option.some.injEq] at h1
        subst h1
        obtain ⟨q, hq, e1, -⟩ := id h2
        injection e1 with e1
        subst e1
        have := c.node_eq hq (mem_part P h (n := j) (by simp [Part.nodes])) (OptRows.leads_unique h2 l2)
        exact absurd (this ▸ h3) (not_activity t3).1
    · rintro ⟨i, h1, h2⟩
      exact ⟨i, a, h1, h2, t2⟩
  refine ⟨fun g => splitCondition d g ((outs g).getD (if toActivity d g then 0 else 1) ""), fun g => skipCondition d g ((outs g).getD (if toActivity d g then 1 else 0) ""), ?_, key⟩
  intro g a j h
  obtain ⟨x, y, l1, l2, ⟨k, ho⟩ | ⟨k, ho⟩⟩ := ways c P h (feeds_step c P h)
  · have := (key g a j h).2 k
    exact ⟨x, y, by simp [this, ho], l1, l2, by simp [this, ho], by simp [this, ho]⟩
  · have : toActivity d g = false := by
      rw [← Bool.not_eq_true]
      exact fun q => k ((key g a j h).1 q)
    exact ⟨x, y, by simp [this, ho], l1, l2, by simp [this, ho], by simp [this, ho]⟩

end OptProc

open OptProc in
/-- **C139 (export).** A process with optional steps is exported: activities and events are numbered, the joins take no numbers; an optional step has a branch with the step and one with a `goto` to the next number,
in the order of the flows and with their conditions. -/
theorem C139_export (d : Diagram) (c : Consistent d) (s e : Node) (parts : List Part) (P : OptionalProcess d s parts e) :
    ∃ first done past, Describes d parts first done past ∧ ∃ rows, (∃ N, ∀ fuel ≥ N, exportRows d fuel = .ok rows) ∧
      rows.Perm ((entries first done past 0 (.step s :: parts ++ [.step e])).flatMap Entry.rows) := by
  obtain ⟨done, past, D, fo⟩ := describes c P
  refine ⟨_, done, past, D, _, C96_rows d _ c (structured c P), ?_⟩
  have hs : HasRow s := by unfold HasRow; simp [P.starts]
  simp only [Strand.table, Bool.false_eq_true, false_and, if_false, List.cons_append, entries, Part.entry, List.flatMap_cons, Entry.rows, OptProc.own_row hs]
  exact List.Perm.cons _ (tail_table c P D fo parts 1 fun _ h => h)

namespace OptProc

theorem goes_to {k : Nat} {g : Row} (h : g.activity = "goto " ++ toString (k + 1)) : GotoRow g ∧ GoesTo g (toString (k + 1)) := by
  refine ⟨⟨'g', 'o', 't', 'o', ' ' :: (toString (k + 1)).toList, by rw [h]; simp, by simp, by simp, by simp, by simp⟩,
    ['g', 'o', 't', 'o'], [' '], [], by rw [h]; simp, by simp, by unfold White; decide, by simp, by unfold White; decide, ?_, ?_, by simp⟩
  · intro e
    exact decimal_ne_nil (k + 1) (congrArg String.toList e)
  · intro c hc
    exact OptRows.digit_not_white (decimal_isDigit (n := k + 1) hc)

theorem entry_orders {first : Node → Bool} {done past : Node → String} {parts : List Part} {r : Row} (h : r ∈ (entries first done past 0 parts).flatMap Entry.rows) :
    (∃ (n : Nat) (m : Node), parts[n]? = some (Part.step m) ∧ r.order = toString n) ∨ ∃ (n : Nat) (x : String), r.order = toString n ++ x ∧ ∃ c ∈ x.toList, c.isDigit = false := by
  obtain ⟨en, hen, hr⟩ := List.mem_flatMap.1 h
  obtain ⟨n, hn⟩ := List.mem_iff_getElem?.1 hen
  rw [entries_get] at hn
  cases hp : parts[n]? with
  | none => simp [hp] at hn
  | some p =>
    rw [hp, Option.map_some, Option.some.injEq, Nat.zero_add] at hn
    subst hn
    cases p with
    | step m =>
      simp only [Part.entry, Entry.rows, List.mem_singleton] at hr
      subst hr
      exact .inl ⟨n, m, hp, rfl⟩
    | optional g a j =>
      simp only [Part.entry, Entry.rows, List.mem_cons, List.not_mem_nil, or_false] at hr
      refine .inr ⟨n, ?_⟩
      rcases hr with rfl | rfl
      · refine ⟨_, rfl, ?_⟩
        cases first g
        · exact ⟨'b', by simp, by decide⟩
        · exact ⟨'a', by simp, by decide⟩
      · refine ⟨_, rfl, ?_⟩
        cases first g
        · exact ⟨'a', by simp, by decide⟩
        · exact ⟨'b', by simp, by decide⟩

end OptProc

open OptProc in
/-- **C139 (refused).** If two optional steps directly follow each other, the table is refused by the import. -/
theorem C139_refused (d : Diagram) (c : Consistent d) (s e : Node) (parts : List Part) (P : OptionalProcess d s parts e) (A : Adjacent parts) :
    ∃ rows, (∃ N, ∀ fuel ≥ N, exportRows d fuel = .ok rows) ∧ ∀ d', loadCsv rows {} ≠ .ok d' := by
  obtain ⟨first, done, past, D, rows, ⟨N, hN⟩, hp⟩ := C139_export d c s e parts P
  refine ⟨rows, ⟨N, hN⟩, ?_⟩
  obtain ⟨ho, hi⟩ := C42_orders d N _ (hN N (Nat.le_refl _))
  have t : Table rows := ⟨ho, fun r hr => order_alnum (hi r hr)⟩
  obtain ⟨pre, g, a, j, g', a', j', post, rfl⟩ := A
  have at1 : (Part.step s :: (pre ++ .optional g a j :: .optional g' a' j' :: post) ++ [.step e])[pre.length + 1]? = some (.optional g a j) := by simp
  have at2 : (Part.step s :: (pre ++ .optional g a j :: .optional g' a' j' :: post) ++ [.step e])[pre.length + 2]? = some (.optional g' a' j') := by
    simp
  have en := entries_get first done past (Part.step s :: (pre ++ .optional g a j :: .optional g' a' j' :: post) ++ [.step e]) 0 (pre.length + 1)
  rw [at1, Nat.zero_add, Option.map_some] at en
  have hm : ∀ r ∈ (Part.entry first done past (pre.length + 1) (.optional g a j)).rows, r ∈ rows := fun r hr => hp.mem_iff.2 (List.mem_flatMap.2 ⟨_, List.mem_of_getElem? en, hr⟩)
  have gr := hm _ (List.mem_cons_of_mem _ (List.mem_singleton_self _))
  obtain ⟨g1, g2⟩ := goes_to (k := pre.length + 1) (g := Row.mk (toString (pre.length + 1) ++ if first g then "b1" else "a1") ("goto " ++ toString (pre.length + 1 + 1)) (past g) "" "" "") rfl
  have dig : ∀ c ∈ (toString (pre.length + 1 + 1)).toList, c.isDigit = true := fun c hc => decimal_isDigit (n := pre.length + 1 + 1) hc
  refine C110_target rows t _ gr g1 _ g2 (.inr ⟨fun hu => absurd (dig _ hu) (by decide), fun q hq hqo => ?_⟩)
  rcases entry_orders (hp.mem_iff.1 hq) with ⟨n, m, h1, h2⟩ | ⟨n, x, h1, z, hz, hz'⟩
  · rw [hqo] at h2
    have : pre.length + 1 + 1 = n := decimal_inj (congrArg String.toList h2)
    subst this
    rw [at2] at h1
    simp at h1
  · have := dig z (by rw [← hqo, h1]; simp [hz])
    rw [hz'] at this
    cases this

namespace OptProc

theorem not_goto {n : Node} {d : Diagram} (h : ∀ n ∈ d.getNodes, ¬GotoRow (Row.mk "" (caption n).1 "" "" "" "")) (hn : n ∈ d.getNodes) {r : Row} (e : r.activity = (caption n).1) : ¬GotoRow r := by
  intro k
  refine h n hn ?_
  unfold GotoRow at k ⊢
  rw [e] at k
  exact k

theorem activity_goes_on {n : Node} (h : IsActivity n) : (caption n).2.2 = "" := by
  rcases h with h | h <;> simp [caption, h]

theorem copy_table {d : Diagram} {s e : Node} {parts : List Part} (P : OptionalProcess d s parts e) (h : ¬Adjacent parts) (hg : ∀ n ∈ d.getNodes, ¬GotoRow (Row.mk "" (caption n).1 "" "" "" "")) (first : Node → Bool) (done past : Node → String) {rows : List Row}
    (hp : rows.Perm ((entries first done past 0 (.step s :: parts ++ [.step e])).flatMap Entry.rows)) : OptionalTable rows (entries first done past 0 (.step s :: parts ++ [.step e])) := by
  have get := fun n => entries_get first done past (.step s :: parts ++ [.step e]) 0 n
  have ms : s ∈ d.getNodes := P.line.nodes.mem_iff.1 (by simp)
  have part : ∀ (k : Nat) p, (parts ++ [Part.step e])[k]? = some p → k < parts.length ∧ parts[k]? = some p ∨ k = parts.length ∧ p = .step e := by
    intro k p hk
    by_cases hl : k < parts.length
    · rw [List.getElem?_append_left hl] at hk
      exact .inl ⟨hl, hk⟩
    · have := (List.getElem?_eq_some_iff.1 hk).1
      rw [List.length_append, List.length_singleton] at this
      have hk' : k = parts.length := by omega
      subst hk'
      simp at hk
      exact .inr ⟨rfl, hk.symm⟩
  refine ⟨hp, ⟨_, by rw [get]; rfl⟩, ?_, ?_⟩
  · intro n r hr
    rw [get, Nat.zero_add] at hr
    rw [entries_length]
    obtain ⟨q, hq, hr⟩ := Option.map_eq_some_iff.1 hr
    cases q with
    | optional g a j => simp [Part.entry] at hr
    | step m =>
      simp only [Part.entry, Entry.line.injEq] at hr
      subst hr
      refine ⟨rfl, ?_⟩
      cases n with
      | zero =>
        simp only [List.cons_append, List.getElem?_cons_zero, Option.some.injEq, Part.step.injEq] at hq
        subst hq
        exact ⟨not_goto hg ms rfl, by simp [caption, P.starts]⟩
      | succ k =>
        simp only [List.cons_append, List.getElem?_cons_succ] at hq
        rcases part k _ hq with ⟨hl, hk⟩ | ⟨rfl, hk⟩
        · have hm := List.mem_of_getElem? hk
          refine ⟨not_goto hg (mem_part P hm (by simp [Part.nodes])) rfl, ?_⟩
          rw [activity_goes_on (P.steps m hm)]
          simp
          omega
        · simp only [Part.step.injEq] at hk
          subst hk
          exact ⟨not_goto hg (mem_end P) rfl, by simp [caption, P.ends.1]⟩
  · intro n x g hr
    rw [get, Nat.zero_add] at hr
    obtain ⟨q, hq, hr⟩ := Option.map_eq_some_iff.1 hr
    cases q with
    | step m => simp [Part.entry] at hr
    | optional w a j =>
      simp only [Part.entry, Entry.optional.injEq] at hr
      obtain ⟨rfl, rfl⟩ := hr
      cases n with
      | zero => simp at hq
      | succ k =>
        simp only [List.cons_append, List.getElem?_cons_succ] at hq
        rcases part k _ hq with ⟨hl, hk⟩ | ⟨rfl, hk⟩
        · have hm := List.mem_of_getElem? hk
          obtain ⟨-, ha, -⟩ := P.skips w a j hm
          obtain ⟨g1, g2⟩ := goes_to (k := k + 1) (g := Row.mk (toString (k + 1) ++ if first w then "b1" else "a1") ("goto " ++ toString (k + 1 + 1)) (past w) "" "" "") rfl
          have dec : (toString (k + 1)).toList = decimal (k + 1) := rfl
          refine ⟨?_, not_goto hg (mem_part P hm (n := a) (by simp [Part.nodes])) rfl, by simp [activity_goes_on ha], g1, by simp, ?_⟩
          · cases first w
            · exact .inr ⟨by rw [← dec]; simp, by rw [← dec]; simp⟩
            · exact .inl ⟨by rw [← dec]; simp, by rw [← dec]; simp⟩
          · have next : ∃ m, (Part.step s :: parts ++ [.step e])[k + 1 + 1]? = some (.step m) := by
              simp only [List.cons_append, List.getElem?_cons_succ]
              by_cases h2 : k + 1 < parts.length
              · rw [List.getElem?_append_left h2, List.getElem?_eq_getElem h2]
                cases e2 : parts[k + 1] with
                | step m => exact ⟨m, rfl⟩
                | optional w' a' j' =>
                  refine absurd ⟨parts.take k, w, a, j, w', a', j', parts.drop (k + 2), ?_⟩ h
                  obtain ⟨hk1, hk2⟩ := List.getElem?_eq_some_iff.1 hk
                  conv_lhs => rw [← List.take_append_drop k parts, List.drop_eq_getElem_cons hk1, List.drop_eq_getElem_cons h2, hk2, e2]
              · have : k + 1 = parts.length := by omega
                exact ⟨e, by rw [this]; simp⟩
            obtain ⟨m, hm⟩ := next
            refine ⟨Row.mk (toString (k + 1 + 1)) (caption m).1 "" "" (caption m).2.1 (caption m).2.2, ?_, g2⟩
            rw [get, hm, Nat.zero_add, Option.map_some, Part.entry]
        · cases hk

end OptProc

open OptProc in
/-- **C139 (copy).** If no two optional steps directly follow each other, and no name begins with `goto`, the table is one with optional steps, and it is imported: the flows are those of the table, and the gateways
behind the optional steps are gone. -/
theorem C139_copy (d : Diagram) (c : Consistent d) (s e : Node) (parts : List Part) (P : OptionalProcess d s parts e) (h : ¬Adjacent parts)
    (hg : ∀ n ∈ d.getNodes, ¬GotoRow (Row.mk "" (caption n).1 "" "" "" "")) :
    ∃ first done past, Describes d parts first done past ∧ ∃ rows, (∃ N, ∀ fuel ≥ N, exportRows d fuel = .ok rows) ∧
      OptionalTable rows (entries first done past 0 (.step s :: parts ++ [.step e])) ∧
      ∃ d', loadCsv rows {} = .ok d' ∧ (∀ a b, Leads d' a b ↔ OptionalFlow (entries first done past 0 (.step s :: parts ++ [.step e])) a b) ∧ ∀ a, d'.getNodeById (a ++ "_join") = none := by
  obtain ⟨first, done, past, D, rows, hN, hp⟩ := C139_export d c s e parts P
  have T := copy_table P h hg first done past hp
  obtain ⟨d', h1, -, h2, h3⟩ := C136_flows rows _ T
  exact ⟨first, done, past, D, rows, hN, T, d', h1, h2, h3⟩

/-- The process with three optional steps of `C135`. -/
def threeOptionalInner : List Part := threeOptionalParts.dropLast

set_option maxRecDepth 8000 in
theorem threeOptional_process : OptionalProcess (Op.run {} threeOptionalOps) (Props.nodeOf (Op.run {} threeOptionalOps) "s") threeOptionalInner (Props.nodeOf (Op.run {} threeOptionalOps) "e") := by
  refine ⟨⟨by decide +kernel, by decide +kernel, by decide +kernel, ?_, ?_⟩, by decide +kernel, by decide +kernel, by decide +kernel, ?_, ?_⟩
  · intro n hn
    simp only [threeOptionalInner, threeOptionalParts, List.dropLast, List.cons_append, List.nil_append, List.mem_cons, List.not_mem_nil, or_false, reduceCtorEq, Part.step.injEq, false_or] at hn
    rcases hn with rfl | rfl <;> decide +kernel
  · intro g a j hn
    simp only [threeOptionalInner, threeOptionalParts, List.dropLast, List.cons_append, List.nil_append, List.mem_cons, List.not_mem_nil, or_false, reduceCtorEq, Part.optional.injEq, false_or] at hn
    rcases hn with ⟨rfl, rfl, rfl⟩ | ⟨rfl, rfl, rfl⟩ | ⟨rfl, rfl, rfl⟩ <;> decide +kernel
  · intro n hn
    simp only [threeOptionalInner, threeOptionalParts, List.dropLast, List.mem_cons, List.not_mem_nil, or_false, reduceCtorEq, Part.step.injEq, false_or] at hn
    subst hn
    decide +kernel
  · intro g a j hn
    simp only [threeOptionalInner, threeOptionalParts, List.dropLast, List.mem_cons, List.not_mem_nil, or_false, reduceCtorEq, Part.optional.injEq, false_or] at hn
    rcases hn with ⟨rfl, rfl, rfl⟩ | ⟨rfl, rfl, rfl⟩ | ⟨rfl, rfl, rfl⟩ <;> decide +kernel

/-- The first two optional steps directly follow each other: what is exported is refused. -/
example : ∃ rows, (∃ N, ∀ fuel ≥ N, exportRows (Op.run {} threeOptionalOps) fuel = .ok rows) ∧ ∀ d', loadCsv rows {} ≠ .ok d' :=
  C139_refused _ (consistent_of_allowed _ threeOptional_allowed) _ _ _ threeOptional_process ⟨[], _, _, _, _, _, _, _, rfl⟩

/-- An optional step behind the start, and one before the end, with conditions and a subprocess between them. -/
def apartOps : List Op :=
  [.createNew "d" "D", .addProcess "p" false true "None" "PL" "P",
   .addStartEvent "P" "s" none false true (some "s") "u1" "u2",
   .addExclusiveGateway "P" "g" "Diverging" none none "g", .addTask "P" "a" (some "a") "u4", .addExclusiveGateway "P" "j" "Converging" none none "j",
   .addSubprocess "P" "t" false false (some "t") "u6",
   .addExclusiveGateway "P" "i" "Diverging" none none "i", .addTask "P" "c" (some "c") "u9", .addExclusiveGateway "P" "l" "Converging" none none "l",
   .addEndEvent "P" "e" none (some "e") "u7" "u8",
   .addSequenceFlow "P" "s" "g" "" "f1", .addSequenceFlow "P" "g" "j" "no" "f3", .addSequenceFlow "P" "g" "a" "yes" "f2",
   .addSequenceFlow "P" "a" "j" "" "f4", .addSequenceFlow "P" "j" "t" "" "f5", .addSequenceFlow "P" "t" "i" "" "fa",
   .addSequenceFlow "P" "i" "c" "" "fb", .addSequenceFlow "P" "i" "l" "" "fc", .addSequenceFlow "P" "c" "l" "" "fd", .addSequenceFlow "P" "l" "e" "" "fe"]

theorem apart_allowed : AllowedHistory {} apartOps := by
  simp [apartOps, AllowedHistory, Allowed, step, declaredNode, declaredFlow, directionArg, directions, chosen]

def apartParts : List Part :=
  let n := Props.nodeOf (Op.run {} apartOps)
  [.optional (n "g") (n "a") (n "j"), .step (n "t"), .optional (n "i") (n "c") (n "l")]

set_option maxRecDepth 8000 in
theorem apart_process : OptionalProcess (Op.run {} apartOps) (Props.nodeOf (Op.run {} apartOps) "s") apartParts (Props.nodeOf (Op.run {} apartOps) "e") := by
  refine ⟨⟨by decide +kernel, by decide +kernel, by decide +kernel, ?_, ?_⟩, by decide +kernel, by decide +kernel, by decide +kernel, ?_, ?_⟩
  · intro n hn
    simp only [apartParts, List.cons_append, List.nil_append, List.mem_cons, List.not_mem_nil, or_false, reduceCtorEq, Part.step.injEq, false_or] at hn
    rcases hn with rfl | rfl <;> decide +kernel
  · intro g a j hn
    simp only [apartParts, List.cons_append, List.nil_append, List.mem_cons, List.not_mem_nil, or_false, reduceCtorEq, Part.optional.injEq, false_or] at hn
    rcases hn with ⟨rfl, rfl, rfl⟩ | ⟨rfl, rfl, rfl⟩ <;> decide +kernel
  · intro n hn
    simp only [apartParts, List.mem_cons, List.not_mem_nil, or_false, reduceCtorEq, Part.step.injEq, false_or] at hn
    subst hn
    decide +kernel
  · intro g a j hn
    simp only [apartParts, List.mem_cons, List.not_mem_nil, or_false, reduceCtorEq, Part.optional.injEq, false_or] at hn
    rcases hn with ⟨rfl, rfl, rfl⟩ | ⟨rfl, rfl, rfl⟩ <;> decide +kernel

theorem apart_apart : ¬Adjacent apartParts := by
  rintro ⟨pre, g, a, j, g', a', j', post, h⟩
  simp only [apartParts] at h
  match pre, h with
  | [], h => simp at h
  | [_], h => simp at h
  | [_, _], h => simp at h
  | _ :: _ :: _ :: _, h => simp at h

set_option maxRecDepth 8000 in
theorem apart_names : ∀ n ∈ (Op.run {} apartOps).getNodes, ¬GotoRow (Row.mk "" (caption n).1 "" "" "" "") := by
  have : ∀ n ∈ (Op.run {} apartOps).getNodes, (caption n).1.toList.length < 4 := by decide +kernel
  rintro n hn ⟨a, b, c, e, rest, h, -⟩
  have := this n hn
  simp only at h
  rw [h] at this
  simp at this
  omega

/-- Here the table is imported again. -/
example := C139_copy _ (consistent_of_allowed _ apart_allowed) _ _ _ apart_process apart_apart apart_names

set_option maxRecDepth 8000 in
/-- The table: the rows of the first optional step have the conditions of its flows, the first of which leads past it. -/
example : ((exportRows (Op.run {} apartOps) 100).toOption.map fun rows => rows.map fun r => (r.order, r.activity, r.condition, r.subprocess, r.terminated)) =
    some [("0", "s", "", "", ""), ("1a1", "goto 2", "no", "", ""), ("1b1", "a", "yes", "", ""), ("2", "t", "", "yes", ""), ("3a1", "c", "", "", ""), ("3b1", "goto 4", "", "", ""),
      ("4", "e", "", "", "yes")] := by decide +kernel

end Bpmn.Props

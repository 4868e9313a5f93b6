import Verif.Spec.Processes
import Verif.Props.Shapes
/-!
# Several processes in one diagram (C121)
-/
set_option linter.unusedSimpArgs false
set_option linter.unusedVariables false

namespace Bpmn.Props
open Bpmn Spec Layouter Classify

/-- The nodes without incoming flow. -/
abbrev startsOf (d : Diagram) : List Node := d.getNodes.filter fun n => decide (ins n = [])

theorem mem_startsOf {d : Diagram} {n : Node} : n ∈ startsOf d ↔ n ∈ d.getNodes ∧ ins n = [] := by
  simp [startsOf, List.mem_filter]

section
variable {d : Diagram} {order : List String} {row col : String → Int}

theorem starts_perm (h : Consistent d) (ho : order.Perm (d.getNodes.map (·.1))) :
    (order.filter fun j => decide (j ∈ (startsOf d).map (·.1))).Nodup ∧
    (order.filter fun j => decide (j ∈ (startsOf d).map (·.1))).Perm ((startsOf d).map (·.1)) := by
  have ndo : order.Nodup := ho.nodup_iff.2 h.ids
  have nd := ndo.filter fun j => decide (j ∈ (startsOf d).map (·.1))
  refine ⟨nd, ?_⟩
  have nd2 : ((startsOf d).map (·.1)).Nodup := (List.filter_sublist.map _).nodup h.ids
  rw [List.perm_ext_iff_of_nodup nd nd2]
  intro i
  simp only [List.mem_filter, decide_eq_true_eq]
  constructor
  · exact fun h => h.2
  · intro hi
    refine ⟨?_, hi⟩
    obtain ⟨m, hm, rfl⟩ := List.mem_map.1 hi
    exact ho.mem_iff.2 (List.mem_map_of_mem (mem_startsOf.1 hm).1)

/-- Each place among the starts is taken. -/
theorem exists_start (h : Consistent d) (ho : order.Perm (d.getNodes.map (·.1))) {k : Nat} (hk : k < (startsOf d).length) :
    ∃ m ∈ startsOf d, placeAmong order (startsOf d) m.1 = k := by
  obtain ⟨nd, hp⟩ := starts_perm h ho
  have hlen : k < (order.filter fun j => decide (j ∈ (startsOf d).map (·.1))).length := by
    rw [hp.length_eq, List.length_map]; exact hk
  have hg := List.getElem_mem hlen
  obtain ⟨m, hm, e⟩ := List.mem_map.1 (hp.mem_iff.1 hg)
  refine ⟨m, hm, ?_⟩
  unfold placeAmong
  rw [e, nd.idxOf_getElem]

theorem start_lt (h : Consistent d) (ho : order.Perm (d.getNodes.map (·.1))) {n : Node} (hn : n ∈ startsOf d) :
    placeAmong order (startsOf d) n.1 < (startsOf d).length := by
  obtain ⟨nd, hp⟩ := starts_perm h ho
  have := List.idxOf_lt_length_of_mem (hp.mem_iff.2 (List.mem_map_of_mem hn))
  rw [hp.length_eq, List.length_map] at this
  exact this

theorem lead_places (h : Consistent d) (hg : OnGrid d order row col) {l : List Node} (hl : Lead d l) {s : Node} (hs : l.head? = some s) (i : Nat) (n : Node)
    (hi : l[i]? = some n) : col n.1 = 1 + i ∧ row n.1 = 2 + 2 * (placeAmong order (startsOf d) s.1 : Nat) := by
  refine line_places h hg hl.inside hl.line ?_ i n hi
  intro m hm
  have e : s = m := by rw [hs] at hm; exact Option.some.inj hm
  subst e
  exact hg.start s (hl.inside s (List.mem_of_head? hs)) (hl.start s hm)

end

/-- **C121.** If a process begins with a line of nodes up to a split, and every other start of the diagram begins a line of nodes that is longer by at
least one node, then the diagram cannot be laid out: `generate_layout` raises a `TypeError`. -/
theorem C121_split_beside_a_line (d : Diagram) (h : Consistent d) (hs : ∀ n ∈ d.getNodes, Supported n) (ha : Acyclic d) (hap : SplitsApart d)
    (l : List Node) (hl : Lead d l) (g : Node) (hgl : l.getLast? = some g) (sg : Splits g)
    (hother : ∃ n ∈ d.getNodes, ins n = [] ∧ n ∉ l)
    (hlong : ∀ n ∈ d.getNodes, ins n = [] → n ∉ l → ∃ l', Lead d l' ∧ l'.head? = some n ∧ l.length < l'.length) :
    ∃ bound, ∀ fuel ≥ bound, generateLayout fuel d = .error .typeError := by
  obtain ⟨order, row, col, bound, ho, hg, -, hno⟩ := C85_drawn_on_grid d h hs ha hap
  refine ⟨bound, hno ?_⟩
  intro hone
  obtain ⟨s, hsl⟩ : ∃ s, l.head? = some s := by
    cases l with
    | nil => simp at hgl
    | cons a l => exact ⟨a, rfl⟩
  have msl : s ∈ l := List.mem_of_head? hsl
  have ms : s ∈ startsOf d := mem_startsOf.2 ⟨hl.inside s msl, hl.start s hsl⟩
  have mg : g ∈ d.getNodes := hl.inside g (List.mem_of_getLast? hgl)
  have hlast : l[l.length - 1]? = some g := by rw [← List.getLast?_eq_getElem?]; exact hgl
  have hlen : 0 < l.length := List.length_pos_of_mem msl
  obtain ⟨cg, rg⟩ := lead_places h hg hl hsl _ g hlast
  -- no other node of the line is a start
  have only : ∀ n ∈ l, ins n = [] → n = s := by
    intro n hn h0
    obtain ⟨i, hi⟩ := List.getElem?_of_mem hn
    obtain ⟨c1, -⟩ := lead_places h hg hl hsl i n hi
    have c2 := (hg.start n (hl.inside n hn) h0).1
    have : i = 0 := by omega
    subst this
    rw [← List.head?_eq_getElem?] at hi
    rw [hsl] at hi
    exact (Option.some.inj hi).symm
  -- the node before the split has no other branch
  have before_g : ∀ p ∈ d.getNodes, Feeds p g → ¬Splits p := by
    intro p hp hf
    by_cases h1 : l.length = 1
    · exfalso
      have e : s = g := by
        rw [h1, ← List.head?_eq_getElem?, hsl] at hlast
        exact Option.some.inj hlast
      subst e
      obtain ⟨i, -, hi⟩ := hf
      rw [hl.start s hsl] at hi
      simp at hi
    · have hlt : l.length - 2 < l.length := by omega
      have link : Link l[l.length - 2] l[l.length - 2 + 1] := List.isChain_iff_getElem.1 hl.line (l.length - 2) (by omega)
      have e : l[l.length - 2 + 1] = g := by
        have : l[l.length - 2 + 1]? = some g := by rw [← hlast]; congr 1; omega
        exact (List.getElem?_eq_some_iff.1 this).2
      rw [e] at link
      have := link_prev h (hl.inside _ (List.getElem_mem hlt)) mg hp link hf
      rw [this]
      exact (link_one link).1
  -- the start in the next row
  obtain ⟨n1, m1, i1, o1⟩ := hother
  have m1' : n1 ∈ startsOf d := mem_startsOf.2 ⟨m1, i1⟩
  have two : 2 ≤ (startsOf d).length := by
    by_contra c
    have a1 := start_lt h ho.all ms
    have a2 := start_lt h ho.all m1'
    have e := placeAmong_inj (ho.all.mem_iff.2 (List.mem_map_of_mem (mem_startsOf.1 m1').1)) (List.mem_map_of_mem m1')
      (show placeAmong order (startsOf d) n1.1 = placeAmong order (startsOf d) s.1 by omega)
    have := h.node_eq m1 (mem_startsOf.1 ms).1 e
    subst this
    exact o1 msl
  obtain ⟨t, mt, hne, kb, hkb, et⟩ : ∃ t ∈ startsOf d, placeAmong order (startsOf d) t.1 ≠ placeAmong order (startsOf d) s.1 ∧
      ∃ k < (outs g).length, (placeAmong order (startsOf d) t.1 : Int) * 2 =
      (placeAmong order (startsOf d) s.1 : Nat) * 2 + branchRow (outs g).length k := by
    have lt := start_lt h ho.all ms
    by_cases c : placeAmong order (startsOf d) s.1 + 1 < (startsOf d).length
    · obtain ⟨t, mt, e⟩ := exists_start h ho.all c
      exact ⟨t, mt, by omega, 0, by unfold Splits at sg; omega, by rw [e, branchRow_first sg]; push_cast; ring⟩
    · obtain ⟨t, mt, e⟩ := exists_start h ho.all (k := placeAmong order (startsOf d) s.1 - 1) (by omega)
      obtain ⟨k, hk, eb⟩ := branchRow_above sg
      exact ⟨t, mt, by omega, k, hk, by rw [e, eb]; omega⟩
  have htl : t ∉ l := by
    intro ht
    exact hne (by rw [only t ht (mem_startsOf.1 mt).2])
  obtain ⟨l', hl', hh', hlt⟩ := hlong t (mem_startsOf.1 mt).1 (mem_startsOf.1 mt).2 htl
  obtain ⟨b, mb, fb, pb⟩ := exists_branch h ho.all mg (fun m hm hf => hap g mg m hm hf sg) hkb
  obtain ⟨cb, rb, -⟩ := hg.branch g mg b mb fb sg
  have rb := rb before_g
  rw [pb] at rb
  have hx : l'[l.length]? = some l'[l.length] := List.getElem?_eq_getElem hlt
  obtain ⟨cx, rx⟩ := lead_places h hg hl' hh' _ _ hx
  have mx : l'[l.length] ∈ d.getNodes := hl'.inside _ (List.getElem_mem hlt)
  have e := hone b mb _ mx (by rw [rb, rg, rx]; omega) (by rw [cb, cg, cx]; omega)
  have e' := h.node_eq mb mx e
  have link : Link l'[l.length - 1] l'[l.length - 1 + 1] := List.isChain_iff_getElem.1 hl'.line (l.length - 1) (by omega)
  have e2 : l'[l.length - 1 + 1] = l'[l.length] := by congr 1; omega
  rw [e2, ← e'] at link
  have := link_prev h (hl'.inside _ (List.getElem_mem (by omega))) mb mg link fb
  rw [this] at sg
  exact (link_one link).1 sg

/-! ## Lines side by side -/

section
variable {d : Diagram} {cs : List (List Node)}

/-- A node of a line is its last one, or linked to the next. -/
theorem line_next {c : List Node} (hl : List.IsChain Link c) {a : Node} (ha : a ∈ c) : c.getLast? = some a ∨ ∃ b ∈ c, Link a b ∧ List.Sublist [a, b] c := by
  obtain ⟨u, v, rfl⟩ := List.append_of_mem ha
  cases v with
  | nil => left; simp
  | cons b v =>
    right
    refine ⟨b, by simp, (List.isChain_cons_cons.1 (List.isChain_append.1 hl).2.1).1, ?_⟩
    refine List.Sublist.trans ?_ (List.sublist_append_right u _)
    simp

theorem side_next (h : Consistent d) (hc : SideBySide d cs) {a b : Node} (ha : a ∈ d.getNodes) (hb : b ∈ d.getNodes) (hf : Feeds a b) :
    Link a b ∧ List.Sublist [a, b] cs.flatten := by
  obtain ⟨c, mc, ac⟩ := List.mem_flatten.1 (hc.nodes.mem_iff.2 ha)
  rcases line_next (hc.lead c mc).line ac with e | ⟨b', mb', link, sub⟩
  · obtain ⟨i, hi, -⟩ := hf
    rw [hc.stop c mc a e] at hi
    simp at hi
  · have := link_next h ha ((hc.lead c mc).inside b' mb') hb link hf
    subst this
    exact ⟨link, sub.trans (List.sublist_flatten_of_mem mc)⟩

theorem side_starts (h : Consistent d) (hc : SideBySide d cs) : (startsOf d).length = cs.length := by
  have hnd : cs.flatten.Nodup := hc.nodes.nodup_iff.2 h.ids.of_map
  rw [← heads_length hc.nonempty]
  refine List.Perm.length_eq ((List.perm_ext_iff_of_nodup (h.ids.of_map.filter _) ((heads_sublist cs).nodup hnd)).2 ?_)
  intro n
  rw [mem_startsOf, mem_heads]
  constructor
  · rintro ⟨hn, h0⟩
    obtain ⟨c, mc, nc⟩ := List.mem_flatten.1 (hc.nodes.mem_iff.2 hn)
    refine ⟨c, mc, ?_⟩
    obtain ⟨u, v, rfl⟩ := List.append_of_mem nc
    rcases List.eq_nil_or_concat u with rfl | ⟨u, a, rfl⟩
    · rfl
    · exfalso
      have hl := (hc.lead _ mc).line
      rw [List.concat_eq_append, List.append_assoc] at hl
      obtain ⟨i, -, e⟩ := (List.isChain_cons_cons.1 (List.isChain_append.1 hl).2.1).1
      rw [h0] at e
      simp at e
  · rintro ⟨c, mc, e⟩
    exact ⟨(hc.lead c mc).inside n (List.mem_of_head? e), (hc.lead c mc).start n e⟩

end

/-- **C121.** Any number of lines of nodes in one diagram is always laid out, each line in a row of its own, from left to right beginning at `x = 200`.
The rows are `y = 250`, `450`, `650`, ..., without a gap. -/
theorem C121_lines_side_by_side (d : Diagram) (h : Consistent d) (cs : List (List Node)) (hc : SideBySide d cs) :
    ∃ bound, ∀ fuel ≥ bound, ∃ d' ks, generateLayout fuel d = .ok d' ∧ ks.Perm (List.range cs.length) ∧
      List.Forall₂ (fun c k => ∀ (i : Nat) n, c[i]? = some n → DrawnAt d' n (200 + 150 * i) (250 + 200 * (k : Nat))) cs ks := by
  have hnd : cs.flatten.Nodup := hc.nodes.nodup_iff.2 h.ids.of_map
  have hac : Acyclic d := by
    classical
    apply acyclic_of_feeds h (fun n => cs.flatten.idxOf n)
    intro a ha b hb' hf
    obtain ⟨pre, post, e, hp⟩ := idx_of_sublist hnd (side_next h hc ha hb' hf).2
    rw [e] at hnd ⊢
    have h1 : b ∉ pre := fun h => (List.nodup_append.1 hnd).2.2 b h b (by simp) rfl
    rw [List.idxOf_append_of_mem hp, List.idxOf_append_of_notMem h1]
    have := List.idxOf_lt_length_of_mem hp
    omega
  have hap : SplitsApart d := fun n hn m hm hf hs => absurd hs (link_one (side_next h hc hn hm hf).1).1
  obtain ⟨order, row, col, bound, ho, hg, hyes, -⟩ := C85_drawn_on_grid d h hc.supported hac hap
  have head : ∀ c ∈ cs, ∃ s ∈ startsOf d, c.head? = some s := by
    intro c mc
    cases c with
    | nil => exact absurd rfl (hc.nonempty _ mc)
    | cons s c => exact ⟨s, mem_startsOf.2 ⟨(hc.lead _ mc).inside s (by simp), (hc.lead _ mc).start s rfl⟩, rfl⟩
  have hone : OneEach d row col := by
    intro n hn m hm er ec
    obtain ⟨c, mc, nc⟩ := List.mem_flatten.1 (hc.nodes.mem_iff.2 hn)
    obtain ⟨c', mc', nc'⟩ := List.mem_flatten.1 (hc.nodes.mem_iff.2 hm)
    obtain ⟨s, ms, es⟩ := head c mc
    obtain ⟨s', ms', es'⟩ := head c' mc'
    obtain ⟨i, hi⟩ := List.getElem?_of_mem nc
    obtain ⟨i', hi'⟩ := List.getElem?_of_mem nc'
    obtain ⟨c1, r1⟩ := lead_places h hg (hc.lead c mc) es i n hi
    obtain ⟨c2, r2⟩ := lead_places h hg (hc.lead c' mc') es' i' m hi'
    have e := placeAmong_inj (ho.all.mem_iff.2 (List.mem_map_of_mem (mem_startsOf.1 ms).1)) (List.mem_map_of_mem ms)
      (show placeAmong order (startsOf d) s.1 = placeAmong order (startsOf d) s'.1 by omega)
    have e := h.node_eq (mem_startsOf.1 ms).1 (mem_startsOf.1 ms').1 e
    subst e
    have ecc : c = c' := by
      by_contra hcc
      haveI : Std.Symm (List.Disjoint (α := Node)) := ⟨fun _ _ h => h.symm⟩
      exact (List.nodup_flatten.1 hnd).2.forall mc mc' hcc (List.mem_of_head? es) (List.mem_of_head? es')
    subst ecc
    have : i = i' := by omega
    subst this
    rw [hi] at hi'
    rw [Option.some.inj hi']
  obtain ⟨ks, F⟩ := exists_forall₂ (R := fun c k => ∃ s ∈ startsOf d, c.head? = some s ∧ k = placeAmong order (startsOf d) s.1) cs
    (fun c mc => let ⟨s, ms, es⟩ := head c mc; ⟨_, s, ms, es, rfl⟩)
  have hlen := F.length_eq
  have hks : ks.Perm (List.range cs.length) := by
    have hlt : ∀ k ∈ ks, k < cs.length := by
      intro k hk
      obtain ⟨c, -, s, ms, -, rfl⟩ := Layouter.forall₂_left F.flip hk
      rw [← side_starts h hc]
      exact start_lt h ho.all ms
    have nd : ks.Nodup := by
      have : ∀ (cs : List (List Node)) (ks : List Nat), cs.flatten.Nodup → List.Forall₂ (fun c k => ∃ s ∈ startsOf d, c.head? = some s ∧
          k = placeAmong order (startsOf d) s.1) cs ks → ks.Nodup := by
        intro cs ks hnd F
        induction F with
        | nil => simp
        | @cons c k cs ks hck F ih =>
          obtain ⟨s, ms, es, rfl⟩ := hck
          rw [List.flatten_cons, List.nodup_append] at hnd
          refine List.nodup_cons.2 ⟨fun hk => ?_, ih hnd.2.1⟩
          obtain ⟨c', mc', s', ms', es', e⟩ := Layouter.forall₂_left F.flip hk
          have e := placeAmong_inj (ho.all.mem_iff.2 (List.mem_map_of_mem (mem_startsOf.1 ms).1)) (List.mem_map_of_mem ms) e
          have e := h.node_eq (mem_startsOf.1 ms).1 (mem_startsOf.1 ms').1 e
          subst e
          exact hnd.2.2 s (List.mem_of_head? es) s (List.mem_flatten.2 ⟨c', mc', List.mem_of_head? es'⟩) rfl
      exact this cs ks hnd F
    have sub : ks.Subperm (List.range cs.length) := List.subperm_of_subset nd (fun k hk => List.mem_range.2 (hlt k hk))
    exact sub.perm_of_length_le (by rw [List.length_range, hlen])
  refine ⟨bound, fun fuel hfuel => ?_⟩
  obtain ⟨d', h1, h2⟩ := hyes hone fuel hfuel
  refine ⟨d', ks, h1, hks, ?_⟩
  have : ∀ (cs' : List (List Node)) (ks : List Nat), cs' ⊆ cs → List.Forall₂ (fun c k => ∃ s ∈ startsOf d, c.head? = some s ∧
      k = placeAmong order (startsOf d) s.1) cs' ks →
      List.Forall₂ (fun c k => ∀ (i : Nat) n, c[i]? = some n → DrawnAt d' n (200 + 150 * i) (250 + 200 * (k : Nat))) cs' ks := by
    intro cs' ks hsub F
    induction F with
    | nil => exact .nil
    | @cons c k cs' ks hck F ih =>
      refine .cons ?_ (ih (fun x hx => hsub (by simp [hx])))
      obtain ⟨s, ms, es, rfl⟩ := hck
      intro i n hi
      have mc := hsub (List.mem_cons_self ..)
      obtain ⟨e1, e2⟩ := lead_places h hg (hc.lead c mc) es i n hi
      obtain ⟨n', h3, h4⟩ := h2 n ((hc.lead c mc).inside n (List.mem_of_getElem? hi))
      refine ⟨n', h3, ?_⟩
      rw [e1, e2] at h4
      convert h4 using 1 <;> ring
  exact this cs ks (fun _ h => h) F

/-! ## Concrete cases -/

/-- Two processes in one diagram: a start, two tasks and an end; a start, a task and an end. -/
def sideOps : List Op :=
  [.createNew "d" "D", .addProcess "p" false true "None" "PL" "P", .addProcess "q" false true "None" "QL" "Q",
   .addStartEvent "P" "s" none false true (some "s") "u1" "u2", .addTask "P" "a" (some "a") "u3", .addTask "P" "b" (some "b") "u4",
   .addEndEvent "P" "e" none (some "e") "u5" "u6",
   .addStartEvent "Q" "s2" none false true (some "s2") "u7" "u8", .addTask "Q" "c" (some "c") "u9", .addEndEvent "Q" "e2" none (some "e2") "v1" "v2",
   .addSequenceFlow "P" "s" "a" "" "f1", .addSequenceFlow "P" "a" "b" "" "f2", .addSequenceFlow "P" "b" "e" "" "f3",
   .addSequenceFlow "Q" "s2" "c" "" "f4", .addSequenceFlow "Q" "c" "e2" "" "f5"]

theorem side_allowed : AllowedHistory {} sideOps := by
  simp [sideOps, AllowedHistory, Allowed, step, declaredNode, declaredFlow, directionArg, directions, chosen]

/-- `c` leads from `a` to `b`. -/
theorem link_of {a b : Node} (h : (outs a).length = 1 ∧ outs a = ins b) : Link a b := by
  obtain ⟨h1, h2⟩ := h
  obtain ⟨i, hi⟩ := List.length_eq_one_iff.1 h1
  exact ⟨i, hi, by rw [← h2, hi]⟩

set_option maxRecDepth 8000 in
/-- The two processes are drawn in two rows. -/
example : ∃ bound, ∀ fuel ≥ bound, ∃ d', generateLayout fuel (Op.run {} sideOps) = .ok d' := by
  have h := consistent_of_allowed _ side_allowed
  let ns := (Op.run {} sideOps).getNodes
  have sd : SideBySide (Op.run {} sideOps) [[(ns[0]'(by decide)), (ns[1]'(by decide)), (ns[2]'(by decide)), (ns[3]'(by decide))], [(ns[4]'(by decide)), (ns[5]'(by decide)), (ns[6]'(by decide))]] := by
    refine ⟨List.Perm.of_eq (by decide), by decide, by decide, ?_, ?_⟩
    · intro c hc
      simp only [List.mem_cons, List.not_mem_nil, or_false] at hc
      rcases hc with rfl | rfl
      · refine ⟨by decide, by decide, ?_⟩
        simp only [List.isChain_cons_cons, List.isChain_singleton, and_true]
        exact ⟨link_of (by decide), link_of (by decide), link_of (by decide)⟩
      · refine ⟨by decide, by decide, ?_⟩
        simp only [List.isChain_cons_cons, List.isChain_singleton, and_true]
        exact ⟨link_of (by decide), link_of (by decide)⟩
    · decide
  obtain ⟨bound, hb⟩ := C121_lines_side_by_side _ h _ sd
  refine ⟨bound, fun fuel hf => ?_⟩
  obtain ⟨d', -, h1, -⟩ := hb fuel hf
  exact ⟨d', h1⟩

/-- Two processes in one diagram: a start and a gateway with two branches; a start, a task and an end. -/
def clashOps : List Op :=
  [.createNew "d" "D", .addProcess "p" false true "None" "PL" "P", .addProcess "q" false true "None" "QL" "Q",
   .addStartEvent "P" "s" none false true (some "s") "u1" "u2", .addExclusiveGateway "P" "g" "Diverging" none none "g",
   .addTask "P" "a" (some "a") "u3", .addTask "P" "b" (some "b") "u4",
   .addStartEvent "Q" "s2" none false true (some "s2") "u7" "u8", .addTask "Q" "c" (some "c") "u9", .addEndEvent "Q" "e2" none (some "e2") "v1" "v2",
   .addSequenceFlow "P" "s" "g" "" "f1", .addSequenceFlow "P" "g" "a" "" "f2", .addSequenceFlow "P" "g" "b" "" "f3",
   .addSequenceFlow "Q" "s2" "c" "" "f4", .addSequenceFlow "Q" "c" "e2" "" "f5"]

theorem clash_allowed : AllowedHistory {} clashOps := by
  simp [clashOps, AllowedHistory, Allowed, step, declaredNode, declaredFlow, directionArg, directions, chosen]

set_option maxRecDepth 8000 in
/-- They cannot be laid out in one diagram. -/
example : ∃ bound, ∀ fuel ≥ bound, generateLayout fuel (Op.run {} clashOps) = .error .typeError := by
  have h := consistent_of_allowed _ clash_allowed
  let ns := (Op.run {} clashOps).getNodes
  refine C121_split_beside_a_line _ h (by decide) (acyclic_of_feeds h (fun n => ["s", "g", "a", "b", "s2", "c", "e2"].idxOf n.1) (by decide)) ?_
    [(ns[0]'(by decide)), (ns[1]'(by decide))] ⟨by decide, by decide, ?_⟩ (ns[1]'(by decide)) rfl (by decide) (by decide) ?_
  · unfold SplitsApart
    decide
  · simp only [List.isChain_cons_cons, List.isChain_singleton, and_true]
    exact link_of (by decide)
  · intro n hn h0 ho
    have e : n = (ns[4]'(by decide)) := by
      have : ∀ n ∈ ns, ins n = [] → n ∉ [(ns[0]'(by decide)), (ns[1]'(by decide))] → n = (ns[4]'(by decide)) := by decide
      exact this n hn h0 ho
    subst e
    refine ⟨[(ns[4]'(by decide)), (ns[5]'(by decide)), (ns[6]'(by decide))], ⟨by decide, by decide, ?_⟩, rfl, by decide⟩
    simp only [List.isChain_cons_cons, List.isChain_singleton, and_true]
    exact ⟨link_of (by decide), link_of (by decide)⟩

end Bpmn.Props

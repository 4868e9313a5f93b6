import Verif.Lemmas.CsvReload
import Verif.Props.CsvResult
import Verif.Props.CsvDrawn
import Verif.Props.CsvKinds
import Verif.Props.CsvAccept
set_option linter.unusedSimpArgs false
set_option linter.unusedVariables false
/-!
# C105: importing a table into a diagram that is already in use
-/
namespace Bpmn.Props
open Bpmn Bpmn.Csv Bpmn.Spec Bpmn.Spec.Csv Bpmn.Layouter

/-- **C105.** A table can only be imported into an object all of whose nodes have the orders of rows (apart from white space around them) as ids. -/
theorem C105_old_nodes (rows : List Row) (d e : Diagram) (h : loadCsv rows d = .ok e) :
    ∀ n ∈ d.getNodes, ∃ r ∈ rows, ∃ a b, r.order.toList = a ++ n.1.toList ++ b ∧ (∀ c ∈ a, White c) ∧ ∀ c ∈ b, White c := by
  intro n hn
  obtain ⟨pd, hp, hk⟩ := load_old_nodes h
  exact processDict_orders hp (hk n.1 (List.mem_map_of_mem hn))

/-- **C105.** A table that gave a gateway cannot be imported into the same object again. -/
theorem C105_gateways (rows : List Row) (t : Table rows) (e : Diagram) (h : loadCsv rows {} = .ok e)
    (hg : ∃ n ∈ e.getNodes, n.2.type ∈ gatewayTypes) : ∀ f, loadCsv rows e ≠ .ok f := by
  intro f hf
  obtain ⟨n, hn, ht⟩ := hg
  obtain ⟨nd, hc⟩ := C60_nodes rows t e h
  rcases hc n hn with ⟨r, hr, hng, ho⟩ | ⟨hno, -⟩
  · obtain ⟨m, hm, h1, h2, -⟩ := C60_rows rows t e h r hr hng
    have : m = n := by
      have e1 := Dict.get?_of_mem nd (show (m.1, m.2) ∈ e.graph.nodes from hm)
      have e2 := Dict.get?_of_mem nd (show (n.1, n.2) ∈ e.graph.nodes from hn)
      rw [h1, ho, e2] at e1
      have := Option.some.inj e1
      exact Prod.ext (h1.trans ho) this.symm
    rw [← this, h2] at ht
    unfold rowType at ht
    revert ht
    simp only [gatewayTypes]
    split
    · simp
    split
    · simp
    split <;> simp
  · obtain ⟨r, hr, a, b, hab, ha, hb⟩ := C105_old_nodes rows e f hf n hn
    refine hno r hr ?_
    have key : ∀ c ∈ r.order.toList, ¬ White c := by
      intro c hc hw
      have := alnum_not_white (t.alnum r hr c hc)
      rw [(isWhite_iff c).2 hw] at this
      cases this
    have ea : a = [] := by
      cases a with
      | nil => rfl
      | cons c a => exact absurd (ha c (by simp)) (key c (by rw [hab]; simp))
    have eb : b = [] := by
      cases b with
      | nil => rfl
      | cons c b => exact absurd (hb c (by simp)) (key c (by rw [hab]; simp))
    subst ea eb
    simp only [List.nil_append, List.append_nil] at hab
    exact String.toList_injective hab

/-- The rows of the table follow each other by number: every row that is not terminated has a next number. -/
def Unbranched (rows : List Row) : Prop :=
  ∀ r ∈ rows, r.terminated ≠ "yes" → ∃ p n, Prefix p ∧ r.order.toList = p ++ decimal n ∧ HasOrder rows (p ++ decimal (n + 1))

theorem Unbranched.onward {rows : List Row} (t : Table rows) (h : Unbranched rows) : Stepwise (dictOf rows) := by
  intro n l hl hx
  have := Dict.mem_keys_of_get? hl
  rw [keys_dictOf] at this
  obtain ⟨r, hr, rfl⟩ := List.mem_map.1 this
  rw [get?_dictOf t hr] at hl
  cases hl
  obtain ⟨p, n, hp, e, r', hr', e'⟩ := h r hr hx
  refine ⟨r'.order, by rw [keys_dictOf]; exact List.mem_map_of_mem hr', ?_⟩
  have : trailingNumber r.order = some (String.ofList p, n) := by
    rw [← String.ofList_toList (s := r.order), e]
    exact trailingNumber_decimal n (prefix_ends hp)
  unfold sequenceSuccessors
  rw [this]
  simp only [List.cons.injEq, and_true]
  refine String.toList_injective ?_
  rw [e', append_toString, String.toList_ofList]

/-- **C105.** A table without branches can be imported into the same object again, also if the diagram was laid out in between.  The result is
the diagram of the first import, except that the flows keep the waypoints they have. -/
theorem C105_line_again (rows : List Row) (t : Table rows) (hn : ∀ r ∈ rows, ¬GotoRow r) (hu : Unbranched rows) (e e' : Diagram)
    (h : loadCsv rows {} = .ok e) (hl : eraseLayout e' = eraseLayout e) :
    loadCsv rows e' = .ok { e with graph := { nodes := e.graph.nodes, edges := e'.graph.edges } } :=
  load_line_again t hn (hu.onward t) h hl

/-- **C105.** So the import again of a drawn diagram puts all nodes back to one place and leaves the lines where they were. -/
theorem C105_after_layout (rows : List Row) (t : Table rows) (hn : ∀ r ∈ rows, ¬GotoRow r) (hu : Unbranched rows) (e e' : Diagram) (fuel : Nat)
    (h : loadCsv rows {} = .ok e) (hl : generateLayout fuel e = .ok e') :
    ∃ f, loadCsv rows e' = .ok f ∧ f.getNodes = e.getNodes ∧ (∀ n ∈ f.getNodes, n.2.x = some "100" ∧ n.2.y = some "100") ∧
      f.getFlows = e'.getFlows := by
  have he := C29_only_layout_changes e e' hl
  refine ⟨_, C105_line_again rows t hn hu e e' h he, rfl, fun n hn' => ?_, ?_⟩
  · obtain ⟨ty, nm, hs⟩ := C82_nodes_say rows t e h n hn'
    rw [hs]
    exact ⟨rfl, rfl⟩
  · have := (Import.samePlaces he).keys
    unfold Diagram.getFlows Graph.flows
    simp only
    rw [this]

theorem line_unbranched (start : String) (tasks : List String) : Unbranched (lineRows start tasks) := by
  intro r hr hx
  have key : ∀ k ≤ tasks.length, HasOrder (lineRows start tasks) (decimal (k + 1)) := by
    intro k hk
    by_cases hh : k < tasks.length
    · refine ⟨Row.mk (toString (k + 1)) tasks[k] "" "" "" "", ?_, rfl⟩
      simp only [lineRows, List.cons_append, List.mem_cons, List.mem_append, List.mem_mapIdx]
      exact Or.inr (Or.inl ⟨k, hh, rfl⟩)
    · have : k = tasks.length := by omega
      subst this
      exact ⟨Row.mk (toString (tasks.length + 1)) "" "" "" "" "yes", by simp [lineRows], rfl⟩
  simp only [lineRows, List.cons_append, List.mem_cons, List.mem_append, List.mem_mapIdx, List.not_mem_nil, or_false] at hr
  rcases hr with rfl | ⟨i, hi, rfl⟩ | rfl
  · exact ⟨[], 0, Or.inl rfl, rfl, key 0 (by omega)⟩
  · exact ⟨[], i + 1, Or.inl rfl, rfl, key (i + 1) (by omega)⟩
  · exact absurd rfl hx

/-- **C105.** All of this happens to the table of a line of tasks, of any length: it can be imported, laid out and imported again. -/
theorem C105_lines (start : String) (tasks : List String) (hn : ∀ r ∈ lineRows start tasks, ¬GotoRow r) :
    ∃ e e' f, loadCsv (lineRows start tasks) {} = .ok e ∧ loadCsv (lineRows start tasks) e = .ok e ∧ (∃ N, ∀ fuel ≥ N, generateLayout fuel e = .ok e') ∧
      loadCsv (lineRows start tasks) e' = .ok f ∧ f.getNodes = e.getNodes ∧ f.getFlows = e'.getFlows ∧
      ∀ w ∈ f.getFlows, w.2.2.waypoints.isSome := by
  have g := line_good hn
  have t : Table (lineRows start tasks) := by rw [← line_rows]; exact flat_table g
  obtain ⟨e, e', h, ⟨N, hN⟩, -⟩ := C90_flat_workflow (line start tasks) g (by intro legs hl; simp [line] at hl)
  rw [line_rows] at h
  have hu := line_unbranched start tasks
  have hl := hN N (Nat.le_refl _)
  obtain ⟨f, h1, h2, -, h3⟩ := C105_after_layout _ t hn hu e e' N h hl
  refine ⟨e, e', f, h, C105_line_again _ t hn hu e e h rfl, ⟨N, hN⟩, h1, h2, h3, fun w hw => ?_⟩
  rw [h3] at hw
  obtain ⟨d0, F, d1, d2, s⟩ := stages t h
  obtain ⟨_, _, _, _, p, -, -, -, -, hp, -⟩ := C30_waypoints e e' s.keep.inv.sane.onePerPair hl w hw
  rw [hp]
  rfl

theorem work_no_goto : ∀ r ∈ lineRows "begin" ["work"], ¬GotoRow r := by
  intro r hr hg
  have : ∀ r ∈ lineRows "begin" ["work"], isGoto r.activity = false := by decide
  rw [← isGoto_iff, this r hr] at hg
  cases hg

/-- The case: a diagram with one task, and a table for which the import into a new object works. -/
example : (∃ e, loadCsv (lineRows "begin" ["work"]) {} = .ok e) ∧
    ∀ f, loadCsv (lineRows "begin" ["work"]) (({} : Diagram).addTask "p" "old" (some "t1") "") ≠ .ok f := by
  refine ⟨?_, fun f hf => ?_⟩
  · obtain ⟨d, h, -⟩ := C44_linear "begin" ["work"] work_no_goto
    exact ⟨d, h⟩
  · obtain ⟨r, hr, a, b, hab, -⟩ := C105_old_nodes _ _ _ hf ("t1", _) (List.mem_singleton.2 rfl)
    have : 't' ∈ r.order.toList := by rw [hab]; simp
    revert this
    revert r
    have : ∀ r ∈ lineRows "begin" ["work"], 't' ∉ r.order.toList := by decide
    exact fun r hr _ => this r hr


set_option maxRecDepth 8000 in
/-- The cases: a table with gateways, which cannot be imported again; and the table of a line, which can. -/
example : (∃ e, loadCsv blockTable {} = .ok e ∧ ∀ f, loadCsv blockTable e ≠ .ok f) ∧ Unbranched (lineRows "begin" ["work"]) := by
  refine ⟨?_, line_unbranched _ _⟩
  obtain ⟨e, h, hp⟩ := ok_of_check (x := loadCsv blockTable {}) (fun d => d.graph.nodes.any fun n => n.2.type == some "exclusiveGateway") (by decide +kernel)
  obtain ⟨n, hn, ht⟩ := List.any_eq_true.1 hp
  exact ⟨e, h, C105_gateways blockTable block_table e h ⟨n, hn, by rw [eq_of_beq ht]; decide⟩⟩

end Bpmn.Props

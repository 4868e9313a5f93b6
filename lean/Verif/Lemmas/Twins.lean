import Verif.Model.CsvExport
import Verif.Lemmas.Classify
import Verif.Lemmas.Query
/-!
Diagrams with the same nodes and flows in another order have the same CSV export.
-/
set_option linter.unusedSimpArgs false
set_option linter.unusedVariables false

namespace Bpmn
open Spec Classify Csv

/-- One attribute of the flow that was found. -/
def flowView (g : EdgeAttrs → Option String) (x : Py (Option Flow)) : Py (Option (Option String)) := x.map (Option.map fun f => g f.2.2)

/-- The nodes of `e` are those of `d`, in another order and with the same content as far as the CSV export reads it, and so are the flows. -/
structure Twin (d e : Diagram) (φ : Node → Node) : Prop where
  perm : e.getNodes.Perm (d.getNodes.map φ)
  ids : (d.getNodes.map (·.1)).Nodup
  complete : Complete d
  id : ∀ n ∈ d.getNodes, (φ n).1 = n.1
  type : ∀ n ∈ d.getNodes, (φ n).2.type = n.2.type
  name : ∀ n ∈ d.getNodes, (φ n).2.nodeName = n.2.nodeName
  incoming : ∀ n ∈ d.getNodes, (φ n).2.incoming = n.2.incoming
  outgoing : ∀ n ∈ d.getNodes, (φ n).2.outgoing = n.2.outgoing
  default : ∀ n ∈ d.getNodes, (φ n).2.default.join = n.2.default.join
  flow : ∀ i, flowView (·.targetRef) (e.getFlowById i) = flowView (·.targetRef) (d.getFlowById i)

/-- Start and end events have the same lists of event definitions. -/
def SameDefs (d : Diagram) (φ : Node → Node) : Prop :=
  ∀ n ∈ d.getNodes, n.2.type = some "startEvent" ∨ n.2.type = some "endEvent" → (φ n).2.eventDefinitions.getD [] = n.2.eventDefinitions.getD []

/-- Flows with the same id have the same name. -/
def SameNames (d e : Diagram) : Prop := ∀ i, flowView (·.name) (e.getFlowById i) = flowView (·.name) (d.getFlowById i)

theorem find?_perm_of_unique {α : Type} {κ : Type} [BEq κ] [LawfulBEq κ] (f : α → κ) {l l' : List α} (hp : l.Perm l') (hn : (l.map f).Nodup) (k : κ) :
    l.find? (fun a => f a == k) = l'.find? (fun a => f a == k) := by
  induction hp with
  | nil => rfl
  | cons x h ih => simp only [List.map_cons, List.nodup_cons] at hn; simp only [List.find?_cons, ih hn.2]
  | swap x y l =>
    simp only [List.map_cons, List.nodup_cons, List.mem_cons, not_or] at hn
    simp only [List.find?_cons]
    cases h1 : f x == k <;> cases h2 : f y == k <;> try rfl
    simp only [beq_iff_eq] at h1 h2
    exact absurd (h2.trans h1.symm) hn.1.1
  | trans h1 h2 ih1 ih2 => exact (ih1 hn).trans (ih2 ((h1.map f).nodup_iff.1 hn))

namespace Twin
variable {d e : Diagram} {φ : Node → Node} (h : Twin d e φ)
include h

theorem mem {m : Node} (hm : m ∈ e.getNodes) : ∃ n ∈ d.getNodes, φ n = m := by
  obtain ⟨n, hn, e1⟩ := List.mem_map.1 (h.perm.mem_iff.1 hm)
  exact ⟨n, hn, e1⟩

theorem ids_eq : (d.getNodes.map φ).map (·.1) = d.getNodes.map (·.1) := by
  rw [List.map_map]
  exact List.map_congr_left fun n hn => h.id n hn

theorem ids' : (e.getNodes.map (·.1)).Nodup := (h.perm.map _).nodup_iff.2 (h.ids_eq ▸ h.ids)

theorem complete' : Complete e := by
  intro m hm
  obtain ⟨n, hn, rfl⟩ := h.mem hm
  rw [h.type n hn, h.incoming n hn, h.outgoing n hn]
  exact h.complete n hn

theorem getNode (x : String) : e.getNodeById x = (d.getNodeById x).map φ := by
  have := find?_perm_of_unique (fun n : Node => n.1) h.perm h.ids' x
  show e.getNodes.find? _ = (d.getNodes.find? _).map φ
  rw [this, List.find?_map]
  congr 1
  have hid := h.id
  generalize d.getNodes = l at hid
  clear * - hid
  induction l with
  | nil => rfl
  | cons n l ih =>
    have e1 := hid n (by simp)
    simp only [List.find?_cons, Function.comp, e1]
    rw [ih fun m hm => hid m (by simp [hm])]

theorem mem_of_getNode {x : String} {n : Node} (hn : d.getNodeById x = some n) : n ∈ d.getNodes := List.mem_of_find?_eq_some hn

theorem labels_eq {n : Node} (hn : n ∈ d.getNodes) : Spec.labels (φ n) = Spec.labels n := by
  unfold Spec.labels ins outs
  rw [h.type n hn, h.incoming n hn, h.outgoing n hn]

theorem classes : ∃ cls cls', generateNodesClassification d = .ok cls ∧ generateNodesClassification e = .ok cls' ∧ ∀ x, cls'.get? x = cls.get? x := by
  refine ⟨_, _, nodes_eq h.complete h.ids, nodes_eq h.complete' h.ids', fun x => ?_⟩
  have p1 : (byType e).Perm ((byType d).map φ) := by
    refine (byType_perm e).trans ((h.perm.filter _).trans ?_)
    rw [List.filter_map]
    refine List.Perm.trans ?_ ((byType_perm d).map φ).symm
    refine List.Perm.of_eq ?_
    congr 1
    apply List.filter_congr
    intro n hn
    simp only [Function.comp, Supported, h.type n hn]
  have p2 : ((byType e).map fun n => (n.1, Spec.labels n)).Perm ((byType d).map fun n => (n.1, Spec.labels n)) := by
    refine (p1.map _).trans (List.Perm.of_eq ?_)
    rw [List.map_map]
    apply List.map_congr_left
    intro n hn
    have hn' := (mem_byType.1 hn).1
    simp only [Function.comp, h.id n hn', h.labels_eq hn']
  have hn : (((byType e).map fun n => (n.1, Spec.labels n)).map fun p : String × List String => p.1).Nodup := by
    rw [List.map_map]; exact byType_ids h.ids'
  have := find?_perm_of_unique (fun p : String × List String => p.1) p2 hn x
  rw [Dict.find?_eq_get?, Dict.find?_eq_get?] at this
  revert this
  cases Dict.get? ((byType e).map fun n => (n.1, Spec.labels n)) x <;> cases Dict.get? ((byType d).map fun n => (n.1, Spec.labels n)) x <;> simp

theorem starts : ∃ s s', startNodes d.getNodes = .ok s ∧ startNodes e.getNodes = .ok s' ∧ s'.Perm (s.map φ) ∧ ∀ n ∈ s, n ∈ d.getNodes := by
  have key : ∀ l : List Node, (∀ n ∈ l, n.2.incoming.isSome) → startNodes l = .ok (l.filter fun n => (ins n).length = 0) := by
    intro l
    induction l with
    | nil => intro _; rfl
    | cons n l ih =>
      intro hl
      obtain ⟨i, hi⟩ := Option.isSome_iff_exists.1 (hl n (by simp))
      rw [startNodes, ih fun m hm => hl m (by simp [hm])]
      simp [found, hi, ins, List.filter_cons, bind, Except.bind, pure, Except.pure]
  refine ⟨_, _, key _ fun n hn => (h.complete n hn).2.1, key _ fun n hn => (h.complete' n hn).2.1, ?_, fun n hn => List.mem_of_mem_filter hn⟩
  refine (h.perm.filter _).trans (List.Perm.of_eq ?_)
  rw [List.filter_map]
  congr 1
  apply List.filter_congr
  intro n hn
  simp [ins, h.incoming n hn]

end Twin

/-- The second result has the same rows, and the node that corresponds to the first one's. -/
def Mirror (d : Diagram) (φ : Node → Node) (x y : Py (List Row × Option Node)) : Prop :=
  (∃ err, x = .error err ∧ y = .error err) ∨ ∃ rows next, x = .ok (rows, next) ∧ y = .ok (rows, next.map φ) ∧ ∀ n, next = some n → n ∈ d.getNodes

/-- Calls on corresponding nodes have corresponding results. -/
def Mirrors (d : Diagram) (φ : Node → Node) (rec rec' : Rec) : Prop :=
  ∀ node, (∀ n, node = some n → n ∈ d.getNodes) → ∀ o p c w j rows, Mirror d φ (rec node o p c w j rows) (rec' (node.map φ) o p c w j rows)

/-- The targets of the flows correspond. -/
theorem flowTarget_twin {d e : Diagram} {φ : Node → Node} (h : Twin d e φ) (i : String) :
    (∃ err, flowTarget d i = .error err ∧ flowTarget e i = .error err) ∨
    ∃ f f' t, flowTarget d i = .ok (f, t) ∧ flowTarget e i = .ok (f', t.map φ) ∧ (d.getFlowById i = .ok (some f) ∧ e.getFlowById i = .ok (some f')) ∧ ∀ n, t = some n → n ∈ d.getNodes := by
  have hf := h.flow i
  unfold flowTarget
  cases h1 : d.getFlowById i with
  | error err =>
    cases h2 : e.getFlowById i with
    | error err' =>
      simp only [flowView, h1, h2, Except.map, Except.error.injEq] at hf
      subst hf
      exact Or.inl ⟨_, rfl, rfl⟩
    | ok r => simp [flowView, h1, h2, Except.map] at hf
  | ok r =>
    cases h2 : e.getFlowById i with
    | error err' => simp [flowView, h1, h2, Except.map] at hf
    | ok r' =>
      simp only [flowView, h1, h2, Except.map, Except.ok.injEq] at hf
      cases r with
      | none =>
        cases r' with
        | none => exact Or.inl ⟨_, rfl, rfl⟩
        | some f' => simp at hf
      | some f =>
        cases r' with
        | none => simp at hf
        | some f' =>
          simp only [Option.map_some, Option.some.injEq] at hf
          simp only [found, bind, Except.bind, hf]
          cases ht : f.2.2.targetRef with
          | none => exact Or.inl ⟨_, rfl, rfl⟩
          | some t =>
            simp only [need, pure, Except.pure]
            refine Or.inr ⟨f, f', _, rfl, by rw [h.getNode], ⟨rfl, rfl⟩, fun n hn => h.mem_of_getNode hn⟩

section
variable {d e : Diagram} {φ : Node → Node} {cls cls' : Dict String (List String)} {rec rec' : Rec}

/-- The lists have the same first element. -/
theorem getD_cases {α : Type} {a b : Option (List α)} (h : a.getD [] = b.getD []) : a = b ∨ (a = none ∧ b = some []) ∨ (a = some [] ∧ b = none) := by
  cases a <;> cases b <;> simp_all

theorem exportStart_twin (h : Twin d e φ) (hd : SameDefs d φ) (hr : Mirrors d φ rec rec') {n : Node} (hn : n ∈ d.getNodes) (ht : n.2.type = some "startEvent")
    (o p c w rows) : Mirror d φ (exportStart d rec n o p c w rows) (exportStart e rec' (φ n) o p c w rows) := by
  have hd := getD_cases (hd n hn (Or.inl ht))
  have key : ∀ rows, Mirror d φ
      (do let out ← need n.2.outgoing; let flowId ← pyIndex out 0; let (_, target) ← flowTarget d flowId; rec target (o + 1) p w "" false rows)
      (do let out ← need n.2.outgoing; let flowId ← pyIndex out 0; let (_, target) ← flowTarget e flowId; rec' target (o + 1) p w "" false rows) := by
    intro rows
    cases n.2.outgoing with
    | none => exact Or.inl ⟨_, rfl, rfl⟩
    | some out =>
      simp only [need, bind, Except.bind]
      cases pyIndex out 0 with
      | error err => exact Or.inl ⟨_, rfl, rfl⟩
      | ok i =>
        simp only
        rcases flowTarget_twin h i with ⟨err, e1, e2⟩ | ⟨f, f', t, e1, e2, e3, e4⟩
        · simp only [e1, e2]; exact Or.inl ⟨_, rfl, rfl⟩
        · simp only [e1, e2]; exact hr t e4 _ _ _ _ _ _
  unfold exportStart
  rw [h.name n hn, h.outgoing n hn]
  cases n.2.nodeName with
  | none => exact Or.inl ⟨_, rfl, rfl⟩
  | some name =>
    rcases hd with e1 | ⟨e1, e2⟩ | ⟨e1, e2⟩
    · rw [e1]; exact key _
    · rw [e1, e2]; exact key _
    · rw [e1, e2]; exact key _

theorem exportEnd_twin (h : Twin d e φ) (hd : SameDefs d φ) {n : Node} (hn : n ∈ d.getNodes) (ht : n.2.type = some "endEvent")
    (o p c w rows) : Mirror d φ (exportEnd n o p c w rows) (exportEnd (φ n) o p c w rows) := by
  have hd := getD_cases (hd n hn (Or.inr ht))
  unfold exportEnd
  rw [h.name n hn]
  cases n.2.nodeName with
  | none => exact Or.inl ⟨_, rfl, rfl⟩
  | some name =>
    rcases hd with e1 | ⟨e1, e2⟩ | ⟨e1, e2⟩
    · rw [e1]; exact Or.inr ⟨_, none, rfl, rfl, by simp⟩
    · rw [e1, e2]; exact Or.inr ⟨_, none, rfl, rfl, by simp⟩
    · rw [e1, e2]; exact Or.inr ⟨_, none, rfl, rfl, by simp⟩

theorem splitLoop_twin (h : Twin d e φ) (hm : SameNames d e) (hc : ∀ x, cls'.get? x = cls.get? x) (hr : Mirrors d φ rec rec') (ty : String) (df : Option String) (o p w) :
    ∀ (l : List String) (i : Nat) (rows : List Row) (next : Option Node), (∀ n, next = some n → n ∈ d.getNodes) →
      Mirror d φ (splitLoop d cls rec ty df o p w l i rows next) (splitLoop e cls' rec' ty df o p w l i rows (next.map φ)) := by
  intro l
  induction l with
  | nil => intro i rows next hx; exact Or.inr ⟨rows, next, rfl, rfl, hx⟩
  | cons fl l ih =>
    intro i rows next hx
    unfold splitLoop
    rcases flowTarget_twin h fl with ⟨err, e1, e2⟩ | ⟨f, f', t, e1, e2, e3, e4⟩
    · simp only [e1, e2, bind, Except.bind]; exact Or.inl ⟨_, rfl, rfl⟩
    · have hnm : f'.2.2.name = f.2.2.name := by
        have := hm fl
        simpa [flowView, e3.1, e3.2, Except.map] using this
      simp only [e1, e2, bind, Except.bind, hnm]
      cases asciiLower i with
      | error err => exact Or.inl ⟨_, rfl, rfl⟩
      | ok suffix =>
        simp only
        cases t with
        | none => exact Or.inl ⟨_, rfl, rfl⟩
        | some t =>
          have htm := e4 t rfl
          simp only [Option.map_some, found, h.id t htm, hc]
          cases cls.get? t.1 with
          | none => exact Or.inl ⟨_, rfl, rfl⟩
          | some labels =>
            simp only [need]
            by_cases hj : "Join" ∈ labels
            · simp only [hj, if_true]
              exact ih _ _ _ hx
            · simp only [hj, if_false]
              rcases hr (some t) e4 1 (p ++ toString o ++ suffix)
                  (if some fl = df then "else" else if ty ≠ "parallelGateway" then f.2.2.name.getD "" else "") w false rows with
                ⟨err, k1, k2⟩ | ⟨r', n', k1, k2, k3⟩
              · simp only [Option.map_some] at k2
                rw [k1, k2]; exact Or.inl ⟨_, rfl, rfl⟩
              · simp only [Option.map_some] at k2
                rw [k1, k2]
                simp only
                cases n' with
                | none => exact ih _ _ _ hx
                | some n' => exact ih _ _ (some n') k3

theorem defaultFlow_twin (h : Twin d e φ) {n : Node} (hn : n ∈ d.getNodes) (ty : String) : defaultFlow (φ n) ty = defaultFlow n ty := by
  have := h.default n hn
  unfold defaultFlow
  split
  · revert this
    rcases (φ n).2.default with _ | _ | a <;> rcases n.2.default with _ | _ | b <;> simp
  · rfl

theorem retract_twin (h : Twin d e φ) {n : Node} (hn : n ∈ d.getNodes) (ty : String) :
    (∃ err, retract d n ty = .error err ∧ retract e (φ n) ty = .error err) ∨
    ∃ t, retract d n ty = .ok t ∧ retract e (φ n) ty = .ok (t.map φ) ∧ ∀ m, t = some m → m ∈ d.getNodes := by
  unfold retract
  split
  · exact Or.inr ⟨some n, rfl, rfl, by rintro m ⟨⟩; exact hn⟩
  · rw [h.outgoing n hn]
    cases n.2.outgoing with
    | none => exact Or.inl ⟨_, rfl, rfl⟩
    | some out =>
      simp only [found, bind, Except.bind]
      cases pyIndex out 0 with
      | error err => exact Or.inl ⟨_, rfl, rfl⟩
      | ok i =>
        simp only
        rcases flowTarget_twin h i with ⟨err, e1, e2⟩ | ⟨f, f', t, e1, e2, e3, e4⟩
        · simp only [e1, e2]; exact Or.inl ⟨_, rfl, rfl⟩
        · simp only [e1, e2]; exact Or.inr ⟨t, rfl, rfl, e4⟩

theorem ownRow_twin (h : Twin d e φ) {n : Node} (hn : n ∈ d.getNodes) (ty : String) (o p c w) : ownRow (φ n) ty o p c w = ownRow n ty o p c w := by
  unfold ownRow
  rw [h.name n hn]

theorem exportNext_twin (h : Twin d e φ) (hm : SameNames d e) (hc : ∀ x, cls'.get? x = cls.get? x) (hr : Mirrors d φ rec rec') {n : Node} (hn : n ∈ d.getNodes)
    (ty : String) (labels o p w rows) : Mirror d φ (exportNext d cls rec n ty labels o p w rows) (exportNext e cls' rec' (φ n) ty labels o p w rows) := by
  unfold exportNext
  rw [h.outgoing n hn, defaultFlow_twin h hn]
  cases n.2.outgoing with
  | none => exact Or.inl ⟨_, rfl, rfl⟩
  | some out =>
    simp only [found, bind, Except.bind]
    split
    · rcases splitLoop_twin h hm hc hr ty (defaultFlow n ty) o p w out 0 rows none (by simp) with ⟨err, e1, e2⟩ | ⟨r', n', e1, e2, e3⟩
      · simp only [Option.map_none] at e2
        rw [e1, e2]; exact Or.inl ⟨_, rfl, rfl⟩
      · simp only [Option.map_none] at e2
        rw [e1, e2]
        cases n' with
        | none => exact Or.inr ⟨r', none, rfl, rfl, by simp⟩
        | some n' => exact hr (some n') e3 _ _ _ _ _ _
    · split
      · cases pyIndex out 0 with
        | error err => exact Or.inl ⟨_, rfl, rfl⟩
        | ok i =>
          simp only
          rcases flowTarget_twin h i with ⟨err, e1, e2⟩ | ⟨f, f', t, e1, e2, e3, e4⟩
          · simp only [e1, e2]; exact Or.inl ⟨_, rfl, rfl⟩
          · simp only [e1, e2]; exact hr t e4 _ _ _ _ _ _
      · exact Or.inr ⟨rows, none, rfl, rfl, by simp⟩

theorem exportElement_twin (h : Twin d e φ) (hm : SameNames d e) (hc : ∀ x, cls'.get? x = cls.get? x) (hr : Mirrors d φ rec rec') {n : Node} (hn : n ∈ d.getNodes)
    (o p c w j rows) : Mirror d φ (exportElement d cls rec n o p c w j rows) (exportElement e cls' rec' (φ n) o p c w j rows) := by
  unfold exportElement
  rw [h.type n hn, h.id n hn, hc]
  cases n.2.type with
  | none => exact Or.inl ⟨_, rfl, rfl⟩
  | some ty =>
    simp only [need, bind, Except.bind]
    cases cls.get? n.1 with
    | none => exact Or.inl ⟨_, rfl, rfl⟩
    | some labels =>
      simp only
      split
      · rcases retract_twin h hn ty with ⟨err, e1, e2⟩ | ⟨t, e1, e2, e3⟩
        · rw [e1, e2]; exact Or.inl ⟨_, rfl, rfl⟩
        · rw [e1, e2]; exact Or.inr ⟨rows, t, rfl, rfl, e3⟩
      · rw [ownRow_twin h hn]
        cases ownRow n ty o p c w with
        | error err => exact Or.inl ⟨_, rfl, rfl⟩
        | ok own => exact exportNext_twin h hm hc hr hn ty labels o p w _

theorem exportNode_twin (h : Twin d e φ) (hm : SameNames d e) (hd : SameDefs d φ) (hc : ∀ x, cls'.get? x = cls.get? x) : ∀ fuel, Mirrors d φ (Csv.exportNode d cls fuel) (Csv.exportNode e cls' fuel) := by
  intro fuel
  induction fuel with
  | zero => intro node hx o p c w j rows; exact Or.inl ⟨_, rfl, rfl⟩
  | succ fuel ih =>
    intro node hx o p c w j rows
    unfold Csv.exportNode
    cases node with
    | none => exact Or.inl ⟨_, rfl, rfl⟩
    | some n =>
      have hn := hx n rfl
      simp only [Option.map_some, found, bind, Except.bind, h.type n hn]
      cases ht : n.2.type with
      | none => exact Or.inl ⟨_, rfl, rfl⟩
      | some ty =>
        simp only [need]
        split
        · rename_i e1; subst e1; exact exportStart_twin h hd ih hn ht _ _ _ _ _
        · split
          · rename_i e1; subst e1; exact exportEnd_twin h hd hn ht _ _ _ _ _
          · exact exportElement_twin h hm hc ih hn _ _ _ _ _ _

/-- Corresponding diagrams have the same rows. -/
theorem exportRows_twin (h : Twin d e φ) (hm : SameNames d e) (hd : SameDefs d φ) (fuel : Nat) : exportRows e fuel = exportRows d fuel := by
  obtain ⟨cls, cls', c1, c2, c3⟩ := h.classes
  obtain ⟨s, s', s1, s2, s3, s4⟩ := h.starts
  unfold exportRows
  rw [s1, s2, c1, c2]
  simp only [bind, Except.bind]
  match s, s', s3, s4 with
  | [], s', s3, s4 =>
    have : s' = [] := by simpa using s3
    subst this; rfl
  | [n], s', s3, s4 =>
    have : s' = [φ n] := by simpa using s3
    subst this
    rcases exportNode_twin h hm hd c3 fuel (some n) (by rintro m ⟨⟩; exact s4 n (by simp)) 0 "" "" "" false [] with ⟨err, e1, e2⟩ | ⟨r', n', e1, e2, -⟩
    · simp only [Option.map_some] at e2
      simp only [e1, e2]
    · simp only [Option.map_some] at e2
      simp only [e1, e2]
  | a :: b :: r, s', s3, s4 =>
    have hl := s3.length_eq
    match s', hl with
    | x :: y :: r', _ => rfl

end

/-- What the CSV export reads of a node. -/
structure Alike (a b : NodeAttrs) : Prop where
  type : b.type = a.type
  name : b.nodeName = a.nodeName
  incoming : b.incoming = a.incoming
  outgoing : b.outgoing = a.outgoing
  default : b.default.join = a.default.join

/-- The flow that is found, when all flows have ids. -/
theorem flowView_eq (g : EdgeAttrs → Option String) (d : Diagram) (h : ∀ f ∈ d.getFlows, f.2.2.id.isSome) (i : String) :
    flowView g (d.getFlowById i) = .ok (((d.getFlows.map fun f => (f.2.2.id, g f.2.2)).find? fun v => v.1 == some i).map (·.2)) := by
  have : d.getFlowById i = .ok (d.getFlows.find? fun f => f.2.2.id == some i) := by
    unfold Diagram.getFlowById
    apply pyFind_eq_find?
    intro f hf
    obtain ⟨j, hj⟩ := Option.isSome_iff_exists.1 (h f hf)
    simp [hj, need, bind, Except.bind, pure, Except.pure]
  rw [this]
  simp only [flowView, Except.map, List.find?_map, Option.map_map]
  rfl

theorem flowView_same (g : EdgeAttrs → Option String) {d e : Diagram} (hs : ∀ f ∈ d.getFlows, f.2.2.id.isSome) (hu : (d.getFlows.map (·.2.2.id)).Nodup)
    (hf : (e.getFlows.map fun f => (f.2.2.id, g f.2.2)).Perm (d.getFlows.map fun f => (f.2.2.id, g f.2.2))) (i : String) :
    flowView g (e.getFlowById i) = flowView g (d.getFlowById i) := by
  have hs' : ∀ f ∈ e.getFlows, f.2.2.id.isSome := by
    intro f hf'
    obtain ⟨g', hg, e1⟩ := List.mem_map.1 (hf.mem_iff.1 (List.mem_map_of_mem (f := fun f : Flow => (f.2.2.id, g f.2.2)) hf'))
    have : g'.2.2.id = f.2.2.id := congrArg (fun v => v.1) e1
    rw [← this]; exact hs g' hg
  rw [flowView_eq g d hs, flowView_eq g e hs']
  congr 2
  refine find?_perm_of_unique (fun v : Option String × Option String => v.1) hf ?_ (some i)
  refine ((hf.map _).nodup_iff).2 ?_
  rw [List.map_map]; exact hu

theorem twin_of_views {d e : Diagram} (hids : (d.getNodes.map (·.1)).Nodup) (hc : Complete d) (hp : (e.getNodes.map (·.1)).Perm (d.getNodes.map (·.1)))
    (hn : ∀ n ∈ d.getNodes, ∃ b, (n.1, b) ∈ e.getNodes ∧ Alike n.2 b)
    (hf : ∀ i, flowView (·.targetRef) (e.getFlowById i) = flowView (·.targetRef) (d.getFlowById i)) :
    ∃ φ, Twin d e φ ∧ ∀ n ∈ d.getNodes, ∃ b, φ n = (n.1, b) ∧ (n.1, b) ∈ e.getNodes := by
  have hids' : (e.getNodes.map (·.1)).Nodup := hp.nodup_iff.2 hids
  let φ : Node → Node := fun n => (e.getNodeById n.1).getD n
  have key : ∀ n ∈ d.getNodes, ∃ b, φ n = (n.1, b) ∧ (n.1, b) ∈ e.getNodes ∧ Alike n.2 b := by
    intro n hn'
    obtain ⟨b, h1, h2⟩ := hn n hn'
    refine ⟨b, ?_, h1, h2⟩
    have : e.getNodeById n.1 = some (n.1, b) := by
      rw [getNodeById_eq]
      show Option.map _ (Dict.get? e.getNodes n.1) = _
      rw [Dict.get?_of_mem hids' h1]; rfl
    show (e.getNodeById n.1).getD n = _
    rw [this]; rfl
  refine ⟨φ, ⟨?_, hids, hc, ?_, ?_, ?_, ?_, ?_, ?_, ?_⟩, fun n hn' => (key n hn').imp fun b h => ⟨h.1, h.2.1⟩⟩
  · refine (List.perm_ext_iff_of_nodup hids'.of_map ?_).2 fun m => ?_
    · refine List.Nodup.of_map (·.1) ?_
      rw [List.map_map]
      have : d.getNodes.map ((fun n : Node => n.1) ∘ φ) = d.getNodes.map (·.1) := by
        apply List.map_congr_left
        intro n hn'
        obtain ⟨b, e1, -, -⟩ := key n hn'
        simp [e1]
      rw [this]; exact hids
    · constructor
      · intro hm
        obtain ⟨n, hn', e1⟩ := List.mem_map.1 (hp.mem_iff.1 (List.mem_map_of_mem (f := fun n : Node => n.1) hm))
        obtain ⟨b, e2, e3, -⟩ := key n hn'
        refine List.mem_map.2 ⟨n, hn', ?_⟩
        rw [e2]
        have g1 := Dict.get?_of_mem hids' e3
        have g2 := Dict.get?_of_mem hids' (k := m.1) (v := m.2) hm
        rw [e1, g2] at g1
        simp only [Option.some.injEq] at g1
        rw [e1, ← g1]
      · intro hm
        obtain ⟨n, hn', rfl⟩ := List.mem_map.1 hm
        obtain ⟨b, e2, e3, -⟩ := key n hn'
        rw [e2]; exact e3
  · intro n hn'; obtain ⟨b, e2, -, -⟩ := key n hn'; rw [e2]
  · intro n hn'; obtain ⟨b, e2, -, h⟩ := key n hn'; rw [e2]; exact h.type
  · intro n hn'; obtain ⟨b, e2, -, h⟩ := key n hn'; rw [e2]; exact h.name
  · intro n hn'; obtain ⟨b, e2, -, h⟩ := key n hn'; rw [e2]; exact h.incoming
  · intro n hn'; obtain ⟨b, e2, -, h⟩ := key n hn'; rw [e2]; exact h.outgoing
  · intro n hn'; obtain ⟨b, e2, -, h⟩ := key n hn'; rw [e2]; exact h.default
  · exact hf

theorem twin_of {d e : Diagram} (hids : (d.getNodes.map (·.1)).Nodup) (hc : Complete d) (hp : (e.getNodes.map (·.1)).Perm (d.getNodes.map (·.1)))
    (hn : ∀ n ∈ d.getNodes, ∃ b, (n.1, b) ∈ e.getNodes ∧ Alike n.2 b) (hs : ∀ f ∈ d.getFlows, f.2.2.id.isSome)
    (hu : (d.getFlows.map (·.2.2.id)).Nodup) 
    (hf : (e.getFlows.map fun f => (f.2.2.id, f.2.2.targetRef)).Perm (d.getFlows.map fun f => (f.2.2.id, f.2.2.targetRef))) :
    ∃ φ, Twin d e φ ∧ ∀ n ∈ d.getNodes, ∃ b, φ n = (n.1, b) ∧ (n.1, b) ∈ e.getNodes :=
  twin_of_views hids hc hp hn fun i => flowView_same (·.targetRef) hs hu hf i

end Bpmn

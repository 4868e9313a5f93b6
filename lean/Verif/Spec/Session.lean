import Verif.Spec.RoundTrip
import Verif.Spec.Layout
import Verif.Model.Layouter
import Verif.Model.Export
import Verif.Model.Import
/-!
# Working sessions

What a user may do with a complete diagram: add elements, lay it out, save it and load it again, in any order.
-/
namespace Bpmn.Spec
open Bpmn

/-- The caller's obligations for a call on an existing diagram: it does not start a new diagram; kinds and directions are supported;
a new node has an id that no node, process, pool or lane has, and belongs to a process or sub-process of the diagram; a new flow joins
two nodes that no flow joins, belongs to a process or sub-process, and has an id that no flow or lane has; a new process has an id that no
process or node has. -/
structure Fits (d : Diagram) (op : Op) : Prop where
  notNew : ∀ name uid, op ≠ .createNew name uid
  kind : usable op = true
  direction : ∀ dir, directionArg op = some dir → dir ∈ directions
  node : ∀ n, declaredNode op = some n → n.id ∉ d.getNodes.map (·.1) ∧ n.id ∉ d.processElements.map (·.1) ∧ n.id ∉ poolIds d ∧ n.id ∉ laneIds d ∧
    ∃ p, n.attrs.process = some p ∧ Container d p
  flow : ∀ f, declaredFlow op = some f → f.id ≠ "" ∧ f.id ∉ laneIds d ∧ Container d f.process ∧ f.src ∈ d.getNodes.map (·.1) ∧
    f.tgt ∈ d.getNodes.map (·.1) ∧ ∀ g ∈ d.getFlows, g.2.2.id ≠ some f.id ∧ ¬SamePair g.1 g.2.1 f.src f.tgt
  proc : ∀ name c e t pl pr, op = .addProcess name c e t pl pr → pr ∉ d.processElements.map (·.1) ∧ pr ∉ d.getNodes.map (·.1)

/-- `Session d ops e`: a user who has the diagram `d` can have `e` after the calls `ops`, layouts that succeed, and saving and loading, in any
order. -/
inductive Session (d : Diagram) : List Op → Diagram → Prop
  | start : Session d [] d
  | call {ops : List Op} {e : Diagram} {op : Op} : Session d ops e → Fits e op → Session d (ops ++ [op]) (op.exec e).1
  | layout {ops : List Op} {e f : Diagram} {fuel : Nat} : Session d ops e → Layouter.generateLayout fuel e = .ok f → Session d ops f
  | file {ops : List Op} {e f : Diagram} {t : ETree} {N : Nat} {ord : List String → List String} : Session d ops e →
      (∀ fuel ≥ N, Export.exportXmlFile fuel e = .ok t) → (∀ l, (ord l).Perm l) → Import.load ord t.toDom {} = .ok f → Session d ops f

/-- A node without its place in the drawing and without the lists of flows. -/
def undrawn (a : NodeAttrs) : NodeAttrs := { a with x := none, y := none, incoming := none, outgoing := none }

/-- A flow without its way through the drawing. -/
def unrouted (a : EdgeAttrs) : EdgeAttrs := { a with waypoints := none }

/-- What a call says about the process it adds. -/
def declaredProcess : Op → Option (String × Option String × Option String × Option String × Option (List Lane))
  | .addProcess _ c e ty _ pr => some (pr, some (flag c), some (flag e), some ty, none)
  | _ => none

/-- The nodes of `d` and those the calls declare. -/
def nodesTold (d : Diagram) (ops : List Op) : List (String × NodeAttrs) :=
  d.getNodes.map (fun n => (n.1, undrawn n.2)) ++ (ops.filterMap declaredNode).map fun n => (n.id, undrawn n.attrs)

/-- The flows of `d` and those the calls declare. -/
def flowsTold (d : Diagram) (ops : List Op) : List EdgeAttrs :=
  d.getFlows.map (fun f => unrouted f.2.2) ++
    (ops.filterMap declaredFlow).map fun f => ⟨some f.id, some f.name, some f.process, some f.src, some f.tgt, none, none⟩

/-- `e` consists of what was in `d` and what the calls declared: nothing else, nothing twice, nothing lost. -/
structure Outcome (d : Diagram) (ops : List Op) (e : Diagram) : Prop where
  header : e.diagramId = d.diagramId ∧ e.diagramName = d.diagramName
  processes : e.processElements.map keptOfProcess = d.processElements.map keptOfProcess ++ ops.filterMap declaredProcess
  collaboration : e.collaboration = d.collaboration
  nodeIds : (e.getNodes.map (·.1)).Perm ((nodesTold d ops).map (·.1))
  nodes : ∀ x ∈ nodesTold d ops, ∃ b, (x.1, b) ∈ e.getNodes ∧ SameNode x.2 (undrawn b)
  flows : (e.getFlows.map fun f => unrouted f.2.2).Perm (flowsTold d ops)

end Bpmn.Spec

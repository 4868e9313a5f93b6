import Verif.Py.Basic
/-!
# `networkx.Graph` with bpmn-python's node and edge attributes

bpmn-python stores its diagram in an *undirected, simple* `networkx.Graph`
(`bpmn_python/bpmn_diagram_rep.py:50`).  The library itself is not part of `/repo`; this file renders its contract
(networkx 2.0 - 2.3, the versions that still have `Graph.node`).
-/
namespace Bpmn

/-- An entry of a node's `event_definitions` list (`bpmn_diagram_rep.py:413`). -/
structure EventDef where
  id : String
  defType : String
deriving DecidableEq, Repr

/-- A condition expression dictionary stored on a flow (`bpmn_diagram_import.py:742-745`). -/
structure CondExpr where
  id : String
  expr : String
deriving DecidableEq, Repr

/-- Attribute dictionary of a graph node.  One field per key of `bpmn_python_consts.py:11-99` that the code ever stores on a
node; `none` means that the key is absent.  The insertion order of the keys is never observed by the code and not represented.
`default` may be present with the value `None`. -/
structure NodeAttrs where
  id : Option String := none
  type : Option String := none
  nodeName : Option String := none
  incoming : Option (List String) := none
  outgoing : Option (List String) := none
  process : Option String := none
  width : Option String := none
  height : Option String := none
  x : Option String := none
  y : Option String := none
  isExpanded : Option String := none
  triggeredByEvent : Option String := none
  parallelMultiple : Option String := none
  isInterrupting : Option String := none
  cancelActivity : Option String := none
  attachedToRef : Option String := none
  eventDefinitions : Option (List EventDef) := none
  gatewayDirection : Option String := none
  default : Option (Option String) := none
  instantiate : Option String := none
  eventGatewayType : Option String := none
  isCollection : Option String := none
  nodeIds : Option (List String) := none
deriving DecidableEq, Repr

/-- Attribute dictionary of a graph edge (a flow). -/
structure EdgeAttrs where
  id : Option String := none
  name : Option String := none
  process : Option String := none
  sourceRef : Option String := none
  targetRef : Option String := none
  conditionExpression : Option CondExpr := none
  waypoints : Option (List (String × String)) := none
deriving DecidableEq, Repr

/-- An edge with the two end points in the order of the `add_edge` call that created it. -/
structure Edge where
  u : String
  v : String
  attrs : EdgeAttrs
deriving DecidableEq, Repr

/-- A node as the query functions return it: `(id, attributes)`. -/
abbrev Node := String × NodeAttrs
/-- A flow as the query functions return it: `(end, end, attributes)`. -/
abbrev Flow := String × String × EdgeAttrs

/-- `networkx.Graph`.  `nodes` is `_node`; `edges` holds every adjacency entry once, in the order of its insertion.
`_adj[n]` is the sublist of `edges` incident to `n`, in the same order (networkx inserts an edge into both adjacency
dictionaries at the same moment and deletes it from both at the same moment). -/
structure Graph where
  nodes : Dict String NodeAttrs := []
  edges : List Edge := []
deriving DecidableEq, Repr

namespace Edge
/-- The edge joins the unordered pair `{a, b}`. -/
def joins (e : Edge) (a b : String) : Bool := (e.u == a && e.v == b) || (e.u == b && e.v == a)
end Edge

namespace Graph

/-- `Graph.add_node(n)`: nothing if the node exists, otherwise a node with an empty attribute dictionary. -/
def addNode (g : Graph) (n : String) : Graph :=
  if g.nodes.has n then g else { g with nodes := g.nodes ++ [(n, {})] }

/-- `v in Graph._adj[u]`. -/
def hasEdge (g : Graph) (u v : String) : Bool := g.edges.any (·.joins u v)

/-- `Graph.add_edge(u, v)`: creates missing end nodes (without attributes); an existing edge keeps its attribute dictionary. -/
def addEdge (g : Graph) (u v : String) : Graph :=
  let g := (g.addNode u).addNode v
  if g.hasEdge u v then g else { g with edges := g.edges ++ [⟨u, v, {}⟩] }

/-- In place update of the attribute dictionary `Graph[u][v]`. -/
def modifyEdge (g : Graph) (u v : String) (f : EdgeAttrs → EdgeAttrs) : Graph :=
  { g with edges := g.edges.map fun e => if e.joins u v then { e with attrs := f e.attrs } else e }

/-- In place update of the attribute dictionary `Graph.node[n]` of an existing node. -/
def modifyNode (g : Graph) (n : String) (f : NodeAttrs → NodeAttrs) : Graph :=
  { g with nodes := g.nodes.modify n f }

/-- `Graph.remove_node(n)`: removes the node and its edges; `NetworkXError` if there is no such node. -/
def removeNode (g : Graph) (n : String) : Py Graph :=
  if g.nodes.has n then
    .ok { nodes := g.nodes.erase n, edges := g.edges.filter fun e => !(e.u == n || e.v == n) }
  else .error .networkXError

/-- `Graph.remove_edge(u, v)`; `NetworkXError` if there is no such edge. -/
def removeEdge (g : Graph) (u v : String) : Py Graph :=
  if g.hasEdge u v then .ok { g with edges := g.edges.filter fun e => !e.joins u v } else .error .networkXError

/-- What iteration over `Graph.edges(data=True)` reports while it visits node `n`: the edges incident to `n` in the order of
`_adj[n]`, without those leading to an already visited node. -/
def incident (es : List Edge) (seen : List String) (n : String) : List Flow :=
  es.filterMap fun e =>
    if e.u = n then (if e.v ∈ seen then none else some (n, e.v, e.attrs))
    else if e.v = n then (if e.u ∈ seen then none else some (n, e.u, e.attrs))
    else none

/-- Iteration over the nodes `ns` (the rest of the node list) with the visited nodes `seen`. -/
def iterFrom (es : List Edge) : List String → List String → List Flow
  | _, [] => []
  | seen, n :: ns => incident es seen n ++ iterFrom es (n :: seen) ns

/-- `list(Graph.edges(data=True))` (`EdgeDataView.__iter__`). -/
def flows (g : Graph) : List Flow := iterFrom g.edges [] g.nodes.keys

/-- `Graph.degree()[n]` (`DegreeView.__getitem__`): number of neighbours, a self-loop counting twice. -/
def degree (g : Graph) (n : String) : Nat :=
  (g.edges.filter fun e => e.u == n || e.v == n).length + (g.edges.filter fun e => e.u == n && e.v == n).length

end Graph
end Bpmn

# Formal model of bpmn-python (Lean 4)

## 1. Approach

The Python sources in `/repo/bpmn_python` are modelled function by function as total, computable Lean definitions; properties are
theorems about those definitions, quantified over all inputs, all call histories, all documents.

| Python notion | Model |
|---|---|
| exceptions | `Except PyErr α` (`PyErr` has one constructor per Python exception class that occurs) |
| methods that mutate and may raise half way | return the *state after the raise* together with the result |
| `dict` (insertion ordered, Python >= 3.7) | association list `Dict κ α` |
| attribute dictionaries of nodes / flows | records with one `Option` field per key (`none` = key absent) |
| `networkx.Graph` (undirected, simple) | node dict + list of edges in insertion order; at most one edge per unordered pair; iteration order of `edges(data=True)` reproduced |
| `uuid.uuid4()` | the generated id is an argument of the call ("oracle"); freshness is a hypothesis where needed |
| `while`/unbounded recursion | fuel; termination = "some fuel suffices" and independence of the fuel |
| XML element trees | inductive type `Xml` (element / text / comment); `ElementTree.write` followed by `minidom.parse` is taken to be the identity on such trees |
| regular expressions of the CSV importer | explicit functions on `List Char`, the regex cited beside them |
| floats | exact rationals (geometry) |

Directory layout under `lean/Verif/`:

* `Py/` - Python primitives (exceptions, dicts, list helpers, decimal strings).
* `Model/` - the model, one file per Python module, every definition cites file and lines.
* `Spec/` - small independent specifications (what a reader would write down without looking at the code).
* `Lemmas/` - proof machinery.
* `Props/` - the property theorems, with non-vacuity examples beside them, grouped by area.

Findings (the English property is false of the code) are kept as theorems stating the *negation*, for all inputs where possible.

## 2. Plan per property

| id | modelled code | proof idea |
|---|---|---|
| C01 | `Model/Rep.lean`: whole construction API | invariant over histories (`Reachable`), induction on the history |
| C02 | same | case analysis of edge overwriting; frame lemma for `edgesIter` |
| C03, C04, C05 | query API, node constructors | filter lemmas, dict frame lemmas |
| C06, C07 | gateway / flow constructors with state after the raise | direct computation from an arbitrary state |
| C08, C09 | `create_new_diagram_graph`, `add_process_to_diagram`, event constructors | induction over histories / case split |
| C10 | all constructors, failing ones included | invariant over unrestricted histories |
| C11, C12, C15, C16 | `Model/Metrics.lean` | counting lemmas on filters; handshake argument for degrees |
| C13, C14 | Durfee / perfect square loops | loop invariants against an independent `largest d such that` spec |
| C17, C18, C19 | `Model/LayoutMetrics.lean`, points in ℚ² | orientation test = geometric intersection (ordered field reasoning); permutation invariance of pair counting |
| C20, C21, C22 | longest path recursion with fuel | induction on the number of unvisited nodes; spec = set of simple paths |
| C23 | `Model/Classify.lean` | filters, partition by type |
| C24, C25, C26 | `Model/Layouter.lean`: topological sort | loop invariant (remaining flows), measure for termination, rank function for DAGs |
| C27 - C32 | grid placement, coordinates, waypoints | invariant "cells are pairwise distinct, grid is append only" |
| C33 - C38 | `Model/Xml.lean`, `Model/Export.lean`, `Model/Import.lean` | import as a fold of elementary actions; actions of an exported tree computed by induction on nesting |
| C39, C40 | indent, namespace stripping | structural induction |
| C41 - C43 | `Model/CsvExport.lean` | induction on fuel; labels are uniquely decodable |
| C44 | both CSV modules | induction on chain length |
| C45 - C48 | `Model/CsvImport.lean` | invariants of the passes; string lemmas |
| C49, C50 | `Model/Classes.lean`: element classes with dynamically typed setters | invariants over histories |
| C51 | `Model/Import.lean` | text is skipped by every loop: simulation between the tree and the tree without text |
| C52, C53 | `Model/Classes.lean`: class objects of doubly imported modules, heap of lists | subclass tables, frame lemmas for setters |
| C54, C55, C56 | `Model/CsvExport.lean`: recursion of the export | rank of the acyclic diagram as measure; witnesses; counting of reached nodes |
| C57 - C65 | `Model/CsvImport.lean`: all passes | invariants of the passes (`Lemmas/CsvState`, `CsvFill`, `CsvFinal`), exact list of flows made from the orders |
| C66, C67 | both CSV modules, flat tables | diagram of a table as an explicit list, then export of this list by induction on the blocks |
| C68 - C71 | `Model/Visualizer.lean`, `compute_determinant` | arrows = flows up to orientation; polynomial identities |
| C72, C73, C74, C77, C78 | XML export and import together | `Whole`/`Complete` diagrams are fixed points; explicit computation of the exported tree |
| C75, C76 | XML import | weakest precondition of every loop, collected into one condition on the document |
| C79, C80, C81 | XML import | contents of every node, flow, process, lane, pool as functions of the document |
| C82, C83 | CSV import | head, contents of nodes and flows; type of the gateway at which branches meet |
| C84 | CSV export | every row is justified by a way through the diagram, induction on the steps |
| C85 | layouter | places given by local rules, invariant of the loop over the sorted nodes and of the recursion into branches; success exactly if the places differ |
| C86 | layouter | two nodes on one place, from the rules of C85 |
| C87 | layouter | places of a line of steps and blocks by induction, all different |
| C88 | layouter | log of a run: every node is taken from the list of remaining nodes once, by the loop or by the split before it |
| C89 | CSV import, layouter, XML export and import together | the import and the layout give a diagram that is complete up to names and empty lists, then the round trip of C33 |
| C90 | CSV import, layouter, XML | the diagram of a flat table is a line of steps and blocks (C87), induction over the items |
| C91 | XML export and import, CSV export, both metrics modules | a correspondence of the nodes of both diagrams; the recursion of the CSV export and of the path search run in step |
| C92 | layouter, CSV export, metrics | the same correspondence between a diagram and its layout |
| C93 | CSV import, layouter, XML export and import, CSV export | the export of the imported diagram with flows named after their conditions, and its correspondence to the loaded one |
| C94 | CSV import: goto rows | the only flow into a goto row is the one the numbering gives; the second word is found by an independent definition of words |
| C95 | XML export: names and ids | a predicate on all elements of a written tree, with namespaces resolved by an independent relation; ids of the tree collected and shown to be a permutation of a list read off the diagram |
| C96 | CSV export: block-structured diagrams | an inductive type of lines with branches, the table by recursion over it; mutual induction with the export function, the stop at a join as the exit of a branch |
| C97 | CSV export, then CSV import | the table of C96 is a flat table of C66; places of nodes enumerated, flows of both diagrams shown to be the links of the table |
| C98 | XML export | the conditions of `Spec/Savable.lean`, with a least relation for nested sub-processes; each export function succeeds iff its part of the conditions holds; results do not depend on the budget once it suffices |
| C99 | XML import, then XML export | the conditions of C98 read off the document by C79 - C81; nodes of sub-processes by induction over the size of the element, lanes by induction over the lane |
| C100 | XML import, XML export, XML import | the conditions of `Spec/DocInOrder.lean` on the document; they give every condition of C33 on the loaded diagram, by C79 - C81 and C99; then C33 and C72 |
| C101 | construction, layout, XML export and import | sequences of steps as an inductive relation (`Spec/Session.lean`); induction: each step keeps the conditions of C33 (calls: effect on the state; layout: C29, C30; files: C33, C72) and the contents |
| C102 | XML import into any object | names of a document (`Spec/Merge.lean`); a relation between diagrams kept by the single changes of the import is kept by the whole import (`Lemmas/ImportRel.lean`), used for "old content followed by new content" and for the parts that stay; conditions of C33 for both together |
| C103 | XML import into any object, layout | a relation "on the way to the final state" between the two runs, kept by every single change of the import (`Lemmas/Again.lean`, `AgainPlane.lean`): what a run has written already agrees with its final state, and everything else is the final state from the beginning; layout via C29 |
| C104 | element classes | attributes per class and inheritance stated separately (`Spec/Setters.lean`: `introduces`, `IsA`, `Derives`), the form each setter takes by name; agreement with the class statements checked for all 27 classes, then one case per kind of setter body for all values; the attributes present by an invariant over all histories |
| C105 | CSV import into a used object | the passes over all nodes of the object look every node up in the table (first part, for all diagrams); the second import of an unbranched table as a simulation: each fill of a row overwrites node attributes with what they are, each connection call finds its edge (`Absorbs`, `over`), by induction over the rows |
| C106 | loops and the CSV export | the recursion never follows a flow from a split to a join (a `goto` row is written instead), so the number of nodes reachable along the other flows falls in every call; the case analysis of all outcomes by induction on the budget; the table up to a join by the induction over block-structured lines of C96 with the join as the node behind the line |
| C107 | the object after a layout that raises | `Model/LayoutState.lean` gives object and outcome of a call; it refines `generateLayout`; the grid has exactly the nodes of the supported types, so the loop over the nodes stops at the first other node, and the waypoints are computed without exception (C11) |
| C108 | the object after a load that raises | `Model/ImportState.lean` gives object and outcome of every function of the import, it refines `Model/Import.lean`; the relations of C102 and C103 are kept by every single change, so they hold at the moment of an exception as well |
| C109 | the object after a CSV import that raises | `Model/CsvImportState.lean` gives object and outcome of every function of the import, it refines `Model/CsvImport.lean`; an invariant (the row nodes and the header stay) kept by every single change; the rounds of the connection loop up to the first row that cannot go on; the rounds of a line done twice give the same as once |
| C110 | which tables with gotos are imported | a structure (`Loopable`) of what the gotos and gateways need after the connection loop, shown to survive every single removal; what leads to a join or a goto, read off the table row by row; for the other direction, a join whose sources are all gotos has no incoming flow when its turn to be removed comes |
| C111 | when a table with gotos gives a consistent diagram | an invariant (`Turning`) that no two of the flows present and still to be redirected join the same two nodes, kept by every single removal; for the other direction, counting: two list entries for a pair of nodes but one edge in the graph |
| C112 | diagrams whose lists and flows disagree are never laid out | an invariant of the sorting loop for arbitrary diagrams: every list entry that is gone was looked up and found in the list at the other end; a frame argument over all calls for the flow that is lost |
| C113 | exactly which nodes and flows a table with gotos gives | a relation defined from the orders of the rows alone; the flows of the diagram are in it by the invariants of the three passes of the import, and conversely each row has one way on in the relation and one flow in the diagram |
| C114 | what becomes of loops made with gotos | corollaries of C113: the exact flows give a line of nodes that leads to a join (then C106's truncation), a graph without a start node, and a cycle with only one flow back (then the limits of the layout) |
| C115 | joins on and behind loops | two invariants of the sort (nodes before any loop come first, and when all remaining nodes are blocked by loops every remaining join is released at once, so joins come before everything behind the loops); the places are then computed by the rule for a join, with only the early predecessors in the grid; the tables by C113 |
| C116 | every node of a diagram with loops | the invariant of C85 for the places that are filled, generalised: a join finds exactly those predecessors in the grid that come before it in the sorted list (what is placed early, behind a split, does not lead to a join whose turn is later); the order by three invariants of the sort; the single loop by walking along its lines |
| C117 | metrics of generated drawings | the lines of a drawing, flow by flow, from C30; lines along the axes meet exactly if they overlap in both directions (from C17); the blocks of C87 one after another: what leaves the split, the branches, what enters the join and the flow behind it are apart or counted pair by pair, over a permutation of the branches |
| C118 | columns and longest paths | from the grid of C85: a flow leads to a later column, and every node with predecessors has one in the column directly before it; so a path of that length exists (induction on the column) and none is longer; with C20 the last column is the length of the path found |
| C119 | shapes and flows | distinct cells of the grid are 150 and 100 apart (C27); which cells a route runs through; for the blocks of C87 each flow leads to the right neighbour, or from or to a gateway that is alone in its column, with nothing else in the row (induction over the parts); nested splits from the rules of C85: both splits have branches in the rows just above and just below the first one |
| C120 | a table with one loop | the orders of such a table decide which rows follow which (induction-free case analysis on prefix and number); C110 and C111: it is imported and consistent; C113: its nodes and flows are those of `OneLoop`, hence C116; saving by C89, the CSV export by C114 |
| C121 | several processes in one diagram | the rules of C85: starts are two rows apart, lines keep their row; lines never share a cell (so they are drawn), while a branch of a split and the node of the neighbouring line in the same column do (so a TypeError) |
| C122 | size of a drawing of steps and blocks | induction over the parts of the line: bounds and attained bounds of columns and rows in the drawing of C87; C118 and C20 for the longest path |
| C123 | paths and metrics of steps and blocks | every path from the start is the beginning of a way through (induction over the parts); the maximum over the ways by the same induction; flows counted by outgoing lists |
| C124 | metrics of imported tables | bijection rows-nodes by id (C60) with the counts of C11; flat tables are lines of steps and blocks (C90), so C122 and C123 apply, with the sums rewritten over the rows by induction over the items |
| C125 | lines of a drawing; the drawing of a table | the segments of each flow counted part by part along the line (as in C117, lengths instead of crossings); the table by the pieces of C90 with C117 and C122 |
| C126 | drawing and saving tables with terminated branches | the imported flows are exactly the links of the table (C66), so the diagram is acyclic (a measure on the ids) and C85 applies; columns and rows by induction over the items, the join from its predecessors; no two places coincide because of the columns and, inside a block, the rows; C89 for the file |
| C127 | metrics of tables with terminated branches | each node gets a weight and the greatest weight of a way from it on; every link lowers it by at least the weight of its source, and one link exactly; so the weight of a path is at most that of the start, and is attained (induction on the position in the table); C20 and C21 for the two metrics; flows by summing the outgoing lists over all nodes |
| C128 | gateways of tables: degrees and types | the degree is a count over the edges, matched with the lists of flows by consistency; summed over the gateways as in C127; the type of a split from C46 with the branches of the block, the join from C83; C15 for the heterogeneity |
| C129 | processes without joins come back from their tables | the places of the nodes in the table (prefix and number), reached from the first one by the relation `Child`; the rows of the table are the places with rows (C96), prefixes and numbers are unique, the rows of the branches stand in their order; acceptance by C65, nodes by C113, the flows and their order from the plan of every row, types and conditions by C46, C58, C60; two concrete trees for the limits |
| C130 | decision trees: size, paths, drawing | trees as lines that end or split (`Strand`, without meeting branches); induction over the tree for the sums of flows and ends, for the heaviest way (both longest paths, by C20 and C21) and for the rows and columns of C85: the nodes up to a split share a row, what is behind it is further right; the exception from the collision of two inner branches |
| C131 | trees through tables again and again | the copy of C129 is again a tree: its line is the image of the line; flows from and into a node and its copy correspond (C129), so the copy fits and C96 gives its table, row by row what is kept; names of flows, defaults and triggers of imported diagrams by C82; metrics and drawing by C130 |
| C132 | processes whose tables are refused | lines (`Strand`) and their tables from C96; induction over the line: orders are numbered from the number of the line on, those of branches have the letter behind the number of the split; so what is not shown has no row, and C65 refuses the table; the process that comes back with a cycle is an example |
| C133 | conditions of trees survive a table, a drawing and a file | the copy of C131, with the conditions of C129, and the flows named after their conditions (what the file keeps, C89, C93); induction over the line gives the table of this diagram; the loaded diagram corresponds to it node by node (`Twin`), so it has the same table |
| C134 | how wide drawings are, and which joins stand behind what leads to them | no assumption about the shape: an invariant of `placeElement` and of the loop around it - the nodes placed and the nodes left are together the sorted ones, each cell is right of an earlier one that leads to it, and a node that is not placed as a branch has its turn when all nodes before it in the order are placed; examples for optional parts |
| C135 | lines with optional steps drift off the page | the nodes are sorted in the order of the line, since each feeds the next one and flows only lead forwards; the loop of `grid_layout` is followed by induction on the parts of the line (every part is placed in new columns, so no cell is taken); the row behind an optional step by a recursion with a closed form |
| C136 | tables with optional steps | the orders of such a table are analysed (which rows follow, open splits, come back), so that the flows of C113 are exactly those of the statement; the diagram is a line with optional steps as in C135, by induction on the items of the table; the places follow from C135 |
| C137 | tables with optional steps, exported again | the diagram of C136 is a structured process in the sense of C96, whose rows are computed by induction on the items; the result is shown to be a table with optional steps again, hence any number of rounds by induction; the exception is a concrete table |
| C138 | tables with optional steps through a drawing and a file | the structured process of C137 with its flows named after their conditions (the file, as in C93); which conditions the flows of a gateway carry follows from C58 and C46; rounds by induction |
| C139 | processes with optional steps exported to tables | the line of C135 as a structured process (C96): the part behind a gateway is a split of two ways that meet at the next gateway; its table is computed by induction on the parts; the copy by C136, the refused ones by C110 |
| C140 | processes and tables that end with an optional step | the export step by step (the lemmas behind C96: start, inner node, split, node where ways meet, end), by induction on the parts of the line: it returns, with a goto to a number that no row has; then C110; tables by C136, whose diagram is such a line |
| C141 | end events into which several flows lead | the export as for C96, by induction on the lines (`Verif/Spec/SharedEnds.lean`: only the end of a line is different); the rows marked as ends are the ends of the lines; a line has an end event as often as flows of its nodes lead into it, by induction; with C42 and C60 the number of end events of the copy |

Theorem names begin with the id of their property (`C01_...`), `MANIFEST.json` lists them; all of them are in `lean/Verif/Props/`.

## 3. Trusted base

* Lean 4.33.0 kernel (the gate replays all modules in the kernel).
* Axioms: `propext`, `Classical.choice`, `Quot.sound` and nothing else. `lean/Verif/Axioms.lean` prints the axioms of every property theorem
  while it is built. No own axioms, no `sorry`, no `native_decide`, no `bv_decide`.
* The transcription from Python to Lean (checked by reading; each definition cites the lines it renders).
* Contracts of libraries that are not part of `/repo`: networkx.Graph (2.0-2.3, the versions offering `.node`), `xml.etree`, `minidom`,
  `pandas.read_csv`, `uuid`, see section 5.

## 4. What is modelled

| Python | Model | left out |
|---|---|---|
| `bpmn_diagram_rep.py` | `Model/Rep.lean` (state, queries, construction), `Model/Graph.lean` | the one-line wrappers that open files |
| `bpmn_diagram_metrics.py` | `Model/Metrics.lean` | floating point rounding: quotients are rationals, `int(math.sqrt(n))` is the integer square root |
| `diagram_layout_metrics.py` | `Model/LayoutMetrics.lean` | rounding, `nan`, infinities; `float(s)` is a parameter `num` of the model, so that theorems hold for every way of reading numbers |
| `bpmn_diagram_layouter.py`, `grid_cell_class.py` | `Model/Layouter.lean`, `Model/LayoutState.lean` (the object after an exception), `Model/Classify.lean` | nothing |
| `bpmn_import_utils.py` | `Model/Classify.lean`, `Model/Xml.lean` | nothing |
| `bpmn_diagram_import.py` | `Model/Import.lean`, `Model/ImportState.lean` (the object after an exception), `Model/Xml.lean` | nothing |
| `bpmn_diagram_export.py` | `Model/Export.lean`, `Model/Xml.lean` | files; the moment at which `None` attributes raise (the library raises on writing, the model where the attribute is set; both happen before anything can be read back) |
| `bpmn_process_csv_export.py` | `Model/CsvExport.lean` | files |
| `bpmn_process_csv_import.py` | `Model/CsvImport.lean`, `Model/CsvImportState.lean` (the object after an exception) | reading the text of the table (pandas); `get_given_task_as_dict`, which nothing calls |
| `bpmn_diagram_visualizer.py` | `Model/Visualizer.lean` | what the drawing libraries do; `bpmn_diagram_to_dot_file`, one library call |
| `graph/classes/**` | `Model/Classes.lean` | strings other than `str` (Python 2) |

Findings stated as theorems (a reader of the documentation would expect the opposite): C02, C05, C06, C07 (second flow between two nodes,
second node with an id, rejected gateways and flows), C48, C50, C52, C55, C57, C58, C59, C64, C68, C73, C74, C77, C78, C83, C86, C88, parts of C45, C90,
C82, C84, C105 - C109, C111, C112 (the plainest loop gives a diagram whose lists and flows disagree, and which is never laid out), C114 (other loops made with gotos are imported, but not laid out and not exported in full), C115 (blocks behind a loop are drawn in the first column, two of them are never laid out), C116 (every loop is drawn partly outside the page), C117 (the crossing metric is positive in every drawing of a block that is not the end), C119 (sizes of shapes are not looked at, and a flow of a nested split is drawn through another node), C121 (a split beside another process makes `generate_layout` raise `TypeError`), C122 (blocks of four or more branches are drawn partly outside the page), C126 (a terminated branch can move the main line out of its row and off the page), C127 (the longest path of a table need not lead to the end of its main line), C128 (`AverageGatewayDegree_metric` raises `ZeroDivisionError` for tables without blocks), C129 (a gateway directly behind a gateway is lost in the table, or makes it unreadable), C130 (trees with the same question in all branches are not drawn), C131 (after two rounds through tables all gateways of a tree are parallel), C132 (a process without cycles may come back from its table with a cycle), C134 (the end of an optional part of two steps is drawn left of its last step, and the row 0 of a branch is ignored if the branch is a join), C135 (a process with three or more optional steps is drawn partly outside the page), C136 (tables with three or more optional steps are drawn partly above the page), C137 (an optional step directly before the last row makes the exported table unreadable), C138 (conditions of `goto` rows are lost), C139 (two optional steps that directly follow each other are exported to a table that the import refuses), C140 (a process whose last step is optional is exported to a table that the import refuses), C141 (an end event that several ways reach becomes several end events) and C110 (a split all of whose branches go back or end is refused; objects left half changed, rows left out, objects that take no table any more).

## 5. Assumptions and simplifications

* *Recursion and loops without bound.* Such functions take a budget `fuel`; `PyErr.outOfFuel` is not a Python exception but means that the
  budget was too small. "Terminates" is: some budget gives a result, and every larger budget the same one. "Does not terminate" is:
  no budget gives a result. CPython's recursion limit is not modelled: a deep diagram can raise `RecursionError` where the model returns.
* *Sets.* The import iterates over Python sets of event definition names; the order is a parameter `ord` and theorems hold for all of them.
* *XML files.* Writing a tree and parsing the file is `ETree.toDom`: exact for strings of characters legal in XML without carriage returns (in
  attribute values also without tabs and line breaks), for tags that are XML names and without an encoding error.
  Where the code asks for the value of the first child of `incoming` and the like and this child is an element, Python goes on with `None`;
  the model counts this as a failure (`Xml.firstValue`), so such documents are outside of what C75 describes.
* *Tables.* The CSV import starts with the table of strings that pandas makes of the file. Pandas reads a column of numbers as integers, and cells
  such as `NA` or `None` as missing: such cells are taken as already converted to the text the code sees.
* *Regular expressions* of the CSV import are functions on characters; orders contain no line break and no character that is special in a regular expression.
* *Ids from `uuid4`* are arguments of the construction functions; where it matters that they are new this is a hypothesis.
* *Types.* Arguments have their documented Python types, except in the element classes (C49, C50, C52, C53) where every value is possible.
* *Import of the package.* The element classes can only be imported if both the directory of the package and its parent are on the search path; this is assumed.
* *Caller aliasing.* Objects returned by queries (dictionaries, lists) are not changed by the caller, except for the lists stored by the element classes,
  which live in a heap.

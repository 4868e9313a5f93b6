{"id": "C01", "title": "Flow bookkeeping is consistent after every disciplined build history", "statement": "Build a diagram by any sequence of the add_* calls in which explicit node ids are not reused, both end nodes of every flow already exist, no two flows join the same unordered pair of nodes, and generated ids are fresh. Then for every sequence flow returned by add_sequence_flow_to_diagram: get_flow_by_id returns it with the source and target it was created with, its id occurs exactly once in the source's outgoing list and exactly once in the target's incoming list, and no id other than ids of such flows occurs in any incoming or outgoing list.", "quantifier": "every finite sequence of construction calls (any length, any arguments) meeting the four caller obligations", "why_tests_cant": "The set of call histories is infinite and flows interact through shared per-node lists, the sequence_flows table and the undirected graph; a test fixes one history.", "anchors": ["bpmn_python/bpmn_diagram_rep.py::add_sequence_flow_to_diagram", "bpmn_python/bpmn_diagram_rep.py::add_flow_node_to_diagram", "bpmn_python/bpmn_diagram_rep.py::get_flow_by_id", "bpmn_python/bpmn_diagram_rep.py::get_node_by_id"]}
{"id": "C02", "title": "Connecting an already connected pair of nodes destroys the earlier flow", "statement": "If nodes a and b are already joined by flow f (in either direction), adding a new flow between a and b, in the same or the opposite direction, makes get_flow_by_id(f) return None, although f is still in sequence_flows and still in its end nodes' lists; if the pair was not joined, every earlier flow stays retrievable and unchanged.", "quantifier": "every diagram reached by any calls; for the loss of the flow also with different flow ids", "why_tests_cant": "Needs the effect on all other flows of an arbitrary diagram, not only on the pair in a test.", "anchors": ["bpmn_python/bpmn_diagram_rep.py::add_sequence_flow_to_diagram", "bpmn_python/bpmn_diagram_rep.py::get_flow_by_id"]}
{"id": "C03", "title": "get_nodes by type and by process is an exact, order preserving filter", "statement": "In every diagram in which all nodes carry a type, get_nodes(t) returns exactly the nodes of type t, each once, in insertion order, and get_nodes() returns all nodes; get_nodes_id_list_by_type returns their ids; likewise get_nodes_list_by_process_id for the process; get_nodes raises KeyError as soon as one node has no type.", "quantifier": "every diagram, every type string, every process id", "why_tests_cant": "Universally quantified over diagrams and type strings.", "anchors": ["bpmn_python/bpmn_diagram_rep.py::get_nodes", "bpmn_python/bpmn_diagram_rep.py::get_nodes_id_list_by_type", "bpmn_python/bpmn_diagram_rep.py::get_nodes_list_by_process_id"]}
{"id": "C04", "title": "Node lookup is exact and adding elements leaves the others alone", "statement": "After adding a node with a new id, get_node_by_id returns it with the given type, name, process, empty flow lists and default geometry; get_node_by_id of every other id, and every flow, is unchanged. Adding a sequence flow changes no node other than its two ends, and those only by one appended id in outgoing (source) resp. incoming (target). get_node_by_id returns None exactly for ids never added.", "quantifier": "every diagram state and every call", "why_tests_cant": "A frame condition over all other elements of an arbitrary diagram.", "anchors": ["bpmn_python/bpmn_diagram_rep.py::add_flow_node_to_diagram", "bpmn_python/bpmn_diagram_rep.py::add_sequence_flow_to_diagram", "bpmn_python/bpmn_diagram_rep.py::get_node_by_id"]}
{"id": "C05", "title": "Re-adding an existing node id silently empties its flow lists", "statement": "Calling an add_* node method with the id of an existing node (and a valid direction, for gateways) does not raise: it keeps one node, resets incoming and outgoing to [], and keeps all edges, so that flows still returned by get_flow_by_id are no longer in their end node's lists.", "quantifier": "every diagram, every existing node id, every node kind", "why_tests_cant": "The loss is invisible unless lists and edges are compared for an arbitrary prior history.", "anchors": ["bpmn_python/bpmn_diagram_rep.py::add_flow_node_to_diagram"]}
{"id": "C06", "title": "A rejected gateway direction leaves the gateway in the diagram", "statement": "add_exclusive/inclusive/parallel_gateway_to_diagram with a direction other than Unspecified, Converging, Diverging, Mixed raises BpmnPythonError; the diagram afterwards nevertheless contains the new node, without a gatewayDirection. With a valid direction it never raises and stores the direction.", "quantifier": "every diagram, every direction string, every gateway kind", "why_tests_cant": "Quantifies over all strings and states; exception-safety is about the state after the raise.", "anchors": ["bpmn_python/bpmn_diagram_rep.py::add_gateway_to_diagram"]}
{"id": "C07", "title": "A sequence flow to an unknown node raises but corrupts the diagram", "statement": "If an end of add_sequence_flow_to_diagram is not a node of the diagram, the call raises KeyError, yet afterwards the flow is registered in sequence_flows and in get_flows, the unknown id is a node without type, and get_nodes(t) raises KeyError for every non-empty type t.", "quantifier": "every diagram with unique nodes, one flow per pair of nodes and fully described flows (so every diagram reached by calls), every pair of ids of which one is unknown", "why_tests_cant": "Failure atomicity over all states.", "anchors": ["bpmn_python/bpmn_diagram_rep.py::add_sequence_flow_to_diagram", "bpmn_python/bpmn_diagram_rep.py::get_nodes"]}
{"id": "C08", "title": "The last added process owns the plane; a new diagram is empty", "statement": "After any history, plane_attributes refer to the process added last, process_elements contain exactly one entry for each add_process_to_diagram since the last create_new_diagram_graph, with its attributes; create_new_diagram_graph from any state yields a diagram with no nodes, flows, processes or plane attributes.", "quantifier": "every call history and every state before create_new_diagram_graph", "why_tests_cant": "Induction over histories.", "anchors": ["bpmn_python/bpmn_diagram_rep.py::create_new_diagram_graph", "bpmn_python/bpmn_diagram_rep.py::add_process_to_diagram"]}
{"id": "C09", "title": "Event and activity attributes are exactly those requested", "statement": "add_start_event_to_diagram stores one event definition of the requested kind when it is one of the five supported kinds, and none otherwise; add_end_event_to_diagram likewise for six kinds; booleans are stored as the strings true/false; sub-process flags likewise; the default flow of exclusive/inclusive gateways is stored.", "quantifier": "every diagram, every definition string, every flag", "why_tests_cant": "All strings.", "anchors": ["bpmn_python/bpmn_diagram_rep.py::add_start_event_to_diagram", "bpmn_python/bpmn_diagram_rep.py::add_end_event_to_diagram", "bpmn_python/bpmn_diagram_rep.py::add_subprocess_to_diagram", "bpmn_python/bpmn_diagram_rep.py::add_exclusive_gateway_to_diagram"]}
{"id": "C10", "title": "The graph stays simple with unique ids under arbitrary use", "statement": "After any sequence of construction calls whatsoever, including failing ones that the caller caught, node ids are unique, every edge joins two nodes of the diagram, no two edges join the same unordered pair, each edge carries id, name, source and target equal to its two ends.", "quantifier": "every call history, no obligations on the caller", "why_tests_cant": "Invariant over all histories including failures.", "anchors": ["bpmn_python/bpmn_diagram_rep.py::BpmnDiagramGraph"]}
{"id": "C11", "title": "Size metrics are exact cardinalities and satisfy their identities", "statement": "In every diagram whose nodes all have a type: TNSE, TNIE, TNEE count start, intermediate and end events; TNE = TNSE + TNIE + TNEE; NOA counts tasks and sub-processes; NOAC = NOA + all gateways + all events <= number of nodes; NOAJS = NOA + gateways; each equals the number of nodes whose type is in the corresponding set.", "quantifier": "every typed diagram", "why_tests_cant": "All diagrams; partition argument.", "anchors": ["bpmn_python/bpmn_diagram_metrics.py::TNSE_metric", "bpmn_python/bpmn_diagram_metrics.py::TNIE_metric", "bpmn_python/bpmn_diagram_metrics.py::TNEE_metric", "bpmn_python/bpmn_diagram_metrics.py::TNE_metric", "bpmn_python/bpmn_diagram_metrics.py::NOA_metric", "bpmn_python/bpmn_diagram_metrics.py::NOAC_metric", "bpmn_python/bpmn_diagram_metrics.py::NOAJS_metric", "bpmn_python/bpmn_diagram_metrics.py::NumberOfNodes_metric"]}
{"id": "C12", "title": "get_nodes_count without a type does not count all nodes", "statement": "get_nodes_count(graph) without a type returns 0 for every diagram whose nodes all have a type (its documentation says: all nodes); with a type it is the number of nodes of the type.", "quantifier": "every typed diagram, every type", "why_tests_cant": "All diagrams.", "anchors": ["bpmn_python/bpmn_diagram_metrics.py::get_nodes_count"]}
{"id": "C13", "title": "DurfeeSquare is the largest d with d element types occurring at least d times", "statement": "DurfeeSquare_metric(graph) = d implies at least d distinct node types occur at least d times each, and for no larger d' is that so.", "quantifier": "every typed diagram", "why_tests_cant": "Maximality over all d' and all diagrams.", "anchors": ["bpmn_python/bpmn_diagram_metrics.py::DurfeeSquare_metric"]}
{"id": "C14", "title": "PerfectSquare is the largest p such that the p most frequent types have at least p*p occurrences", "statement": "With element types sorted by decreasing frequency, PerfectSquare_metric(graph) is the largest p not exceeding the number of distinct types for which the top p types account together for at least p*p nodes.", "quantifier": "every typed diagram", "why_tests_cant": "Maximality over all p and all diagrams.", "anchors": ["bpmn_python/bpmn_diagram_metrics.py::PerfectSquare_metric"]}
{"id": "C15", "title": "Gateway heterogeneity is the number of distinct gateway types in use", "statement": "GatewayHeterogenity_metric equals the number of the five gateway types having at least one node, lies between 0 and 5 and never exceeds the number of gateways.", "quantifier": "every typed diagram", "why_tests_cant": "All diagrams.", "anchors": ["bpmn_python/bpmn_diagram_metrics.py::GatewayHeterogenity_metric"]}
{"id": "C16", "title": "Coefficient of network complexity and average gateway degree", "statement": "CoefficientOfNetworkComplexity is (number of retrievable flows)/(number of nodes) and raises ZeroDivisionError exactly on the empty diagram; AverageGatewayDegree is the mean degree of the gateways and raises ZeroDivisionError exactly when there is none; for diagrams satisfying the obligations of C01 the degree of every node equals the length of its incoming plus its outgoing list.", "quantifier": "every typed diagram; every disciplined history", "why_tests_cant": "Relates the undirected graph degree to directed flow lists for all histories.", "anchors": ["bpmn_python/bpmn_diagram_metrics.py::CoefficientOfNetworkComplexity_metric", "bpmn_python/bpmn_diagram_metrics.py::AverageGatewayDegree_metric"]}
{"id": "C17", "title": "do_intersect decides geometric intersection", "statement": "In exact arithmetic, for all pairs of closed segments, degenerate ones included, do_intersect returns true exactly when the segments have a point in common; it is symmetric in the two segments and in the end points of each.", "quantifier": "all quadruples of rational points", "why_tests_cant": "Infinite domain; case analysis of the orientation test.", "anchors": ["bpmn_python/diagram_layout_metrics.py::do_intersect", "bpmn_python/diagram_layout_metrics.py::orientation", "bpmn_python/diagram_layout_metrics.py::lies_on_segment"]}
{"id": "C18", "title": "count_crossing_points counts crossing pairs of segments", "statement": "count_crossing_points returns the number of unordered pairs of flow segments that share no end point and have a point in common, whatever the order of the flows.", "quantifier": "all diagrams with waypoints (exact arithmetic), all orders of flows", "why_tests_cant": "All diagrams; permutation invariance.", "anchors": ["bpmn_python/diagram_layout_metrics.py::count_crossing_points", "bpmn_python/diagram_layout_metrics.py::segments_common_points"]}
{"id": "C19", "title": "count_segments is the sum of waypoints minus one", "statement": "count_segments raises KeyError if some flow has no waypoints, IndexError if a waypoint list is empty (and none is missing before it), and otherwise returns the sum over all flows of (number of waypoints - 1); consecutive segments of a flow share an end point.", "quantifier": "all diagrams", "why_tests_cant": "All waypoint lists.", "anchors": ["bpmn_python/diagram_layout_metrics.py::count_segments", "bpmn_python/diagram_layout_metrics.py::get_flows_segments"]}
{"id": "C20", "title": "compute_longest_path returns a longest simple path", "statement": "In every consistent diagram without self-loop flows compute_longest_path terminates; the returned list is a path along sequence flows that visits no node twice, starts in a node without incoming flows and ends in a node without outgoing flows, its reported length is its number of nodes, and no such path is longer.", "quantifier": "all consistent diagrams without self-loops, cyclic ones included", "why_tests_cant": "Soundness and optimality over exponentially many paths.", "anchors": ["bpmn_python/diagram_layout_metrics.py::compute_longest_path", "bpmn_python/diagram_layout_metrics.py::find_longest_path"]}
{"id": "C21", "title": "compute_longest_path_tasks maximises activities on a simple path", "statement": "In every consistent diagram without self-loops compute_longest_path_tasks terminates, and its length is the maximum number of tasks and sub-processes on any simple path from a node without incoming flows; the returned list consists of the activities of such a path in order.", "quantifier": "all consistent diagrams without self-loops", "why_tests_cant": "Optimality over exponentially many paths.", "anchors": ["bpmn_python/diagram_layout_metrics.py::compute_longest_path_tasks", "bpmn_python/diagram_layout_metrics.py::find_longest_path_tasks"]}
{"id": "C22", "title": "A self-loop is counted twice and loops are dropped by compute_longest_path", "statement": "With a self-loop on a node the path returned by compute_longest_path may visit the node twice; a diagram whose every path ends in a loop has longest path [] of length 0 although it has nodes.", "quantifier": "existence statements plus: for all diagrams in which every node has an outgoing flow the longest path is empty", "why_tests_cant": "Negative result.", "anchors": ["bpmn_python/diagram_layout_metrics.py::find_longest_path"]}
{"id": "C23", "title": "Join/Split classification is exact", "statement": "generate_nodes_clasification and generate_elements_clasification label a node Join exactly when it has at least two incoming flows and Split exactly when it has at least two outgoing flows; every node of one of the eleven supported types is classified exactly once, nodes of other types not at all; the two functions agree.", "quantifier": "all typed diagrams", "why_tests_cant": "All diagrams.", "anchors": ["bpmn_python/bpmn_import_utils.py::BpmnImportUtils.generate_nodes_clasification", "bpmn_python/bpmn_import_utils.py::BpmnImportUtils.split_join_classification", "bpmn_python/bpmn_diagram_layouter.py::generate_elements_clasification"]}
{"id": "C24", "title": "Topological order respects every flow not declared backward", "statement": "When the layouter's sorting of a consistent diagram ends, the sorted list is a permutation of the classified nodes, and for every flow not reported as backward the source stands before the target.", "quantifier": "all consistent diagrams, cyclic ones included", "why_tests_cant": "All graphs; loop invariant.", "anchors": ["bpmn_python/bpmn_diagram_layouter.py::topological_sort"]}
{"id": "C25", "title": "Acyclic diagrams are sorted without backward flows", "statement": "For every acyclic consistent diagram whose flows connect nodes of the eleven supported types the sorting terminates and reports no backward flow.", "quantifier": "all acyclic consistent diagrams", "why_tests_cant": "Termination and absence for all DAGs.", "anchors": ["bpmn_python/bpmn_diagram_layouter.py::topological_sort"]}
{"id": "C26", "title": "Layout sorting terminates when every node is reachable from a start; a pure cycle hangs it", "statement": "For consistent diagrams whose flows connect nodes of the eleven supported types: if every node can be reached from a node without incoming flows, the sorting terminates. On every such diagram containing a cycle of nodes each having exactly one incoming flow it never terminates.", "quantifier": "all consistent diagrams", "why_tests_cant": "Termination cannot be tested.", "anchors": ["bpmn_python/bpmn_diagram_layouter.py::topological_sort"]}
{"id": "C27", "title": "A successful layout never puts two nodes on the same position", "statement": "If generate_layout returns, distinct nodes have distinct (x, y).", "quantifier": "all diagrams on which generate_layout returns", "why_tests_cant": "All diagrams; invariant of grid insertion.", "anchors": ["bpmn_python/bpmn_diagram_layouter.py::generate_layout", "bpmn_python/bpmn_diagram_layouter.py::insert_into_grid", "bpmn_python/bpmn_diagram_layouter.py::place_element_in_grid", "bpmn_python/bpmn_diagram_layouter.py::set_coordinates_for_nodes"]}
{"id": "C28", "title": "Non-joining nodes are laid out one column right of their predecessor", "statement": "If generate_layout returns, then for every node with exactly one incoming flow x = x of the predecessor + 150, every coordinate has the form 150*column+50 / 100*row+50, and nodes without incoming flows are in the first column.", "quantifier": "all consistent diagrams on which generate_layout returns", "why_tests_cant": "All diagrams.", "anchors": ["bpmn_python/bpmn_diagram_layouter.py::place_element_in_grid"]}
{"id": "C29", "title": "Layout changes coordinates and waypoints only, and is idempotent", "statement": "generate_layout changes nothing but x and y of nodes and waypoints of flows; running it again gives the same diagram.", "quantifier": "all diagrams on which generate_layout returns", "why_tests_cant": "Frame and idempotence over all diagrams.", "anchors": ["bpmn_python/bpmn_diagram_layouter.py::generate_layout"]}
{"id": "C30", "title": "Waypoints connect source and target", "statement": "After generate_layout every flow has two or three waypoints, starts at the centre of the source, and ends at the left border or vertical centre line of the target. Exactly: a flow out of a parallel, inclusive or exclusive gateway goes vertically to the height of the target and then horizontally to its left border; a flow into such a gateway from a node of another row that is none goes horizontally to the centre line of the gateway and then vertically to its top; every other flow is one straight line.", "quantifier": "all diagrams without parallel edges (networkx.Graph has none) on which generate_layout returns", "why_tests_cant": "All diagrams.", "anchors": ["bpmn_python/bpmn_diagram_layouter.py::set_flows_waypoints"]}
{"id": "C31", "title": "Inserting into an occupied grid cell always raises", "statement": "insert_into_grid on an occupied cell raises TypeError (an int is incremented by the string 'width') instead of shifting rows; on a free cell it appends the new cell.", "quantifier": "all grids, all cells", "why_tests_cant": "All grids.", "anchors": ["bpmn_python/bpmn_diagram_layouter.py::insert_into_grid"]}
{"id": "C32", "title": "Every linear process can be laid out, in one row", "statement": "For every process that is a chain start -> activities -> end of any length, generate_layout succeeds and places the i-th node in column i of one row.", "quantifier": "all chain lengths, names and ids", "why_tests_cant": "All lengths.", "anchors": ["bpmn_python/bpmn_diagram_layouter.py::generate_layout"]}
{"id": "C33", "title": "XML export followed by import preserves the diagram", "statement": "For every complete diagram, with any pools that have a process, any lanes that are not nested and any message flows between nodes (all attributes of each kind of element present, unique ids, each element's process or sub-process exists, flows in the lists of their ends, sequence flows in the table) - in particular for every diagram built by a disciplined history in which each element's process exists - exporting it with export_xml_file and loading the result gives a diagram with the same processes (except their name and the id of the lane set), the same lanes with their references and graphics, the same collaboration with its pools and message flows, the same nodes with all their attributes, the same flows with their attributes and waypoints, the same sequence_flows and the same plane.", "quantifier": "all complete diagrams and all disciplined build histories, nested sub-processes included, every iteration order of Python sets", "why_tests_cant": "All diagrams.", "anchors": ["bpmn_python/bpmn_diagram_export.py::BpmnDiagramGraphExport.export_xml_file", "bpmn_python/bpmn_diagram_import.py::BpmnDiagramGraphImport.load_diagram_from_xml"]}
{"id": "C34", "title": "Process names and nested lanes are lost by export", "statement": "Whatever the diagram, if it can be exported and the output can be loaded, every process of the loaded diagram has an empty name and none of its lanes has lanes inside.", "quantifier": "all diagrams in which no node or event definition has the type process", "why_tests_cant": "Negative result for all inputs.", "anchors": ["bpmn_python/bpmn_diagram_export.py::BpmnDiagramGraphExport.export_process_element", "bpmn_python/bpmn_diagram_export.py::BpmnDiagramGraphExport.export_child_lane_set"]}
{"id": "C35", "title": "Every node and flow of a process is exported exactly once, orphans never", "statement": "In the output of export_xml_file every node whose process (directly or through sub-processes) is an exported process appears exactly once among the process elements, with its type as tag, and no other node appears there; likewise for sequence flows; the collaboration has exactly one element per pool and per message flow; the plane has exactly one shape per pool, per lane and per node, and one edge per flow, preceded by one more edge for each message flow, so a node whose process id is unknown appears only in the plane. What is said of the plane holds for every diagram that can be exported, with lanes inside lanes.", "quantifier": "all complete diagrams, also with pools, lanes and message flows; the plane of all diagrams that can be exported", "why_tests_cant": "All diagrams.", "anchors": ["bpmn_python/bpmn_diagram_export.py::BpmnDiagramGraphExport.export_xml_file"]}
{"id": "C36", "title": "export_xml_file_no_di repeats all nodes in every process and cannot be loaded back", "statement": "Each process element written by export_xml_file_no_di contains all nodes and all flows, so with n processes every node is written n times; loading its output raises IndexError because it has no diagram element.", "quantifier": "all diagrams that can be exported so; for the number of times those with unique nodes, for loading those without a node of type BPMNDiagram", "why_tests_cant": "All diagrams.", "anchors": ["bpmn_python/bpmn_diagram_export.py::BpmnDiagramGraphExport.export_xml_file_no_di", "bpmn_python/bpmn_diagram_import.py::BpmnDiagramGraphImport.load_diagram_from_xml"]}
{"id": "C37", "title": "Import keeps flow tables and node lists in step", "statement": "After a successful load of a document in which node ids are distinct and sequence flows join nodes of their own process or sub-process, every sequence flow in sequence_flows has its id in the outgoing list of its source and in the incoming list of its target, and an edge joins the two. Without these conditions it fails: a flow written in a sub-process between nodes that follow the sub-process is in sequence_flows, but not in the lists.", "quantifier": "all XML documents that load", "why_tests_cant": "All documents.", "anchors": ["bpmn_python/bpmn_diagram_import.py::BpmnDiagramGraphImport.import_sequence_flow_to_graph"]}
{"id": "C38", "title": "Import of comments inside a process raises", "statement": "If a process element has a comment among its children, load_diagram_from_xml does not succeed.", "quantifier": "all documents", "why_tests_cant": "All documents.", "anchors": ["bpmn_python/bpmn_diagram_import.py::BpmnDiagramGraphImport.import_process_elements"]}
{"id": "C39", "title": "Pretty printing changes only whitespace", "statement": "indent changes no tag, attribute or non-blank text, and is idempotent.", "quantifier": "all XML trees", "why_tests_cant": "Recursion over all trees.", "anchors": ["bpmn_python/bpmn_diagram_export.py::BpmnDiagramGraphExport.indent"]}
{"id": "C40", "title": "Namespace prefixes are stripped", "statement": "remove_namespace_from_tag_name(p + ':' + n) = n for every n without a colon, and it is idempotent.", "quantifier": "all strings", "why_tests_cant": "All strings.", "anchors": ["bpmn_python/bpmn_import_utils.py::BpmnImportUtils.remove_namespace_from_tag_name"]}
{"id": "C41", "title": "CSV export needs exactly one start element", "statement": "export_process_to_csv raises BpmnPythonError exactly when the number of nodes without incoming flows is not one.", "quantifier": "all diagrams whose nodes have a type, an incoming and an outgoing list", "why_tests_cant": "All diagrams.", "anchors": ["bpmn_python/bpmn_process_csv_export.py::export_process_to_csv"]}
{"id": "C42", "title": "CSV rows have pairwise different order labels", "statement": "Whenever the CSV export terminates with success, no two rows have the same Order, and every Order is a number or numbers separated by small letters.", "quantifier": "all diagrams on which the export terminates", "why_tests_cant": "Recursion with label construction over all diagrams.", "anchors": ["bpmn_python/bpmn_process_csv_export.py::export_node", "bpmn_python/bpmn_process_csv_export.py::export_element"]}
{"id": "C43", "title": "A written CSV line splits back into its fields exactly when no field has a comma", "statement": "Splitting a written line at commas gives back the six fields iff no field contains a comma; every comma in a field gives one part more. Splitting the written file at line ends and commas gives back the header and all rows iff no field contains a comma or a line end.", "quantifier": "all rows", "why_tests_cant": "All strings.", "anchors": ["bpmn_python/bpmn_process_csv_export.py::write_export_node_to_file"]}
{"id": "C44", "title": "Linear processes survive CSV import and export", "statement": "For every start name and every list of n task names, none of them beginning with goto, importing the n+2 row CSV of the linear process (with an unnamed end) gives the chain start -> tasks -> end with these names and no other nodes or flows, and exporting it gives the same rows.", "quantifier": "all chain lengths and names", "why_tests_cant": "All lengths.", "anchors": ["bpmn_python/bpmn_process_csv_import.py::BpmnDiagramGraphCSVImport.load_diagram_from_csv", "bpmn_python/bpmn_process_csv_export.py::export_process_to_csv"]}
{"id": "C45", "title": "CSV import builds consistent flows", "statement": "After a successful CSV import every flow's source and target are nodes, the flow's id is source__target, it is in the source's outgoing and the target's incoming list and in sequence_flows; no goto node remains. The converse fails: an ordinary loop back (goto) can leave a node with an outgoing flow id that no flow has. Without goto rows the diagram is consistent: flow ids are unique and every listed id belongs to a flow between the right nodes.", "quantifier": "all CSV tables with different alphanumeric orders on which the import succeeds", "why_tests_cant": "All tables.", "anchors": ["bpmn_python/bpmn_process_csv_import.py::BpmnDiagramGraphCSVImport.load_diagram_from_csv", "bpmn_python/bpmn_process_csv_import.py::fill_graph_connections"]}
{"id": "C46", "title": "Gateway type inferred from branch conditions", "statement": "After a successful CSV import, the gateway behind a row with at least two branches is exclusive iff there are exactly two branches, with conditions yes and no in some order or one else; parallel iff otherwise no branch has a condition; else inclusive.", "quantifier": "all tables with different alphanumeric orders, all rows", "why_tests_cant": "All condition strings.", "anchors": ["bpmn_python/bpmn_process_csv_import.py::get_gateway_type"]}
{"id": "C47", "title": "Order arithmetic of CSV import", "statement": "After a successful CSV import, for rows that are not terminated and not goto: row p n (p empty or ending in a letter) leads to row p (n+1) if there is one; otherwise, with a first branch p (n+1) a or p (n+1) a 1 and at least two branches, over a gateway to every branch p (n+1) c or p (n+1) c 1; the last row of a branch k c of the main line leads to row k+1, directly or over a gateway.", "quantifier": "all tables with different alphanumeric orders; all prefixes, numbers and letters", "why_tests_cant": "All strings; regular expressions with backtracking.", "anchors": ["bpmn_python/bpmn_process_csv_import.py::get_possible_sequence_continuation_successor", "bpmn_python/bpmn_process_csv_import.py::get_possible_merge_continuation_successors"]}
{"id": "C48", "title": "A branch of eleven steps is mistaken for a split", "statement": "After a successful CSV import, in a branch with a first, a tenth and an eleventh numbered step behind a split, the eleventh step follows the tenth step and also, wrongly, the split gateway itself.", "quantifier": "all tables with different alphanumeric orders; all prefixes and letters", "why_tests_cant": "Negative result.", "anchors": ["bpmn_python/bpmn_process_csv_import.py::get_all_split_successors"]}
{"id": "C49", "title": "Setters of the element classes never store an ill-typed value", "statement": "After any sequence of constructor and setter calls, successful or not, in which no list is changed while an object holds it, every getter returns a value of its documented type (None where allowed); only get_target_ref may return any value but None that a constructor of a flow was given. A list stored by a setter is shared with the caller, who can add anything to it.", "quantifier": "all call histories, all argument values", "why_tests_cant": "All histories.", "anchors": ["bpmn_python/graph/classes/base_element_type.py", "bpmn_python/graph/classes/flow_element_type.py", "bpmn_python/graph/classes/root_element/process_type.py", "bpmn_python/graph/classes/sequence_flow_type.py"]}
{"id": "C50", "title": "set_id(None) raises but clears the id", "statement": "BaseElement.set_id(None) raises TypeError and leaves the id None, although its documentation allows None; same for SequenceFlow.set_condition_expression(None) and MessageFlow.set_message_ref(None). No other failing setter call changes anything.", "quantifier": "all objects", "why_tests_cant": "Failure atomicity over all states.", "anchors": ["bpmn_python/graph/classes/base_element_type.py::set_id"]}
{"id": "C51", "title": "Text between the elements of a document does not matter", "statement": "Removing all text that is not inside incoming, outgoing, flowNodeRef or conditionExpression elements changes nothing in the result of load_diagram_from_xml, success or failure.", "quantifier": "all documents", "why_tests_cant": "All documents; every loop of the import skips text on its own.", "anchors": ["bpmn_python/bpmn_diagram_import.py::BpmnDiagramGraphImport.load_diagram_from_xml"]}
{"id": "C52", "title": "A process object accepts no flow nodes", "statement": "Process.set_flow_element_list and SubProcess.set_flow_element_list raise TypeError for every list with a task, event or gateway object, however the classes were imported, because flow_node_type.py takes its base class from a second copy of the module; they accept exactly the lists of sequence flows and bare FlowElement objects.", "quantifier": "all states, all lists, both import names of every class", "why_tests_cant": "All lists and both import paths; no test of the repository touches these classes.", "anchors": ["bpmn_python/graph/classes/flow_node_type.py", "bpmn_python/graph/classes/root_element/process_type.py::set_flow_element_list", "bpmn_python/graph/classes/activities/subprocess_type.py::set_flow_element_list"]}
{"id": "C53", "title": "A successful setter call is seen by its getter only", "statement": "After a setter call of an element object that returns, the getter of the same attribute returns exactly the value given, and the answers of all other getters of this object and of all getters of all other objects are unchanged.", "quantifier": "all states, classes, setters and values", "why_tests_cant": "Frame condition over all states; attributes with the same name exist in several classes of one inheritance chain.", "anchors": ["bpmn_python/graph/classes/base_element_type.py", "bpmn_python/graph/classes/gateways/exclusive_gateway_type.py"]}
{"id": "C54", "title": "CSV export of acyclic diagrams succeeds", "statement": "The CSV export of a consistent acyclic diagram with exactly one node without incoming flow, only supported and named elements, at most 26 outgoing flows per node, and an outgoing flow at every start event and every joining gateway or intermediate event succeeds, with a recursion no deeper than the number of nodes.", "quantifier": "all consistent acyclic diagrams", "why_tests_cant": "All graphs; termination of a mutual recursion.", "anchors": ["bpmn_python/bpmn_process_csv_export.py::export_node", "bpmn_python/bpmn_process_csv_export.py::export_element"]}
{"id": "C55", "title": "CSV export is not faithful for joins that do not close one split", "statement": "There are valid acyclic diagrams for which the CSV export writes an activity twice, and others for which it leaves one out; there are valid diagrams with a loop on which it recurses without end.", "quantifier": "existence; the recursion without end for every recursion budget", "why_tests_cant": "Divergence for every budget.", "anchors": ["bpmn_python/bpmn_process_csv_export.py::export_element"]}
{"id": "C56", "title": "CSV export of diagrams without joins is complete", "statement": "If no node has two incoming flows, start events have one outgoing flow and end events none, then a successful CSV export writes exactly one row for every activity, start and end event that can be reached from the start, with its name (prefixed for timer and message events) and its Subprocess and Terminated marks, and no other row.", "quantifier": "all consistent diagrams without joins", "why_tests_cant": "All trees.", "anchors": ["bpmn_python/bpmn_process_csv_export.py::export_node", "bpmn_python/bpmn_process_csv_export.py::export_start_event", "bpmn_python/bpmn_process_csv_export.py::export_end_event"]}
{"id": "C57", "title": "Diagrams imported from CSV cannot be exported as XML with layout", "statement": "After a successful CSV import that made at least one flow, export_xml_file (with layout data) raises an exception, because no flow has waypoints.", "quantifier": "all tables with different alphanumeric orders", "why_tests_cant": "All tables.", "anchors": ["bpmn_python/bpmn_process_csv_import.py::add_edge", "bpmn_python/bpmn_diagram_export.py::BpmnDiagramGraphExport.export_flow_di_data"]}
{"id": "C58", "title": "CSV import loses the conditions of goto rows", "statement": "After a successful CSV import the condition of a flow is never empty and is always the Condition of a row, not a goto, at one of the two ends of the flow. Every flow into the node of a row with a condition carries exactly this condition. Conditions of goto rows get lost.", "quantifier": "all tables with different alphanumeric orders", "why_tests_cant": "All tables and loops.", "anchors": ["bpmn_python/bpmn_process_csv_import.py::remove_goto_nodes", "bpmn_python/bpmn_process_csv_import.py::add_edge"]}
{"id": "C59", "title": "CSV import does not reach the continuation behind a nested split", "statement": "After a successful CSV import of a table without goto, a row p (k+1) in a branch p (not its first row) without a row p k before it, that is a row behind a nested split, has no incoming flow.", "quantifier": "all tables with different alphanumeric orders and without goto", "why_tests_cant": "Negative result about all nested tables.", "anchors": ["bpmn_python/bpmn_process_csv_import.py::get_possible_merge_continuation_successors"]}
{"id": "C60", "title": "Rows and nodes correspond after CSV import", "statement": "After a successful CSV import every row that is not a goto is a node: order 0 a start event, else terminated an end event, else subprocess a subprocess, else a task, named by the activity, but end events have an empty name. All other nodes are gateways; node ids are unique.", "quantifier": "all tables with different alphanumeric orders", "why_tests_cant": "All tables.", "anchors": ["bpmn_python/bpmn_process_csv_import.py::import_nodes_info", "bpmn_python/bpmn_process_csv_import.py::get_node_type", "bpmn_python/bpmn_process_csv_import.py::add_node_info_to_diagram_graph"]}
{"id": "C61", "title": "CSV import leaves no superfluous gateways", "statement": "After a successful CSV import every gateway has at least two incoming or at least two outgoing flows.", "quantifier": "all tables with different alphanumeric orders", "why_tests_cant": "All tables; removals change the lists of other gateways.", "anchors": ["bpmn_python/bpmn_process_csv_import.py::remove_unnecessary_merge_gateways"]}
{"id": "C62", "title": "Every imported row has exactly one way on", "statement": "After a successful CSV import every node of a row that is not a goto has exactly one outgoing flow id, or none if the row is terminated.", "quantifier": "all tables with different alphanumeric orders", "why_tests_cant": "All tables; loops replace flows.", "anchors": ["bpmn_python/bpmn_process_csv_import.py::fill_graph_connections", "bpmn_python/bpmn_process_csv_import.py::remove_goto_nodes"]}
{"id": "C63", "title": "White space around orders does not matter for CSV import", "statement": "Adding blanks and tabs around the orders of a table with different alphanumeric orders changes nothing in the result of the CSV import, success or failure.", "quantifier": "all tables and diagrams", "why_tests_cant": "All tables; the dictionary is changed while it is walked.", "anchors": ["bpmn_python/bpmn_process_csv_import.py::remove_white_spaces_in_orders"]}
{"id": "C64", "title": "CSV import rejects nested branches before a longer main line", "statement": "A table with the last row, not terminated, of a nested branch k c j e and with both rows k+1 and j+1 of the main line, k and j different, cannot be imported.", "quantifier": "all tables with different alphanumeric orders", "why_tests_cant": "Negative result about all nested tables.", "anchors": ["bpmn_python/bpmn_process_csv_import.py::get_possible_merge_continuation_successors", "bpmn_python/bpmn_process_csv_import.py::get_possible_successor_present_in_node_ids_or_raise_excp"]}
{"id": "C65", "title": "Exactly the tables that say how to go on are imported", "statement": "A CSV table without goto whose orders are different and have the form of steps (numbers and branch letters, ending in a number or a letter) is imported without an exception if and only if for every row that is not terminated the table has the next number, or the first branch of a split at the next number, or, for exactly one number k (at least 1) before a letter in the order, the row k+1 of the main line. With goto rows the condition is still necessary.", "quantifier": "all tables with different alphanumeric orders", "why_tests_cant": "An equivalence over all tables: success of a loop that raises in six places.", "anchors": ["bpmn_python/bpmn_process_csv_import.py::fill_graph_connections", "bpmn_python/bpmn_process_csv_import.py::get_possible_merge_continuation_successors", "bpmn_python/bpmn_process_csv_import.py::get_merge_node_type", "bpmn_python/bpmn_process_csv_import.py::remove_unnecessary_merge_gateways"]}
{"id": "C66", "title": "The diagram of a flat table", "statement": "Flat tables have a start row, single steps and blocks of branches on the main line (2 to 26 branches of 1 to 10 steps, at least two of them not terminated, a step between two blocks, no goto) and a terminated last row. The diagram imported from a flat table has exactly these sequence flows: row to next row; from the row before a block to one split, from it to the first step of every branch in order, from step to step, from the last step of every branch that is not terminated to one join, and from it to the row behind the block. All nodes are the rows or these gateways.", "quantifier": "all flat tables", "why_tests_cant": "All tables, any number of blocks and branches.", "anchors": ["bpmn_python/bpmn_process_csv_import.py::fill_graph_connections", "bpmn_python/bpmn_process_csv_import.py::BpmnDiagramGraphCSVImport.load_diagram_from_csv"]}
{"id": "C67", "title": "Flat tables come back from import and export", "statement": "Every flat table can be imported, the export of the imported diagram terminates, and writes the same orders, activities, subprocess and terminated marks in the same order; conditions, responsible persons, the activities of ends and a subprocess mark of the start get lost, and nothing else. With one branch only that goes on, or a block inside a branch, this fails: rows are renumbered, written twice, or the export is refused.", "quantifier": "all flat tables", "why_tests_cant": "Two long programs composed, over all tables.", "anchors": ["bpmn_python/bpmn_process_csv_import.py::BpmnDiagramGraphCSVImport.load_diagram_from_csv", "bpmn_python/bpmn_process_csv_export.py::export_process_to_csv", "bpmn_python/bpmn_process_csv_export.py::export_element"]}
{"id": "C68", "title": "Arrows in the PNG picture may point against the flow", "statement": "After any disciplined build history the graph drawn by bpmn_diagram_to_png has one symbol per node with its name and one arrow per sequence flow with its name, between the ends of the flow. The arrow shows the direction of the flow exactly when its source was added to the diagram before its target; otherwise it points backwards. Tasks are rounded boxes, exclusive gateways diamonds, and all other nodes have the default shape.", "quantifier": "all allowed histories of construction calls", "why_tests_cant": "All histories; existing diagrams happen to add sources first.", "anchors": ["bpmn_python/bpmn_diagram_visualizer.py::bpmn_diagram_to_png", "bpmn_python/bpmn_diagram_rep.py::get_flows", "bpmn_python/bpmn_diagram_rep.py::add_sequence_flow_to_diagram"]}
{"id": "C69", "title": "visualize_diagram draws the eleven known kinds of nodes once and omits all others", "statement": "If visualize_diagram does not raise, each node of the kinds task, subprocess, four kinds of gateways (diamonds), event based gateway, start, end, intermediate catch and throw event (circles) gets exactly one symbol, of the shape of its kind; nodes of other kinds (user, service, manual tasks, data objects, boundary events) get no symbol. Node labels are the names, one per node; flow labels are the names, one per flow.", "quantifier": "all diagrams with unique node ids and typed nodes", "why_tests_cant": "All diagrams.", "anchors": ["bpmn_python/bpmn_diagram_visualizer.py::visualize_diagram", "bpmn_python/bpmn_diagram_rep.py::get_nodes_id_list_by_type"]}
{"id": "C70", "title": "Node positions are total and separate nodes exactly after a layout", "statement": "get_nodes_positions returns exactly when every node has numeric coordinates, with one entry per node in order. After any disciplined build history all nodes have the position (100, 100); after a successful generate_layout on a consistent diagram all positions are different.", "quantifier": "all diagrams, histories, layouts", "why_tests_cant": "All diagrams; relation between three modules.", "anchors": ["bpmn_python/bpmn_diagram_rep.py::get_nodes_positions", "bpmn_python/bpmn_diagram_layouter.py::set_coordinates_for_nodes", "bpmn_python/bpmn_diagram_visualizer.py::visualize_diagram"]}
{"id": "C71", "title": "compute_determinant is an orientation test", "statement": "compute_determinant changes sign when two points are exchanged, is invariant under cyclic exchange and translation, and its sign agrees with orientation: 0 on a line, 1 for negative, 2 for positive values; check_integer_sign of it holds exactly when orientation is not 1 (exact arithmetic).", "quantifier": "all triples of points", "why_tests_cant": "Infinite domain of points.", "anchors": ["bpmn_python/diagram_layout_metrics.py::compute_determinant", "bpmn_python/diagram_layout_metrics.py::check_integer_sign", "bpmn_python/diagram_layout_metrics.py::orientation"]}
{"id": "C72", "title": "Saving and loading can be repeated any number of times", "statement": "Whatever is loaded after a complete diagram was saved and loaded any number of times is again complete and is the same diagram as at the start, so that no sequence of saves and loads fails or changes anything further.", "quantifier": "all complete diagrams, all numbers of repetitions, all iteration orders of sets", "why_tests_cant": "Induction over the number of repetitions.", "anchors": ["bpmn_python/bpmn_diagram_export.py::BpmnDiagramGraphExport.export_xml_file", "bpmn_python/bpmn_diagram_import.py::BpmnDiagramGraphImport.load_diagram_from_xml"]}
{"id": "C73", "title": "Message flows are drawn twice in exported files", "statement": "Every successful XML export contains for each message flow of the collaboration at least two edges in the plane with the same id and the same bpmnElement, so that ids in the file are not unique.", "quantifier": "all diagrams that can be exported", "why_tests_cant": "All diagrams.", "anchors": ["bpmn_python/bpmn_diagram_export.py::BpmnDiagramGraphExport.export_xml_file", "bpmn_python/bpmn_diagram_export.py::BpmnDiagramGraphExport.export_flow_di_data"]}
{"id": "C74", "title": "Pools without process lose their orientation when saved", "statement": "Load any document, export it and load the result: every pool that had no process has an empty isHorizontal afterwards, whatever it was before. The same holds for every pool that is also a node of the exported diagram.", "quantifier": "all documents and diagrams", "why_tests_cant": "All documents; shapes are written twice and the second one wins.", "anchors": ["bpmn_python/bpmn_diagram_export.py::BpmnDiagramGraphExport.export_node_di_data", "bpmn_python/bpmn_diagram_import.py::BpmnDiagramGraphImport.import_shape_di", "bpmn_python/bpmn_diagram_import.py::BpmnDiagramGraphImport.import_participant_element"]}
{"id": "C75", "title": "Exactly which documents can be loaded", "statement": "A document is loaded into a new object without exception if and only if: it has a BPMNDiagram and the first one a BPMNPlane; no comment is directly inside a process, sub-process, node, sequence flow, collaboration (the first), lane set, lane or the plane; incoming, outgoing, flowNodeRef and conditionExpression elements are not empty; every BPMNShape has Bounds, and so has the last element of the plane that belongs to a lane; and every BPMNShape that belongs to an end of a flow belongs to a node element or a pool without process. (Elements inside incoming, outgoing, flowNodeRef, conditionExpression are not considered.)", "quantifier": "all documents", "why_tests_cant": "An equivalence over all trees.", "anchors": ["bpmn_python/bpmn_diagram_import.py::BpmnDiagramGraphImport.load_diagram_from_xml", "bpmn_python/bpmn_diagram_import.py::BpmnDiagramGraphImport.import_process_elements", "bpmn_python/bpmn_diagram_import.py::BpmnDiagramGraphImport.import_lane_element", "bpmn_python/bpmn_diagram_import.py::BpmnDiagramGraphImport.import_shape_di"]}
{"id": "C76", "title": "Exactly which nodes and arcs a loaded diagram has", "statement": "The nodes of a diagram loaded into a new object are exactly the node elements in processes and sub-processes, the pools without process and the ends of flows, each once; exactly the former two have a type. Two nodes are joined in the graph exactly if a sequence flow or message flow joins them, in one direction or the other.", "quantifier": "all documents that can be loaded", "why_tests_cant": "All trees, sub-processes nested to any depth.", "anchors": ["bpmn_python/bpmn_diagram_import.py::BpmnDiagramGraphImport.load_diagram_from_xml", "bpmn_python/bpmn_diagram_import.py::BpmnDiagramGraphImport.import_flow_node_to_graph", "bpmn_python/bpmn_diagram_import.py::BpmnDiagramGraphImport.import_sequence_flow_to_graph", "bpmn_python/bpmn_diagram_import.py::BpmnDiagramGraphImport.import_message_flow_to_graph"]}
{"id": "C77", "title": "Documents with message flows to drawn pools with a process cannot be loaded", "statement": "If a flow of the document ends at something that is neither a node element nor a pool without process, for example at a pool with a process, and the plane has a shape for it, then loading raises an exception.", "quantifier": "all documents", "why_tests_cant": "Negative result about all documents.", "anchors": ["bpmn_python/bpmn_diagram_import.py::BpmnDiagramGraphImport.import_shape_di", "bpmn_python/bpmn_diagram_import.py::BpmnDiagramGraphImport.import_message_flow_to_graph"]}
{"id": "C78", "title": "The name of a conditional flow is not written", "statement": "Two diagrams that differ only in the names of flows with a condition are exported to exactly the same XML document, with and without DI. After saving and loading, the name of such a flow is its condition (for diagrams that are otherwise complete), whatever it was before.", "quantifier": "all pairs of diagrams", "why_tests_cant": "A statement about pairs of all diagrams.", "anchors": ["bpmn_python/bpmn_diagram_export.py::BpmnDiagramGraphExport.export_flow_process_data", "bpmn_python/bpmn_diagram_export.py::BpmnDiagramGraphExport.export_xml_file", "bpmn_python/bpmn_diagram_export.py::BpmnDiagramGraphExport.export_xml_file_no_di"]}
{"id": "C79", "title": "What the nodes and processes of a loaded diagram say", "statement": "In a diagram loaded into a new object from a document with distinct node ids, every node element, also in nested sub-processes, has become a node with exactly its id, tag, name (empty if missing), process or sub-process, the attributes of its kind with BPMN defaults, its event definitions, the referenced flows in order (followed only by other flows that begin or end there), the nodes directly inside a sub-process, and the bounds of its last shape. A pool without process is a node of type participant that belongs to itself, with lists of flows and the bounds of its last shape. All other nodes have nothing but lists of flows. The processes are those of the document in order with their attributes or defaults, the nodes directly inside in order, and the lanes with child lanes of the first lane set.", "quantifier": "all documents that can be loaded", "why_tests_cant": "All trees, any nesting; an exact description of the result.", "anchors": ["bpmn_python/bpmn_diagram_import.py::BpmnDiagramGraphImport.import_flow_node_to_graph", "bpmn_python/bpmn_diagram_import.py::BpmnDiagramGraphImport.import_process_elements", "bpmn_python/bpmn_diagram_import.py::BpmnDiagramGraphImport.import_lane_element", "bpmn_python/bpmn_diagram_import.py::BpmnDiagramGraphImport.import_shape_di"]}
{"id": "C80", "title": "What the flows of a loaded diagram say", "statement": "Let the flows of a document have different ids and no two of them join the same two nodes. In the diagram loaded into a new object the flows are exactly the sequence flows of processes and (nested) sub-processes and the message flows of the first collaboration, each once, with exactly the id, name (empty if missing), process or sub-process (none for message flows), source, target, last condition expression, and the way points of the last edge that belongs to it; each joins its source and target in the graph. The table of sequence flows lists names and ends in document order.", "quantifier": "all documents that can be loaded, with distinct flows", "why_tests_cant": "All trees, any nesting; an exact description of the result.", "anchors": ["bpmn_python/bpmn_diagram_import.py::BpmnDiagramGraphImport.import_sequence_flow_to_graph", "bpmn_python/bpmn_diagram_import.py::BpmnDiagramGraphImport.import_message_flow_to_graph", "bpmn_python/bpmn_diagram_import.py::BpmnDiagramGraphImport.import_flow_di", "bpmn_python/bpmn_diagram_rep.py::get_flows"]}
{"id": "C81", "title": "What the head and the collaboration of a loaded diagram say", "statement": "A loaded diagram has id and name of the first BPMNDiagram and id and bpmnElement of its first BPMNPlane. It has a collaboration if and only if the document has one, with exactly the id, the pools with name, processRef and the bounds and isHorizontal of their last shape, and the message flows of the first collaboration in document order (flows and pools with different ids).", "quantifier": "all documents that can be loaded, with distinct flows", "why_tests_cant": "All trees; an exact description of the result.", "anchors": ["bpmn_python/bpmn_diagram_import.py::BpmnDiagramGraphImport.import_diagram_and_plane_attributes", "bpmn_python/bpmn_diagram_import.py::BpmnDiagramGraphImport.import_collaboration_element", "bpmn_python/bpmn_diagram_import.py::BpmnDiagramGraphImport.import_participant_element", "bpmn_python/bpmn_diagram_import.py::BpmnDiagramGraphImport.import_shape_di"]}
{"id": "C82", "title": "What an imported CSV table says apart from its structure", "statement": "The CSV import of a table gives the diagram, its plane and the process fixed ids and names and keeps other processes and the pools; the process lists the orders of all rows, also of goto rows that became no node, and not the added gateways. Every node of the diagram says nothing but its type, name and two lists of flows and the defaults of its type; every flow belongs to the process, has an empty name, no waypoints and, if it has a condition, the condition id made of its two ends.", "quantifier": "all tables with distinct orders without underscore that can be imported", "why_tests_cant": "All tables of any length.", "anchors": ["bpmn_python/bpmn_process_csv_import.py::BpmnDiagramGraphCSVImport.populate_diagram_elements_dict", "bpmn_python/bpmn_process_csv_import.py::BpmnDiagramGraphCSVImport.populate_process_elements_dict", "bpmn_python/bpmn_process_csv_import.py::add_node_info_to_diagram_graph", "bpmn_python/bpmn_process_csv_import.py::add_edge"]}
{"id": "C83", "title": "The type of the gateway where branches meet again", "statement": "After a CSV import, the gateway where branches meet before the row p(n+2) has the type of the split gateway after row p(n), if this row stands above all rows with the number n+1 before a letter in their orders. It is an inclusive gateway if row p(n) does not split. Branches never meet before a row numbered 0 or 1. The condition on the order of rows is needed: moving row p(n) below its branches changes the type.", "quantifier": "all tables with distinct orders without underscore that can be imported", "why_tests_cant": "All tables of any length; the limit needs a pair of permuted tables.", "anchors": ["bpmn_python/bpmn_process_csv_import.py::get_merge_node_type", "bpmn_python/bpmn_process_csv_import.py::add_merge_gateway_if_not_exists", "bpmn_python/bpmn_process_csv_import.py::fill_graph_connections"]}
{"id": "C84", "title": "Every row of a CSV export is true", "statement": "When the CSV export of a consistent diagram succeeds, every row is either the row of an activity, start or end event that can be reached from the start, with name and marks of this node and with the condition of the flow (else for the default flow, nothing at parallel gateways) if it is the first step behind a split and not a join, and no condition otherwise; or it stands for a flow that leads from a split directly to a join, has the order of the first step of the branch and says goto to the order behind the split. Such orders may be missing: there are acyclic diagrams for which the export writes only the start and such rows.", "quantifier": "all consistent diagrams and successful exports", "why_tests_cant": "All diagrams, also with loops, any number of branches.", "anchors": ["bpmn_python/bpmn_process_csv_export.py::export_element", "bpmn_python/bpmn_process_csv_export.py::export_start_event", "bpmn_python/bpmn_process_csv_export.py::export_process_to_csv"]}
{"id": "C85", "title": "Where generate_layout puts the nodes of a diagram without loops", "statement": "In a diagram without cycles, with supported nodes only, in which no split leads directly to a join, every node has a place given by local rules: starts in column 1 and rows 2, 4, ...; the successor in a line right of its predecessor; branches of a split right of it, in rows evenly below and above it (or, if the split is itself a branch, the row of the split before it); a join right of all its predecessors in their mean row. The rules leave no choice once the order of starts and branches is given. generate_layout draws every node at its place, 150 units per column and 100 per row, if no two places coincide, and raises a TypeError otherwise.", "quantifier": "all such diagrams", "why_tests_cant": "All diagrams, any number of nodes; an exact condition for success.", "anchors": ["bpmn_python/bpmn_diagram_layouter.py::generate_layout", "bpmn_python/bpmn_diagram_layouter.py::grid_layout", "bpmn_python/bpmn_diagram_layouter.py::place_element_in_grid", "bpmn_python/bpmn_diagram_layouter.py::set_coordinates_for_nodes"]}
{"id": "C86", "title": "Splits that begin with splits cannot be laid out", "statement": "In a diagram as in the previous property, generate_layout raises a TypeError whenever two branches of one split begin with a split, and whenever a split with two branches (not itself a branch of a split) has one branch that begins with a split and another that begins with two nodes in a row.", "quantifier": "all such diagrams", "why_tests_cant": "Negative result about a class of diagrams.", "anchors": ["bpmn_python/bpmn_diagram_layouter.py::generate_layout", "bpmn_python/bpmn_diagram_layouter.py::place_element_in_grid", "bpmn_python/bpmn_diagram_layouter.py::insert_into_grid"]}
{"id": "C87", "title": "Processes of steps and blocks are always laid out", "statement": "Every process that is one line of steps and blocks, where a block is a split, at least two non-empty branches without further splits and the join where they meet, is laid out: generate_layout returns, the line is drawn from left to right at y = 250, the branches of a block begin right of the split, each in a row of its own, evenly above and below the line, and the join is right of the longest branch.", "quantifier": "all such processes, with any number of blocks and branches of any length", "why_tests_cant": "All processes of a shape; induction over the line.", "anchors": ["bpmn_python/bpmn_diagram_layouter.py::generate_layout", "bpmn_python/bpmn_diagram_layouter.py::grid_layout", "bpmn_python/bpmn_diagram_layouter.py::place_element_in_grid"]}
{"id": "C88", "title": "Shared branches and direct loops cannot be laid out", "statement": "Whenever generate_layout returns, no node directly follows two different splits, and the nodes can be listed so that every flow leads forward in the list except flows from a node that is no split to a join. So a loop is never laid out if each of its flows leaves a split or leads to a node with one incoming flow; in particular a loop whose way back leads directly from a gateway with several outgoing flows to the join where the loop begins.", "quantifier": "all consistent diagrams, with any loops", "why_tests_cant": "Negative result about all diagrams of a shape and all runs.", "anchors": ["bpmn_python/bpmn_diagram_layouter.py::generate_layout", "bpmn_python/bpmn_diagram_layouter.py::grid_layout", "bpmn_python/bpmn_diagram_layouter.py::place_element_in_grid", "bpmn_python/bpmn_diagram_layouter.py::topological_sort"]}
{"id": "C89", "title": "From a CSV table to a drawing to an XML file and back", "statement": "If a table is imported into a new diagram and generate_layout returns, the result can be exported to XML, and loading the file gives the drawn diagram again: the same header, process, nodes with coordinates and all attributes, flows with waypoints and conditions, and the table of sequence flows. Only two things differ: a flow with a condition comes back with the condition as its name (the import leaves all names empty), and the empty list of event definitions, which the import gives to every node, is left only at events.", "quantifier": "all tables with distinct orders without underscore, also with goto rows, that can be imported and laid out", "why_tests_cant": "All tables; a composition of four parts of the library.", "anchors": ["bpmn_python/bpmn_process_csv_import.py::BpmnDiagramGraphCSVImport.load_diagram_from_csv", "bpmn_python/bpmn_diagram_layouter.py::generate_layout", "bpmn_python/bpmn_diagram_export.py::BpmnDiagramGraphExport.export_xml_file", "bpmn_python/bpmn_diagram_import.py::BpmnDiagramGraphImport.load_diagram_from_xml"]}
{"id": "C90", "title": "Flat tables without terminated branches are always drawn and saved", "statement": "A flat table (a main line of numbered steps and blocks of branches 2a1, 2a2, ..., 2b1, ...) whose branches all meet again can be imported, laid out and saved, for any number of items. The drawing has row 0 in column 1, the main line with all splits and joins in row 2 from left to right, the steps of a branch one after the other in one row right of the split, the branches of a block in different rows evenly above and below the line, and the join right of the longest branch. With a terminated branch the layout can fail with a TypeError.", "quantifier": "all such tables", "why_tests_cant": "All tables of a shape, by induction over the items; tests see single tables.", "anchors": ["bpmn_python/bpmn_process_csv_import.py::BpmnDiagramGraphCSVImport.load_diagram_from_csv", "bpmn_python/bpmn_diagram_layouter.py::generate_layout", "bpmn_python/bpmn_diagram_layouter.py::place_element_in_grid", "bpmn_python/bpmn_diagram_export.py::BpmnDiagramGraphExport.export_xml_file"]}
{"id": "C91", "title": "Saving and loading changes no table and no metric", "statement": "If a complete diagram (for tables: with at most one event definition per event), in particular one built by a disciplined history, is exported to XML and loaded again, then the CSV export writes the same text for both or raises the same exception, all complexity metrics have the same value for both (or raise the same exception), and so have the numbers of crossings and segments and the lengths of the longest paths. A diagram imported from a CSV table, laid out, saved and loaded has the complexity metrics of the imported one and the layout metrics of the drawn one.", "quantifier": "all complete diagrams, all iteration orders of sets; all tables that can be imported and laid out", "why_tests_cant": "All diagrams; relates three parts of the library although the order of nodes changes on the way.", "anchors": ["bpmn_python/bpmn_diagram_export.py::BpmnDiagramGraphExport.export_xml_file", "bpmn_python/bpmn_diagram_import.py::BpmnDiagramGraphImport.load_diagram_from_xml", "bpmn_python/bpmn_process_csv_export.py::export_process_to_csv", "bpmn_python/bpmn_diagram_metrics.py::DurfeeSquare_metric", "bpmn_python/diagram_layout_metrics.py::count_crossing_points"]}
{"id": "C92", "title": "Laying a diagram out changes no table and no complexity metric", "statement": "If generate_layout returns, the CSV export writes the same text before and after it or raises the same exception, all complexity metrics are the same, and the longest paths have the same lengths.", "quantifier": "all diagrams with distinct node ids in which every node has a type and both lists of flows", "why_tests_cant": "All diagrams, including those with loops.", "anchors": ["bpmn_python/bpmn_diagram_layouter.py::generate_layout", "bpmn_python/bpmn_process_csv_export.py::export_process_to_csv", "bpmn_python/bpmn_diagram_metrics.py::NOA_metric", "bpmn_python/diagram_layout_metrics.py::compute_longest_path"]}
{"id": "C93", "title": "Conditions of branches survive in an XML file although a CSV export loses them", "statement": "Importing a flat table and exporting it to CSV loses all conditions, also after generate_layout. But if the imported diagram is laid out, saved as XML and loaded again, then the CSV export of the loaded diagram writes the rows of the table with the condition of the first step of every branch, unless all branches of the block have blank conditions; only persons, other conditions, activities of ends and a subprocess mark of the start are lost. So a table that names nobody and has conditions only where branches start comes back unchanged. For tables without terminated branches all these steps succeed.", "quantifier": "all flat tables whose layout succeeds, all iteration orders of sets", "why_tests_cant": "All tables of a shape; a composition of five parts of the library, none of which states this.", "anchors": ["bpmn_python/bpmn_process_csv_import.py::BpmnDiagramGraphCSVImport.load_diagram_from_csv", "bpmn_python/bpmn_diagram_layouter.py::generate_layout", "bpmn_python/bpmn_diagram_export.py::BpmnDiagramGraphExport.export_flow_process_data", "bpmn_python/bpmn_diagram_import.py::BpmnDiagramGraphImport.load_diagram_from_xml", "bpmn_python/bpmn_process_csv_export.py::export_process_to_csv"]}
{"id": "C94", "title": "A goto row leads where it says", "statement": "After a CSV import, a goto row that is the first step of a branch has become a flow from the gateway of the split to the row named by the second word of the activity, and a goto row behind a step of a branch has become a flow from this step to the row named by the second word. Upper and lower case, further words and the amount of white space do not matter.", "quantifier": "all tables with distinct orders of the form used for steps and branches that can be imported; targets that are no goto rows", "why_tests_cant": "All tables; any white space (29 characters) and any position of the rows.", "anchors": ["bpmn_python/bpmn_process_csv_import.py::remove_goto_nodes", "bpmn_python/bpmn_process_csv_import.py::fill_graph_connections", "bpmn_python/bpmn_process_csv_import.py::BpmnDiagramGraphCSVImport.load_diagram_from_csv"]}
{"id": "C95", "title": "Namespaces and ids of exported files", "statement": "In every exported file the root is the definitions element of the BPMN model namespace, the first child and everything below it are elements of the BPMN DI, DC and DD namespaces under their official names, everything else belongs to the BPMN model namespace; only the root declares namespaces, and no element has two attributes of the same name or a prefixed attribute. The ids in the file of a complete diagram are exactly those of diagram, plane, collaboration, message flows, pools, processes, lanes, nodes, event definitions, flows and conditions, and the id with _gui behind it for everything drawn. So they are different from each other if and only if there is no message flow, the ids of the diagram are different, and none of them is the id of something drawn with _gui behind it.", "quantifier": "all diagrams that can be exported and whose types have no colon (namespaces), all complete diagrams (ids)", "why_tests_cant": "All diagrams; no finite number of files shows that all ids in all files are known.", "anchors": ["bpmn_python/bpmn_diagram_export.py::BpmnDiagramGraphExport.export_xml_file", "bpmn_python/bpmn_diagram_export.py::BpmnDiagramGraphExport.export_xml_file_no_di", "bpmn_python/bpmn_diagram_export.py::BpmnDiagramGraphExport.export_definitions_element", "bpmn_python/bpmn_diagram_export.py::BpmnDiagramGraphExport.export_node_di_data"]}
{"id": "C96", "title": "The CSV table of a block-structured diagram", "statement": "Take a diagram that is a line of nodes, in which a node may split into 2 to 26 branches that are lines again and end or meet again, to any depth. Its CSV export ends and writes exactly the table read off this structure: the nodes of a line numbered one after the other, the branches of the split with number n with prefixes na, nb, ... in the order of its flows, the condition of the flow in the first row of a branch, a goto row with the number behind the split for an empty branch, and no row and no number for a join that is no activity. So every activity, start and end event has one row, in the order of the line, and the other rows are one goto row per empty branch. Conditions on the joins are needed: a join that is no activity must not be the last node of a branch (else what follows is written twice), must not split itself (else branches are lost), and must not be an end event (else it is written once per branch).", "quantifier": "all consistent block-structured diagrams of any depth, length and number of nodes", "why_tests_cant": "Induction over nested structures; the exact table for all of them, not for samples.", "anchors": ["bpmn_python/bpmn_process_csv_export.py::export_process_to_csv", "bpmn_python/bpmn_process_csv_export.py::export_node", "bpmn_python/bpmn_process_csv_export.py::export_element", "bpmn_python/bpmn_process_csv_export.py::export_start_event"]}
{"id": "C97", "title": "A flat process comes back from its CSV table", "statement": "Take a diagram that is a start event, a line of activities and blocks, and an end event, where a block is a gateway with at most 26 branches of one to ten activities (a branch may end with an end event, at least two do not) and the gateway where they meet, and where there is an activity between two blocks. Its CSV export can be imported, and the result is a copy of the diagram: the nodes correspond one to one, activities, start and end events keep their type, activities and start events their text, gateways become gateways, and the outgoing flow with number i leads to corresponding nodes in both. The flows behind a split carry exactly the conditions of the branches. A split becomes parallel exactly if all these conditions are blank, so an exclusive gateway with unnamed flows comes back as a parallel one; the join gets the type of its split. Nested blocks do not come back.", "quantifier": "all such diagrams, of any length", "why_tests_cant": "All diagrams of a shape, and a composition of export and import that lose information on the way.", "anchors": ["bpmn_python/bpmn_process_csv_export.py::export_process_to_csv", "bpmn_python/bpmn_process_csv_export.py::export_element", "bpmn_python/bpmn_process_csv_import.py::BpmnDiagramGraphCSVImport.load_diagram_from_csv", "bpmn_python/bpmn_process_csv_import.py::get_gateway_type", "bpmn_python/bpmn_process_csv_import.py::get_merge_node_type"]}
{"id": "C98", "title": "Exactly which diagrams can be exported as XML", "statement": "export_xml_file succeeds if and only if everything it writes is there: diagram and plane have their attributes; every node has type, place and size, and an expanded mark if it is a sub-process; every flow has an id and waypoints; pools and lanes are placed; message flows are among the flows; processes have their three attributes; if there is a process, every node knows its process; and every node of a process, and every node inside a sub-process reached from there, has a name, its lists of flows and the attributes of its type, every flow there name, source and target. A sub-process must not be reached from itself. export_xml_file_no_di needs the attributes of processes, nodes and flows only. If something is missing, export_xml_file raises a KeyError or a TypeError or, only then, recurses without end.", "quantifier": "all diagrams", "why_tests_cant": "An exact condition for all diagrams, including sub-processes to any depth and those that contain themselves.", "anchors": ["bpmn_python/bpmn_diagram_export.py::BpmnDiagramGraphExport.export_xml_file", "bpmn_python/bpmn_diagram_export.py::BpmnDiagramGraphExport.export_xml_file_no_di", "bpmn_python/bpmn_diagram_export.py::BpmnDiagramGraphExport.export_node_data", "bpmn_python/bpmn_diagram_export.py::BpmnDiagramGraphExport.export_process_element", "bpmn_python/bpmn_diagram_export.py::BpmnDiagramGraphExport.export_node_di_data"]}
{"id": "C99", "title": "A loaded document can be saved again exactly if its drawing is complete", "statement": "Take a document whose ids differ (nodes and pools without process from each other, processes from each other and from nodes, flows from each other, pools from each other) and in which no two flows join the same two nodes, and load it into a new object. The result can be exported as XML if and only if every flow leads from a node to a node, and every node, pool, flow, lane of the first lane set of a process and lane of the last child lane set of such a lane (if ids are repeated, the last lane with the id) is drawn in the first plane of the first diagram: nodes and pools by a shape, lanes by any element, flows by an edge. Nothing else can be missing, whatever attributes the document leaves out.", "quantifier": "all documents that can be loaded and whose ids differ, all iteration orders of sets", "why_tests_cant": "All documents, with sub-processes and lanes to any depth; an exact condition, in terms of the document alone, for a composition of import and export.", "anchors": ["bpmn_python/bpmn_diagram_import.py::BpmnDiagramGraphImport.load_diagram_from_xml", "bpmn_python/bpmn_diagram_import.py::BpmnDiagramGraphImport.import_lane_set_element", "bpmn_python/bpmn_diagram_export.py::BpmnDiagramGraphExport.export_xml_file", "bpmn_python/bpmn_diagram_export.py::BpmnDiagramGraphExport.export_lane"]}
{"id": "C100", "title": "A document in order comes back when it is loaded and saved", "statement": "Take a document that can be loaded, in which processes, pools, lanes, nodes and flows have different ids and no two flows join the same two nodes, everything is drawn, sequence flows join nodes of their process or sub-process, every flow with a condition is named after it, every pool has a process, there are no lanes in lanes, and no flow id or reference is empty. The loaded diagram can be exported to XML, and loading the file gives the same diagram, after any number of times. Attributes with a default may be missing in the document, and any namespace prefixes may be used.", "quantifier": "all such documents, all iteration orders of sets, any number of times", "why_tests_cant": "All documents of any size and depth of sub-processes; the conditions are on the document alone.", "anchors": ["bpmn_python/bpmn_diagram_import.py::BpmnDiagramGraphImport.load_diagram_from_xml", "bpmn_python/bpmn_diagram_export.py::BpmnDiagramGraphExport.export_xml_file"]}
{"id": "C101", "title": "Editing, laying out, saving and loading in any order lose nothing", "statement": "Take a complete diagram (one built by calls, loaded from a document in order, or imported from a table, laid out, saved and loaded) and change it by any sequence of add calls, generate_layout runs that succeed, and exports to XML followed by loading the file into a new object. If every call uses a new id, supported kinds and directions, an existing process or sub-process, and for a flow two nodes of the diagram that no flow joins, then no call raises, and at any moment the diagram has exactly the processes, nodes and flows it had at the start and those added since, with their attributes (places, waypoints, lists of flow ids, names of processes and lane sets, and the order of event definitions aside), and it can be saved, the file giving it back.", "quantifier": "all complete diagrams, all sequences of such steps of any length, all iteration orders of sets", "why_tests_cant": "Sequences of any length that mix four parts of the library; every test has one fixed sequence.", "anchors": ["bpmn_python/bpmn_diagram_rep.py::BpmnDiagramGraph", "bpmn_python/bpmn_diagram_layouter.py::generate_layout", "bpmn_python/bpmn_diagram_export.py::BpmnDiagramGraphExport.export_xml_file", "bpmn_python/bpmn_diagram_import.py::BpmnDiagramGraphImport.load_diagram_from_xml"]}
{"id": "C102", "title": "Loading a document into a diagram that is already in use", "statement": "If a document uses none of the names (ids of nodes, flows, processes, pools) in a diagram object, loading it into that object raises exactly the exceptions that loading it into a new object would raise; otherwise the object then holds its old nodes, flows, processes and table entries unchanged, followed by those a new object would hold. Names and ids of the diagram and plane are those of the document. The pools and message flows are those of the document if it has a collaboration, so old ones are lost, otherwise the old ones. If the diagram was complete, the document is in order, no lane id is used twice and no message flow loses its entry, both can be saved in one file, which gives both back. Whatever names are shared: nodes, processes and table entries whose ids do not occur in the document are not touched, and neither is a flow between two nodes unless the document mentions both or the id under which the flow is filed.", "quantifier": "all documents, all diagrams, all iteration orders of sets", "why_tests_cant": "All pairs of a document and a diagram; that something is not touched cannot be seen from samples.", "anchors": ["bpmn_python/bpmn_diagram_import.py::BpmnDiagramGraphImport.load_diagram_from_xml", "bpmn_python/bpmn_diagram_import.py::BpmnDiagramGraphImport.import_collaboration_element", "bpmn_python/bpmn_diagram_import.py::BpmnDiagramGraphImport.import_shape_di", "bpmn_python/bpmn_diagram_import.py::BpmnDiagramGraphImport.import_flow_di"]}
{"id": "C103", "title": "Loading the same document again", "statement": "Take any diagram object (new, built by any calls, or loaded) and any document that can be loaded into it. Loading the document a second time into the same object succeeds and changes nothing at all, whether or not the document was in order, used names twice or shared names with the object. If coordinates of nodes and waypoints of flows were changed in between, for example by generate_layout, loading it again succeeds as well, gives every node and flow that the document draws back exactly the attributes it had, and changes nothing else but coordinates and waypoints; so if everything is drawn, a layout is taken back completely by loading the document again.", "quantifier": "all documents, all objects, all iteration orders of sets, all layouts", "why_tests_cant": "All documents, including those that overwrite their own nodes while they are loaded; that nothing at all has changed cannot be seen from samples.", "anchors": ["bpmn_python/bpmn_diagram_import.py::BpmnDiagramGraphImport.load_diagram_from_xml", "bpmn_python/bpmn_diagram_import.py::BpmnDiagramGraphImport.import_flow_di", "bpmn_python/bpmn_diagram_layouter.py::generate_layout"]}
{"id": "C104", "title": "What element objects have and what their setters take", "statement": "An object of one of the element classes has exactly the attributes that its class and the classes it extends introduce: the getter of such an attribute always returns something, after any sequence of calls, every other getter or setter raises AttributeError, and every attribute has exactly one setter. A setter called with any value in any state returns exactly if the value is of the form the attribute takes, raises ValueError exactly if it wants one of some words and is given another word, and TypeError in all other cases. None is taken by set_name, set_default, set_is_immediate and set_child_lane_set only. Objects must be of the class as imported from graph.classes or of a class derived from it; a lane set class imported from bpmn_python.graph.classes is refused.", "quantifier": "all classes under both ways of importing them, all states, all setters and getters, all values", "why_tests_cant": "All values and all states; exact outcomes of every method of every class.", "anchors": ["bpmn_python/graph/classes/base_element_type.py", "bpmn_python/graph/classes/flow_node_type.py", "bpmn_python/graph/classes/root_element/process_type.py", "bpmn_python/graph/classes/lane_type.py"]}
{"id": "C105", "title": "Importing a table into a diagram that is already in use", "statement": "A CSV table can be imported into a diagram object only if every node of the object has the order of a row as its id; otherwise an exception is raised, so a table cannot be added to an existing diagram. In particular, importing a table a second time into the same object raises whenever the first import gave a gateway. A table without branches and goto rows can be imported again: the diagram is then exactly the same as before, except that after a layout all nodes are put back to the place (100, 100) while the flows keep the waypoints of the layout, so the drawing no longer fits together. This holds for every line of tasks, of any length.", "quantifier": "all tables, all diagrams (first part); all tables with distinct orders of the form used for steps and branches (the rest)", "why_tests_cant": "All pairs of a table and an object; no import into a used object is tested at all.", "anchors": ["bpmn_python/bpmn_process_csv_import.py::BpmnDiagramGraphCSVImport.load_diagram_from_csv", "bpmn_python/bpmn_process_csv_import.py::BpmnDiagramGraphCSVImport.import_nodes", "bpmn_python/bpmn_process_csv_import.py::import_nodes_info", "bpmn_python/bpmn_process_csv_import.py::remove_unnecessary_merge_gateways", "bpmn_python/bpmn_diagram_rep.py::BpmnDiagramGraph.load_diagram_from_csv_file"]}
{"id": "C106", "title": "Loops and the CSV export", "statement": "The CSV export of a diagram with one start node, named nodes of known types, at most 26 branches per split and outgoing flows where they are needed either writes its table or recurses without end; it raises no exception. It ends whenever every cycle contains a flow that leads directly from a split to a join, as where a gateway leads back to the beginning of a loop. But loops are not exported as one would expect: if a process begins with a line of nodes and blocks that leads to a join with no split around it, the table has exactly the rows of that line, and everything from the join on, the whole loop and what follows it, is left out without any message. If the conditions on the nodes do not hold, the only exceptions (apart from the BpmnPythonError for the wrong number of start nodes) are KeyError, and then some node has no name or an unknown type, and IndexError, and then some node has more than 26 outgoing flows or is a start event or a join without any.", "quantifier": "all consistent diagrams with one start node, with cycles or without", "why_tests_cant": "All cyclic diagrams; termination of a recursion and the absence of exceptions cannot be tested, and rows that are missing only show against a complete description.", "anchors": ["bpmn_python/bpmn_process_csv_export.py::export_process_to_csv", "bpmn_python/bpmn_process_csv_export.py::export_node", "bpmn_python/bpmn_process_csv_export.py::export_element"]}
{"id": "C107", "title": "A layout that raises", "statement": "If generate_layout raises on a consistent diagram whose nodes are all of the supported types, the diagram object is exactly as it was before the call. If the diagram has a node of another type, for example a data object of a loaded document, generate_layout never returns; it leaves the object as it was, or it raises StopIteration after it has moved exactly the nodes that come before the first such node, so that the object is left half laid out, with all waypoints as they were. Whatever the diagram, a call that raises has either moved the first nodes (perhaps none) and done nothing else, or moved all nodes and redrawn the flows before some flow, in the order of get_flows; this flow and those behind it keep their waypoints.", "quantifier": "all consistent diagrams, for the last sentence all diagrams; all exceptions", "why_tests_cant": "All diagrams on which the layout fails, whatever the reason; that an object is unchanged in every respect cannot be seen from samples.", "anchors": ["bpmn_python/bpmn_diagram_layouter.py::generate_layout", "bpmn_python/bpmn_diagram_layouter.py::set_coordinates_for_nodes", "bpmn_python/bpmn_diagram_layouter.py::set_flows_waypoints"]}
{"id": "C108", "title": "A document that cannot be loaded", "statement": "If load_diagram_from_xml raises, the object is left half loaded: unless the document has no diagram and plane (then an IndexError is raised and nothing is changed), names and ids of diagram and plane are already those of the document. But nodes, processes and table entries whose ids the document does not mention are as before, and so is a flow unless the document mentions both its ends or the id under which it is filed. If the document uses no name of the object, the same exception is raised as with a new object, and the object holds what it held followed by what the new object holds. Loading the same document again raises the same exception and changes nothing. After a corrected document is loaded into the same object, though, traces of the broken one can remain, for example a flow that the corrected document does not have.", "quantifier": "all documents, all objects, all iteration orders of sets, all exceptions", "why_tests_cant": "All documents and all objects, whatever the reason and the moment of the exception; no test looks at an object after a failed import.", "anchors": ["bpmn_python/bpmn_diagram_import.py::BpmnDiagramGraphImport.load_diagram_from_xml", "bpmn_python/bpmn_diagram_import.py::BpmnDiagramGraphImport.import_flow_node_to_graph", "bpmn_python/bpmn_diagram_import.py::BpmnDiagramGraphImport.import_sequence_flow_to_graph", "bpmn_python/bpmn_diagram_import.py::BpmnDiagramGraphImport.import_collaboration_element", "bpmn_python/bpmn_diagram_import.py::BpmnDiagramGraphImport.import_shape_di"]}
{"id": "C109", "title": "A table that cannot be imported", "statement": "If load_diagram_from_csv_file raises, the object is left half filled. A table with a repeated order raises ValueError and changes nothing. Otherwise the head of the diagram and the entry of process_1, with the ids of all rows, are already those of the table, and every row that is no goto has its node; nodes that were there before stay. The import of a table of numbered steps into a new object raises nothing but BpmnPythonError, at the first row for which the table does not say how to go on: this row and those behind it have no outgoing flow, the rows before it have theirs. Another table can be imported into the same object only if it has all the orders of the first one, and none can if a row before the failing one opens a split or ends a branch, since a gateway is left behind. If there is only a line of steps before the failing row, the corrected table (an end mark in this row, or further rows) gives in the same object exactly what it gives in a new one.", "quantifier": "all tables of distinct letter and digit orders, all objects; for the moment of the exception all tables of numbered steps", "why_tests_cant": "All tables and all objects, whatever the moment of the exception; no test looks at an object after a failed import.", "anchors": ["bpmn_python/bpmn_process_csv_import.py::BpmnDiagramGraphCSVImport.load_diagram_from_csv", "bpmn_python/bpmn_process_csv_import.py::fill_graph_connections", "bpmn_python/bpmn_process_csv_import.py::BpmnDiagramGraphCSVImport.import_nodes", "bpmn_python/bpmn_process_csv_import.py::BpmnDiagramGraphCSVImport.populate_diagram_elements_dict"]}
{"id": "C110", "title": "Exactly which tables with gotos are imported", "statement": "Take a table of numbered steps where every goto row ends a branch, is not marked as an end, is not the only branch of its split, and names a row that is no goto. load_diagram_from_csv_file imports it into a new object exactly if three things hold: every row without an end mark has a row after it (the next number, the first branch of a split, or one row of the main line behind a split around it); every goto comes directly after a row without an end mark; and wherever a branch with a goto at its end would come back to the main line, some other row that is neither a goto nor marked as an end comes back there too. So a split all of whose branches go back or end makes the import raise, although the table says what happens in every case. Any table with a goto that is marked as an end, that names itself or something that is not in the table, or that is one word (a task called Gotomarket) makes it raise.", "quantifier": "all tables of that kind, for the last sentence all tables of distinct letter and digit orders", "why_tests_cant": "An equivalence over all tables, with any number of gotos; the tests import two tables with gotos.", "anchors": ["bpmn_python/bpmn_process_csv_import.py::BpmnDiagramGraphCSVImport.load_diagram_from_csv", "bpmn_python/bpmn_process_csv_import.py::remove_goto_nodes", "bpmn_python/bpmn_process_csv_import.py::remove_unnecessary_merge_gateways", "bpmn_python/bpmn_process_csv_import.py::fill_graph_connections"]}
{"id": "C111", "title": "When a table with gotos gives a consistent diagram", "statement": "Take a table with gotos that is imported (every goto ends a branch, is not marked as an end, names a row that is no goto, and is reached from one row; every split has two branches). The lists of incoming and outgoing flows of the nodes agree with the flows of the resulting diagram if and only if no goto asks for a flow between two nodes that already have one, in either direction. So a goto behind a step must not name the step before that one, nor go to a row behind which another goto comes back; a goto that is a branch of its own must not name the row directly before its split, nor the first step of a branch of the same split, nor what another such goto of this split names. In particular the plainest loop, a branch that goes back to the row directly before the split, gives a diagram whose lists and flows disagree: one flow is gone, but its id stays in the lists.", "quantifier": "all tables of that kind", "why_tests_cant": "An equivalence over all tables with any number of gotos and splits; the tests import two tables with gotos and compare no lists.", "anchors": ["bpmn_python/bpmn_process_csv_import.py::BpmnDiagramGraphCSVImport.load_diagram_from_csv", "bpmn_python/bpmn_process_csv_import.py::remove_goto_nodes", "bpmn_python/bpmn_process_csv_import.py::remove_unnecessary_merge_gateways", "bpmn_python/bpmn_process_csv_import.py::BpmnDiagramGraphCSVImport.import_nodes"]}
{"id": "C112", "title": "Diagrams whose lists and flows disagree are never laid out", "statement": "Whatever the diagram, if generate_layout returns, then every node has its two lists, every id in an outgoing list is the id of a flow whose target has the id in its incoming list, and every id in an incoming list is the id of a flow to this node and is in an outgoing list. So once a second flow has been added between two connected nodes, in either direction, generate_layout never returns again, whatever calls follow, unless the diagram is begun anew or the source or the lost id is added again; it does not return after a connected node was added again under its id; and it does not return for an imported table with a goto that asks for a flow against an existing one, as the plainest loop does. If the flow that is lost is the first one of the only start event, the CSV export raises TypeError.", "quantifier": "all diagrams, all sequences of calls, all tables with such gotos", "why_tests_cant": "All diagrams, whatever is wrong with their lists; that a function never returns cannot be tested.", "anchors": ["bpmn_python/bpmn_diagram_layouter.py::generate_layout", "bpmn_python/bpmn_diagram_layouter.py::topological_sort", "bpmn_python/bpmn_diagram_rep.py::BpmnDiagramGraph.add_sequence_flow_to_diagram", "bpmn_python/bpmn_process_csv_import.py::remove_goto_nodes", "bpmn_python/bpmn_process_csv_export.py::export_start_event"]}
{"id": "C113", "title": "Exactly which nodes and flows a table with gotos gives", "statement": "Take a table with gotos that is imported (every goto ends a branch, is not marked as an end, names a row that is no goto, and is reached from one row; every split has two branches) and in which no goto asks for a flow between two nodes that already have one. The nodes of the diagram are exactly the rows that are no gotos, one gateway for every split, and one gateway before every row to which two branches come back. The flows are exactly these: from a row to the row with the next number; from a row to the gateway of the split behind it, and from there to the first step of every branch; from the last step of a branch to the row behind the split, over the gateway before that row if it exists and directly otherwise; and wherever such a flow would lead to a goto, to the row that the goto names. Branches that end or go elsewhere are not counted among those that come back.", "quantifier": "all tables of that kind", "why_tests_cant": "An exact description over all tables with any number of gotos, splits and nested branches; the tests import two tables with gotos and compare no flows.", "anchors": ["bpmn_python/bpmn_process_csv_import.py::BpmnDiagramGraphCSVImport.load_diagram_from_csv", "bpmn_python/bpmn_process_csv_import.py::fill_graph_connections", "bpmn_python/bpmn_process_csv_import.py::remove_goto_nodes", "bpmn_python/bpmn_process_csv_import.py::remove_unnecessary_merge_gateways"]}
{"id": "C114", "title": "What becomes of loops made with gotos", "statement": "Take a table with gotos as in C113, imported into a new object, in which every row but the first and the gotos is reached. If a goto names a row of the main line that is not the first, and no goto names an earlier row and no branch comes back to one, then the CSV export of the diagram has exactly the rows before the named one: the named row, the loop and everything behind it are left out without any message. If a goto names the first row, the diagram has no start node and the CSV export raises BpmnPythonError. If a branch is just a goto from a split on the main line back to an earlier row of the main line (or to the row before the split) and no goto and no branch leads to the rows between, then generate_layout does not return. So a table with such a loop is imported but can neither be laid out nor be exported again.", "quantifier": "all tables of that kind", "why_tests_cant": "All tables with any number of gotos, splits and nested branches; rows that are missing only show against a complete description, and that a function never returns cannot be tested.", "anchors": ["bpmn_python/bpmn_process_csv_import.py::BpmnDiagramGraphCSVImport.load_diagram_from_csv", "bpmn_python/bpmn_process_csv_import.py::remove_goto_nodes", "bpmn_python/bpmn_process_csv_export.py::export_process_to_csv", "bpmn_python/bpmn_process_csv_export.py::export_node", "bpmn_python/bpmn_diagram_layouter.py::generate_layout"]}
{"id": "C115", "title": "Where the layout puts joins on loops and behind them", "statement": "Take a consistent diagram in which no node on or behind a loop has both several incoming and several outgoing flows. If generate_layout returns, every node has its own place in a grid of columns 150 and rows 100 apart, and a join on or behind a loop, whose predecessors on or behind a loop are no joins and whose other predecessors are no splits, is placed by the predecessors before the loops alone: its column follows the last of theirs, and its row is the sum of their rows divided by the number of all flows into the join. So a join all of whose predecessors are on or behind a loop is drawn at (200, 50), in the first column, however far behind the loop it is; and if there are two such joins, generate_layout never returns. In particular, for a table with gotos as in C113 that has a loop, and a split behind the loop whose branches come back together: the gateway where they meet is drawn at (200, 50), and with two such splits the diagram is never laid out.", "quantifier": "all consistent diagrams of that kind, all tables with gotos of that kind, all budgets", "why_tests_cant": "All diagrams with any number of loops; the tests lay out no diagram with a block behind a loop and compare no coordinates, and that a function never returns cannot be tested.", "anchors": ["bpmn_python/bpmn_diagram_layouter.py::generate_layout", "bpmn_python/bpmn_diagram_layouter.py::topological_sort", "bpmn_python/bpmn_diagram_layouter.py::grid_layout", "bpmn_python/bpmn_diagram_layouter.py::place_element_in_grid", "bpmn_python/bpmn_diagram_layouter.py::set_coordinates_for_nodes", "bpmn_python/bpmn_process_csv_import.py::BpmnDiagramGraphCSVImport.load_diagram_from_csv"]}
{"id": "C116", "title": "Where the layout puts every node of a diagram with loops", "statement": "Take a consistent diagram, with or without loops, whose nodes are all of supported types and can be reached from nodes without incoming flows, in which no split leads directly to a join and no node on or behind a loop has both several incoming and several outgoing flows. There is an order of the nodes (those before all loops first, then the joins on and behind loops, then the others, and apart from those joins every node after its predecessors) and a place for every node by the rules of C85, except that a join is placed by those of its predecessors that come before it in the order, and the sum of their rows is divided by the number of all flows into it. Order and rules leave no choice. generate_layout draws all nodes at these places, or, exactly if two places coincide, raises TypeError. In particular a process with one loop (a line of nodes, a join, a line, a split, one or more nodes back to the join, one or more nodes onwards) is always laid out, the line before the loop at y = 250, the loop from join to split at y = 150, and one of the way back and the way onwards at y = 350 and the other one at y = -50, outside the page.", "quantifier": "all consistent diagrams of that kind, any number of loops, any lengths of the lines", "why_tests_cant": "Exact coordinates for all diagrams with any number of loops; the tests compare no coordinates.", "anchors": ["bpmn_python/bpmn_diagram_layouter.py::generate_layout", "bpmn_python/bpmn_diagram_layouter.py::topological_sort", "bpmn_python/bpmn_diagram_layouter.py::grid_layout", "bpmn_python/bpmn_diagram_layouter.py::place_element_in_grid", "bpmn_python/bpmn_diagram_layouter.py::insert_into_grid", "bpmn_python/bpmn_diagram_layouter.py::set_coordinates_for_nodes"]}
{"id": "C117", "title": "The layout metrics of drawings made by generate_layout", "statement": "Take a diagram that generate_layout lays out. count_segments then gives the number of flows plus the number of flows with a bend (those that leave a parallel, inclusive or exclusive gateway, and those that enter one from another row). count_crossing_points is positive wherever two flows leave such a gateway to two different rows on the same side of it, and wherever a flow enters one from below and the process goes on behind it, because that flow is drawn through the centre of the gateway to its top. For a line of steps and blocks (blocks that begin and end with such gateways, with branches of any number and length that end with other nodes) the count is exact: with m the half of the number of branches, rounded down, each block gives 2m(m-1) crossings if nothing follows it and 2m*m otherwise, whatever the lengths of its branches, and there are no others. So a chain is drawn without crossings, and a process with a block behind which it goes on never is.", "quantifier": "all diagrams that are laid out; for the exact number all lines of steps and blocks, with any number of blocks and branches of any lengths", "why_tests_cant": "A formula over all processes of this form; the tests of the metrics use fixed drawings, and none of them was made by generate_layout and then measured.", "anchors": ["bpmn_python/diagram_layout_metrics.py::count_crossing_points", "bpmn_python/diagram_layout_metrics.py::count_segments", "bpmn_python/diagram_layout_metrics.py::get_flows_segments", "bpmn_python/diagram_layout_metrics.py::do_intersect", "bpmn_python/bpmn_diagram_layouter.py::set_flows_waypoints", "bpmn_python/bpmn_diagram_layouter.py::generate_layout"]}
{"id": "C118", "title": "The columns of a drawing are the longest paths of the diagram", "statement": "Take a consistent diagram without cycles whose nodes are all of supported types and in which no split leads directly to a join. If generate_layout draws it, every node is drawn in the column (150 units each, beginning at x = 200) whose number is the number of nodes on the longest path to it from a node without incoming flows, however the diagram was built and in whatever order. So every flow leads from left to right, no node is further right than it needs to be, and the metric compute_longest_path gives the width of the drawing: it finds a path whose i-th node is drawn in column i, and no node is drawn right of the last one.", "quantifier": "all consistent diagrams of that kind", "why_tests_cant": "Exact columns for all diagrams, with any number of paths; the tests compare no coordinates and no metric with a drawing.", "anchors": ["bpmn_python/bpmn_diagram_layouter.py::generate_layout", "bpmn_python/bpmn_diagram_layouter.py::grid_layout", "bpmn_python/bpmn_diagram_layouter.py::place_element_in_grid", "bpmn_python/bpmn_diagram_layouter.py::set_coordinates_for_nodes", "bpmn_python/diagram_layout_metrics.py::compute_longest_path"]}
{"id": "C119", "title": "Shapes and flows in drawings made by generate_layout", "statement": "If generate_layout returns, the shapes of two nodes that are at most 150 wide and at most 100 high never overlap; so in a diagram built by any sequence of calls no two shapes overlap, and the contents of a sub-process are drawn outside of it. But the sizes of shapes are not looked at: in a chain of nodes, every node wider than 150 (as in a loaded file) is drawn over the next one. In a line of steps and blocks (that begin and end with gateways, with any number of branches of any length that end with other nodes, all shapes 100 x 100) no flow runs through the shape of a node that is not its source or target. That is different with nested splits: in every diagram without cycles, in which no split leads directly to a join, where a branch of a split begins with a gateway that splits again, one of the flows from that gateway has its bend exactly in the middle of the first node of another branch.", "quantifier": "all diagrams that are laid out; all chains; all lines of steps and blocks; all nested splits", "why_tests_cant": "All diagrams and all points of the plane; the tests compare no coordinates and no sizes.", "anchors": ["bpmn_python/bpmn_diagram_layouter.py::generate_layout", "bpmn_python/bpmn_diagram_layouter.py::set_coordinates_for_nodes", "bpmn_python/bpmn_diagram_layouter.py::set_flows_waypoints", "bpmn_python/bpmn_diagram_layouter.py::place_element_in_grid"]}
{"id": "C120", "title": "From a table with one loop to a drawing and back", "statement": "Take a table for a process with one loop: rows 0 to n-1, behind them a split with two branches; branch a has one to nine rows and then a goto that names one of the rows 1 to n-1, branch b has one to ten rows, and the main line goes on with rows n+1 and so on, the last of which is the only one marked as an end; the rows may stand in any order. The table is imported, and generate_layout always draws the diagram: the rows before the named one at y = 250, the named one and those behind it at y = 150 with the gateway of the split at their end, all side by side from x = 200 on; right of the gateway the rows of branch a, and those of branch b with the rest of the main line, one of the two at y = 350 and the other one at y = -50. The drawing can be saved as XML, and loading the file gives it back. The CSV export of the imported diagram has only the rows before the named one; the rest of the process is lost without a message.", "quantifier": "all tables of that kind, main lines of any length, all iteration orders of sets", "why_tests_cant": "Infinitely many tables, and the whole way from the table to the picture; the tests import tables with gotos but compare neither flows nor coordinates.", "anchors": ["bpmn_python/bpmn_process_csv_import.py::BpmnDiagramGraphCSVImport.load_diagram_from_csv", "bpmn_python/bpmn_process_csv_import.py::remove_goto_nodes", "bpmn_python/bpmn_diagram_layouter.py::generate_layout", "bpmn_python/bpmn_diagram_export.py::BpmnDiagramGraphExport.export_xml_file", "bpmn_python/bpmn_diagram_import.py::BpmnDiagramGraphImport.load_diagram_from_xml", "bpmn_python/bpmn_process_csv_export.py::export_process_to_csv"]}
{"id": "C121", "title": "Several processes in one diagram", "statement": "A diagram may hold several processes, for example one per pool; generate_layout draws all of them on one sheet. If each of them is a line of nodes from its own start to its own end, with no flow between them, then for any number of processes of any lengths generate_layout returns and draws each line from left to right beginning at x = 200 in a row of its own, at y = 250, 450, 650 and so on without a gap. But the rows of different processes are only as far apart as the branches of a split: take a consistent diagram without cycles, whose nodes are all of supported types and in which no split leads directly to a join, where one process begins with a line of n nodes of which the last is a split, and every other node without incoming flows (at least one) begins a line of more than n nodes. Then generate_layout raises TypeError, whatever the order in which the processes were added and whatever follows.", "quantifier": "all diagrams of that kind, any number of processes of any lengths", "why_tests_cant": "All numbers and lengths of processes; the tests lay out only diagrams with one process.", "anchors": ["bpmn_python/bpmn_diagram_layouter.py::generate_layout", "bpmn_python/bpmn_diagram_layouter.py::grid_layout", "bpmn_python/bpmn_diagram_layouter.py::place_element_in_grid", "bpmn_python/bpmn_diagram_layouter.py::insert_into_grid", "bpmn_python/bpmn_diagram_layouter.py::set_coordinates_for_nodes"]}
{"id": "C122", "title": "The size of drawings of steps and blocks", "statement": "Take a consistent diagram that is one line of steps and blocks (any number of blocks, with any number of branches of any lengths). generate_layout draws it in exactly as many columns as it has steps plus, for each block, the length of its longest branch plus two; the last node is drawn in the last column on the line at y = 250, and compute_longest_path gives exactly this number of columns. With m half of the number of branches of the largest block, rounded down, the drawing reaches exactly from y = 250 - 200m to y = 250 + 200m: there are nodes in both of these rows and none beyond. So a node is drawn outside of the page, at a negative y, if and only if a block has four or more branches.", "quantifier": "all consistent diagrams of that kind", "why_tests_cant": "An exact formula for all processes of this form; the tests compare no coordinates and compute the metric only for fixed files.", "anchors": ["bpmn_python/bpmn_diagram_layouter.py::generate_layout", "bpmn_python/bpmn_diagram_layouter.py::place_element_in_grid", "bpmn_python/bpmn_diagram_layouter.py::set_coordinates_for_nodes", "bpmn_python/diagram_layout_metrics.py::compute_longest_path"]}
{"id": "C123", "title": "Paths and metrics of steps and blocks", "statement": "Take a consistent diagram that is one line of steps and blocks (any number of blocks, with any number of branches of any lengths). The paths from its start to its end are exactly the ways through it that take, at each block, the split, one of the branches, and the join. compute_longest_path_tasks therefore gives the number of tasks and sub-processes on the line plus, for each block, that of the branch that has most of them, which need not be the longest one. The number of flows is the number n of nodes, less one, plus b, the sum over all blocks of the number of branches less one; so CoefficientOfNetworkComplexity is (n + b - 1)/n: less than one exactly if there is no block.", "quantifier": "all consistent diagrams of that kind", "why_tests_cant": "The number of paths is exponential in the number of blocks, and the formulas speak about all processes of this form; the tests compute the metrics for fixed files only.", "anchors": ["bpmn_python/diagram_layout_metrics.py::compute_longest_path_tasks", "bpmn_python/diagram_layout_metrics.py::find_longest_path_tasks", "bpmn_python/bpmn_diagram_metrics.py::CoefficientOfNetworkComplexity_metric"]}
{"id": "C124", "title": "The metrics of imported tables", "statement": "Import any table that load_diagram_from_csv accepts (different orders of letters and digits, in any sequence, with branches, gotos and terminated branches). The metrics of the diagram can be read off the table: TNSE is the number of rows with order 0, TNEE that of the other rows that are terminated, NOA that of all other rows (goto rows not counted), TNIE is 0, and the number of gateways plus the number of rows that are not gotos is the number of nodes, which is NOAC. For a flat table (a start, a main line of steps and of blocks of 2 to 26 branches of one to ten steps, a step between two blocks, an end, no goto, here also no terminated branch) with r rows between start and end and k blocks, which have b branches more than blocks: the diagram has one start, one end, r activities, 2k gateways and 1 + r + 2k + b flows; compute_longest_path gives 2 + m + 2k and compute_longest_path_tasks gives m, where m counts the rows of the main line and those of the longest branch of each block.", "quantifier": "all tables that are imported; all flat tables without terminated branches", "why_tests_cant": "Formulas over all tables; the tests compute the metrics only for fixed XML files and never for an imported table.", "anchors": ["bpmn_python/bpmn_process_csv_import.py::BpmnDiagramGraphCSVImport.load_diagram_from_csv", "bpmn_python/bpmn_diagram_metrics.py::TNSE_metric", "bpmn_python/bpmn_diagram_metrics.py::TNEE_metric", "bpmn_python/bpmn_diagram_metrics.py::NOA_metric", "bpmn_python/bpmn_diagram_metrics.py::NOAC_metric", "bpmn_python/bpmn_diagram_metrics.py::all_gateways_count", "bpmn_python/diagram_layout_metrics.py::compute_longest_path", "bpmn_python/diagram_layout_metrics.py::compute_longest_path_tasks"]}
{"id": "C125", "title": "The lines of a drawing, and the drawing of a table", "statement": "Take a consistent diagram that is one line of steps and blocks (blocks that begin and end with gateways, with branches of any number and length that end with other nodes). Laid out by generate_layout, count_segments is exactly: one for each flow on the line, one more if it leaves a gateway, and for each block of b branches 2b for the flows behind the split, one for each node of a branch, one more if that node is a gateway, and 2*floor(b/2) for the bends before the join. So for a flat table (as in C124) without terminated branches, imported and laid out, the layout metrics can be read off the table: with f flows, count_segments is f plus, for each block of b branches, b + 2*floor(b/2) + 1; count_crossing_points is the sum of 2*floor(b/2)^2 over the blocks; the drawing has exactly 2 + m + 2k columns (k blocks, m rows on the main line and on the longest branch of each block) and reaches exactly from y = 250 - 200h to y = 250 + 200h with h half of the number of branches of the largest block, rounded down.", "quantifier": "all lines of steps and blocks; all flat tables without terminated branches", "why_tests_cant": "Exact formulas over all processes of this form, from the table to the metrics of the drawing; the tests compute layout metrics for fixed files that were not made by generate_layout.", "anchors": ["bpmn_python/diagram_layout_metrics.py::count_segments", "bpmn_python/diagram_layout_metrics.py::count_crossing_points", "bpmn_python/diagram_layout_metrics.py::get_flows_segments", "bpmn_python/bpmn_diagram_layouter.py::set_flows_waypoints", "bpmn_python/bpmn_diagram_layouter.py::generate_layout", "bpmn_python/bpmn_process_csv_import.py::BpmnDiagramGraphCSVImport.load_diagram_from_csv"]}
{"id": "C126", "title": "From a table with terminated branches to a drawing and back", "statement": "Take a flat table: a start, a main line of steps and of blocks of at most 26 branches of one to ten steps, a step between two blocks, an end, no goto; in each block at least two branches are not terminated, and no terminated branch is longer than all of these. The table is imported, generate_layout always draws the diagram, the drawing can be saved as XML, and loading the file gives it back. The start is drawn in the first column at y = 250; the steps of a branch follow each other in one row, beginning right of the split, in the rows of C85; the join stands right of the longest branch that is not terminated, in the mean row of these branches, rounded down, and the main line goes on from there in that row. So a terminated branch may move the main line out of its row: there is such a table with blocks of three and two branches where the end is drawn one row above the start and a branch of the second block is drawn at a negative y, outside of the page. (If a terminated branch is longer, generate_layout can fail: C90.)", "quantifier": "all tables of that kind, any number of items, all iteration orders of sets", "why_tests_cant": "Infinitely many tables, and the whole way from the table to the picture and the file; the tests compare no coordinates.", "anchors": ["bpmn_python/bpmn_process_csv_import.py::BpmnDiagramGraphCSVImport.load_diagram_from_csv", "bpmn_python/bpmn_diagram_layouter.py::generate_layout", "bpmn_python/bpmn_diagram_layouter.py::place_element_in_grid", "bpmn_python/bpmn_diagram_layouter.py::set_coordinates_for_nodes", "bpmn_python/bpmn_diagram_export.py::BpmnDiagramGraphExport.export_xml_file", "bpmn_python/bpmn_diagram_import.py::BpmnDiagramGraphImport.load_diagram_from_xml"]}
{"id": "C127", "title": "The metrics of tables with terminated branches", "statement": "Take a flat table (a start, a main line of steps and of blocks, an end, no goto, a step between two blocks; every block has at most 26 branches of one to ten rows, of which any number may be terminated, as long as two are not). With r rows between start and end, k blocks, b branches more than blocks and s terminated branches, the imported diagram has one start, 1 + s ends, r - s activities, 2k gateways, 2 + r + 2k nodes and 1 + r + 2k + b - s flows. compute_longest_path gives 1 plus the longest way through the items: a row counts one, and at a block the longest way takes the split and then the longer one of two: the longest terminated branch, where it ends, or the longest other branch, the join, and the longest way through what follows. compute_longest_path_tasks gives the same with the start, ends and gateways not counted. So the longest path of a diagram need not lead to the end of its main line.", "quantifier": "all flat tables, with any number of blocks and of terminated branches", "why_tests_cant": "Formulas over all tables of this form, with exponentially many paths; the tests compute the metrics only for fixed XML files and never for an imported table.", "anchors": ["bpmn_python/bpmn_process_csv_import.py::BpmnDiagramGraphCSVImport.load_diagram_from_csv", "bpmn_python/bpmn_diagram_metrics.py::TNEE_metric", "bpmn_python/bpmn_diagram_metrics.py::NOA_metric", "bpmn_python/bpmn_diagram_metrics.py::NOAC_metric", "bpmn_python/bpmn_diagram_metrics.py::all_gateways_count", "bpmn_python/diagram_layout_metrics.py::compute_longest_path", "bpmn_python/diagram_layout_metrics.py::compute_longest_path_tasks"]}
{"id": "C128", "title": "The gateways of imported tables: degrees and types", "statement": "Take a flat table (C127) with r rows between start and end, k blocks, b branches more than blocks and s terminated branches. CoefficientOfNetworkComplexity_metric gives (1 + r + 2k + b - s) / (2 + r + 2k). AverageGatewayDegree_metric gives (4k + 2b - s) / 2k, and raises ZeroDivisionError if the table has no block. The split and the join of a block have the same type: exclusive for exactly two branches with the conditions yes and no or of which one has the condition else, parallel if no branch has a condition, and inclusive in all other cases. GatewayHeterogenity_metric gives the number of different types of the blocks. In any diagram whose flows and lists of flows agree (C01), the degree of a node that AverageGatewayDegree_metric counts is the number of its incoming and outgoing flows.", "quantifier": "all flat tables; all consistent diagrams for the degree", "why_tests_cant": "Formulas over all tables; the tests compute the metrics only for fixed XML files and never for an imported table.", "anchors": ["bpmn_python/bpmn_process_csv_import.py::BpmnDiagramGraphCSVImport.load_diagram_from_csv", "bpmn_python/bpmn_process_csv_import.py::get_gateway_type", "bpmn_python/bpmn_diagram_metrics.py::CoefficientOfNetworkComplexity_metric", "bpmn_python/bpmn_diagram_metrics.py::AverageGatewayDegree_metric", "bpmn_python/bpmn_diagram_metrics.py::GatewayHeterogenity_metric"]}
{"id": "C129", "title": "Processes without joins come back from their tables", "statement": "Take a consistent diagram of a start event and a tree behind it: activities one after another, and at the end of such a line an end event or a gateway whose branches are lines of this kind again, nested to any depth; no activity or event has a text that begins with goto, a gateway has at most 26 branches, and each branch has one to ten activities or events before its own gateway. The exported table can be imported into a new object, and the result is a copy: its nodes correspond one to one to those of the process, activities and events with the same type and with their texts, gateways as gateways, and the i-th flow from a node leads to the copy of the node where the i-th flow of the node leads. The copy of a gateway is parallel exactly if the conditions of its branches in the table are blank, and its flows have exactly these conditions. So, different from blocks (C97), splits inside branches are no problem. But where a gateway directly follows another one, the process is not always kept: there is one whose table is imported with end events to which nothing leads, and if the gateway follows in the first branch, there is one whose table is refused with BpmnPythonError.", "quantifier": "all consistent diagrams of that kind, with any number of splits, nested to any depth", "why_tests_cant": "All trees; the tests export and import fixed processes and compare no flows.", "anchors": ["bpmn_python/bpmn_process_csv_export.py::export_process_to_csv", "bpmn_python/bpmn_process_csv_export.py::export_node", "bpmn_python/bpmn_process_csv_import.py::BpmnDiagramGraphCSVImport.load_diagram_from_csv", "bpmn_python/bpmn_process_csv_import.py::fill_graph_connections"]}
{"id": "C130", "title": "Decision trees: size, paths and drawing", "statement": "Take a consistent diagram of one start and a tree behind it: nodes one after the other, and at the end of such a line a last node or a split into 2 to 26 branches of this kind, nested to any depth. With N nodes it has N - 1 flows; it has one end, and one more for every branch of a split beyond the first; CoefficientOfNetworkComplexity_metric gives (N - 1) / N. compute_longest_path gives the number of nodes on the longest way from the start to an end, and compute_longest_path_tasks the largest number of activities on such a way. generate_layout always draws a series of decisions: the branches begin with nodes that do not split, at most one branch of each split splits again, and no other branch has more nodes than this one has up to and including its split. But in any diagram without cycles, with supported nodes only, in which no split leads directly to a join, generate_layout raises a TypeError if all branches of some split lead over the same number of nodes to another split; so no complete decision tree with two questions on each way is drawn.", "quantifier": "all trees of that kind for size and paths; all series of decisions; all diagrams without cycles for the exception", "why_tests_cant": "Infinitely many trees of any depth and branching; whether two nodes get the same place depends on the whole tree.", "anchors": ["bpmn_python/bpmn_diagram_metrics.py::CoefficientOfNetworkComplexity_metric", "bpmn_python/diagram_layout_metrics.py::compute_longest_path", "bpmn_python/diagram_layout_metrics.py::compute_longest_path_tasks", "bpmn_python/bpmn_diagram_layouter.py::generate_layout", "bpmn_python/bpmn_diagram_layouter.py::grid_layout"]}
{"id": "C131", "title": "Processes without joins are exported and imported again and again", "statement": "Take a process without joins as in C129. Export it to a table, import the table, and export the result: this second table has the same rows in the same order, but the conditions are gone, and so are the texts of terminated rows. Import and export it once more: it does not change any more. The conditions are lost because the import stores them as condition expressions of the flows while the export writes the names of flows; so after two rounds every gateway of the process is a parallel one, also those that were exclusive. The size is kept: the imported process has as many nodes and flows as the original one, the same CoefficientOfNetworkComplexity_metric, and compute_longest_path and compute_longest_path_tasks give the same numbers. If the process is a series of decisions (C130), generate_layout draws the imported process.", "quantifier": "all consistent diagrams of that kind, with any number of splits, nested to any depth", "why_tests_cant": "All trees and a sequence of operations; the tests never export what they have imported from a table and compare it.", "anchors": ["bpmn_python/bpmn_process_csv_export.py::export_process_to_csv", "bpmn_python/bpmn_process_csv_export.py::export_node", "bpmn_python/bpmn_process_csv_import.py::BpmnDiagramGraphCSVImport.load_diagram_from_csv", "bpmn_python/bpmn_process_csv_import.py::fill_graph_connections", "bpmn_python/diagram_layout_metrics.py::compute_longest_path", "bpmn_python/diagram_layout_metrics.py::compute_longest_path_tasks", "bpmn_python/bpmn_diagram_layouter.py::generate_layout"]}
{"id": "C132", "title": "Processes whose tables cannot be imported", "statement": "Take a consistent structured process (C96: nodes one after another, splits into branches that meet again or end, nested to any depth) and look at its main line, outside of the branches of its splits. If the main line has an activity at its end instead of an end event, or an activity that splits into branches which never meet again, or a start event, an activity (also one that splits into branches which meet) directly before something that the table does not show - an intermediate event, a gateway with one outgoing flow where no branches meet, or a gateway whose first branch begins with such a node or with another gateway - then the process is exported to a table, but load_diagram_from_csv raises an exception for this table. Inside branches the same things may go unnoticed: there is a process without cycles whose table is imported with a cycle, and with end events to which nothing leads, because the import takes a row inside of branches for the end of a branch and continues it with a row of the main line.", "quantifier": "all consistent structured processes, for the refusal", "why_tests_cant": "All processes of unbounded size; the tests import only fixed tables and never those of processes they have exported.", "anchors": ["bpmn_python/bpmn_process_csv_export.py::export_process_to_csv", "bpmn_python/bpmn_process_csv_export.py::export_element", "bpmn_python/bpmn_process_csv_import.py::BpmnDiagramGraphCSVImport.load_diagram_from_csv", "bpmn_python/bpmn_process_csv_import.py::fill_graph_connections", "bpmn_python/bpmn_process_csv_import.py::get_possible_sequence_continuation_successor", "bpmn_python/bpmn_process_csv_import.py::get_possible_split_continuation_successor", "bpmn_python/bpmn_process_csv_import.py::get_possible_merge_continuation_successors"]}
{"id": "C133", "title": "Conditions of branching processes survive a table if the result is filed", "statement": "A process without joins (start, activities, gateways whose branches end or split again) is exported to CSV, and this table is imported. If the imported diagram is drawn by the automatic layout, saved as XML, loaded and exported to CSV again, the last table is the first one without the texts of end events: every order number, every activity and every condition is the same (also the word `else` of default flows). A direct export of the imported diagram loses the conditions (C131). For series of decisions (where only one branch of each split splits again, in the way of C130) the drawing always succeeds, so the whole way can be gone.", "quantifier": "all consistent diagrams that are such trees and have no flow named by white space only; every order in which the loader visits sets of ids; for the first part, every successful run of the layout", "why_tests_cant": "Five steps of four modules follow each other, and the claim is about trees of any size and depth and any texts. Tests of single steps do not show that the conditions go from the cells into condition expressions, from there into the names of the saved flows, and back into the cells at the right rows.", "anchors": ["bpmn_python/bpmn_process_csv_export.py::export_process_to_csv", "bpmn_python/bpmn_process_csv_import.py::load_diagram_from_csv", "bpmn_python/bpmn_diagram_export.py::export_flow_process_data", "bpmn_python/bpmn_diagram_layouter.py::generate_layout", "bpmn_python/bpmn_diagram_import.py::load_diagram_from_xml"]}
{"id": "C134", "title": "How wide automatic drawings are, and which joins stand behind what leads to them", "statement": "Whatever generate_layout draws (also with loops and optional parts): a node in column k is the last of k different nodes, each followed by the next, that stand in columns 1 to k. So no x is below 200 or above 150 times the number of nodes plus 50. In a diagram without cycles, a join that does not directly follow a split is drawn right of all nodes that lead to it. A join that directly follows a split - the end of an optional part - need not be: the flow from the last of two optional steps is drawn backwards. And optional steps one after the other are drawn differently, because a branch in row 0 counts as a branch without a row: one join is between the rows of its predecessors, the next one above both.", "quantifier": "all consistent diagrams on which generate_layout returns; for the joins, those without cycles", "why_tests_cant": "All diagrams of any size, without a condition about their shape; the claim is about every path and every order in which nodes are placed.", "anchors": ["bpmn_python/bpmn_diagram_layouter.py::generate_layout", "bpmn_python/bpmn_diagram_layouter.py::place_element_in_grid", "bpmn_python/bpmn_diagram_layouter.py::insert_into_grid"]}
{"id": "C135", "title": "Lines with optional steps drift off the page", "statement": "A process that is a line of steps, some of which are optional - a split gateway leads both to the step and directly to the gateway behind it - is always laid out. Its nodes are drawn in columns 150 apart in the order of the line, beginning with the start at (200, 250). The line stays at y = 250 up to and including the split of the first optional step, continues at y = 350 from its join on, and every further optional step moves the rest of the line up by 200; an optional step itself is drawn 200 below its split. Hence with k >= 3 optional steps the line ends at y = 550 - 200 k < 0, above the top of the page.", "quantifier": "all consistent diagrams of supported nodes of that form, any number of steps and of optional steps, in any order of creation of nodes and flows", "why_tests_cant": "Exact places in infinitely many processes; the tests lay out a few fixed diagrams and compare no coordinates.", "anchors": ["bpmn_python/bpmn_diagram_layouter.py::generate_layout", "bpmn_python/bpmn_diagram_layouter.py::grid_layout", "bpmn_python/bpmn_diagram_layouter.py::place_element_in_grid", "bpmn_python/bpmn_diagram_layouter.py::insert_into_grid"]}
{"id": "C136", "title": "Tables with optional steps", "statement": "A CSV table of numbered rows (in any order), some numbers of which are optional steps - branches a and b, of which one is a single step and the other one a goto to the row behind - is imported, if no two optional steps follow each other directly, the table begins and ends with an ordinary row, and only the last row is terminated. The diagram is consistent and has exactly these flows: from each row to the next; or, before an optional step, to an added gateway, from there to the step and to the row behind it, and from the step to that row; no gateway is added where the two ways meet. generate_layout always draws it: every row and gateway stands right of everything before it in the table, 150 apart, the step right of its gateway and 200 below it; the line is at y = 250 up to the first optional step, at y = 350 behind it and 200 higher behind each further one. So the last row of every table with three or more optional steps is drawn above the top of the page.", "quantifier": "all tables of that form, any number of rows and optional steps, rows in any order", "why_tests_cant": "Infinitely many tables, every order of rows; the exact set of flows and all coordinates are stated.", "anchors": ["bpmn_python/bpmn_process_csv_import.py::BpmnDiagramGraphCSVImport.load_diagram_from_csv", "bpmn_python/bpmn_process_csv_import.py::fill_graph_connections", "bpmn_python/bpmn_process_csv_import.py::remove_goto_nodes", "bpmn_python/bpmn_process_csv_import.py::remove_unnecessary_merge_gateways", "bpmn_python/bpmn_diagram_layouter.py::generate_layout", "bpmn_python/bpmn_diagram_layouter.py::grid_layout", "bpmn_python/bpmn_diagram_layouter.py::place_element_in_grid"]}
{"id": "C137", "title": "Tables with optional steps, imported and exported again and again", "statement": "Take a CSV table with optional steps as in C136, with two rows or more, in which no optional step stands directly before the last row. Import it and export the diagram: the new table has the same form - the same numbers, the same activities and subprocess marks, and for each optional step a branch with the step and a branch with a goto to the row behind - though the letters a and b of an optional step may be exchanged, and the condition cells, persons, goto wordings and the activity of the last row are gone. So importing and exporting can be repeated any number of times, and each time generate_layout draws the rows of the line at the same places. If an optional step stands directly before the last row this does not work (see C140): there is such a table for which the exported table is refused by the import, because the end is written into a branch and the goto names a row that is not there.", "quantifier": "all tables of that form, any number of rows and optional steps, rows in any order, any number of repetitions", "why_tests_cant": "Infinitely many tables and any number of rounds; a test of a round trip compares a few fixed files.", "anchors": ["bpmn_python/bpmn_process_csv_export.py::export_process_to_csv", "bpmn_python/bpmn_process_csv_export.py::export_node", "bpmn_python/bpmn_process_csv_export.py::export_element", "bpmn_python/bpmn_process_csv_import.py::BpmnDiagramGraphCSVImport.load_diagram_from_csv", "bpmn_python/bpmn_diagram_layouter.py::generate_layout"]}
{"id": "C138", "title": "Optional steps keep their conditions in a file, but gotos lose theirs", "statement": "Take a CSV table with optional steps as in C137 whose ordinary rows have no condition cells (and no condition consists of white space only). Import it, lay the diagram out, export it as XML, load the file and export the loaded diagram as CSV. All of this succeeds, and the resulting table has the same form, numbers and activities, and the same condition at each optional step - also when the whole is repeated any number of times. The condition of a goto row, that is of the way that skips the step, is lost in the first round already.", "quantifier": "all tables of that form, any number of rows, optional steps and rounds, every order in which the XML import goes through its sets", "why_tests_cant": "Infinitely many tables and texts of conditions, a chain of five operations of four modules repeated any number of times.", "anchors": ["bpmn_python/bpmn_process_csv_import.py::load_diagram_from_csv", "bpmn_python/bpmn_diagram_layouter.py::generate_layout", "bpmn_python/bpmn_diagram_export.py::export_xml_file", "bpmn_python/bpmn_diagram_export.py::export_flow_process_data", "bpmn_python/bpmn_diagram_import.py::load_diagram_from_xml", "bpmn_python/bpmn_process_csv_export.py::export_process_to_csv"]}
{"id": "C139", "title": "Two optional steps in a row cannot be carried by a table", "statement": "Take a process with a start event, activities one after the other, some of which are optional - a gateway leads to the activity and past it, and both ways meet at another gateway -, and an end event. It is always exported to CSV. Start, activities and end are numbered along the line, the gateways where the ways meet take no number; an optional step with number k has a branch with the activity and a branch with `goto k+1`, the letters a and b are in the order of the flows of the gateway, and both rows have the conditions of the flows. If no two optional steps directly follow each other and no name begins with goto, this is a table as in C136: it is imported, with the flows stated there, but without the gateways where the ways meet. If two optional steps do follow each other, there is no row with number k+1 (only k+1a1 and k+1b1), and the import refuses what the export wrote.", "quantifier": "all consistent diagrams of that form, any number of activities and optional steps, any gateways, names and conditions", "why_tests_cant": "Infinitely many processes; the refused ones are those with two adjacent optional steps, wherever they are and whatever else the process has.", "anchors": ["bpmn_python/bpmn_process_csv_export.py::export_process_to_csv", "bpmn_python/bpmn_process_csv_export.py::export_node", "bpmn_python/bpmn_process_csv_export.py::export_element", "bpmn_python/bpmn_process_csv_import.py::BpmnDiagramGraphCSVImport.load_diagram_from_csv", "bpmn_python/bpmn_process_csv_import.py::remove_goto_nodes"]}
{"id": "C140", "title": "A process that ends with an optional step does not survive a table", "statement": "Take a process that is a line with optional steps (any inner nodes; the two ways of an optional step meet at an activity or a gateway), the last of which stands directly before the end event: its gateway leads to the step and to the end, and the step leads to the end. It is exported to CSV, but the end event is written into the branch of the step, while the other branch is a goto to the next number, which no row has; so the import refuses the exported table. In particular, every table with optional steps as in C136 whose last optional step stands directly before the last row is imported, but what is then exported is never accepted again.", "quantifier": "all consistent diagrams of that form, and all tables of that form; any number of steps and optional steps", "why_tests_cant": "Infinitely many processes and tables; that a whole class of valid inputs never survives a round trip cannot be seen from examples.", "anchors": ["bpmn_python/bpmn_process_csv_export.py::export_process_to_csv", "bpmn_python/bpmn_process_csv_export.py::export_node", "bpmn_python/bpmn_process_csv_export.py::export_element", "bpmn_python/bpmn_process_csv_export.py::export_end_event", "bpmn_python/bpmn_process_csv_import.py::BpmnDiagramGraphCSVImport.load_diagram_from_csv", "bpmn_python/bpmn_process_csv_import.py::remove_goto_nodes"]}
{"id": "C141", "title": "End events that several ways reach are multiplied by a table", "statement": "Take a process in which ways split and may meet again as in C96, but in which any number of ways may lead, each from a node of its own and not directly from a split, into the same end event. The CSV export terminates and writes the table of its lines, with the end event at the end of each of them: an end event that no other one is called like has exactly as many rows as flows lead into it. If the exported table can be imported, the process begins with a start event and no end event is called like a goto, then the copy has one end event for each flow into an end event of the original; so a process whose ways share an end event never comes back as it was.", "quantifier": "all consistent diagrams of that form, any number of splits, branches, steps and end events, any number of flows into an end event", "why_tests_cant": "Infinitely many processes; the number of rows and of end events is stated for all of them, by counting flows.", "anchors": ["bpmn_python/bpmn_process_csv_export.py::export_process_to_csv", "bpmn_python/bpmn_process_csv_export.py::export_node", "bpmn_python/bpmn_process_csv_export.py::export_element", "bpmn_python/bpmn_process_csv_export.py::export_end_event", "bpmn_python/bpmn_process_csv_import.py::BpmnDiagramGraphCSVImport.load_diagram_from_csv"]}

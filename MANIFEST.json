{
 "claims": [
  {
   "property": "C01",
   "status": "proved",
   "theorems": [
    "Bpmn.Props.C01_refinement",
    "Bpmn.Props.C01_flow_bookkeeping",
    "Bpmn.Props.C01_no_call_raises"
   ],
   "note": "Subject: `Model/Rep.lean`: whole construction API. Proof: invariant over histories (`Reachable`), induction on the history."
  },
  {
   "property": "C02",
   "status": "proved",
   "theorems": [
    "Bpmn.Props.C02_other_flows_unchanged",
    "Bpmn.Props.C02_reconnecting_loses_flow"
   ],
   "note": "Subject: `Model/Rep.lean`: whole construction API. Proof: case analysis of edge overwriting; frame lemma for `edgesIter`."
  },
  {
   "property": "C03",
   "status": "proved",
   "theorems": [
    "Bpmn.Props.C03_nodes_by_type",
    "Bpmn.Props.C03_all_nodes",
    "Bpmn.Props.C03_nodes_by_process",
    "Bpmn.Props.C03_untyped_node_raises",
    "Bpmn.Props.C03_built_diagrams_typed"
   ],
   "note": "Subject: query API, node constructors. Proof: filter lemmas, dict frame lemmas."
  },
  {
   "property": "C04",
   "status": "proved",
   "theorems": [
    "Bpmn.Props.C04_add_node",
    "Bpmn.Props.C04_add_flow_frame",
    "Bpmn.Props.C04_add_flow_ends",
    "Bpmn.Props.C04_add_flow_edge",
    "Bpmn.Props.C04_add_self_loop",
    "Bpmn.Props.C04_lookup_none_iff"
   ],
   "note": "Subject: query API, node constructors. Proof: filter lemmas, dict frame lemmas."
  },
  {
   "property": "C05",
   "status": "proved",
   "theorems": [
    "Bpmn.Props.C05_readding_empties_lists"
   ],
   "note": "Subject: query API, node constructors. Proof: filter lemmas, dict frame lemmas."
  },
  {
   "property": "C06",
   "status": "proved",
   "theorems": [
    "Bpmn.Props.C06_rejected_gateway_stays",
    "Bpmn.Props.C06_accepted_gateway"
   ],
   "note": "Subject: gateway / flow constructors with state after the raise. Proof: direct computation from an arbitrary state."
  },
  {
   "property": "C07",
   "status": "proved",
   "theorems": [
    "Bpmn.Props.C07_unknown_end"
   ],
   "note": "Subject: gateway / flow constructors with state after the raise. Proof: direct computation from an arbitrary state."
  },
  {
   "property": "C08",
   "status": "proved",
   "theorems": [
    "Bpmn.Props.C08_plane_shows_last_process",
    "Bpmn.Props.C08_process_table",
    "Bpmn.Props.C08_create_new_empties"
   ],
   "note": "Subject: `create_new_diagram_graph`, `add_process_to_diagram`, event constructors. Proof: induction over histories / case split."
  },
  {
   "property": "C09",
   "status": "proved",
   "theorems": [
    "Bpmn.Props.C09_start_event",
    "Bpmn.Props.C09_end_event",
    "Bpmn.Props.C09_subprocess_and_default"
   ],
   "note": "Subject: `create_new_diagram_graph`, `add_process_to_diagram`, event constructors. Proof: induction over histories / case split."
  },
  {
   "property": "C10",
   "status": "proved",
   "theorems": [
    "Bpmn.Props.C10_graph_stays_simple",
    "Bpmn.Props.C10_every_call_keeps_sane"
   ],
   "note": "Subject: all constructors, failing ones included. Proof: invariant over unrestricted histories."
  },
  {
   "property": "C11",
   "status": "proved",
   "theorems": [
    "Bpmn.Props.C11_cardinalities",
    "Bpmn.Props.C11_identities"
   ],
   "note": "Subject: `Model/Metrics.lean`. Proof: counting lemmas on filters; handshake argument for degrees."
  },
  {
   "property": "C12",
   "status": "proved",
   "theorems": [
    "Bpmn.Props.C12_count_without_type_is_zero"
   ],
   "note": "Subject: `Model/Metrics.lean`. Proof: counting lemmas on filters; handshake argument for degrees."
  },
  {
   "property": "C13",
   "status": "proved",
   "theorems": [
    "Bpmn.Props.C13_durfee_largest"
   ],
   "note": "Subject: Durfee / perfect square loops. Proof: loop invariants against an independent `largest d such that` spec."
  },
  {
   "property": "C14",
   "status": "proved",
   "theorems": [
    "Bpmn.Props.C14_perfect_square_largest",
    "Bpmn.Props.C14_at_most_number_of_types"
   ],
   "note": "Subject: Durfee / perfect square loops. Proof: loop invariants against an independent `largest d such that` spec."
  },
  {
   "property": "C15",
   "status": "proved",
   "theorems": [
    "Bpmn.Props.C15_heterogeneity"
   ],
   "note": "Subject: `Model/Metrics.lean`. Proof: counting lemmas on filters; handshake argument for degrees."
  },
  {
   "property": "C16",
   "status": "proved",
   "theorems": [
    "Bpmn.Props.C16_network_complexity",
    "Bpmn.Props.C16_network_complexity_declared",
    "Bpmn.Props.C16_average_gateway_degree",
    "Bpmn.Props.C16_degree"
   ],
   "note": "Subject: `Model/Metrics.lean`. Proof: counting lemmas on filters; handshake argument for degrees."
  },
  {
   "property": "C17",
   "status": "proved",
   "theorems": [
    "Bpmn.Props.C17_do_intersect",
    "Bpmn.Props.C17_symmetric"
   ],
   "note": "Subject: `Model/LayoutMetrics.lean`, points in \u211a\u00b2. Proof: orientation test = geometric intersection (ordered field reasoning); permutation invariance of pair counting."
  },
  {
   "property": "C18",
   "status": "proved",
   "theorems": [
    "Bpmn.Props.C18_counts_crossing_pairs",
    "Bpmn.Props.C18_order_independent"
   ],
   "note": "Subject: `Model/LayoutMetrics.lean`, points in \u211a\u00b2. Proof: orientation test = geometric intersection (ordered field reasoning); permutation invariance of pair counting."
  },
  {
   "property": "C19",
   "status": "proved",
   "theorems": [
    "Bpmn.Props.C19_count_segments",
    "Bpmn.Props.C19_exceptions",
    "Bpmn.Props.C19_segments_chain"
   ],
   "note": "Subject: `Model/LayoutMetrics.lean`, points in \u211a\u00b2. Proof: orientation test = geometric intersection (ordered field reasoning); permutation invariance of pair counting."
  },
  {
   "property": "C20",
   "status": "proved",
   "theorems": [
    "Bpmn.Props.C20_longest_path"
   ],
   "note": "Subject: longest path recursion with fuel. Proof: induction on the number of unvisited nodes; spec = set of simple paths."
  },
  {
   "property": "C21",
   "status": "proved",
   "theorems": [
    "Bpmn.Props.C21_longest_path_tasks"
   ],
   "note": "Subject: longest path recursion with fuel. Proof: induction on the number of unvisited nodes; spec = set of simple paths."
  },
  {
   "property": "C22",
   "status": "proved",
   "theorems": [
    "Bpmn.Props.C22_no_sink_no_path",
    "Bpmn.Props.C22_self_loop_counted_twice",
    "Bpmn.Props.C22_terminates"
   ],
   "note": "Subject: longest path recursion with fuel. Proof: induction on the number of unvisited nodes; spec = set of simple paths."
  },
  {
   "property": "C23",
   "status": "proved",
   "theorems": [
    "Bpmn.Props.C23_elements",
    "Bpmn.Props.C23_agree"
   ],
   "note": "Subject: `Model/Classify.lean`. Proof: filters, partition by type."
  },
  {
   "property": "C24",
   "status": "proved",
   "theorems": [
    "Bpmn.Props.C24_topological_order"
   ],
   "note": "Subject: `Model/Layouter.lean`: topological sort. Proof: loop invariant (remaining flows), measure for termination, rank function for DAGs."
  },
  {
   "property": "C25",
   "status": "proved",
   "theorems": [
    "Bpmn.Props.C25_acyclic"
   ],
   "note": "Subject: `Model/Layouter.lean`: topological sort. Proof: loop invariant (remaining flows), measure for termination, rank function for DAGs."
  },
  {
   "property": "C26",
   "status": "proved",
   "theorems": [
    "Bpmn.Props.C26_terminates",
    "Bpmn.Props.C26_pure_cycle_hangs"
   ],
   "note": "Subject: `Model/Layouter.lean`: topological sort. Proof: loop invariant (remaining flows), measure for termination, rank function for DAGs."
  },
  {
   "property": "C27",
   "status": "proved",
   "theorems": [
    "Bpmn.Props.C27_distinct_positions"
   ],
   "note": "Subject: grid placement, coordinates, waypoints. Proof: invariant \"cells are pairwise distinct, grid is append only\"."
  },
  {
   "property": "C28",
   "status": "proved",
   "theorems": [
    "Bpmn.Props.C28_columns"
   ],
   "note": "Subject: grid placement, coordinates, waypoints. Proof: invariant \"cells are pairwise distinct, grid is append only\"."
  },
  {
   "property": "C29",
   "status": "proved",
   "theorems": [
    "Bpmn.Props.C29_only_layout_changes",
    "Bpmn.Props.C29_idempotent"
   ],
   "note": "Subject: grid placement, coordinates, waypoints. Proof: invariant \"cells are pairwise distinct, grid is append only\"."
  },
  {
   "property": "C30",
   "status": "proved",
   "theorems": [
    "Bpmn.Props.C30_waypoints",
    "Bpmn.Props.C30_routes"
   ],
   "note": "Subject: grid placement, coordinates, waypoints. Proof: invariant \"cells are pairwise distinct, grid is append only\"."
  },
  {
   "property": "C31",
   "status": "proved",
   "theorems": [
    "Bpmn.Props.C31_occupied_raises",
    "Bpmn.Props.C31_free_appends"
   ],
   "note": "Subject: grid placement, coordinates, waypoints. Proof: invariant \"cells are pairwise distinct, grid is append only\"."
  },
  {
   "property": "C32",
   "status": "proved",
   "theorems": [
    "Bpmn.Props.C32_chain_in_one_row"
   ],
   "note": "Subject: grid placement, coordinates, waypoints. Proof: invariant \"cells are pairwise distinct, grid is append only\"."
  },
  {
   "property": "C33",
   "status": "proved",
   "theorems": [
    "Bpmn.Props.C33_round_trip",
    "Bpmn.Props.C33_history_round_trip"
   ],
   "note": "Subject: `Model/Xml.lean`, `Model/Export.lean`, `Model/Import.lean`. Proof: import as a fold of elementary actions; actions of an exported tree computed by induction on nesting."
  },
  {
   "property": "C34",
   "status": "proved",
   "theorems": [
    "Bpmn.Props.C34_names_and_nested_lanes_lost"
   ],
   "note": "Subject: `Model/Xml.lean`, `Model/Export.lean`, `Model/Import.lean`. Proof: import as a fold of elementary actions; actions of an exported tree computed by induction on nesting."
  },
  {
   "property": "C35",
   "status": "proved",
   "theorems": [
    "Bpmn.Props.C35_exported_once",
    "Bpmn.Props.C35_plane"
   ],
   "note": "Subject: `Model/Xml.lean`, `Model/Export.lean`, `Model/Import.lean`. Proof: import as a fold of elementary actions; actions of an exported tree computed by induction on nesting."
  },
  {
   "property": "C36",
   "status": "proved",
   "theorems": [
    "Bpmn.Props.C36_every_process_has_everything",
    "Bpmn.Props.C36_repeated",
    "Bpmn.Props.C36_not_loadable"
   ],
   "note": "Subject: `Model/Xml.lean`, `Model/Export.lean`, `Model/Import.lean`. Proof: import as a fold of elementary actions; actions of an exported tree computed by induction on nesting."
  },
  {
   "property": "C37",
   "status": "proved",
   "theorems": [
    "Bpmn.Props.C37_lists_in_step",
    "Bpmn.Props.C37_new_object",
    "Bpmn.Props.C37_lists_lost"
   ],
   "note": "Subject: `Model/Xml.lean`, `Model/Export.lean`, `Model/Import.lean`. Proof: import as a fold of elementary actions; actions of an exported tree computed by induction on nesting."
  },
  {
   "property": "C38",
   "status": "proved",
   "theorems": [
    "Bpmn.Props.C38_comment_in_process"
   ],
   "note": "Subject: `Model/Xml.lean`, `Model/Export.lean`, `Model/Import.lean`. Proof: import as a fold of elementary actions; actions of an exported tree computed by induction on nesting."
  },
  {
   "property": "C39",
   "status": "proved",
   "theorems": [
    "Bpmn.Props.C39_indent_only_whitespace",
    "Bpmn.Props.C39_indent_idempotent"
   ],
   "note": "Subject: indent, namespace stripping. Proof: structural induction."
  },
  {
   "property": "C40",
   "status": "proved",
   "theorems": [
    "Bpmn.Props.C40_strip_namespace",
    "Bpmn.Props.C40_idempotent"
   ],
   "note": "Subject: indent, namespace stripping. Proof: structural induction."
  },
  {
   "property": "C41",
   "status": "proved",
   "theorems": [
    "Bpmn.Props.C41_one_start"
   ],
   "note": "Subject: `Model/CsvExport.lean`. Proof: induction on fuel; labels are uniquely decodable."
  },
  {
   "property": "C42",
   "status": "proved",
   "theorems": [
    "Bpmn.Props.C42_orders"
   ],
   "note": "Subject: `Model/CsvExport.lean`. Proof: induction on fuel; labels are uniquely decodable."
  },
  {
   "property": "C43",
   "status": "proved",
   "theorems": [
    "Bpmn.Props.C43_line",
    "Bpmn.Props.C43_file",
    "Bpmn.Props.C43_export"
   ],
   "note": "Subject: `Model/CsvExport.lean`. Proof: induction on fuel; labels are uniquely decodable."
  },
  {
   "property": "C44",
   "status": "proved",
   "theorems": [
    "Bpmn.Props.C44_linear"
   ],
   "note": "Subject: both CSV modules. Proof: induction on chain length."
  },
  {
   "property": "C45",
   "status": "proved",
   "theorems": [
    "Bpmn.Props.C45_consistent",
    "Bpmn.Props.C45_flows",
    "Bpmn.Props.C45_no_goto",
    "Bpmn.Props.C45_lost_flow"
   ],
   "note": "Subject: `Model/CsvImport.lean`. Proof: invariants of the passes; string lemmas."
  },
  {
   "property": "C46",
   "status": "proved",
   "theorems": [
    "Bpmn.Props.C46_gateway_type"
   ],
   "note": "Subject: `Model/CsvImport.lean`. Proof: invariants of the passes; string lemmas."
  },
  {
   "property": "C47",
   "status": "proved",
   "theorems": [
    "Bpmn.Props.C47_sequence",
    "Bpmn.Props.C47_split",
    "Bpmn.Props.C47_join"
   ],
   "note": "Subject: `Model/CsvImport.lean`. Proof: invariants of the passes; string lemmas."
  },
  {
   "property": "C48",
   "status": "proved",
   "theorems": [
    "Bpmn.Props.C48_eleventh_step"
   ],
   "note": "Subject: `Model/CsvImport.lean`. Proof: invariants of the passes; string lemmas."
  },
  {
   "property": "C49",
   "status": "proved",
   "theorems": [
    "Bpmn.Props.C49_documented_types",
    "Bpmn.Props.C49_target_reference",
    "Bpmn.Props.C49_target_not_checked",
    "Bpmn.Props.C49_shared_list"
   ],
   "note": "Subject: `Model/Classes.lean`: element classes with dynamically typed setters. Proof: invariants over histories."
  },
  {
   "property": "C50",
   "status": "proved",
   "theorems": [
    "Bpmn.Props.C50_none_raises_and_is_stored",
    "Bpmn.Props.C50_other_failures_change_nothing"
   ],
   "note": "Subject: `Model/Classes.lean`: element classes with dynamically typed setters. Proof: invariants over histories."
  },
  {
   "property": "C51",
   "status": "proved",
   "theorems": [
    "Bpmn.Props.C51_text_between_elements"
   ],
   "note": "Subject: `Model/Import.lean`. Proof: text is skipped by every loop: simulation between the tree and the tree without text."
  },
  {
   "property": "C52",
   "status": "proved",
   "theorems": [
    "Bpmn.Props.C52_flow_nodes_refused",
    "Bpmn.Props.C52_accepted"
   ],
   "note": "Subject: `Model/Classes.lean`: class objects of doubly imported modules, heap of lists. Proof: subclass tables, frame lemmas for setters."
  },
  {
   "property": "C53",
   "status": "proved",
   "theorems": [
    "Bpmn.Props.C53_set_then_get"
   ],
   "note": "Subject: `Model/Classes.lean`: class objects of doubly imported modules, heap of lists. Proof: subclass tables, frame lemmas for setters."
  },
  {
   "property": "C54",
   "status": "proved",
   "theorems": [
    "Bpmn.Props.C54_acyclic_succeeds"
   ],
   "note": "Subject: `Model/CsvExport.lean`: recursion of the export. Proof: rank of the acyclic diagram as measure; witnesses; counting of reached nodes."
  },
  {
   "property": "C55",
   "status": "proved",
   "theorems": [
    "Bpmn.Props.C55_repeated",
    "Bpmn.Props.C55_lost",
    "Bpmn.Props.C55_no_end"
   ],
   "note": "Subject: `Model/CsvExport.lean`: recursion of the export. Proof: rank of the acyclic diagram as measure; witnesses; counting of reached nodes."
  },
  {
   "property": "C56",
   "status": "proved",
   "theorems": [
    "Bpmn.Props.C56_trees_complete"
   ],
   "note": "Subject: `Model/CsvExport.lean`: recursion of the export. Proof: rank of the acyclic diagram as measure; witnesses; counting of reached nodes."
  },
  {
   "property": "C57",
   "status": "proved",
   "theorems": [
    "Bpmn.Props.C57_no_xml"
   ],
   "note": "Subject: `Model/CsvImport.lean`: all passes. Proof: invariants of the passes (`Lemmas/CsvState`, `CsvFill`, `CsvFinal`), exact list of flows made from the orders."
  },
  {
   "property": "C58",
   "status": "proved",
   "theorems": [
    "Bpmn.Props.C58_conditions",
    "Bpmn.Props.C58_carried"
   ],
   "note": "Subject: `Model/CsvImport.lean`: all passes. Proof: invariants of the passes (`Lemmas/CsvState`, `CsvFill`, `CsvFinal`), exact list of flows made from the orders."
  },
  {
   "property": "C59",
   "status": "proved",
   "theorems": [
    "Bpmn.Props.C59_nested_continuation"
   ],
   "note": "Subject: `Model/CsvImport.lean`: all passes. Proof: invariants of the passes (`Lemmas/CsvState`, `CsvFill`, `CsvFinal`), exact list of flows made from the orders."
  },
  {
   "property": "C60",
   "status": "proved",
   "theorems": [
    "Bpmn.Props.C60_rows",
    "Bpmn.Props.C60_nodes"
   ],
   "note": "Subject: `Model/CsvImport.lean`: all passes. Proof: invariants of the passes (`Lemmas/CsvState`, `CsvFill`, `CsvFinal`), exact list of flows made from the orders."
  },
  {
   "property": "C61",
   "status": "proved",
   "theorems": [
    "Bpmn.Props.C61_gateways"
   ],
   "note": "Subject: `Model/CsvImport.lean`: all passes. Proof: invariants of the passes (`Lemmas/CsvState`, `CsvFill`, `CsvFinal`), exact list of flows made from the orders."
  },
  {
   "property": "C62",
   "status": "proved",
   "theorems": [
    "Bpmn.Props.C62_one_way_on"
   ],
   "note": "Subject: `Model/CsvImport.lean`: all passes. Proof: invariants of the passes (`Lemmas/CsvState`, `CsvFill`, `CsvFinal`), exact list of flows made from the orders."
  },
  {
   "property": "C63",
   "status": "proved",
   "theorems": [
    "Bpmn.Props.C63_blanks"
   ],
   "note": "Subject: `Model/CsvImport.lean`: all passes. Proof: invariants of the passes (`Lemmas/CsvState`, `CsvFill`, `CsvFinal`), exact list of flows made from the orders."
  },
  {
   "property": "C64",
   "status": "proved",
   "theorems": [
    "Bpmn.Props.C64_ambiguous"
   ],
   "note": "Subject: `Model/CsvImport.lean`: all passes. Proof: invariants of the passes (`Lemmas/CsvState`, `CsvFill`, `CsvFinal`), exact list of flows made from the orders."
  },
  {
   "property": "C65",
   "status": "proved",
   "theorems": [
    "Bpmn.Props.C65_accepted",
    "Bpmn.Props.C65_refused"
   ],
   "note": "Subject: `Model/CsvImport.lean`: all passes. Proof: invariants of the passes (`Lemmas/CsvState`, `CsvFill`, `CsvFinal`), exact list of flows made from the orders."
  },
  {
   "property": "C66",
   "status": "proved",
   "theorems": [
    "Bpmn.Props.C66_flat_flows",
    "Bpmn.Props.C66_flat_nodes",
    "Bpmn.Props.C66_fork_order"
   ],
   "note": "Subject: both CSV modules, flat tables. Proof: diagram of a table as an explicit list, then export of this list by induction on the blocks."
  },
  {
   "property": "C67",
   "status": "proved",
   "theorems": [
    "Bpmn.Props.C67_flat_round_trip",
    "Bpmn.Props.C67_flat_fixed",
    "Bpmn.Props.C67_limits",
    "Bpmn.Props.C67_nested_refused"
   ],
   "note": "Subject: both CSV modules, flat tables. Proof: diagram of a table as an explicit list, then export of this list by induction on the blocks."
  },
  {
   "property": "C68",
   "status": "proved",
   "theorems": [
    "Bpmn.Props.C68_picture",
    "Bpmn.Props.C68_shapes",
    "Bpmn.Props.C68_direction"
   ],
   "note": "Subject: `Model/Visualizer.lean`, `compute_determinant`. Proof: arrows = flows up to orientation; polynomial identities."
  },
  {
   "property": "C69",
   "status": "proved",
   "theorems": [
    "Bpmn.Props.C69_symbols"
   ],
   "note": "Subject: `Model/Visualizer.lean`, `compute_determinant`. Proof: arrows = flows up to orientation; polynomial identities."
  },
  {
   "property": "C70",
   "status": "proved",
   "theorems": [
    "Bpmn.Props.C70_positions",
    "Bpmn.Props.C70_before_layout",
    "Bpmn.Props.C70_after_layout"
   ],
   "note": "Subject: `Model/Visualizer.lean`, `compute_determinant`. Proof: arrows = flows up to orientation; polynomial identities."
  },
  {
   "property": "C71",
   "status": "proved",
   "theorems": [
    "Bpmn.Props.C71_determinant"
   ],
   "note": "Subject: `Model/Visualizer.lean`, `compute_determinant`. Proof: arrows = flows up to orientation; polynomial identities."
  },
  {
   "property": "C72",
   "status": "proved",
   "theorems": [
    "Bpmn.Props.C72_any_number_of_times"
   ],
   "note": "Subject: XML export and import together. Proof: `Whole`/`Complete` diagrams are fixed points; explicit computation of the exported tree."
  },
  {
   "property": "C73",
   "status": "proved",
   "theorems": [
    "Bpmn.Props.C73_two_edges"
   ],
   "note": "Subject: XML export and import together. Proof: `Whole`/`Complete` diagrams are fixed points; explicit computation of the exported tree."
  },
  {
   "property": "C74",
   "status": "proved",
   "theorems": [
    "Bpmn.Props.C74_pools_without_process",
    "Bpmn.Props.C74_orientation_lost"
   ],
   "note": "Subject: XML export and import together. Proof: `Whole`/`Complete` diagrams are fixed points; explicit computation of the exported tree."
  },
  {
   "property": "C75",
   "status": "proved",
   "theorems": [
    "Bpmn.Props.C75_exactly_which_documents"
   ],
   "note": "Subject: XML import. Proof: weakest precondition of every loop, collected into one condition on the document."
  },
  {
   "property": "C76",
   "status": "proved",
   "theorems": [
    "Bpmn.Props.C76_exact_nodes_and_arcs"
   ],
   "note": "Subject: XML import. Proof: weakest precondition of every loop, collected into one condition on the document."
  },
  {
   "property": "C77",
   "status": "proved",
   "theorems": [
    "Bpmn.Props.C77_flow_to_pool_with_process"
   ],
   "note": "Subject: XML export and import together. Proof: `Whole`/`Complete` diagrams are fixed points; explicit computation of the exported tree."
  },
  {
   "property": "C78",
   "status": "proved",
   "theorems": [
    "Bpmn.Props.C78_names_not_written",
    "Bpmn.Props.C78_names_replaced"
   ],
   "note": "Subject: XML export and import together. Proof: `Whole`/`Complete` diagrams are fixed points; explicit computation of the exported tree."
  },
  {
   "property": "C79",
   "status": "proved",
   "theorems": [
    "Bpmn.Props.C79_what_pools_say",
    "Bpmn.Props.C79_what_nodes_say",
    "Bpmn.Props.C79_mentioned_nodes_say_nothing",
    "Bpmn.Props.C79_what_processes_say"
   ],
   "note": "Subject: XML import. Proof: contents of every node, flow, process, lane, pool as functions of the document."
  },
  {
   "property": "C80",
   "status": "proved",
   "theorems": [
    "Bpmn.Props.C80_what_flows_say"
   ],
   "note": "Subject: XML import. Proof: contents of every node, flow, process, lane, pool as functions of the document."
  },
  {
   "property": "C81",
   "status": "proved",
   "theorems": [
    "Bpmn.Props.C81_what_collaborations_say"
   ],
   "note": "Subject: XML import. Proof: contents of every node, flow, process, lane, pool as functions of the document."
  },
  {
   "property": "C82",
   "status": "proved",
   "theorems": [
    "Bpmn.Props.C82_head",
    "Bpmn.Props.C82_nodes_say",
    "Bpmn.Props.C82_flows_say"
   ],
   "note": "Subject: CSV import. Proof: head, contents of nodes and flows; type of the gateway at which branches meet."
  },
  {
   "property": "C83",
   "status": "proved",
   "theorems": [
    "Bpmn.Props.C83_join_like_split",
    "Bpmn.Props.C83_join_default",
    "Bpmn.Props.C83_no_early_join",
    "Bpmn.Props.C83_order_of_rows"
   ],
   "note": "Subject: CSV import. Proof: head, contents of nodes and flows; type of the gateway at which branches meet."
  },
  {
   "property": "C84",
   "status": "proved",
   "theorems": [
    "Bpmn.Props.C84_rows_say",
    "Bpmn.Props.C84_dangling"
   ],
   "note": "Subject: CSV export. Proof: every row is justified by a way through the diagram, induction on the steps."
  },
  {
   "property": "C85",
   "status": "proved",
   "theorems": [
    "Bpmn.Props.C85_rules_determine_places",
    "Bpmn.Props.C85_drawn_on_grid"
   ],
   "note": "Subject: layouter. Proof: places given by local rules, invariant of the loop over the sorted nodes and of the recursion into branches; success exactly if the places differ."
  },
  {
   "property": "C86",
   "status": "proved",
   "theorems": [
    "Bpmn.Props.C86_two_nested_splits",
    "Bpmn.Props.C86_nested_split_beside_steps"
   ],
   "note": "Subject: layouter. Proof: two nodes on one place, from the rules of C85."
  },
  {
   "property": "C87",
   "status": "proved",
   "theorems": [
    "Bpmn.Props.C87_blocks_are_laid_out"
   ],
   "note": "Subject: layouter. Proof: places of a line of steps and blocks by induction, all different."
  },
  {
   "property": "C88",
   "status": "proved",
   "theorems": [
    "Bpmn.Props.C88_order",
    "Bpmn.Props.C88_one_split",
    "Bpmn.Props.C88_loops",
    "Bpmn.Props.C88_direct_way_back"
   ],
   "note": "Subject: layouter. Proof: log of a run: every node is taken from the list of remaining nodes once, by the loop or by the split before it."
  },
  {
   "property": "C89",
   "status": "proved",
   "theorems": [
    "Bpmn.Props.C89_saved"
   ],
   "note": "Subject: CSV import, layouter, XML export and import together. Proof: the import and the layout give a diagram that is complete up to names and empty lists, then the round trip of C33."
  },
  {
   "property": "C90",
   "status": "proved",
   "theorems": [
    "Bpmn.Props.C90_flat_workflow",
    "Bpmn.Props.C90_terminated_branch"
   ],
   "note": "Subject: CSV import, layouter, XML. Proof: the diagram of a flat table is a line of steps and blocks (C87), induction over the items."
  },
  {
   "property": "C91",
   "status": "proved",
   "theorems": [
    "Bpmn.Props.C91_csv",
    "Bpmn.Props.C91_metrics",
    "Bpmn.Props.C91_built",
    "Bpmn.Props.C91_imported"
   ],
   "note": "Subject: XML export and import, CSV export, both metrics modules. Proof: a correspondence of the nodes of both diagrams; the recursion of the CSV export and of the path search run in step."
  },
  {
   "property": "C92",
   "status": "proved",
   "theorems": [
    "Bpmn.Props.C92_layout_silent"
   ],
   "note": "Subject: layouter, CSV export, metrics. Proof: the same correspondence between a diagram and its layout."
  },
  {
   "property": "C93",
   "status": "proved",
   "theorems": [
    "Bpmn.Props.C93_filed",
    "Bpmn.Props.C93_flat",
    "Bpmn.Props.C93_fixed"
   ],
   "note": "Subject: CSV import, layouter, XML export and import, CSV export. Proof: the export of the imported diagram with flows named after their conditions, and its correspondence to the loaded one."
  },
  {
   "property": "C94",
   "status": "proved",
   "theorems": [
    "Bpmn.Props.C94_branch",
    "Bpmn.Props.C94_next"
   ],
   "note": "Subject: CSV import: goto rows. Proof: the only flow into a goto row is the one the numbering gives; the second word is found by an independent definition of words."
  },
  {
   "property": "C95",
   "status": "proved",
   "theorems": [
    "Bpmn.Props.C95_namespaces",
    "Bpmn.Props.C95_namespaces_no_di",
    "Bpmn.Props.C95_meaning",
    "Bpmn.Props.C95_ids",
    "Bpmn.Props.C95_distinct"
   ],
   "note": "Subject: XML export: names and ids. Proof: a predicate on all elements of a written tree, with namespaces resolved by an independent relation; ids of the tree collected and shown to be a permutation of a list read off the diagram."
  },
  {
   "property": "C96",
   "status": "proved",
   "theorems": [
    "Bpmn.Props.C96_rows",
    "Bpmn.Props.C96_complete",
    "Bpmn.Props.C96_block_at_the_end",
    "Bpmn.Props.C96_join_and_split",
    "Bpmn.Props.C96_common_end"
   ],
   "note": "Subject: CSV export: block-structured diagrams. Proof: an inductive type of lines with branches, the table by recursion over it; mutual induction with the export function, the stop at a join as the exit of a branch."
  },
  {
   "property": "C97",
   "status": "proved",
   "theorems": [
    "Bpmn.Props.C97_copy",
    "Bpmn.Props.C97_gateways",
    "Bpmn.Props.C97_conditions",
    "Bpmn.Props.C97_nested"
   ],
   "note": "Subject: CSV export, then CSV import. Proof: the table of C96 is a flat table of C66; places of nodes enumerated, flows of both diagrams shown to be the links of the table."
  },
  {
   "property": "C98",
   "status": "proved",
   "theorems": [
    "Bpmn.Props.C98_exactly_which",
    "Bpmn.Props.C98_no_di",
    "Bpmn.Props.C98_otherwise"
   ],
   "note": "Subject: XML export. Proof: the conditions of `Spec/Savable.lean`, with a least relation for nested sub-processes; each export function succeeds iff its part of the conditions holds; results do not depend on the budget once it suffices."
  },
  {
   "property": "C99",
   "status": "proved",
   "theorems": [
    "Bpmn.Props.C99_saved_again"
   ],
   "note": "Subject: XML import, then XML export. Proof: the conditions of C98 read off the document by C79 - C81; nodes of sub-processes by induction over the size of the element, lanes by induction over the lane."
  },
  {
   "property": "C100",
   "status": "proved",
   "theorems": [
    "Bpmn.Props.C100_comes_back",
    "Bpmn.Props.C100_any_number_of_times"
   ],
   "note": "Subject: XML import, XML export, XML import. Proof: the conditions of `Spec/DocInOrder.lean` on the document; they give every condition of C33 on the loaded diagram, by C79 - C81 and C99; then C33 and C72."
  },
  {
   "property": "C101",
   "status": "proved",
   "theorems": [
    "Bpmn.Props.C101_session",
    "Bpmn.Props.C101_no_exception",
    "Bpmn.Props.C101_from_document",
    "Bpmn.Props.C101_from_calls",
    "Bpmn.Props.C101_from_table"
   ],
   "note": "Subject: construction, layout, XML export and import. Proof: sequences of steps as an inductive relation (`Spec/Session.lean`); induction: each step keeps the conditions of C33 (calls: effect on the state; layout: C29, C30; files: C33, C72) and the contents."
  },
  {
   "property": "C102",
   "status": "proved",
   "theorems": [
    "Bpmn.Props.C102_together",
    "Bpmn.Props.C102_untouched",
    "Bpmn.Props.C102_flow_untouched",
    "Bpmn.Props.C102_header",
    "Bpmn.Props.C102_pools_lost",
    "Bpmn.Props.C102_one_file"
   ],
   "note": "Subject: XML import into any object. Proof: names of a document (`Spec/Merge.lean`); a relation between diagrams kept by the single changes of the import is kept by the whole import (`Lemmas/ImportRel.lean`), used for \"old content followed by new content\" and for the parts that stay; conditions of C33 for both together."
  },
  {
   "property": "C103",
   "status": "proved",
   "theorems": [
    "Bpmn.Props.C103_again",
    "Bpmn.Props.C103_keys",
    "Bpmn.Props.C103_restores",
    "Bpmn.Props.C103_layout_undone",
    "Bpmn.Props.C103_built"
   ],
   "note": "Subject: XML import into any object, layout. Proof: a relation \"on the way to the final state\" between the two runs, kept by every single change of the import (`Lemmas/Again.lean`, `AgainPlane.lean`): what a run has written already agrees with its final state, and everything else is the final state from the beginning; layout via C29."
  },
  {
   "property": "C104",
   "status": "proved",
   "theorems": [
    "Bpmn.Props.C104_setters",
    "Bpmn.Props.C104_getters",
    "Bpmn.Props.C104_attributes"
   ],
   "note": "Subject: element classes. Proof: attributes per class and inheritance stated separately (`Spec/Setters.lean`: `introduces`, `IsA`, `Derives`), the form each setter takes by name; agreement with the class statements checked for all 27 classes, then one case per kind of setter body for all values; the attributes present by an invariant over all histories."
  },
  {
   "property": "C105",
   "status": "proved",
   "theorems": [
    "Bpmn.Props.C105_old_nodes",
    "Bpmn.Props.C105_gateways",
    "Bpmn.Props.C105_line_again",
    "Bpmn.Props.C105_after_layout",
    "Bpmn.Props.C105_lines"
   ],
   "note": "Subject: CSV import into a used object. Proof: the passes over all nodes of the object look every node up in the table (first part, for all diagrams); the second import of an unbranched table as a simulation: each fill of a row overwrites node attributes with what they are, each connection call finds its edge (`Absorbs`, `over`), by induction over the rows."
  },
  {
   "property": "C106",
   "status": "proved",
   "theorems": [
    "Bpmn.Props.C106_direct_loops",
    "Bpmn.Props.C106_up_to_join",
    "Bpmn.Props.C106_exceptions",
    "Bpmn.Props.C106_success_or_no_end"
   ],
   "note": "Subject: loops and the CSV export. Proof: the recursion never follows a flow from a split to a join (a `goto` row is written instead), so the number of nodes reachable along the other flows falls in every call; the case analysis of all outcomes by induction on the budget; the table up to a join by the induction over block-structured lines of C96 with the join as the node behind the line."
  },
  {
   "property": "C107",
   "status": "proved",
   "theorems": [
    "Bpmn.Props.C107_object",
    "Bpmn.Props.C107_all_or_nothing",
    "Bpmn.Props.C107_half_way",
    "Bpmn.Props.C107_any"
   ],
   "note": "Subject: the object after a layout that raises. Proof: `Model/LayoutState.lean` gives object and outcome of a call; it refines `generateLayout`; the grid has exactly the nodes of the supported types, so the loop over the nodes stops at the first other node, and the waypoints are computed without exception (C11)."
  },
  {
   "property": "C108",
   "status": "proved",
   "theorems": [
    "Bpmn.Props.C108_object",
    "Bpmn.Props.C108_no_plane",
    "Bpmn.Props.C108_header",
    "Bpmn.Props.C108_untouched",
    "Bpmn.Props.C108_flow_untouched",
    "Bpmn.Props.C108_together",
    "Bpmn.Props.C108_again",
    "Bpmn.Props.C108_corrected",
    "Bpmn.Props.C108_half_flow"
   ],
   "note": "Subject: the object after a load that raises. Proof: `Model/ImportState.lean` gives object and outcome of every function of the import, it refines `Model/Import.lean`; the relations of C102 and C103 are kept by every single change, so they hold at the moment of an exception as well."
  },
  {
   "property": "C109",
   "status": "proved",
   "theorems": [
    "Bpmn.Props.C109_object",
    "Bpmn.Props.C109_untouched",
    "Bpmn.Props.C109_head",
    "Bpmn.Props.C109_nodes",
    "Bpmn.Props.C109_renumbered",
    "Bpmn.Props.C109_stops",
    "Bpmn.Props.C109_spoilt",
    "Bpmn.Props.C109_exception",
    "Bpmn.Props.C109_corrected"
   ],
   "note": "Subject: the object after a CSV import that raises. Proof: `Model/CsvImportState.lean` gives object and outcome of every function of the import, it refines `Model/CsvImport.lean`; an invariant (the row nodes and the header stay) kept by every single change; the rounds of the connection loop up to the first row that cannot go on; the rounds of a line done twice give the same as once."
  },
  {
   "property": "C110",
   "status": "proved",
   "theorems": [
    "Bpmn.Props.C110_exactly",
    "Bpmn.Props.C110_terminated",
    "Bpmn.Props.C110_target",
    "Bpmn.Props.C110_one_word"
   ],
   "note": "Subject: which tables with gotos are imported. Proof: a structure (`Loopable`) of what the gotos and gateways need after the connection loop, shown to survive every single removal; what leads to a join or a goto, read off the table row by row; for the other direction, a join whose sources are all gotos has no incoming flow when its turn to be removed comes."
  },
  {
   "property": "C111",
   "status": "proved",
   "theorems": [
    "Bpmn.Props.C111_exactly",
    "Bpmn.Props.C111_check"
   ],
   "note": "Subject: when a table with gotos gives a consistent diagram. Proof: an invariant (`Turning`) that no two of the flows present and still to be redirected join the same two nodes, kept by every single removal; for the other direction, counting: two list entries for a pair of nodes but one edge in the graph."
  },
  {
   "property": "C112",
   "status": "proved",
   "theorems": [
    "Bpmn.Props.C112_lists",
    "Bpmn.Props.C112_connected_twice",
    "Bpmn.Props.C112_added_again",
    "Bpmn.Props.C112_goto",
    "Bpmn.Props.C112_csv"
   ],
   "note": "Subject: diagrams whose lists and flows disagree are never laid out. Proof: an invariant of the sorting loop for arbitrary diagrams: every list entry that is gone was looked up and found in the list at the other end; a frame argument over all calls for the flow that is lost."
  },
  {
   "property": "C113",
   "status": "proved",
   "theorems": [
    "Bpmn.Props.C113_nodes",
    "Bpmn.Props.C113_flows"
   ],
   "note": "Subject: exactly which nodes and flows a table with gotos gives. Proof: a relation defined from the orders of the rows alone; the flows of the diagram are in it by the invariants of the three passes of the import, and conversely each row has one way on in the relation and one flow in the diagram."
  },
  {
   "property": "C114",
   "status": "proved",
   "theorems": [
    "Bpmn.Props.C114_rows",
    "Bpmn.Props.C114_no_start",
    "Bpmn.Props.C114_layout"
   ],
   "note": "Subject: what becomes of loops made with gotos. Proof: corollaries of C113: the exact flows give a line of nodes that leads to a join (then C106's truncation), a graph without a start node, and a cycle with only one flow back (then the limits of the layout)."
  },
  {
   "property": "C115",
   "status": "proved",
   "theorems": [
    "Bpmn.Props.C115_table",
    "Bpmn.Props.C115_table_two",
    "Bpmn.Props.C115_late_joins",
    "Bpmn.Props.C115_stray",
    "Bpmn.Props.C115_two_strays"
   ],
   "note": "Subject: joins on and behind loops. Proof: two invariants of the sort (nodes before any loop come first, and when all remaining nodes are blocked by loops every remaining join is released at once, so joins come before everything behind the loops); the places are then computed by the rule for a join, with only the early predecessors in the grid; the tables by C113."
  },
  {
   "property": "C116",
   "status": "proved",
   "theorems": [
    "Bpmn.Props.C116_rules_determine_places",
    "Bpmn.Props.C116_drawn",
    "Bpmn.Props.C116_one_loop"
   ],
   "note": "Subject: every node of a diagram with loops. Proof: the invariant of C85 for the places that are filled, generalised: a join finds exactly those predecessors in the grid that come before it in the sorted list (what is placed early, behind a split, does not lead to a join whose turn is later); the order by three invariants of the sort; the single loop by walking along its lines."
  },
  {
   "property": "C117",
   "status": "proved",
   "theorems": [
    "Bpmn.Props.C117_segments",
    "Bpmn.Props.C117_join_crossed",
    "Bpmn.Props.C117_split_crossed",
    "Bpmn.Props.C117_crossings",
    "Bpmn.Props.C117_line",
    "Bpmn.Props.C117_block_crossed"
   ],
   "note": "Subject: metrics of generated drawings. Proof: the lines of a drawing, flow by flow, from C30; lines along the axes meet exactly if they overlap in both directions (from C17); the blocks of C87 one after another: what leaves the split, the branches, what enters the join and the flow behind it are apart or counted pair by pair, over a permutation of the branches."
  },
  {
   "property": "C118",
   "status": "proved",
   "theorems": [
    "Bpmn.Props.C118_columns",
    "Bpmn.Props.C118_width"
   ],
   "note": "Subject: columns and longest paths. Proof: from the grid of C85: a flow leads to a later column, and every node with predecessors has one in the column directly before it; so a path of that length exists (induction on the column) and none is longer; with C20 the last column is the length of the path found."
  },
  {
   "property": "C119",
   "status": "proved",
   "theorems": [
    "Bpmn.Props.C119_apart",
    "Bpmn.Props.C119_wide",
    "Bpmn.Props.C119_clear",
    "Bpmn.Props.C119_nested",
    "Bpmn.Props.C119_built"
   ],
   "note": "Subject: shapes and flows. Proof: distinct cells of the grid are 150 and 100 apart (C27); which cells a route runs through; for the blocks of C87 each flow leads to the right neighbour, or from or to a gateway that is alone in its column, with nothing else in the row (induction over the parts); nested splits from the rules of C85: both splits have branches in the rows just above and just below the first one."
  },
  {
   "property": "C120",
   "status": "proved",
   "theorems": [
    "Bpmn.Props.C120_drawn",
    "Bpmn.Props.C120_saved",
    "Bpmn.Props.C120_export"
   ],
   "note": "Subject: a table with one loop. Proof: the orders of such a table decide which rows follow which (induction-free case analysis on prefix and number); C110 and C111: it is imported and consistent; C113: its nodes and flows are those of `OneLoop`, hence C116; saving by C89, the CSV export by C114."
  },
  {
   "property": "C121",
   "status": "proved",
   "theorems": [
    "Bpmn.Props.C121_split_beside_a_line",
    "Bpmn.Props.C121_lines_side_by_side"
   ],
   "note": "Subject: several processes in one diagram. Proof: the rules of C85: starts are two rows apart, lines keep their row; lines never share a cell (so they are drawn), while a branch of a split and the node of the neighbouring line in the same column do (so a TypeError)."
  },
  {
   "property": "C122",
   "status": "proved",
   "theorems": [
    "Bpmn.Props.C122_page_size",
    "Bpmn.Props.C122_outside_the_page"
   ],
   "note": "Subject: size of a drawing of steps and blocks. Proof: induction over the parts of the line: bounds and attained bounds of columns and rows in the drawing of C87; C118 and C20 for the longest path."
  },
  {
   "property": "C123",
   "status": "proved",
   "theorems": [
    "Bpmn.Props.C123_paths",
    "Bpmn.Props.C123_most_work",
    "Bpmn.Props.C123_flows",
    "Bpmn.Props.C123_complexity"
   ],
   "note": "Subject: paths and metrics of steps and blocks. Proof: every path from the start is the beginning of a way through (induction over the parts); the maximum over the ways by the same induction; flows counted by outgoing lists."
  },
  {
   "property": "C124",
   "status": "proved",
   "theorems": [
    "Bpmn.Props.C124_table_counts",
    "Bpmn.Props.C124_flat_metrics"
   ],
   "note": "Subject: metrics of imported tables. Proof: bijection rows-nodes by id (C60) with the counts of C11; flat tables are lines of steps and blocks (C90), so C122 and C123 apply, with the sums rewritten over the rows by induction over the items."
  },
  {
   "property": "C125",
   "status": "proved",
   "theorems": [
    "Bpmn.Props.C125_segments",
    "Bpmn.Props.C125_flat_drawing"
   ],
   "note": "Subject: lines of a drawing; the drawing of a table. Proof: the segments of each flow counted part by part along the line (as in C117, lengths instead of crossings); the table by the pieces of C90 with C117 and C122."
  },
  {
   "property": "C126",
   "status": "proved",
   "theorems": [
    "Bpmn.Props.C126_ends_workflow",
    "Bpmn.Props.C126_line_moves"
   ],
   "note": "Subject: drawing and saving tables with terminated branches. Proof: the imported flows are exactly the links of the table (C66), so the diagram is acyclic (a measure on the ids) and C85 applies; columns and rows by induction over the items, the join from its predecessors; no two places coincide because of the columns and, inside a block, the rows; C89 for the file."
  },
  {
   "property": "C127",
   "status": "proved",
   "theorems": [
    "Bpmn.Props.C127_ends_metrics"
   ],
   "note": "Subject: metrics of tables with terminated branches. Proof: each node gets a weight and the greatest weight of a way from it on; every link lowers it by at least the weight of its source, and one link exactly; so the weight of a path is at most that of the start, and is attained (induction on the position in the table); C20 and C21 for the two metrics; flows by summing the outgoing lists over all nodes."
  },
  {
   "property": "C128",
   "status": "proved",
   "theorems": [
    "Bpmn.Props.C128_degree",
    "Bpmn.Props.C128_table_quotients",
    "Bpmn.Props.C128_block_gateways",
    "Bpmn.Props.C128_heterogeneity"
   ],
   "note": "Subject: gateways of tables: degrees and types. Proof: the degree is a count over the edges, matched with the lists of flows by consistency; summed over the gateways as in C127; the type of a split from C46 with the branches of the block, the join from C83; C15 for the heterogeneity."
  },
  {
   "property": "C129",
   "status": "proved",
   "theorems": [
    "Bpmn.Props.C129_tree_copy",
    "Bpmn.Props.C129_later_branch",
    "Bpmn.Props.C129_first_branch"
   ],
   "note": "Subject: processes without joins come back from their tables. Proof: the places of the nodes in the table (prefix and number), reached from the first one by the relation `Child`; the rows of the table are the places with rows (C96), prefixes and numbers are unique, the rows of the branches stand in their order; acceptance by C65, nodes by C113, the flows and their order from the plan of every row, types and conditions by C46, C58, C60; two concrete trees for the limits."
  },
  {
   "property": "C130",
   "status": "proved",
   "theorems": [
    "Bpmn.Props.C130_size",
    "Bpmn.Props.C130_complexity",
    "Bpmn.Props.C130_paths",
    "Bpmn.Props.C130_all_split_again",
    "Bpmn.Props.C130_series_drawn"
   ],
   "note": "Subject: decision trees: size, paths, drawing. Proof: trees as lines that end or split (`Strand`, without meeting branches); induction over the tree for the sums of flows and ends, for the heaviest way (both longest paths, by C20 and C21) and for the rows and columns of C85: the nodes up to a split share a row, what is behind it is further right; the exception from the collision of two inner branches."
  },
  {
   "property": "C131",
   "status": "proved",
   "theorems": [
    "Bpmn.Props.C131_round_trip",
    "Bpmn.Props.C131_all_parallel",
    "Bpmn.Props.C131_metrics",
    "Bpmn.Props.C131_drawn"
   ],
   "note": "Subject: trees through tables again and again. Proof: the copy of C129 is again a tree: its line is the image of the line; flows from and into a node and its copy correspond (C129), so the copy fits and C96 gives its table, row by row what is kept; names of flows, defaults and triggers of imported diagrams by C82; metrics and drawing by C130."
  },
  {
   "property": "C132",
   "status": "proved",
   "theorems": [
    "Bpmn.Props.C132_refused",
    "Bpmn.Props.C132_turned_back"
   ],
   "note": "Subject: processes whose tables are refused. Proof: lines (`Strand`) and their tables from C96; induction over the line: orders are numbered from the number of the line on, those of branches have the letter behind the number of the split; so what is not shown has no row, and C65 refuses the table; the process that comes back with a cycle is an example."
  },
  {
   "property": "C133",
   "status": "proved",
   "theorems": [
    "Bpmn.Props.C133_filed",
    "Bpmn.Props.C133_series"
   ],
   "note": "Subject: conditions of trees survive a table, a drawing and a file. Proof: the copy of C131, with the conditions of C129, and the flows named after their conditions (what the file keeps, C89, C93); induction over the line gives the table of this diagram; the loaded diagram corresponds to it node by node (`Twin`), so it has the same table."
  },
  {
   "property": "C134",
   "status": "proved",
   "theorems": [
    "Bpmn.Props.C134_chain",
    "Bpmn.Props.C134_width",
    "Bpmn.Props.C134_joins",
    "Bpmn.Props.C134_backwards",
    "Bpmn.Props.C134_rows"
   ],
   "note": "Subject: how wide drawings are, and which joins stand behind what leads to them. Proof: no assumption about the shape: an invariant of `placeElement` and of the loop around it - the nodes placed and the nodes left are together the sorted ones, each cell is right of an earlier one that leads to it, and a node that is not placed as a branch has its turn when all nodes before it in the order are placed; examples for optional parts."
  },
  {
   "property": "C135",
   "status": "proved",
   "theorems": [
    "Bpmn.Props.C135_layout",
    "Bpmn.Props.C135_negative"
   ],
   "note": "Subject: lines with optional steps drift off the page. Proof: the nodes are sorted in the order of the line, since each feeds the next one and flows only lead forwards; the loop of `grid_layout` is followed by induction on the parts of the line (every part is placed in new columns, so no cell is taken); the row behind an optional step by a recursion with a closed form."
  },
  {
   "property": "C136",
   "status": "proved",
   "theorems": [
    "Bpmn.Props.C136_flows",
    "Bpmn.Props.C136_drawn",
    "Bpmn.Props.C136_negative"
   ],
   "note": "Subject: tables with optional steps. Proof: the orders of such a table are analysed (which rows follow, open splits, come back), so that the flows of C113 are exactly those of the statement; the diagram is a line with optional steps as in C135, by induction on the items of the table; the places follow from C135."
  },
  {
   "property": "C137",
   "status": "proved",
   "theorems": [
    "Bpmn.Props.C137_export",
    "Bpmn.Props.C137_again",
    "Bpmn.Props.C137_drawn",
    "Bpmn.Props.C137_end"
   ],
   "note": "Subject: tables with optional steps, exported again. Proof: the diagram of C136 is a structured process in the sense of C96, whose rows are computed by induction on the items; the result is shown to be a table with optional steps again, hence any number of rounds by induction; the exception is a concrete table."
  },
  {
   "property": "C138",
   "status": "proved",
   "theorems": [
    "Bpmn.Props.C138_filed",
    "Bpmn.Props.C138_again"
   ],
   "note": "Subject: tables with optional steps through a drawing and a file. Proof: the structured process of C137 with its flows named after their conditions (the file, as in C93); which conditions the flows of a gateway carry follows from C58 and C46; rounds by induction."
  },
  {
   "property": "C139",
   "status": "proved",
   "theorems": [
    "Bpmn.Props.C139_export",
    "Bpmn.Props.C139_refused",
    "Bpmn.Props.C139_copy"
   ],
   "note": "Subject: processes with optional steps exported to tables. Proof: the line of C135 as a structured process (C96): the part behind a gateway is a split of two ways that meet at the next gateway; its table is computed by induction on the parts; the copy by C136, the refused ones by C110."
  },
  {
   "property": "C140",
   "status": "proved",
   "theorems": [
    "Bpmn.Props.C140_refused",
    "Bpmn.Props.C140_table"
   ],
   "note": "Subject: processes and tables that end with an optional step. Proof: the export step by step (the lemmas behind C96: start, inner node, split, node where ways meet, end), by induction on the parts of the line: it returns, with a goto to a number that no row has; then C110; tables by C136, whose diagram is such a line."
  },
  {
   "property": "C141",
   "status": "proved",
   "theorems": [
    "Bpmn.Props.C141_rows",
    "Bpmn.Props.C141_one_row_for_each_flow",
    "Bpmn.Props.C141_copy",
    "Bpmn.Props.C141_more_ends"
   ],
   "note": "Subject: end events into which several flows lead. Proof: the export as for C96, by induction on the lines (`Verif/Spec/SharedEnds.lean`: only the end of a line is different); the rows marked as ends are the ends of the lines; a line has an end event as often as flows of its nodes lead into it, by induction; with C42 and C60 the number of end events of the copy."
  }
 ]
}
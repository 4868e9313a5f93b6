import Verif.Props.Again
import Verif.Props.Analyses
import Verif.Props.BlockPaths
import Verif.Props.Blocks
import Verif.Props.Construction
import Verif.Props.CsvAccept
import Verif.Props.CsvDrawn
import Verif.Props.CsvEnds
import Verif.Props.CsvExport
import Verif.Props.CsvFiled
import Verif.Props.CsvFlat
import Verif.Props.CsvGoto
import Verif.Props.CsvImport
import Verif.Props.CsvKinds
import Verif.Props.CsvLoops
import Verif.Props.CsvReload
import Verif.Props.CsvResult
import Verif.Props.CsvRows
import Verif.Props.Dangling
import Verif.Props.Decisions
import Verif.Props.DocInOrder
import Verif.Props.Drawing
import Verif.Props.DrawnMetrics
import Verif.Props.Elements
import Verif.Props.EndsMetrics
import Verif.Props.FailedLoad
import Verif.Props.FailedTable
import Verif.Props.FlatProcess
import Verif.Props.GotoAccept
import Verif.Props.GotoConsistent
import Verif.Props.GotoFlows
import Verif.Props.GotoLayout
import Verif.Props.GotoLoops
import Verif.Props.Grid
import Verif.Props.GridLimits
import Verif.Props.LayoutMetrics
import Verif.Props.LayoutNeeds
import Verif.Props.LayoutState
import Verif.Props.Layouter
import Verif.Props.LoopGrid
import Verif.Props.LoopJoins
import Verif.Props.LoopTable
import Verif.Props.Merge
import Verif.Props.Metrics
import Verif.Props.Optional
import Verif.Props.OptionalEnd
import Verif.Props.OptionalExport
import Verif.Props.OptionalFiled
import Verif.Props.OptionalProcess
import Verif.Props.OptionalTable
import Verif.Props.PageSize
import Verif.Props.Placing
import Verif.Props.Processes
import Verif.Props.Savable
import Verif.Props.SavedAgain
import Verif.Props.Session
import Verif.Props.Setters
import Verif.Props.Shapes
import Verif.Props.SharedEnds
import Verif.Props.Structured
import Verif.Props.TableDrawing
import Verif.Props.TableGateways
import Verif.Props.TableMetrics
import Verif.Props.TreeAgain
import Verif.Props.TreeFiled
import Verif.Props.TreeProcess
import Verif.Props.Width
import Verif.Props.Workflow
import Verif.Props.Xml
import Verif.Props.XmlAccept
import Verif.Props.XmlContent
import Verif.Props.XmlDetails
import Verif.Props.XmlLoaded
import Verif.Props.XmlLosses
import Verif.Props.XmlNames
import Verif.Props.XmlPools
import Verif.Props.XmlShapes
/-! The axioms every property theorem depends on (written by `tools/sync.py`). -/
#print axioms Bpmn.Props.C01_refinement
#print axioms Bpmn.Props.C01_flow_bookkeeping
#print axioms Bpmn.Props.C01_no_call_raises
#print axioms Bpmn.Props.C02_other_flows_unchanged
#print axioms Bpmn.Props.C02_reconnecting_loses_flow
#print axioms Bpmn.Props.C03_nodes_by_type
#print axioms Bpmn.Props.C03_all_nodes
#print axioms Bpmn.Props.C03_nodes_by_process
#print axioms Bpmn.Props.C03_untyped_node_raises
#print axioms Bpmn.Props.C03_built_diagrams_typed
#print axioms Bpmn.Props.C04_add_node
#print axioms Bpmn.Props.C04_add_flow_frame
#print axioms Bpmn.Props.C04_add_flow_ends
#print axioms Bpmn.Props.C04_add_flow_edge
#print axioms Bpmn.Props.C04_add_self_loop
#print axioms Bpmn.Props.C04_lookup_none_iff
#print axioms Bpmn.Props.C05_readding_empties_lists
#print axioms Bpmn.Props.C06_rejected_gateway_stays
#print axioms Bpmn.Props.C06_accepted_gateway
#print axioms Bpmn.Props.C07_unknown_end
#print axioms Bpmn.Props.C08_plane_shows_last_process
#print axioms Bpmn.Props.C08_process_table
#print axioms Bpmn.Props.C08_create_new_empties
#print axioms Bpmn.Props.C09_start_event
#print axioms Bpmn.Props.C09_end_event
#print axioms Bpmn.Props.C09_subprocess_and_default
#print axioms Bpmn.Props.C10_graph_stays_simple
#print axioms Bpmn.Props.C10_every_call_keeps_sane
#print axioms Bpmn.Props.C100_comes_back
#print axioms Bpmn.Props.C100_any_number_of_times
#print axioms Bpmn.Props.C101_session
#print axioms Bpmn.Props.C101_no_exception
#print axioms Bpmn.Props.C101_from_document
#print axioms Bpmn.Props.C101_from_calls
#print axioms Bpmn.Props.C101_from_table
#print axioms Bpmn.Props.C102_together
#print axioms Bpmn.Props.C102_untouched
#print axioms Bpmn.Props.C102_flow_untouched
#print axioms Bpmn.Props.C102_header
#print axioms Bpmn.Props.C102_pools_lost
#print axioms Bpmn.Props.C102_one_file
#print axioms Bpmn.Props.C103_again
#print axioms Bpmn.Props.C103_keys
#print axioms Bpmn.Props.C103_restores
#print axioms Bpmn.Props.C103_layout_undone
#print axioms Bpmn.Props.C103_built
#print axioms Bpmn.Props.C104_setters
#print axioms Bpmn.Props.C104_getters
#print axioms Bpmn.Props.C104_attributes
#print axioms Bpmn.Props.C105_old_nodes
#print axioms Bpmn.Props.C105_gateways
#print axioms Bpmn.Props.C105_line_again
#print axioms Bpmn.Props.C105_after_layout
#print axioms Bpmn.Props.C105_lines
#print axioms Bpmn.Props.C106_direct_loops
#print axioms Bpmn.Props.C106_up_to_join
#print axioms Bpmn.Props.C106_exceptions
#print axioms Bpmn.Props.C106_success_or_no_end
#print axioms Bpmn.Props.C107_object
#print axioms Bpmn.Props.C107_all_or_nothing
#print axioms Bpmn.Props.C107_half_way
#print axioms Bpmn.Props.C107_any
#print axioms Bpmn.Props.C108_object
#print axioms Bpmn.Props.C108_no_plane
#print axioms Bpmn.Props.C108_header
#print axioms Bpmn.Props.C108_untouched
#print axioms Bpmn.Props.C108_flow_untouched
#print axioms Bpmn.Props.C108_together
#print axioms Bpmn.Props.C108_again
#print axioms Bpmn.Props.C108_corrected
#print axioms Bpmn.Props.C108_half_flow
#print axioms Bpmn.Props.C109_object
#print axioms Bpmn.Props.C109_untouched
#print axioms Bpmn.Props.C109_head
#print axioms Bpmn.Props.C109_nodes
#print axioms Bpmn.Props.C109_renumbered
#print axioms Bpmn.Props.C109_stops
#print axioms Bpmn.Props.C109_spoilt
#print axioms Bpmn.Props.C109_exception
#print axioms Bpmn.Props.C109_corrected
#print axioms Bpmn.Props.C11_cardinalities
#print axioms Bpmn.Props.C11_identities
#print axioms Bpmn.Props.C110_exactly
#print axioms Bpmn.Props.C110_terminated
#print axioms Bpmn.Props.C110_target
#print axioms Bpmn.Props.C110_one_word
#print axioms Bpmn.Props.C111_exactly
#print axioms Bpmn.Props.C111_check
#print axioms Bpmn.Props.C112_lists
#print axioms Bpmn.Props.C112_connected_twice
#print axioms Bpmn.Props.C112_added_again
#print axioms Bpmn.Props.C112_goto
#print axioms Bpmn.Props.C112_csv
#print axioms Bpmn.Props.C113_nodes
#print axioms Bpmn.Props.C113_flows
#print axioms Bpmn.Props.C114_rows
#print axioms Bpmn.Props.C114_no_start
#print axioms Bpmn.Props.C114_layout
#print axioms Bpmn.Props.C115_table
#print axioms Bpmn.Props.C115_table_two
#print axioms Bpmn.Props.C115_late_joins
#print axioms Bpmn.Props.C115_stray
#print axioms Bpmn.Props.C115_two_strays
#print axioms Bpmn.Props.C116_rules_determine_places
#print axioms Bpmn.Props.C116_drawn
#print axioms Bpmn.Props.C116_one_loop
#print axioms Bpmn.Props.C117_segments
#print axioms Bpmn.Props.C117_join_crossed
#print axioms Bpmn.Props.C117_split_crossed
#print axioms Bpmn.Props.C117_crossings
#print axioms Bpmn.Props.C117_line
#print axioms Bpmn.Props.C117_block_crossed
#print axioms Bpmn.Props.C118_columns
#print axioms Bpmn.Props.C118_width
#print axioms Bpmn.Props.C119_apart
#print axioms Bpmn.Props.C119_wide
#print axioms Bpmn.Props.C119_clear
#print axioms Bpmn.Props.C119_nested
#print axioms Bpmn.Props.C119_built
#print axioms Bpmn.Props.C12_count_without_type_is_zero
#print axioms Bpmn.Props.C120_drawn
#print axioms Bpmn.Props.C120_saved
#print axioms Bpmn.Props.C120_export
#print axioms Bpmn.Props.C121_split_beside_a_line
#print axioms Bpmn.Props.C121_lines_side_by_side
#print axioms Bpmn.Props.C122_page_size
#print axioms Bpmn.Props.C122_outside_the_page
#print axioms Bpmn.Props.C123_paths
#print axioms Bpmn.Props.C123_most_work
#print axioms Bpmn.Props.C123_flows
#print axioms Bpmn.Props.C123_complexity
#print axioms Bpmn.Props.C124_table_counts
#print axioms Bpmn.Props.C124_flat_metrics
#print axioms Bpmn.Props.C125_segments
#print axioms Bpmn.Props.C125_flat_drawing
#print axioms Bpmn.Props.C126_ends_workflow
#print axioms Bpmn.Props.C126_line_moves
#print axioms Bpmn.Props.C127_ends_metrics
#print axioms Bpmn.Props.C128_degree
#print axioms Bpmn.Props.C128_table_quotients
#print axioms Bpmn.Props.C128_block_gateways
#print axioms Bpmn.Props.C128_heterogeneity
#print axioms Bpmn.Props.C129_tree_copy
#print axioms Bpmn.Props.C129_later_branch
#print axioms Bpmn.Props.C129_first_branch
#print axioms Bpmn.Props.C13_durfee_largest
#print axioms Bpmn.Props.C130_size
#print axioms Bpmn.Props.C130_complexity
#print axioms Bpmn.Props.C130_paths
#print axioms Bpmn.Props.C130_all_split_again
#print axioms Bpmn.Props.C130_series_drawn
#print axioms Bpmn.Props.C131_round_trip
#print axioms Bpmn.Props.C131_all_parallel
#print axioms Bpmn.Props.C131_metrics
#print axioms Bpmn.Props.C131_drawn
#print axioms Bpmn.Props.C132_refused
#print axioms Bpmn.Props.C132_turned_back
#print axioms Bpmn.Props.C133_filed
#print axioms Bpmn.Props.C133_series
#print axioms Bpmn.Props.C134_chain
#print axioms Bpmn.Props.C134_width
#print axioms Bpmn.Props.C134_joins
#print axioms Bpmn.Props.C134_backwards
#print axioms Bpmn.Props.C134_rows
#print axioms Bpmn.Props.C135_layout
#print axioms Bpmn.Props.C135_negative
#print axioms Bpmn.Props.C136_flows
#print axioms Bpmn.Props.C136_drawn
#print axioms Bpmn.Props.C136_negative
#print axioms Bpmn.Props.C137_export
#print axioms Bpmn.Props.C137_again
#print axioms Bpmn.Props.C137_drawn
#print axioms Bpmn.Props.C137_end
#print axioms Bpmn.Props.C138_filed
#print axioms Bpmn.Props.C138_again
#print axioms Bpmn.Props.C139_export
#print axioms Bpmn.Props.C139_refused
#print axioms Bpmn.Props.C139_copy
#print axioms Bpmn.Props.C14_perfect_square_largest
#print axioms Bpmn.Props.C14_at_most_number_of_types
#print axioms Bpmn.Props.C140_refused
#print axioms Bpmn.Props.C140_table
#print axioms Bpmn.Props.C141_rows
#print axioms Bpmn.Props.C141_one_row_for_each_flow
#print axioms Bpmn.Props.C141_copy
#print axioms Bpmn.Props.C141_more_ends
#print axioms Bpmn.Props.C15_heterogeneity
#print axioms Bpmn.Props.C16_network_complexity
#print axioms Bpmn.Props.C16_network_complexity_declared
#print axioms Bpmn.Props.C16_average_gateway_degree
#print axioms Bpmn.Props.C16_degree
#print axioms Bpmn.Props.C17_do_intersect
#print axioms Bpmn.Props.C17_symmetric
#print axioms Bpmn.Props.C18_counts_crossing_pairs
#print axioms Bpmn.Props.C18_order_independent
#print axioms Bpmn.Props.C19_count_segments
#print axioms Bpmn.Props.C19_exceptions
#print axioms Bpmn.Props.C19_segments_chain
#print axioms Bpmn.Props.C20_longest_path
#print axioms Bpmn.Props.C21_longest_path_tasks
#print axioms Bpmn.Props.C22_no_sink_no_path
#print axioms Bpmn.Props.C22_self_loop_counted_twice
#print axioms Bpmn.Props.C22_terminates
#print axioms Bpmn.Props.C23_elements
#print axioms Bpmn.Props.C23_agree
#print axioms Bpmn.Props.C24_topological_order
#print axioms Bpmn.Props.C25_acyclic
#print axioms Bpmn.Props.C26_terminates
#print axioms Bpmn.Props.C26_pure_cycle_hangs
#print axioms Bpmn.Props.C27_distinct_positions
#print axioms Bpmn.Props.C28_columns
#print axioms Bpmn.Props.C29_only_layout_changes
#print axioms Bpmn.Props.C29_idempotent
#print axioms Bpmn.Props.C30_waypoints
#print axioms Bpmn.Props.C30_routes
#print axioms Bpmn.Props.C31_occupied_raises
#print axioms Bpmn.Props.C31_free_appends
#print axioms Bpmn.Props.C32_chain_in_one_row
#print axioms Bpmn.Props.C33_round_trip
#print axioms Bpmn.Props.C33_history_round_trip
#print axioms Bpmn.Props.C34_names_and_nested_lanes_lost
#print axioms Bpmn.Props.C35_exported_once
#print axioms Bpmn.Props.C35_plane
#print axioms Bpmn.Props.C36_every_process_has_everything
#print axioms Bpmn.Props.C36_repeated
#print axioms Bpmn.Props.C36_not_loadable
#print axioms Bpmn.Props.C37_lists_in_step
#print axioms Bpmn.Props.C37_new_object
#print axioms Bpmn.Props.C37_lists_lost
#print axioms Bpmn.Props.C38_comment_in_process
#print axioms Bpmn.Props.C39_indent_only_whitespace
#print axioms Bpmn.Props.C39_indent_idempotent
#print axioms Bpmn.Props.C40_strip_namespace
#print axioms Bpmn.Props.C40_idempotent
#print axioms Bpmn.Props.C41_one_start
#print axioms Bpmn.Props.C42_orders
#print axioms Bpmn.Props.C43_line
#print axioms Bpmn.Props.C43_file
#print axioms Bpmn.Props.C43_export
#print axioms Bpmn.Props.C44_linear
#print axioms Bpmn.Props.C45_consistent
#print axioms Bpmn.Props.C45_flows
#print axioms Bpmn.Props.C45_no_goto
#print axioms Bpmn.Props.C45_lost_flow
#print axioms Bpmn.Props.C46_gateway_type
#print axioms Bpmn.Props.C47_sequence
#print axioms Bpmn.Props.C47_split
#print axioms Bpmn.Props.C47_join
#print axioms Bpmn.Props.C48_eleventh_step
#print axioms Bpmn.Props.C49_documented_types
#print axioms Bpmn.Props.C49_target_reference
#print axioms Bpmn.Props.C49_target_not_checked
#print axioms Bpmn.Props.C49_shared_list
#print axioms Bpmn.Props.C50_none_raises_and_is_stored
#print axioms Bpmn.Props.C50_other_failures_change_nothing
#print axioms Bpmn.Props.C51_text_between_elements
#print axioms Bpmn.Props.C52_flow_nodes_refused
#print axioms Bpmn.Props.C52_accepted
#print axioms Bpmn.Props.C53_set_then_get
#print axioms Bpmn.Props.C54_acyclic_succeeds
#print axioms Bpmn.Props.C55_repeated
#print axioms Bpmn.Props.C55_lost
#print axioms Bpmn.Props.C55_no_end
#print axioms Bpmn.Props.C56_trees_complete
#print axioms Bpmn.Props.C57_no_xml
#print axioms Bpmn.Props.C58_conditions
#print axioms Bpmn.Props.C58_carried
#print axioms Bpmn.Props.C59_nested_continuation
#print axioms Bpmn.Props.C60_rows
#print axioms Bpmn.Props.C60_nodes
#print axioms Bpmn.Props.C61_gateways
#print axioms Bpmn.Props.C62_one_way_on
#print axioms Bpmn.Props.C63_blanks
#print axioms Bpmn.Props.C64_ambiguous
#print axioms Bpmn.Props.C65_accepted
#print axioms Bpmn.Props.C65_refused
#print axioms Bpmn.Props.C66_flat_flows
#print axioms Bpmn.Props.C66_flat_nodes
#print axioms Bpmn.Props.C66_fork_order
#print axioms Bpmn.Props.C67_flat_round_trip
#print axioms Bpmn.Props.C67_flat_fixed
#print axioms Bpmn.Props.C67_limits
#print axioms Bpmn.Props.C67_nested_refused
#print axioms Bpmn.Props.C68_picture
#print axioms Bpmn.Props.C68_shapes
#print axioms Bpmn.Props.C68_direction
#print axioms Bpmn.Props.C69_symbols
#print axioms Bpmn.Props.C70_positions
#print axioms Bpmn.Props.C70_before_layout
#print axioms Bpmn.Props.C70_after_layout
#print axioms Bpmn.Props.C71_determinant
#print axioms Bpmn.Props.C72_any_number_of_times
#print axioms Bpmn.Props.C73_two_edges
#print axioms Bpmn.Props.C74_pools_without_process
#print axioms Bpmn.Props.C74_orientation_lost
#print axioms Bpmn.Props.C75_exactly_which_documents
#print axioms Bpmn.Props.C76_exact_nodes_and_arcs
#print axioms Bpmn.Props.C77_flow_to_pool_with_process
#print axioms Bpmn.Props.C78_names_not_written
#print axioms Bpmn.Props.C78_names_replaced
#print axioms Bpmn.Props.C79_what_pools_say
#print axioms Bpmn.Props.C79_what_nodes_say
#print axioms Bpmn.Props.C79_mentioned_nodes_say_nothing
#print axioms Bpmn.Props.C79_what_processes_say
#print axioms Bpmn.Props.C80_what_flows_say
#print axioms Bpmn.Props.C81_what_collaborations_say
#print axioms Bpmn.Props.C82_head
#print axioms Bpmn.Props.C82_nodes_say
#print axioms Bpmn.Props.C82_flows_say
#print axioms Bpmn.Props.C83_join_like_split
#print axioms Bpmn.Props.C83_join_default
#print axioms Bpmn.Props.C83_no_early_join
#print axioms Bpmn.Props.C83_order_of_rows
#print axioms Bpmn.Props.C84_rows_say
#print axioms Bpmn.Props.C84_dangling
#print axioms Bpmn.Props.C85_rules_determine_places
#print axioms Bpmn.Props.C85_drawn_on_grid
#print axioms Bpmn.Props.C86_two_nested_splits
#print axioms Bpmn.Props.C86_nested_split_beside_steps
#print axioms Bpmn.Props.C87_blocks_are_laid_out
#print axioms Bpmn.Props.C88_order
#print axioms Bpmn.Props.C88_one_split
#print axioms Bpmn.Props.C88_loops
#print axioms Bpmn.Props.C88_direct_way_back
#print axioms Bpmn.Props.C89_saved
#print axioms Bpmn.Props.C90_flat_workflow
#print axioms Bpmn.Props.C90_terminated_branch
#print axioms Bpmn.Props.C91_csv
#print axioms Bpmn.Props.C91_metrics
#print axioms Bpmn.Props.C91_built
#print axioms Bpmn.Props.C91_imported
#print axioms Bpmn.Props.C92_layout_silent
#print axioms Bpmn.Props.C93_filed
#print axioms Bpmn.Props.C93_flat
#print axioms Bpmn.Props.C93_fixed
#print axioms Bpmn.Props.C94_branch
#print axioms Bpmn.Props.C94_next
#print axioms Bpmn.Props.C95_namespaces
#print axioms Bpmn.Props.C95_namespaces_no_di
#print axioms Bpmn.Props.C95_meaning
#print axioms Bpmn.Props.C95_ids
#print axioms Bpmn.Props.C95_distinct
#print axioms Bpmn.Props.C96_rows
#print axioms Bpmn.Props.C96_complete
#print axioms Bpmn.Props.C96_block_at_the_end
#print axioms Bpmn.Props.C96_join_and_split
#print axioms Bpmn.Props.C96_common_end
#print axioms Bpmn.Props.C97_copy
#print axioms Bpmn.Props.C97_gateways
#print axioms Bpmn.Props.C97_conditions
#print axioms Bpmn.Props.C97_nested
#print axioms Bpmn.Props.C98_exactly_which
#print axioms Bpmn.Props.C98_no_di
#print axioms Bpmn.Props.C98_otherwise
#print axioms Bpmn.Props.C99_saved_again

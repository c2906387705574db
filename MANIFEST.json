{
 "claims": [
  {
   "property": "C01",
   "status": "proved",
   "theorems": [
    "RK.Props.C01_min_id_queue",
    "RK.Props.C01_child_index_wraps"
   ],
   "note": "Histories of arbitrary length, id_count <= 2^30 (beyond that the 32-bit child index wraps, C01_child_index_wraps). Keys are arbitrary."
  },
  {
   "property": "C02",
   "status": "proved",
   "theorems": [
    "RK.Props.C02_timestamp_flags"
   ],
   "note": "Histories of arbitrary length, covering the 16-bit timestamp wrap-around."
  },
  {
   "property": "C03",
   "status": "proved",
   "theorems": [
    "RK.Props.C03_id_set_min_queue",
    "RK.Props.C03_array_size_wraps",
    "RK.Props.C03_pop_empty_undefined"
   ],
   "note": "Histories of arbitrary length for n < 2^31-1 (beyond that the 32-bit array size wraps). pop on an empty queue is an assertion failure, contrary to its comment (C03_pop_empty_undefined)."
  },
  {
   "property": "C04",
   "status": "proved",
   "theorems": [
    "RK.Props.C04_is_permutation",
    "RK.Props.C04_apply_permutation",
    "RK.Props.C04_apply_inverse_permutation",
    "RK.Props.C04_apply_roundtrip",
    "RK.Props.C04_invert_permutation",
    "RK.Props.C04_apply_inverse_eq_apply_invert",
    "RK.Props.C04_chain_permutation",
    "RK.Props.C04_identity_permutation",
    "RK.Props.C04_apply_to_elements"
   ],
   "note": "All laws for every permutation and every vector of matching size."
  },
  {
   "property": "C05",
   "status": "partial",
   "theorems": [
    "RK.Props.C05_inplace_possibly_invalid",
    "RK.Props.C05_possibly_invalid_violated",
    "RK.Props.C05_possibly_invalid_release",
    "RK.Props.C05_possibly_invalid_violated_always",
    "RK.Props.C05_possibly_invalid_partial"
   ],
   "note": "The in-place variant is proved correct. The non in-place variant violates the property in the code (it calls the function without invalid_id support): the negation is proved with a witness and for every input containing invalid_id; the _partial theorem covers vectors without invalid_id."
  },
  {
   "property": "C06",
   "status": "proved",
   "theorems": [
    "RK.Props.C06_compute_stable_sort_permutation_using_key",
    "RK.Props.C06_compute_inverse_stable_sort_permutation_using_key",
    "RK.Props.C06_compute_sort_permutation_using_key",
    "RK.Props.C06_compute_inverse_sort_permutation_using_key",
    "RK.Props.C06_stable_sort_using_key",
    "RK.Props.C06_sort_using_key",
    "RK.Props.C06_is_sorted_using_key",
    "RK.Props.C06_stable_sort_perm_unique"
   ],
   "note": "For all vectors and keys below key_count; std::sort is quantified over every implementation meeting its contract."
  },
  {
   "property": "C07",
   "status": "proved",
   "theorems": [
    "RK.Props.C07_sort_permutation_and_apply",
    "RK.Props.C07_inverse_sort_permutation_and_apply",
    "RK.Props.C07_sort_permutation_release",
    "RK.Props.C07_sort_permutation_debug_violated"
   ],
   "note": "The _and_apply_sort_to_tail functions are proved for all arc lists. Additional finding: the variants that do not modify tail assert the wrong array and abort on unsorted input in debug builds (proved); they are correct in release builds (proved)."
  },
  {
   "property": "C08",
   "status": "proved",
   "theorems": [
    "RK.Props.C08_invert_vector",
    "RK.Props.C08_invert_inverse_vector_left_inverse",
    "RK.Props.C08_invert_inverse_vector_right_inverse"
   ],
   "note": "All sorted vectors and all non-decreasing index vectors."
  },
  {
   "property": "C09",
   "status": "proved",
   "theorems": [
    "RK.Props.C09_filters"
   ],
   "note": "All filters and vectors of equal size."
  },
  {
   "property": "C10",
   "status": "proved",
   "theorems": [
    "RK.Props.C10_element_operations"
   ],
   "note": "Programs of arbitrary length over any number of bit vector variables of any size below 2^64-511."
  },
  {
   "property": "C11",
   "status": "partial",
   "theorems": [
    "RK.Props.C11_all_operations_partial",
    "RK.Props.C11_make_bit_vector",
    "RK.Props.C11_less_is_strict_total_order",
    "RK.Props.C11_are_all_set_ignores_last_block",
    "RK.Props.C11_are_all_set_violated"
   ],
   "note": "All operations proved for programs of arbitrary length except are_all_set on positive multiples of 512 bits, where the code violates the property (it ignores the last 512 bits; proved in general with a witness)."
  },
  {
   "property": "C12",
   "status": "partial",
   "theorems": [
    "RK.Props.C12_all_operations_partial",
    "RK.Props.C12_resize_uninitialized",
    "RK.Props.C12_resize_default_constructed",
    "RK.Props.C12_resize_true_violated",
    "RK.Props.C12_make_large_enough_true_violated",
    "RK.Props.C12_resize_true_copy_of_empty"
   ],
   "note": "resize(n,false) and resize(n,Uninitialized) fully proved; resize(n,true) proved when shrinking, or when neither size is a multiple of 512, or on a default constructed vector. In the remaining cases the code violates the property (witnesses proved, including undefined behaviour)."
  },
  {
   "property": "C13",
   "status": "proved",
   "theorems": [
    "RK.Props.C13_local_ids_are_ranks",
    "RK.Props.C13_local_ids_bijection",
    "RK.Props.C13_default_constructed"
   ],
   "note": "All reachable bit vectors."
  },
  {
   "property": "C14",
   "status": "proved",
   "theorems": [
    "RK.Props.C14_to_global_inverse"
   ],
   "note": "All reachable bit vectors, including the 32-bit wrap of the select table counters."
  },
  {
   "property": "C15",
   "status": "partial",
   "theorems": [
    "RK.Props.C15_convert_node_path_to_arc_path",
    "RK.Props.C15_convert_arc_path_to_node_path_partial",
    "RK.Props.C15_convert_arc_path_to_node_path_violated"
   ],
   "note": "node path -> arc path proved. arc path -> node path is violated by the code (entry 1 is never converted): negation proved with a witness, exact behaviour proved in the _partial theorem."
  },
  {
   "property": "C16",
   "status": "proved",
   "theorems": [
    "RK.Props.C16_C17_run_to_completion",
    "RK.Props.C16_scalar_one_to_all",
    "RK.Props.C16_scalar_one_to_all_small",
    "RK.Props.C16_overflow_witness",
    "RK.Props.C16_duplicate_source_undefined"
   ],
   "note": "for any FIFO travel time function, any sources; scalar corollary"
  },
  {
   "property": "C17",
   "status": "proved",
   "theorems": [],
   "note": ""
  },
  {
   "property": "C18",
   "status": "proved",
   "theorems": [
    "RK.Props.C18_dijkstra_histories",
    "RK.Props.C18_dijkstra_default_constructed"
   ],
   "note": "all call histories incl. reset to other graphs"
  },
  {
   "property": "C19",
   "status": "proved",
   "theorems": [
    "RK.Props.C19_strongly_connected_components",
    "RK.Props.C19_largest_component"
   ],
   "note": ""
  },
  {
   "property": "C20",
   "status": "proved",
   "theorems": [
    "RK.Props.C20_reduced_arcs",
    "RK.Props.C20_distances_preserved"
   ],
   "note": "Model of sort_arcs_and_remove_multi_and_loop_arcs. Also proves that distances are unchanged."
  },
  {
   "property": "C21",
   "status": "proved",
   "theorems": [
    "RK.Props.C21_distances_preserved",
    "RK.Props.C21_shortcuts"
   ],
   "note": "weights at contracted nodes at most (2^32-1)/12 so that no 32-bit sum wraps; up to 2^30 nodes"
  },
  {
   "property": "C22",
   "status": "proved",
   "theorems": [
    "RK.Props.C22_C23_C24_C34_query_histories",
    "RK.Props.C22_C23_query",
    "RK.Props.C22_C23_one_to_one",
    "RK.Props.C22_build_without_arcs_aborts",
    "RK.Props.C22_arguments_checked",
    "RK.Props.C22_heavy_weights_violated"
   ],
   "note": "For every hierarchy returned by build, build_given_rank or build_given_order whose arcs weigh at most (2^32-1)/12 each (a condition on the public weight vectors of the result; no sum wraps then). When the construction returns is C78. Without a bound on the weights the answer can be wrong though all weights are below inf_weight (C22_heavy_weights_violated)."
  },
  {
   "property": "C23",
   "status": "proved",
   "theorems": [],
   "note": "Same hypotheses as C22."
  },
  {
   "property": "C24",
   "status": "proved",
   "theorems": [
    "RK.Props.C24_pinned_targets",
    "RK.Props.C24_too_many_pinned_targets_undefined",
    "RK.Props.C24_no_pinned_targets_undefined"
   ],
   "note": "Same hypotheses as C22; the pinned list must not be longer than the number of nodes and not empty when answers are read (negation witnesses proved: C24_too_many_pinned_targets_undefined, C24_no_pinned_targets_undefined)."
  },
  {
   "property": "C25",
   "status": "proved",
   "theorems": [
    "RK.Props.C25_succeeds_small",
    "RK.Props.C25_up_arcs_are_fill_pairs",
    "RK.Props.C25_closed_under_lower_triangles",
    "RK.Props.C25_input_arcs_are_mapped",
    "RK.Props.C25_succeeds_iff",
    "RK.Props.C25_empty_log_message_undefined",
    "RK.Props.C25_no_nodes_undefined"
   ],
   "note": "Constructor modelled function by function, including sizes and exceptions; Props/Cch.lean. Zero nodes and an empty log_message make the constructor fail (separate theorems)."
  },
  {
   "property": "C26",
   "status": "proved",
   "theorems": [
    "RK.Props.C26_parent_is_lowest_upward_neighbour",
    "RK.Props.C26_upward_reachable_are_ancestors",
    "RK.Props.C26_ancestors_are_upward_reachable"
   ],
   "note": "Elimination tree of the constructor."
  },
  {
   "property": "C27",
   "status": "proved",
   "theorems": [
    "RK.Props.C27_customized_weights",
    "RK.Props.C27_minimum_over_lower_triangles",
    "RK.Props.C27_large_weights_wrap"
   ],
   "note": "Weights at most inf_weight; larger weights wrap (C27_large_weights_wrap). Sequential customize."
  },
  {
   "property": "C28",
   "status": "proved",
   "theorems": [
    "RK.Props.C28_every_interleaving",
    "RK.Props.C28_terminates",
    "RK.Props.C28_parallel_equals_sequential"
   ],
   "note": "Every interleaving of the memory accesses of the loop iterations (hence every assignment to threads) is undefined-behaviour free, finite and ends with the metric of the sequential customization. Accesses to single weights are assumed atomic and sequentially consistent; C93 shows which loads are formally data races in C++ and that outdated values of these loads do not change the metric."
  },
  {
   "property": "C29",
   "status": "proved",
   "theorems": [
    "RK.Props.C29_partial_equals_full"
   ],
   "note": "Fewer than 2^31-1 hierarchy arcs (limit of the id queue, see C03)."
  },
  {
   "property": "C30",
   "status": "proved",
   "theorems": [
    "RK.Props.C30_C31_C32_C34_query_histories",
    "RK.Props.C30_C31_query",
    "RK.Props.C30_C31_one_to_one"
   ],
   "note": "Histories of arbitrary length, every graph, node order, filter choice and weights up to inf_weight, any number of sources and targets with offsets; also one-to-one in elementary terms. Walks of length >= inf_weight count as unreachable."
  },
  {
   "property": "C31",
   "status": "proved",
   "theorems": [],
   "note": "Same generality as C30; arc paths, node paths, used source and target. Termination of the unpacking is part of the statement (the calls return)."
  },
  {
   "property": "C32",
   "status": "proved",
   "theorems": [
    "RK.Props.C32_pinned_targets",
    "RK.Props.C32_pinned_sources",
    "RK.Props.C32_no_pinned_targets_undefined"
   ],
   "note": "Same generality as C30, any number (> 0) of pinned nodes with repetitions, any number of runs; reading the distances for an empty list of pinned nodes is undefined behaviour (C32_no_pinned_targets_undefined)."
  },
  {
   "property": "C33",
   "status": "proved",
   "theorems": [
    "RK.Props.C33_filtered_arcs",
    "RK.Props.C33_same_weights"
   ],
   "note": "Arcs removed are exactly those without a directed path through lower nodes; all weights agree with the unfiltered hierarchy."
  },
  {
   "property": "C34",
   "status": "proved",
   "theorems": [
    "RK.Props.C34_default_constructed_cch_query_undefined",
    "RK.Props.C34_replaced_hierarchy_undefined",
    "RK.Props.C34_default_constructed_query",
    "RK.Props.C34_default_constructed_empty",
    "RK.Props.C34_reset_like_fresh",
    "RK.Props.C34_attach_like_fresh",
    "RK.Props.C34_cch_reset_like_fresh",
    "RK.Props.C34_cch_attach_like_fresh"
   ],
   "note": "For objects constructed with a hierarchy resp. metric: after any legal history, reset() and reset(ch)/reset(metric) make every later answer identical to that of a new object, including the choice among several shortest paths. Default-constructed objects: works for non-empty contraction hierarchies, undefined for CCH queries (separate theorems). A query recognises a CCH by its address; replacing a CCH at the same address is undefined."
  },
  {
   "property": "C35",
   "status": "partial",
   "theorems": [
    "RK.Props.C35_built_round_trip",
    "RK.Props.C35_stream_round_trip",
    "RK.Props.C35_file_round_trip_partial",
    "RK.Props.C35_unbuffered_full_device_throws",
    "RK.Props.C35_large_file_rejected",
    "RK.Props.C35_read_accepts_only_written",
    "RK.Props.C35_wrong_magic_rejected",
    "RK.Props.C35_load_accepts_only_saved",
    "RK.Props.C35_undefined_only_for_bad_ranks",
    "RK.Props.C35_default_constructed_violated",
    "RK.Props.C35_hardened_empty_aborts",
    "RK.Props.C35_full_device_unnoticed"
   ],
   "note": "Streams and callbacks: full round trip. Files: full round trip below 2^32 words (about 2^30 arcs); every byte string: accepted only if it is what write produces. Violated for larger hierarchies (C35_large_file_rejected), default-constructed hierarchies, empty vectors in hardened builds; a full device is not noticed for small files."
  },
  {
   "property": "C36",
   "status": "partial",
   "theorems": [
    "RK.C36_decodes_every_encoding",
    "RK.C36_decodes_canonical",
    "RK.C36_outcome_partial",
    "RK.C36_rejects_unterminated",
    "RK.C36_short_numbers_fit",
    "RK.C36_too_large_accepted_violated",
    "RK.C36_eleven_bytes_undefined",
    "RK.C36_zigzag_decode_encode",
    "RK.C36_zigzag_encode_decode"
   ],
   "note": "All outcomes classified for every input. Violated by the code: ten byte numbers of more than 64 bits are accepted (value modulo 2^64); some eleven byte numbers cause an undefined shift."
  },
  {
   "property": "C37",
   "status": "partial",
   "theorems": [
    "RK.C37_outcome_partial",
    "RK.C37_accepts_exactly_messages",
    "RK.C37_decodes_every_message",
    "RK.C37_unambiguous",
    "RK.C37_defined"
   ],
   "note": "Accepted inputs are exactly the encodings of the reported fields, numbers modulo 2^64; errors report the fields of a prefix. Undefined only where a number of more than ten bytes with tenth byte 0x81 occurs (violation, see C36). Callbacks receive floating point values as bytes."
  },
  {
   "property": "C38",
   "status": "partial",
   "theorems": [
    "RK.C38_no_data_race_partial",
    "RK.C38_steps_change_only_what_they_write",
    "RK.C38_throwing_source_data_race_violated",
    "RK.C38_reads_are_sequential",
    "RK.C38_buffers_remain_intact",
    "RK.C38_no_conflicting_accesses",
    "RK.C38_no_deadlock",
    "RK.C38_steps_bounded",
    "RK.C38_calls_return_partial",
    "RK.C38_throwing_source_deadlock_violated",
    "RK.C38_exception_data_race_violated",
    "RK.C38_large_blocks_undefined"
   ],
   "note": "All schedules, chunkings and call sequences; block sizes below 2^32/6. Calls return for sources that do not throw; for throwing sources a lost wake-up is shown. Sequentially consistent memory, which is what the language guarantees without data races: there are none if the source does not throw (C38_no_data_race_partial), but there is one on the exception pointer otherwise."
  },
  {
   "property": "C39",
   "status": "proved",
   "theorems": [
    "RK.C39_lookup_after_any_history",
    "RK.C39_iteration",
    "RK.C39_more_than_65536_violated",
    "RK.C39_clear_keeps_size"
   ],
   "note": "Any history of build and clear on a new map; at most 65536 pairs per build (more are shown to fail)."
  },
  {
   "property": "C40",
   "status": "partial",
   "theorems": [
    "RK.Props.C40_find_all_on_earth",
    "RK.Props.C40_find_all_exact",
    "RK.Props.C40_nearest_neighbor_partial",
    "RK.Props.C40_point_on_the_radius_missed_violated"
   ],
   "note": "Every metric with values in an ordered commutative group, every permitted nth_element. find_all is exact. find_nearest: a point exactly at distance radius may be missed (shown); otherwise exact. Exact arithmetic; for rounding see C85."
  },
  {
   "property": "C41",
   "status": "proved",
   "theorems": [
    "RK.Props.C41_every_node_once",
    "RK.Props.C41_order_of_graph",
    "RK.Props.C41_no_nodes_undefined",
    "RK.Props.C41_empty_separator_never_returns"
   ],
   "note": "For every separator function that marks at least one node of each connected fragment with at least two nodes. Outside of that: graphs without nodes (C41_no_nodes_undefined) and empty separators (C41_empty_separator_never_returns)."
  },
  {
   "property": "C42",
   "status": "proved",
   "theorems": [
    "RK.Props.C42_advance_finishes",
    "RK.Props.C42_advance_progress",
    "RK.Props.C42_source_cut",
    "RK.Props.C42_target_cut",
    "RK.Props.C42_balanced_cut",
    "RK.Props.C42_unfinished_aborts",
    "RK.Props.C42_pick_smaller_side"
   ],
   "note": "All valid fragments with fewer than 2^32 arcs and all source/target sets that satisfy the assertions of the constructor; constructor, any number of advance calls, the three cut functions and pick_smaller_side. Calling a cut function before the flow is finished fails its assertion (C42_unfinished_aborts)."
  },
  {
   "property": "C43",
   "status": "proved",
   "theorems": [
    "RK.Props.C43_separator",
    "RK.Props.C43_separator_not_empty"
   ],
   "note": "all valid fragments and all cuts; a connected fragment and a proper cut give a non-empty separator"
  },
  {
   "property": "C44",
   "status": "proved",
   "theorems": [
    "RK.Props.C44_make_graph_fragment",
    "RK.Props.C44_adjacency",
    "RK.Props.C44_too_many_arcs_undefined"
   ],
   "note": "all inputs with fewer than 2^31 arcs that are no loops; with more the code writes out of bounds, also proved"
  },
  {
   "property": "C45",
   "status": "partial",
   "theorems": [
    "RK.Props.C45_rounding_only_coordinates",
    "RK.Props.C45_double_unordered",
    "RK.Props.C45_double_ordered",
    "RK.C45_dense_partial",
    "RK.C45_dense_offsets_violated",
    "RK.C45_offset_encoding_violated",
    "RK.C45_sparse_violated"
   ],
   "note": "Proved for dense nodes with offsets zero and any granularity (exact arithmetic; with coordinates of type double, added up as the decoder does, the calls are the same for all bytes and the coordinates of valid files are within 0.0000026 degrees, C45_double_unordered). False otherwise: offsets are decoded wrongly, exchanged and added once per node; sparse nodes are always reported at (0,0) with the encoded id."
  },
  {
   "property": "C46",
   "status": "proved",
   "theorems": [
    "RK.Props.C46_speed_positive",
    "RK.Props.C46_speed_limits",
    "RK.Props.C46_travel_times",
    "RK.Props.C46_long_arc_violated",
    "RK.Props.C46_large_number_wraps",
    "RK.Props.C46_space_behind_unit_violated",
    "RK.Props.C46_long_value_cut_violated"
   ],
   "note": "Speed never zero for all tags; the value for lists of limits in km/h, mph and knots; travel times exact for arcs up to 238609 m. Longer arcs overflow (C46_long_arc_violated); also recorded: numbers wrap at 2^32, a space behind a unit loses the unit, only 1022 characters are read."
  },
  {
   "property": "C47",
   "status": "partial",
   "theorems": [
    "RK.Props.C47_vector_round_trip_partial",
    "RK.Props.C47_value_round_trip",
    "RK.Props.C47_load_vector_any_file",
    "RK.Props.C47_load_value_any_file",
    "RK.Props.C47_full_device_unnoticed",
    "RK.Props.C47_empty_vector_hardened_aborts",
    "RK.Props.C47_strings_round_trip",
    "RK.Props.C47_unterminated_string_dropped",
    "RK.Props.C47_strings_unopened_unnoticed",
    "RK.Props.C47_bit_vector_round_trip",
    "RK.Props.C47_load_bit_vector_rejects",
    "RK.Props.C47_dirty_padding_accepted",
    "RK.Props.C47_huge_size_undefined"
   ],
   "note": "Round trips proved for all element types, vectors, strings without NUL and bit vectors, all device sizes that suffice and all buffer behaviours; hardened builds abort for empty vectors (C47_empty_vector_hardened_aborts). Negations: full device, unopened string file, foreign bit vector files."
  },
  {
   "property": "C48",
   "status": "partial",
   "theorems": [
    "RK.Props.C48_keeps_exactly_the_arcs_of_shortest_paths_partial",
    "RK.Props.C48_query_histories_partial",
    "RK.Props.C48_filtered_keeps_too_much_violated",
    "RK.Props.C48_filtered_aborts_violated"
   ],
   "note": "Proved for hierarchies built without filtering (the default of the constructor): debug and release builds, all metrics, all memory contents: the function returns, keeps exactly the arcs that are shortest, leaves distances in the metric, and queries on the result are exact for all call histories. Violated for filtered hierarchies: witnesses C48_filtered_keeps_too_much_violated and C48_filtered_aborts_violated."
  },
  {
   "property": "C49",
   "status": "proved",
   "theorems": [
    "RK.Props.C49_find_arc_or_return_invalid",
    "RK.Props.C49_find_arc_or_return_invalid_given_sorted_head",
    "RK.Props.C49_find_arc"
   ],
   "note": "All well-formed adjacency arrays."
  },
  {
   "property": "C50",
   "status": "partial",
   "theorems": [
    "RK.Props.C50_check_contraction_hierarchy_partial",
    "RK.Props.C50_bad_order_aborts"
   ],
   "note": "Full decision theorem if the order is a permutation (fewer than 2^32-1 nodes). Violated otherwise: C50_bad_order_aborts shows that the check aborts instead of throwing."
  },
  {
   "property": "C51",
   "status": "proved",
   "theorems": [
    "RK.Props.C51_great_circle_distance",
    "RK.Props.C51_acos_defined",
    "RK.Props.C51_metric",
    "RK.Props.C51_positive",
    "RK.Props.C51_construction_formula"
   ],
   "note": "Exact real arithmetic; rounding is not modelled."
  },
  {
   "property": "C52",
   "status": "proved",
   "theorems": [
    "RK.Props.C52_components",
    "RK.Props.C52_no_nodes_undefined"
   ],
   "note": "Fragments with at least one node and fewer than 2^32 nodes and arcs; without nodes the function is undefined (C52_no_nodes_undefined)."
  },
  {
   "property": "C53",
   "status": "proved",
   "theorems": [
    "RK.Props.C53_decomposition"
   ],
   "note": "Same hypotheses as C41; the fragments of the dissection, the order and the tree entries."
  },
  {
   "property": "C54",
   "status": "proved",
   "theorems": [
    "RK.Props.C54_inertial_flow",
    "RK.Props.C54_balance",
    "RK.Props.C54_large_graph_balance_violated",
    "RK.Props.C54_balance_above_half_aborts",
    "RK.Props.C54_single_node_aborts",
    "RK.Props.C54_best_ratio",
    "RK.Props.C54_separator",
    "RK.Props.C54_order"
   ],
   "note": "Coordinates of any type with a strict weak order (float without NaN). The 32-bit product node_count*min_balance is modelled: above 2^32/min_balance nodes the balance is lost (C54_large_graph_balance_violated), C54_balance states the bound below that."
  },
  {
   "property": "C55",
   "status": "partial",
   "theorems": [
    "RK.C55_block_partial",
    "RK.C55_blocks_partial",
    "RK.C55_reserved_id_rejected_violated",
    "RK.C55_string_index_undefined",
    "RK.C55_tags_of_other_objects_violated"
   ],
   "note": "Proved for all valid blocks in the scope of the statement, except ways and relations with id -1, which are rejected. Violations: string index equal to the table size is undefined, enumerating the tags of untagged dense nodes shows tags of earlier objects (look up is proved correct)."
  },
  {
   "property": "C56",
   "status": "partial",
   "theorems": [
    "RK.C56_unordered_partial",
    "RK.C56_ordered_partial",
    "RK.C56_assume_ordered",
    "RK.C56_sorted_not_recognised_violated",
    "RK.C56_unknown_features_accepted_violated",
    "RK.C56_bare_header_accepted",
    "RK.C56_bare_header_unknown_feature",
    "RK.C56_long_feature_name_undefined",
    "RK.C56_empty_file_never_returns",
    "RK.C56_truncated_file_throws",
    "RK.C56_trailing_bytes_ignored_violated",
    "RK.C56_truncated_unknown_block_violated",
    "RK.C56_own_ntohl",
    "RK.Props.C56_order_decision",
    "RK.Props.C56_waiting_ends_iff",
    "RK.Props.C56_status_data_race_violated"
   ],
   "note": "Proved for valid files in the scope of C55, zlib as a parameter, little endian. Incomplete data blocks throw. Violations: trailing bytes ignored, incomplete unknown blocks decoded as blocks, header features never seen, ordered reading of an empty file does not return. The status word is read and written concurrently without synchronisation, a data race for every valid file (C56_status_data_race_violated); the decision to read the file once does not depend on the schedule (C56_order_decision, interleaving)."
  },
  {
   "property": "C57",
   "status": "partial",
   "theorems": [
    "RK.Props.C57_car_direction_rule",
    "RK.Props.C57_bicycle_direction_rule",
    "RK.Props.C57_roundabout_directions",
    "RK.Props.C57_car_access_partial",
    "RK.Props.C57_junction_access_ignored_violated",
    "RK.Props.C57_bicycle_access_partial",
    "RK.Props.C57_pedestrian_rule",
    "RK.Props.C57_car_rule",
    "RK.Props.C57_bicycle_rule",
    "RK.Props.C57_car_oneway",
    "RK.Props.C57_car_implied_oneway",
    "RK.Props.C57_unknown_oneway_violated",
    "RK.Props.C57_bicycle_unknown_oneway",
    "RK.Props.C57_bicycle_oneway",
    "RK.Props.C57_ferry_only_for_cars_violated",
    "RK.Props.C57_comfort_level"
   ],
   "note": "Proved outside junctions and ferries; the code violates the rest: junctions ignore access tags, unknown oneway values leave ways open for cars, ferry=yes is only used by cars. Who may walk, drive and ride is characterised exactly for all tags (C57_pedestrian_rule, C57_car_rule, C57_bicycle_rule), and so are the directions for cars and bicycles (C57_car_direction_rule, C57_bicycle_direction_rule)."
  },
  {
   "property": "C58",
   "status": "proved",
   "theorems": [
    "RK.Props.C58_turn_restrictions",
    "RK.Props.C58_other_relations"
   ],
   "note": "Full statement."
  },
  {
   "property": "C59",
   "status": "proved",
   "theorems": [
    "RK.Props.C59_id_mapping",
    "RK.Props.C59_routing_nodes_are_modelling_nodes",
    "RK.Props.C59_negative_id_never_returns"
   ],
   "note": "File level, for ids in 0..2^63-1; callbacks are functions of the id and of the lookup of tags. Negative ids: C59_negative_id_never_returns."
  },
  {
   "property": "C60",
   "status": "proved",
   "theorems": [
    "RK.Props.C60_length_undefined",
    "RK.Props.C60_routing_graph",
    "RK.Props.C60_segments",
    "RK.Props.C60_mapping_and_graph",
    "RK.Props.C60_unfitting_way_undefined",
    "RK.Props.C60_assertion_aborts"
   ],
   "note": "Preconditions: nonnegative ids, the mapping fits the file (proved for the mapping of load_osm_id_mapping_from_pbf when no way id occurs with two node lists), every length fits in 32 bits, fewer than 2^31 stored geometry points. Floating point operations are an abstract structure. Also proved: with assertions the mapping of a one-way file aborts; a way version which is not the one used for the mapping is undefined."
  },
  {
   "property": "C61",
   "status": "proved",
   "theorems": [
    "RK.Props.C61_forbidden_turns",
    "RK.Props.C61_consecutive",
    "RK.Props.C61_mapping_and_turns",
    "RK.Props.C61_two_arcs_ambiguous",
    "RK.Props.C61_straight_on_dead_end",
    "RK.Props.C61_straight_on_u_turn"
   ],
   "note": "For files with valid ids, mappings that fit the file (those computed from the same file do), fewer than 2^31 stored nodes and 2^32 arcs; whether a turn fits to a direction (floating point angles) is a parameter. What restrictions without via node mean in corner cases: C61_two_arcs_ambiguous, C61_straight_on_dead_end, C61_straight_on_u_turn."
  },
  {
   "property": "C62",
   "status": "proved",
   "theorems": [
    "RK.Props.C62_restrictions_decoded",
    "RK.Props.C62_car_graph",
    "RK.Props.C62_pedestrian_graph",
    "RK.Props.C62_bicycle_graph"
   ],
   "note": "Without debug assertions (with them: C60_assertion_aborts). Arcs of at most 238609 metres have the exact travel time, longer ones wrap (C46_long_arc_violated). Fewer than 2^30 arcs, lengths that can be converted to unsigned."
  },
  {
   "property": "C63",
   "status": "proved",
   "theorems": [
    "RK.Props.C63_query_histories",
    "RK.Props.C63_table_computable",
    "RK.Props.C63_one_to_one",
    "RK.Props.C63_associative_link",
    "RK.Props.C63_concatenation",
    "RK.Props.C63_lengths",
    "RK.Props.C63_saturated_unsigned",
    "RK.Props.C63_saturated_unsigned_associative",
    "RK.Props.C63_saturated_int",
    "RK.Props.C63_saturated_int_depends_on_bracketing",
    "RK.Props.C63_small_containers_undefined"
   ],
   "note": "Link functions that throw are not modelled. The type of the weights is fixed within one history."
  },
  {
   "property": "C64",
   "status": "proved",
   "theorems": [
    "RK.Props.C64_import_valid",
    "RK.Props.C64_import_rejects",
    "RK.Props.C64_import_result",
    "RK.Props.C64_import_defined",
    "RK.Props.C64_accepted_lines",
    "RK.Props.C64_no_header_undefined",
    "RK.Props.C64_arc_count_wraps",
    "RK.Props.C64_largest_node_count_undefined",
    "RK.Props.C64_export_valid",
    "RK.Props.C64_round_trip",
    "RK.Props.C64_export_rejects",
    "RK.Props.C64_export_unchecked_undefined",
    "RK.Props.C64_import_lenient",
    "RK.Props.C64_import_crlf"
   ],
   "note": "Work on the text and the vectors; saving and loading vector files is C47. Number and word extraction as in libstdc++. Findings: a text without header reads an uninitialised variable (C64_no_header_undefined), 2^32-1 nodes write out of bounds, the arc count is compared modulo 2^32, negative numbers wrap and trailing characters are ignored (C64_import_lenient), empty lines of files with Windows line breaks are rejected, graphs without arcs cannot be exported, export uses first_out before checking it."
  },
  {
   "property": "C65",
   "status": "partial",
   "theorems": [
    "RK.Props.C65_encode_int",
    "RK.Props.C65_encode_int_rejects",
    "RK.Props.C65_int_round_trip_partial",
    "RK.Props.C65_uint64_round_trip",
    "RK.Props.C65_string_round_trip_iff",
    "RK.Props.C65_string_violated",
    "RK.Props.C65_bytes_violated",
    "RK.Props.C65_float_violated",
    "RK.Props.C65_encode_lenient"
   ],
   "note": "Proved for the six integer types of at least 16 bits. Violated by the code for strings that contain a backslash followed by n (C65_string_round_trip_iff characterises the strings that survive), for all non-empty int8 and uint8 vectors (C65_bytes_violated) and for floating point vectors (C65_float_violated; see C90)."
  },
  {
   "property": "C66",
   "status": "partial",
   "theorems": [
    "RK.Props.C66_graph_accepted_iff_partial",
    "RK.Props.C66_graph_undefined_iff",
    "RK.Props.C66_profiles_accepted_iff_partial",
    "RK.Props.C66_profiles_undefined_iff",
    "RK.Props.C66_td_graph_accepted_iff_partial",
    "RK.Props.C66_td_graph_undefined_iff",
    "RK.Props.C66_queries",
    "RK.Props.C66_ambiguous_profile_accepted"
   ],
   "note": "Accepting exactly the well-formed data is proved for all four checks. The claim that everything else is reported fails for one input of each check: for an empty offset vector front() is undefined (C66_graph_undefined_iff, C66_profiles_undefined_iff show that this is the only case)."
  },
  {
   "property": "C67",
   "status": "proved",
   "theorems": [
    "RK.Props.C67_renumbered",
    "RK.Props.C67_distances",
    "RK.Props.C67_rejected_iff",
    "RK.Props.C67_decreasing_offsets_violated",
    "RK.Props.C67_decreasing_offsets_undefined",
    "RK.Props.C67_no_arcs_rejected"
   ],
   "note": "For graphs with at least one arc (others are rejected, C67_no_arcs_rejected). Decreasing offsets are not noticed by the tool (C67_decreasing_offsets_violated, C67_decreasing_offsets_undefined); all other malformed input is reported (C67_rejected_iff)."
  },
  {
   "property": "C68",
   "status": "partial",
   "theorems": [
    "RK.Props.C68_small_graphs",
    "RK.Props.C68_tight_graphs",
    "RK.Props.C68_positive_graphs",
    "RK.Props.C68_run_dijkstra",
    "RK.Props.C68_run_dijkstra_small",
    "RK.Props.C68_compute_and_query_partial",
    "RK.Props.C68_tools_agree_partial",
    "RK.Props.C68_compute_rejects",
    "RK.Props.C68_dijkstra_rejects",
    "RK.Props.C68_no_queries_undefined",
    "RK.Props.C68_missing_targets_undefined",
    "RK.Props.C68_no_arcs_undefined"
   ],
   "note": "Proved for run_dijkstra in full (sums of a distance and an arc below 2^32). For the hierarchy tools: given that the construction returned a hierarchy with light arcs that fits the disk; without any condition on the hierarchy for graphs of at most 26 nodes with 2^n * W <= (2^32-1)/12, and for graphs of at most 250 nodes without cycles of weight zero and n * W <= (2^32-1)/12. Findings: no queries -> division by zero; fewer targets than sources read out of bounds; run_dijkstra on a graph without arcs is undefined."
  },
  {
   "property": "C69",
   "status": "partial",
   "theorems": [
    "RK.Props.C69_histories",
    "RK.Props.C69_whole_file",
    "RK.Props.C69_size_violated",
    "RK.Props.C69_no_leak_partial",
    "RK.Props.C69_move_assignment_leaks",
    "RK.Props.C69_stale_reader_violated"
   ],
   "note": "Proved for all histories of open, close, rewind, read and moves (POSIX variant; files do not change while open, read fails only for closed descriptors). Violations proved in general: size() throws for every open file (inverted test of fstat), move assignment to an object with an open file loses the descriptor for good; without it no descriptor is lost (C69_no_leak_partial). A function object obtained before close reads from another file (witness)."
  },
  {
   "property": "C70",
   "status": "proved",
   "theorems": [
    "RK.Props.C70_rank_queries",
    "RK.Props.C70_rank_queries_small",
    "RK.Props.C70_few_are_closer",
    "RK.Props.C70_rank_present_iff",
    "RK.Props.C70_rejects",
    "RK.Props.C70_no_nodes_undefined",
    "RK.Props.C70_short_weight_undefined"
   ],
   "note": "Every input; the random numbers are a parameter. Two undefined cases (no nodes, short weight vector) proved as findings."
  },
  {
   "property": "C71",
   "status": "partial",
   "theorems": [
    "RK.Props.C71_coordinates_valid",
    "RK.Props.C71_coordinates_rejects",
    "RK.Props.C71_coordinates_any_partial",
    "RK.Props.C71_accepted_lines",
    "RK.Props.C71_no_header_undefined",
    "RK.Props.C71_coordinates_lenient",
    "RK.Props.C71_positions_rounded"
   ],
   "note": "Proved for all texts with a header. Violated for texts without a header (uninitialised node count is read: C71_no_header_undefined); numbers are read leniently (C71_coordinates_lenient). The conversion of a number to float is a parameter; with IEEE rounding in C71_positions_rounded."
  },
  {
   "property": "C72",
   "status": "partial",
   "theorems": [
    "RK.Props.C72_first_min",
    "RK.Props.C72_first_max",
    "RK.Props.C72_empty",
    "RK.Props.C72_min_to",
    "RK.Props.C72_same_iff_partial",
    "RK.Props.C72_differ",
    "RK.Props.C72_sizes",
    "RK.Props.C72_strings",
    "RK.Props.C72_nan",
    "RK.Props.C72_max_of_tools"
   ],
   "note": "Proved for totally ordered element types. Violated for floating point vectors with NaN, which count as equal to everything (C72_nan)."
  },
  {
   "property": "C73",
   "status": "partial",
   "theorems": [
    "RK.Props.C73_extract_partial",
    "RK.Props.C73_no_arcs_undefined"
   ],
   "note": "Proved for files with at least one arc for cars. Violated for files without: the report reads behind the end of a vector (C73_no_arcs_undefined). Travel times wrap for arcs longer than 238609 m (C46). Without debug assertions."
  },
  {
   "property": "C74",
   "status": "partial",
   "theorems": [
    "RK.Props.C74_order",
    "RK.Props.C74_exact",
    "RK.Props.C74_succeeds_partial",
    "RK.Props.C74_no_nodes_undefined",
    "RK.Props.C74_unchecked_files_undefined"
   ],
   "note": "Proved for all valid inputs. The tool checks none of its files: no nodes, missing coordinates and a head file of another graph are undefined behaviour instead of an error (theorems)."
  },
  {
   "property": "C75",
   "status": "partial",
   "theorems": [
    "RK.Props.C75_drawings_partial",
    "RK.Props.C75_node_count_undefined",
    "RK.Props.C75_unchecked_coordinates_undefined",
    "RK.Props.C75_positive_graphs"
   ],
   "note": "Proved for pairs of nodes and for numbers above the number of nodes (for hierarchies whose arcs are light, see C20). Violated for the number of nodes itself, which passes the check and is undefined behaviour, and for coordinate files that are too short (theorems). Without any condition on the hierarchy for graphs of at most 250 nodes without cycles of weight 0 (C75_positive_graphs). The printed text is C92."
  },
  {
   "property": "C76",
   "status": "partial",
   "theorems": [
    "RK.Props.C76_weights_partial",
    "RK.Props.C76_weights_rejects",
    "RK.Props.C76_weights_undefined",
    "RK.Props.C76_dot_partial",
    "RK.Props.C76_dot_faithful",
    "RK.Props.C76_dot_undefined_iff",
    "RK.Props.C76_dot_isolated_nodes_lost",
    "RK.Props.C76_svg_partial",
    "RK.Props.C76_svg_same_latitude_not_a_number",
    "RK.Props.C76_svg_undefined"
   ],
   "note": "Proved for valid graphs with coordinates for each node (drawings with exact arithmetic; with float arithmetic and the text of the file in C91). Violated for input that does not fit together (undefined behaviour, theorems), and for drawings of graphs on a single latitude, whose coordinates are not numbers."
  },
  {
   "property": "C77",
   "status": "partial",
   "theorems": [
    "RK.Props.C77_random_nodes_partial",
    "RK.Props.C77_random_nodes_of_vector",
    "RK.Props.C77_random_nodes_extend",
    "RK.Props.C77_test_queries",
    "RK.Props.C77_test_queries_independent",
    "RK.Props.C77_random_times_partial",
    "RK.Props.C77_constant_vector",
    "RK.Props.C77_constant_vector_fits",
    "RK.Props.C77_rejects",
    "RK.Props.C77_node_count_undefined",
    "RK.Props.C77_period_undefined",
    "RK.Props.C77_examine",
    "RK.Props.C77_file_name_taken_for_number",
    "RK.Props.C77_size_wraps"
   ],
   "note": "Proved for 1 to 2^31 nodes and for a period in that range. Violated otherwise: undefined behaviour for 0 or more than 2^31 (C77_node_count_undefined, C77_period_undefined), numbers are reduced modulo 2^32 (C77_constant_vector, C77_size_wraps), a file name that starts with a digit is taken for a number (C77_file_name_taken_for_number). The random engine is a parameter whose draws stay within their bounds."
  },
  {
   "property": "C78",
   "status": "proved",
   "theorems": [
    "RK.Props.C78_positive_graphs_fit",
    "RK.Props.C78_positive_graphs",
    "RK.Props.C78_build_returns",
    "RK.Props.C78_build_given_rank_returns",
    "RK.Props.C78_build_given_order_returns",
    "RK.Props.C78_small_graphs_fit",
    "RK.Props.C78_tight_graphs_fit",
    "RK.Props.C78_tight_graphs_hops_fit",
    "RK.Props.C78_small_graphs",
    "RK.Props.C78_tight_graphs"
   ],
   "note": "For valid arguments: if in all states the construction can reach the remaining arcs weigh at most (2^32-1)/12, ids for arcs are left and (for build) hop counts have 32-bit sums, the three functions return a hierarchy to which C22-C24 apply. This condition is proved for three classes of inputs: (1) 2^n * W <= (2^32-1)/12 and n <= 26 with any pop limit; (2) no cycles of weight zero, n * W <= (2^32-1)/12, n <= 65535 (for build 46340) and pop limit >= 2n; (3) tight arcs with the same bounds."
  },
  {
   "property": "C79",
   "status": "proved",
   "theorems": [
    "RK.Props.C79_only_needed_shortcuts",
    "RK.Props.C79_early_end_adds_shortcuts"
   ],
   "note": "For all states in which the arcs at the contracted node weigh at most (2^32-1)/12. With a smaller pop limit superfluous shortcuts are added (C79_early_end_adds_shortcuts)."
  },
  {
   "property": "C80",
   "status": "proved",
   "theorems": [
    "RK.C80_block",
    "RK.C80_unordered",
    "RK.C80_ordered",
    "RK.C80_outcome"
   ],
   "note": "all byte sequences; the listed contents for which the decoder is not defined are those of C36, C55 and C56 (each with a witness), so the list cannot be empty. Misaligned reads of fixed size fields are counted as defined; the data race on the status bits and memory exhaustion are not modelled."
  },
  {
   "property": "C81",
   "status": "proved",
   "theorems": [
    "RK.Props.C81_same_distance",
    "RK.Props.C81_small_graphs",
    "RK.Props.C81_tight_graphs",
    "RK.Props.C81_positive_graphs"
   ],
   "note": "General statement for any hierarchies built for the graph; the constructions are shown to succeed for graphs of at most 26 nodes with small weights, and for tight graphs and graphs without cycles of weight zero of at most 65535 nodes (pop limit at least 2n). Paths have to be shorter than inf_weight."
  },
  {
   "property": "C82",
   "status": "proved",
   "theorems": [
    "RK.Props.C82_arcs"
   ],
   "note": "Applied to C35 (C35_built_round_trip) and C68 (C68_small_graphs, C68_tight_graphs)."
  },
  {
   "property": "C83",
   "status": "partial",
   "theorems": [
    "RK.Props.C83_ch_partial",
    "RK.Props.C83_cch",
    "RK.Props.C83_dijkstra",
    "RK.Props.C83_zero_cycle_violated",
    "RK.Props.C83_long_path_violated"
   ],
   "note": "Proved for Dijkstra's algorithm and for queries on customizable contraction hierarchies without any condition on the weights (also as part of the histories of C34), and for queries on contraction hierarchies if no cycle has length 0. Violated by the code for contraction hierarchies in graphs with cycles of length 0 (two witnesses; the path can have many more nodes than the graph)."
  },
  {
   "property": "C84",
   "status": "proved",
   "theorems": [
    "RK.Props.C84_hierarchy_routes",
    "RK.Props.C84_customizable_routes",
    "RK.Props.C84_readme_program",
    "RK.Props.C84_readme_program_small"
   ],
   "note": "Premises of the theorems: CarFile (well-formed file, unique entities, at most 2^30 nodes and arcs, stretches of at most 198841 m so that the multiplication by 18000 does not wrap around); for contraction hierarchies of arbitrary size that the construction returned and that its arcs are light (as in C22); customizable contraction hierarchies need neither. Positions, distances and the length of a stretch in metres are abstract (FloatOps, IsMetric); decompression is a parameter."
  },
  {
   "property": "C85",
   "status": "partial",
   "theorems": [
    "RK.Props.C85_construction_error_partial",
    "RK.Props.C85_nearest_node_partial",
    "RK.Props.C85_nodes_in_radius_partial",
    "RK.Props.C85_same_position_undefined_violated",
    "RK.Props.C85_distance_error_partial",
    "RK.Props.C85_self_distance_partial",
    "RK.Props.C85_self_distance_nan_violated",
    "RK.Props.C85_own_position_missed_violated",
    "RK.Props.C85_nearest_partial",
    "RK.Props.C85_find_all_partial",
    "RK.Props.C85_nearest_on_earth_partial",
    "RK.Props.C85_find_all_on_earth_partial"
   ],
   "note": "Proved: the error bound of 1.5 m whenever the result is a number, and that it is not a number only for positions within 1.5 m of each other or of being antipodes; the distance to itself outside of latitudes 29.9..45.1; the whole index, including the float formula in construct_tree, for positions at least 1.5 m apart, at most 10000 km apart and away from the poles. Violated by the code (proved): at latitude 41.75 the distance of every position to itself is not a number, an index with a node there does not find it at its own position, and with two nodes on the same position the construction is undefined. Not modelled: -ffast-math."
  },
  {
   "property": "C86",
   "status": "partial",
   "theorems": [
    "RK.Props.C86_arc_lengths_history_partial",
    "RK.Props.C86_history_example_violated",
    "RK.Props.C86_arc_lengths_partial",
    "RK.Props.C86_same_position_violated",
    "RK.Props.C86_example_file_violated",
    "RK.Props.C86_coordinates",
    "RK.Props.C86_tool_weights_partial",
    "RK.Props.C86_tool_weights_violated"
   ],
   "note": "Proved with IEEE rounding for arcs whose consecutive nodes are at least 6 m apart (1.5 m for compute_geographic_distance_weights); violated by the code if consecutive nodes have the same position: the distance is not a number and its conversion is undefined behaviour. The coordinates are those which the decoder computes by adding up differences (C86_arc_lengths_history_partial). -ffast-math is not modelled."
  },
  {
   "property": "C87",
   "status": "partial",
   "theorems": [
    "RK.Props.C87_plane_direction_partial",
    "RK.Props.C87_restrictions_partial",
    "RK.Props.C87_ground_direction_partial",
    "RK.Props.C87_date_line_violated",
    "RK.Props.C87_high_latitude_violated"
   ],
   "note": "Proved with IEEE rounding for turns with latitudes and longitudes as coordinates of a plane, and for turns on the ground up to a distance from the borders of the directions that depends on the latitude (C87_ground_direction_partial: less than one degree up to latitude 10, 9 degrees up to latitude 30). Violated by the code beyond that: at the date line a left turn is taken for a right turn, and at a latitude of 60 degrees a left turn of 106 degrees is taken for a u-turn. -ffast-math is not modelled."
  },
  {
   "property": "C88",
   "status": "proved",
   "theorems": [
    "RK.Props.C88_pedestrian_routes",
    "RK.Props.C88_bicycle_routes"
   ],
   "note": "From the bytes of the file to the answers of queries, for both graphs and both kinds of hierarchies. Contraction hierarchies: given that the construction succeeds and has light arcs, as in C22 and C84; they are built and have light arcs if no trip and its return cost nothing together, and the costs of as many stretches as there are nodes fit (HierarchyBuilt); customizable ones without such a condition, up to 65535 nodes. The conversion of lengths to integers has to be defined (C86)."
  },
  {
   "property": "C89",
   "status": "partial",
   "theorems": [
    "RK.Props.C89_drive_times_partial",
    "RK.Props.C89_example_program_partial",
    "RK.Props.C89_small_networks_partial"
   ],
   "note": "Positions that are too close to each other are excluded, where the code has undefined behaviour or misses nodes (C85, C86). Given that the hierarchy is built and has light arcs (as in C22, C84), or without such a condition for networks with at most 250 routing nodes (C89_small_networks_partial). The trigonometric functions are assumed to have small errors (MathLib.Good, SingleLib.Good); -ffast-math is not modelled."
  },
  {
   "property": "C90",
   "status": "partial",
   "theorems": [
    "RK.Props.C90_float32_round_trip_partial",
    "RK.Props.C90_float64_round_trip_partial",
    "RK.Props.C90_float32_decimal",
    "RK.Props.C90_float64_decimal",
    "RK.Props.C90_float32_text_again",
    "RK.Props.C90_float64_text_again",
    "RK.Props.C90_encode_float32",
    "RK.Props.C90_encode_float64",
    "RK.Props.C90_encode_float_rejects",
    "RK.Props.C90_float32_violated",
    "RK.Props.C90_float64_largest_violated"
   ],
   "note": "Violated by the code for the largest numbers of type double (C90_float64_largest_violated: undefined conversion), therefore the round trip is proved up to 3.4 * 10^38 and 1.797 * 10^308. Coming back exactly is proved for numbers with at most 7 or 16 digits and for what was encoded from such decimal numbers, except for subnormal numbers and powers of two outside of 2^-10, ..., 2^23 (2^-22, ..., 2^53); it is violated for 2^24 (C90_float32_violated). Printing and reading are modelled after ISO C with the correct rounding of glibc and an 80 bit long double; the payload of not a number is not modelled."
  },
  {
   "property": "C91",
   "status": "partial",
   "theorems": [
    "RK.Props.C91_file_partial",
    "RK.Props.C91_same_latitude_not_a_number",
    "RK.Props.C91_outside_violated"
   ],
   "note": "graph_to_svg.cpp:41-77 with IEEE rounding, signed zeros, infinities and the characters of the file. Proved: one line per arc in order, every printed number within 0.001 of the exact position, horizontal positions in 0..300, vertical ones in -0.0001..300. The remaining part of the claim is violated by the code: C91_outside_violated exhibits a latitude (about 54.6) that is drawn at -3.05176e-05, and C91_same_latitude_not_a_number shows that -nan is written if all latitudes are equal."
  },
  {
   "property": "C92",
   "status": "partial",
   "theorems": [
    "RK.Props.C92_text_partial",
    "RK.Props.C92_positive_graphs"
   ],
   "note": "The characters of show_path.cpp:46-69 on top of the model of C75, for finite coordinates. Ten digits identify every number of type float including subnormal ones (identifies_printTen). Conditions as in C75: the hierarchy the tool builds has no weight overflow; a number equal to the number of nodes is undefined behaviour (C75_node_count_undefined). Without any condition on the hierarchy for graphs of at most 250 nodes without cycles of weight 0 (C92_positive_graphs)."
  },
  {
   "property": "C93",
   "status": "partial",
   "theorems": [
    "RK.Props.C93_races_partial",
    "RK.Props.C93_outdated_loads_partial",
    "RK.Props.C93_steps_access_only_one_weight",
    "RK.Props.C93_data_race_violated"
   ],
   "note": "The first sentence is violated (C93_data_race_violated): atomic_min_to loads the weight with a plain load while another iteration replaces it with compare-and-swap. C93_races_partial: this is the only kind of race. C93_outdated_loads_partial: the metric is the sequential one even if these loads return any value since the last barrier. Not modelled: a compiler that loads the weight twice, and the assignment of blocks of 256 iterations to threads (every iteration is a thread of its own)."
  },
  {
   "property": "C94",
   "status": "proved",
   "theorems": [
    "RK.Props.C94_is_permutation",
    "RK.Props.C94_equally_likely",
    "RK.Props.C94_random_renumbering"
   ],
   "note": "std::shuffle is modelled as the exchange of each element with one at a random position up to it, as in the common standard libraries; the random positions are arbitrary. That they are independent and uniformly distributed is a matter of the random generator and not part of the model."
  },
  {
   "property": "C95",
   "status": "proved",
   "theorems": [
    "RK.Props.C95_every_program",
    "RK.Props.C95_value_semantics",
    "RK.Props.C95_no_leak",
    "RK.Props.C95_strong_exception_guarantee"
   ],
   "note": "Objects with pointers to blocks; the environment decides for every allocation whether it fails. Legal programs are those whose objects exist, positions are in range and sizes agree; resize(n, true) is excluded where it is defective (C12). The allocator itself (aligned_alloc/aligned_free) is taken as one that returns fresh blocks or fails."
  },
  {
   "property": "C96",
   "status": "partial",
   "theorems": [
    "RK.Props.C96_every_program_partial",
    "RK.Props.C96_malloc_fails_violated"
   ],
   "note": "Proved for allocations that succeed; violated by the code if malloc returns null: it stores a byte at an address below the alignment (63 for bit vectors) instead of returning null, so std::bad_alloc is never thrown (C96_malloc_fails_violated). malloc itself is an environment that returns blocks that are not in use."
  },
  {
   "property": "C97",
   "status": "proved",
   "theorems": [
    "RK.Props.C97_enumerations",
    "RK.Props.C97_numbering",
    "RK.Props.C97_verifier_accepts"
   ],
   "note": "The loops with the callback inside, for callbacks with a state; the list versions used elsewhere in the model report the same arcs."
  },
  {
   "property": "C98",
   "status": "proved",
   "theorems": [
    "RK.Props.C98_popcountll",
    "RK.Props.C98_popcount",
    "RK.Props.C98_ffsll",
    "RK.Props.C98_vector_register",
    "RK.Props.C98_cas_is_atomic",
    "RK.Props.C98_cas_loses_nothing",
    "RK.Props.C98_cas_no_deadlock",
    "RK.Props.C98_cas_exclusive"
   ],
   "note": "Sequentially consistent interleavings of lock, compare, store and unlock. That the load outside of the mutex is formally a data race of the language is the subject of C93; plain stores to a variable under compare and swap are outside of the programs considered (the code has none)."
  },
  {
   "property": "C99",
   "status": "partial",
   "theorems": [
    "RK.Props.C99_histories_partial",
    "RK.Props.C99_whole_file",
    "RK.Props.C99_size_violated",
    "RK.Props.C99_failed_read_is_forever",
    "RK.Props.C99_no_file_is_undefined"
   ],
   "note": "Violated in three places, each proved: size() returns 2^64-1 without exception if the second ftell fails, the error indicator survives rewind() so that all later reads throw, and rewind() or read() without an open file hand a null pointer to the C library. The rest is proved for every history. Moves are not part of this model."
  },
  {
   "property": "C100",
   "status": "proved",
   "theorems": [
    "RK.Props.C100_stable_sort_using_key",
    "RK.Props.C100_sort_using_key",
    "RK.Props.C100_same_as_copying",
    "RK.Props.C100_comparator"
   ],
   "note": "std::sort is any function within its contract, std::stable_sort is merge sort, as for C06."
  },
  {
   "property": "C101",
   "status": "partial",
   "theorems": [
    "RK.Props.C101_life_partial",
    "RK.Props.C101_nothing_leaks_partial",
    "RK.Props.C101_failed_construction_ends_the_program"
   ],
   "note": "The code violates the last sentence: if the buffer or the thread cannot be obtained, the destructor of the record joins a thread that was never started, throws inside a destructor and the program ends (proved for every state). The rest is proved for all histories in which buffers and threads can be obtained. Time and the thread itself are not part of this model; C38 has the protocol between reader and thread."
  },
  {
   "property": "C102",
   "status": "partial",
   "theorems": [
    "RK.Props.C102_messages",
    "RK.Props.C102_valid_files",
    "RK.Props.C102_every_object_once_partial",
    "RK.Props.C102_rest_not_reported",
    "RK.Props.C102_needs_log"
   ],
   "note": "The code violates 'together they count every object': what is read after the last report is in no report (C102_rest_not_reported: of a file read within a second only the first object is). Everything else is proved; the reports and the unreported rest cover every object exactly once. Counters are unbounded instead of 64 bits wide, the clock is an arbitrary function to integers."
  },
  {
   "property": "C103",
   "status": "proved",
   "theorems": [
    "RK.Props.C103_programs",
    "RK.Props.C103_hierarchy_gone"
   ],
   "note": "Proved for all programs over any number of variables. The limits on weights and sizes are those of C22-C24 (light arcs, at most 2^30 nodes). Functions that do not dereference the pointer (such as get_distance) are treated as if they did."
  },
  {
   "property": "C104",
   "status": "partial",
   "theorems": [
    "RK.Props.C104_programs_partial",
    "RK.Props.C104_larger_graph_undefined",
    "RK.Props.C104_violated",
    "RK.Props.C104_old_graph_gone_undefined"
   ],
   "note": "The code violates the last sentence (C104_violated): reset(first_out, tail, head) reads the size of the vector at the old address to decide whether the arrays have to be resized. If the graph was replaced in place by a larger one, the arrays stay too small and add_source writes behind their end; if it was destroyed, the read is undefined. Proved for all programs in which at each such reset the variable of the old graph still exists and, if it then holds a graph as large as the new one, the old graph was as large, too. Objects are constructed for a graph (the default constructor is in C18)."
  }
 ]
}
{
 "C01": {
  "status": "proved",
  "note": "Histories of arbitrary length, id_count <= 2^30 (beyond that the 32-bit child index wraps, C01_child_index_wraps). Keys are arbitrary."
 },
 "C02": {
  "status": "proved",
  "note": "Histories of arbitrary length, covering the 16-bit timestamp wrap-around."
 },
 "C03": {
  "status": "proved",
  "note": "Histories of arbitrary length for n < 2^31-1 (beyond that the 32-bit array size wraps). pop on an empty queue is an assertion failure, contrary to its comment (C03_pop_empty_undefined)."
 },
 "C04": {
  "status": "proved",
  "note": "All laws for every permutation and every vector of matching size."
 },
 "C05": {
  "status": "partial",
  "note": "The in-place variant is proved correct. The non in-place variant violates the property in the code (it calls the function without invalid_id support): the negation is proved with a witness and for every input containing invalid_id; the _partial theorem covers vectors without invalid_id."
 },
 "C06": {
  "status": "proved",
  "note": "For all vectors and keys below key_count; std::sort is quantified over every implementation meeting its contract."
 },
 "C07": {
  "status": "proved",
  "note": "The _and_apply_sort_to_tail functions are proved for all arc lists. Additional finding: the variants that do not modify tail assert the wrong array and abort on unsorted input in debug builds (proved); they are correct in release builds (proved)."
 },
 "C08": {
  "status": "proved",
  "note": "All sorted vectors and all non-decreasing index vectors."
 },
 "C09": {
  "status": "proved",
  "note": "All filters and vectors of equal size."
 },
 "C10": {
  "status": "proved",
  "note": "Programs of arbitrary length over any number of bit vector variables of any size below 2^64-511."
 },
 "C11": {
  "status": "partial",
  "note": "All operations proved for programs of arbitrary length except are_all_set on positive multiples of 512 bits, where the code violates the property (it ignores the last 512 bits; proved in general with a witness)."
 },
 "C12": {
  "status": "partial",
  "note": "resize(n,false) and resize(n,Uninitialized) fully proved; resize(n,true) proved when shrinking, or when neither size is a multiple of 512, or on a default constructed vector. In the remaining cases the code violates the property (witnesses proved, including undefined behaviour)."
 },
 "C13": {
  "status": "proved",
  "note": "All reachable bit vectors."
 },
 "C14": {
  "status": "proved",
  "note": "All reachable bit vectors, including the 32-bit wrap of the select table counters."
 },
 "C15": {
  "status": "partial",
  "note": "node path -> arc path proved. arc path -> node path is violated by the code (entry 1 is never converted): negation proved with a witness, exact behaviour proved in the _partial theorem."
 },
 "C16": {
  "status": "proved",
  "note": "for any FIFO travel time function, any sources; scalar corollary"
 },
 "C17": {
  "status": "proved",
  "note": ""
 },
 "C18": {
  "status": "proved",
  "note": "all call histories incl. reset to other graphs"
 },
 "C19": {
  "status": "proved",
  "note": ""
 },
 "C20": {
  "status": "proved",
  "note": "Model of sort_arcs_and_remove_multi_and_loop_arcs. Also proves that distances are unchanged."
 },
 "C21": {
  "status": "proved",
  "note": "weights at contracted nodes at most (2^32-1)/12 so that no 32-bit sum wraps; up to 2^30 nodes"
 },
 "C22": {
  "status": "proved",
  "note": "For every hierarchy returned by build, build_given_rank or build_given_order whose arcs weigh at most (2^32-1)/12 each (a condition on the public weight vectors of the result; no sum wraps then). When the construction returns is C78. Without a bound on the weights the answer can be wrong though all weights are below inf_weight (C22_heavy_weights_violated)."
 },
 "C23": {
  "status": "proved",
  "note": "Same hypotheses as C22."
 },
 "C24": {
  "status": "proved",
  "note": "Same hypotheses as C22; the pinned list must not be longer than the number of nodes and not empty when answers are read (negation witnesses proved: C24_too_many_pinned_targets_undefined, C24_no_pinned_targets_undefined)."
 },
 "C25": {
  "status": "proved",
  "note": "Constructor modelled function by function, including sizes and exceptions; Props/Cch.lean. Zero nodes and an empty log_message make the constructor fail (separate theorems)."
 },
 "C26": {
  "status": "proved",
  "note": "Elimination tree of the constructor."
 },
 "C27": {
  "status": "proved",
  "note": "Weights at most inf_weight; larger weights wrap (C27_large_weights_wrap). Sequential customize."
 },
 "C28": {
  "status": "proved",
  "note": "Every interleaving of the memory accesses of the loop iterations (hence every assignment to threads) is undefined-behaviour free, finite and ends with the metric of the sequential customization. Accesses to single weights are assumed atomic and sequentially consistent; C93 shows which loads are formally data races in C++ and that outdated values of these loads do not change the metric."
 },
 "C29": {
  "status": "proved",
  "note": "Fewer than 2^31-1 hierarchy arcs (limit of the id queue, see C03)."
 },
 "C30": {
  "status": "proved",
  "note": "Histories of arbitrary length, every graph, node order, filter choice and weights up to inf_weight, any number of sources and targets with offsets; also one-to-one in elementary terms. Walks of length >= inf_weight count as unreachable."
 },
 "C31": {
  "status": "proved",
  "note": "Same generality as C30; arc paths, node paths, used source and target. Termination of the unpacking is part of the statement (the calls return)."
 },
 "C32": {
  "status": "proved",
  "note": "Same generality as C30, any number (> 0) of pinned nodes with repetitions, any number of runs; reading the distances for an empty list of pinned nodes is undefined behaviour (C32_no_pinned_targets_undefined)."
 },
 "C33": {
  "status": "proved",
  "note": "Arcs removed are exactly those without a directed path through lower nodes; all weights agree with the unfiltered hierarchy."
 },
 "C34": {
  "status": "proved",
  "note": "For objects constructed with a hierarchy resp. metric: after any legal history, reset() and reset(ch)/reset(metric) make every later answer identical to that of a new object, including the choice among several shortest paths. Default-constructed objects: works for non-empty contraction hierarchies, undefined for CCH queries (separate theorems). A query recognises a CCH by its address; replacing a CCH at the same address is undefined."
 },
 "C35": {
  "status": "partial",
  "note": "Streams and callbacks: full round trip. Files: full round trip below 2^32 words (about 2^30 arcs); every byte string: accepted only if it is what write produces. Violated for larger hierarchies (C35_large_file_rejected), default-constructed hierarchies, empty vectors in hardened builds; a full device is not noticed for small files."
 },
 "C36": {
  "status": "partial",
  "note": "All outcomes classified for every input. Violated by the code: ten byte numbers of more than 64 bits are accepted (value modulo 2^64); some eleven byte numbers cause an undefined shift."
 },
 "C37": {
  "status": "partial",
  "note": "Accepted inputs are exactly the encodings of the reported fields, numbers modulo 2^64; errors report the fields of a prefix. Undefined only where a number of more than ten bytes with tenth byte 0x81 occurs (violation, see C36). Callbacks receive floating point values as bytes."
 },
 "C38": {
  "status": "partial",
  "note": "All schedules, chunkings and call sequences; block sizes below 2^32/6. Calls return for sources that do not throw; for throwing sources a lost wake-up is shown. Sequentially consistent memory, which is what the language guarantees without data races: there are none if the source does not throw (C38_no_data_race_partial), but there is one on the exception pointer otherwise."
 },
 "C39": {
  "status": "proved",
  "note": "Any history of build and clear on a new map; at most 65536 pairs per build (more are shown to fail)."
 },
 "C40": {
  "status": "partial",
  "note": "Every metric with values in an ordered commutative group, every permitted nth_element. find_all is exact. find_nearest: a point exactly at distance radius may be missed (shown); otherwise exact. Exact arithmetic; for rounding see C85."
 },
 "C41": {
  "status": "proved",
  "note": "For every separator function that marks at least one node of each connected fragment with at least two nodes. Outside of that: graphs without nodes (C41_no_nodes_undefined) and empty separators (C41_empty_separator_never_returns)."
 },
 "C42": {
  "status": "proved",
  "note": "All valid fragments with fewer than 2^32 arcs and all source/target sets that satisfy the assertions of the constructor; constructor, any number of advance calls, the three cut functions and pick_smaller_side. Calling a cut function before the flow is finished fails its assertion (C42_unfinished_aborts)."
 },
 "C43": {
  "status": "proved",
  "note": "all valid fragments and all cuts; a connected fragment and a proper cut give a non-empty separator"
 },
 "C44": {
  "status": "proved",
  "note": "all inputs with fewer than 2^31 arcs that are no loops; with more the code writes out of bounds, also proved"
 },
 "C45": {
  "status": "partial",
  "note": "Proved for dense nodes with offsets zero and any granularity (exact arithmetic; with coordinates of type double, added up as the decoder does, the calls are the same for all bytes and the coordinates of valid files are within 0.0000026 degrees, C45_double_unordered). False otherwise: offsets are decoded wrongly, exchanged and added once per node; sparse nodes are always reported at (0,0) with the encoded id."
 },
 "C46": {
  "status": "proved",
  "note": "Speed never zero for all tags; the value for lists of limits in km/h, mph and knots; travel times exact for arcs up to 238609 m. Longer arcs overflow (C46_long_arc_violated); also recorded: numbers wrap at 2^32, a space behind a unit loses the unit, only 1022 characters are read."
 },
 "C47": {
  "status": "partial",
  "note": "Round trips proved for all element types, vectors, strings without NUL and bit vectors, all device sizes that suffice and all buffer behaviours; hardened builds abort for empty vectors (C47_empty_vector_hardened_aborts). Negations: full device, unopened string file, foreign bit vector files."
 },
 "C48": {
  "status": "partial",
  "note": "Proved for hierarchies built without filtering (the default of the constructor): debug and release builds, all metrics, all memory contents: the function returns, keeps exactly the arcs that are shortest, leaves distances in the metric, and queries on the result are exact for all call histories. Violated for filtered hierarchies: witnesses C48_filtered_keeps_too_much_violated and C48_filtered_aborts_violated."
 },
 "C49": {
  "status": "proved",
  "note": "All well-formed adjacency arrays."
 },
 "C50": {
  "status": "partial",
  "note": "Full decision theorem if the order is a permutation (fewer than 2^32-1 nodes). Violated otherwise: C50_bad_order_aborts shows that the check aborts instead of throwing."
 },
 "C51": {
  "status": "proved",
  "note": "Exact real arithmetic; rounding is not modelled."
 },
 "C52": {
  "status": "proved",
  "note": "Fragments with at least one node and fewer than 2^32 nodes and arcs; without nodes the function is undefined (C52_no_nodes_undefined)."
 },
 "C53": {
  "status": "proved",
  "note": "Same hypotheses as C41; the fragments of the dissection, the order and the tree entries."
 },
 "C54": {
  "status": "proved",
  "note": "Coordinates of any type with a strict weak order (float without NaN). The 32-bit product node_count*min_balance is modelled: above 2^32/min_balance nodes the balance is lost (C54_large_graph_balance_violated), C54_balance states the bound below that."
 },
 "C55": {
  "status": "partial",
  "note": "Proved for all valid blocks in the scope of the statement, except ways and relations with id -1, which are rejected. Violations: string index equal to the table size is undefined, enumerating the tags of untagged dense nodes shows tags of earlier objects (look up is proved correct)."
 },
 "C56": {
  "status": "partial",
  "note": "Proved for valid files in the scope of C55, zlib as a parameter, little endian. Incomplete data blocks throw. Violations: trailing bytes ignored, incomplete unknown blocks decoded as blocks, header features never seen, ordered reading of an empty file does not return. The status word is read and written concurrently without synchronisation, a data race for every valid file (C56_status_data_race_violated); the decision to read the file once does not depend on the schedule (C56_order_decision, interleaving)."
 },
 "C57": {
  "status": "partial",
  "note": "Proved outside junctions and ferries; the code violates the rest: junctions ignore access tags, unknown oneway values leave ways open for cars, ferry=yes is only used by cars. Who may walk, drive and ride is characterised exactly for all tags (C57_pedestrian_rule, C57_car_rule, C57_bicycle_rule), and so are the directions for cars and bicycles (C57_car_direction_rule, C57_bicycle_direction_rule)."
 },
 "C58": {
  "status": "proved",
  "note": "Full statement."
 },
 "C59": {
  "status": "proved",
  "note": "File level, for ids in 0..2^63-1; callbacks are functions of the id and of the lookup of tags. Negative ids: C59_negative_id_never_returns."
 },
 "C60": {
  "status": "proved",
  "note": "Preconditions: nonnegative ids, the mapping fits the file (proved for the mapping of load_osm_id_mapping_from_pbf when no way id occurs with two node lists), every length fits in 32 bits, fewer than 2^31 stored geometry points. Floating point operations are an abstract structure. Also proved: with assertions the mapping of a one-way file aborts; a way version which is not the one used for the mapping is undefined."
 },
 "C61": {
  "status": "proved",
  "note": "For files with valid ids, mappings that fit the file (those computed from the same file do), fewer than 2^31 stored nodes and 2^32 arcs; whether a turn fits to a direction (floating point angles) is a parameter. What restrictions without via node mean in corner cases: C61_two_arcs_ambiguous, C61_straight_on_dead_end, C61_straight_on_u_turn."
 },
 "C62": {
  "status": "proved",
  "note": "Without debug assertions (with them: C60_assertion_aborts). Arcs of at most 238609 metres have the exact travel time, longer ones wrap (C46_long_arc_violated). Fewer than 2^30 arcs, lengths that can be converted to unsigned."
 },
 "C63": {
  "status": "proved",
  "note": "Link functions that throw are not modelled. The type of the weights is fixed within one history."
 },
 "C64": {
  "status": "proved",
  "note": "Work on the text and the vectors; saving and loading vector files is C47. Number and word extraction as in libstdc++. Findings: a text without header reads an uninitialised variable (C64_no_header_undefined), 2^32-1 nodes write out of bounds, the arc count is compared modulo 2^32, negative numbers wrap and trailing characters are ignored (C64_import_lenient), empty lines of files with Windows line breaks are rejected, graphs without arcs cannot be exported, export uses first_out before checking it."
 },
 "C65": {
  "status": "partial",
  "note": "Proved for the six integer types of at least 16 bits. Violated by the code for strings that contain a backslash followed by n (C65_string_round_trip_iff characterises the strings that survive), for all non-empty int8 and uint8 vectors (C65_bytes_violated) and for floating point vectors (C65_float_violated; see C90)."
 },
 "C66": {
  "status": "partial",
  "note": "Accepting exactly the well-formed data is proved for all four checks. The claim that everything else is reported fails for one input of each check: for an empty offset vector front() is undefined (C66_graph_undefined_iff, C66_profiles_undefined_iff show that this is the only case)."
 },
 "C67": {
  "status": "proved",
  "note": "For graphs with at least one arc (others are rejected, C67_no_arcs_rejected). Decreasing offsets are not noticed by the tool (C67_decreasing_offsets_violated, C67_decreasing_offsets_undefined); all other malformed input is reported (C67_rejected_iff)."
 },
 "C68": {
  "status": "partial",
  "note": "Proved for run_dijkstra in full (sums of a distance and an arc below 2^32). For the hierarchy tools: given that the construction returned a hierarchy with light arcs that fits the disk; without any condition on the hierarchy for graphs of at most 26 nodes with 2^n * W <= (2^32-1)/12, and for graphs of at most 250 nodes without cycles of weight zero and n * W <= (2^32-1)/12. Findings: no queries -> division by zero; fewer targets than sources read out of bounds; run_dijkstra on a graph without arcs is undefined."
 },
 "C69": {
  "status": "partial",
  "note": "Proved for all histories of open, close, rewind, read and moves (POSIX variant; files do not change while open, read fails only for closed descriptors). Violations proved in general: size() throws for every open file (inverted test of fstat), move assignment to an object with an open file loses the descriptor for good; without it no descriptor is lost (C69_no_leak_partial). A function object obtained before close reads from another file (witness)."
 },
 "C70": {
  "status": "proved",
  "note": "Every input; the random numbers are a parameter. Two undefined cases (no nodes, short weight vector) proved as findings."
 },
 "C71": {
  "status": "partial",
  "note": "Proved for all texts with a header. Violated for texts without a header (uninitialised node count is read: C71_no_header_undefined); numbers are read leniently (C71_coordinates_lenient). The conversion of a number to float is a parameter; with IEEE rounding in C71_positions_rounded."
 },
 "C72": {
  "status": "partial",
  "note": "Proved for totally ordered element types. Violated for floating point vectors with NaN, which count as equal to everything (C72_nan)."
 },
 "C73": {
  "status": "partial",
  "note": "Proved for files with at least one arc for cars. Violated for files without: the report reads behind the end of a vector (C73_no_arcs_undefined). Travel times wrap for arcs longer than 238609 m (C46). Without debug assertions."
 },
 "C74": {
  "status": "partial",
  "note": "Proved for all valid inputs. The tool checks none of its files: no nodes, missing coordinates and a head file of another graph are undefined behaviour instead of an error (theorems)."
 },
 "C75": {
  "status": "partial",
  "note": "Proved for pairs of nodes and for numbers above the number of nodes (for hierarchies whose arcs are light, see C20). Violated for the number of nodes itself, which passes the check and is undefined behaviour, and for coordinate files that are too short (theorems). Without any condition on the hierarchy for graphs of at most 250 nodes without cycles of weight 0 (C75_positive_graphs). The printed text is C92."
 },
 "C76": {
  "status": "partial",
  "note": "Proved for valid graphs with coordinates for each node (drawings with exact arithmetic; with float arithmetic and the text of the file in C91). Violated for input that does not fit together (undefined behaviour, theorems), and for drawings of graphs on a single latitude, whose coordinates are not numbers."
 },
 "C77": {
  "status": "partial",
  "note": "Proved for 1 to 2^31 nodes and for a period in that range. Violated otherwise: undefined behaviour for 0 or more than 2^31 (C77_node_count_undefined, C77_period_undefined), numbers are reduced modulo 2^32 (C77_constant_vector, C77_size_wraps), a file name that starts with a digit is taken for a number (C77_file_name_taken_for_number). The random engine is a parameter whose draws stay within their bounds."
 },
 "C78": {
  "status": "proved",
  "note": "For valid arguments: if in all states the construction can reach the remaining arcs weigh at most (2^32-1)/12, ids for arcs are left and (for build) hop counts have 32-bit sums, the three functions return a hierarchy to which C22-C24 apply. This condition is proved for three classes of inputs: (1) 2^n * W <= (2^32-1)/12 and n <= 26 with any pop limit; (2) no cycles of weight zero, n * W <= (2^32-1)/12, n <= 65535 (for build 46340) and pop limit >= 2n; (3) tight arcs with the same bounds."
 },
 "C79": {
  "status": "proved",
  "note": "For all states in which the arcs at the contracted node weigh at most (2^32-1)/12. With a smaller pop limit superfluous shortcuts are added (C79_early_end_adds_shortcuts)."
 },
 "C80": {
  "status": "proved",
  "note": "all byte sequences; the listed contents for which the decoder is not defined are those of C36, C55 and C56 (each with a witness), so the list cannot be empty. Misaligned reads of fixed size fields are counted as defined; the data race on the status bits and memory exhaustion are not modelled."
 },
 "C81": {
  "status": "proved",
  "note": "General statement for any hierarchies built for the graph; the constructions are shown to succeed for graphs of at most 26 nodes with small weights, and for tight graphs and graphs without cycles of weight zero of at most 65535 nodes (pop limit at least 2n). Paths have to be shorter than inf_weight."
 },
 "C82": {
  "status": "proved",
  "note": "Applied to C35 (C35_built_round_trip) and C68 (C68_small_graphs, C68_tight_graphs)."
 },
 "C83": {
  "status": "partial",
  "note": "Proved for Dijkstra's algorithm and for queries on customizable contraction hierarchies without any condition on the weights (also as part of the histories of C34), and for queries on contraction hierarchies if no cycle has length 0. Violated by the code for contraction hierarchies in graphs with cycles of length 0 (two witnesses; the path can have many more nodes than the graph)."
 },
 "C84": {
  "status": "proved",
  "note": "Premises of the theorems: CarFile (well-formed file, unique entities, at most 2^30 nodes and arcs, stretches of at most 198841 m so that the multiplication by 18000 does not wrap around); for contraction hierarchies of arbitrary size that the construction returned and that its arcs are light (as in C22); customizable contraction hierarchies need neither. Positions, distances and the length of a stretch in metres are abstract (FloatOps, IsMetric); decompression is a parameter."
 },
 "C85": {
  "status": "partial",
  "note": "Proved: the error bound of 1.5 m whenever the result is a number, and that it is not a number only for positions within 1.5 m of each other or of being antipodes; the distance to itself outside of latitudes 29.9..45.1; the whole index, including the float formula in construct_tree, for positions at least 1.5 m apart, at most 10000 km apart and away from the poles. Violated by the code (proved): at latitude 41.75 the distance of every position to itself is not a number, an index with a node there does not find it at its own position, and with two nodes on the same position the construction is undefined. Not modelled: -ffast-math."
 },
 "C86": {
  "status": "partial",
  "note": "Proved with IEEE rounding for arcs whose consecutive nodes are at least 6 m apart (1.5 m for compute_geographic_distance_weights); violated by the code if consecutive nodes have the same position: the distance is not a number and its conversion is undefined behaviour. The coordinates are those which the decoder computes by adding up differences (C86_arc_lengths_history_partial). -ffast-math is not modelled."
 },
 "C87": {
  "status": "partial",
  "note": "Proved with IEEE rounding for turns with latitudes and longitudes as coordinates of a plane, and for turns on the ground up to a distance from the borders of the directions that depends on the latitude (C87_ground_direction_partial: less than one degree up to latitude 10, 9 degrees up to latitude 30). Violated by the code beyond that: at the date line a left turn is taken for a right turn, and at a latitude of 60 degrees a left turn of 106 degrees is taken for a u-turn. -ffast-math is not modelled."
 },
 "C88": {
  "status": "proved",
  "note": "From the bytes of the file to the answers of queries, for both graphs and both kinds of hierarchies. Contraction hierarchies: given that the construction succeeds and has light arcs, as in C22 and C84; they are built and have light arcs if no trip and its return cost nothing together, and the costs of as many stretches as there are nodes fit (HierarchyBuilt); customizable ones without such a condition, up to 65535 nodes. The conversion of lengths to integers has to be defined (C86)."
 },
 "C89": {
  "status": "partial",
  "note": "Positions that are too close to each other are excluded, where the code has undefined behaviour or misses nodes (C85, C86). Given that the hierarchy is built and has light arcs (as in C22, C84), or without such a condition for networks with at most 250 routing nodes (C89_small_networks_partial). The trigonometric functions are assumed to have small errors (MathLib.Good, SingleLib.Good); -ffast-math is not modelled."
 },
 "C90": {
  "status": "partial",
  "note": "Violated by the code for the largest numbers of type double (C90_float64_largest_violated: undefined conversion), therefore the round trip is proved up to 3.4 * 10^38 and 1.797 * 10^308. Coming back exactly is proved for numbers with at most 7 or 16 digits and for what was encoded from such decimal numbers, except for subnormal numbers and powers of two outside of 2^-10, ..., 2^23 (2^-22, ..., 2^53); it is violated for 2^24 (C90_float32_violated). Printing and reading are modelled after ISO C with the correct rounding of glibc and an 80 bit long double; the payload of not a number is not modelled."
 },
 "C91": {
  "status": "partial",
  "note": "graph_to_svg.cpp:41-77 with IEEE rounding, signed zeros, infinities and the characters of the file. Proved: one line per arc in order, every printed number within 0.001 of the exact position, horizontal positions in 0..300, vertical ones in -0.0001..300. The remaining part of the claim is violated by the code: C91_outside_violated exhibits a latitude (about 54.6) that is drawn at -3.05176e-05, and C91_same_latitude_not_a_number shows that -nan is written if all latitudes are equal."
 },
 "C92": {
  "status": "partial",
  "note": "The characters of show_path.cpp:46-69 on top of the model of C75, for finite coordinates. Ten digits identify every number of type float including subnormal ones (identifies_printTen). Conditions as in C75: the hierarchy the tool builds has no weight overflow; a number equal to the number of nodes is undefined behaviour (C75_node_count_undefined). Without any condition on the hierarchy for graphs of at most 250 nodes without cycles of weight 0 (C92_positive_graphs)."
 },
 "C93": {
  "status": "partial",
  "note": "The first sentence is violated (C93_data_race_violated): atomic_min_to loads the weight with a plain load while another iteration replaces it with compare-and-swap. C93_races_partial: this is the only kind of race. C93_outdated_loads_partial: the metric is the sequential one even if these loads return any value since the last barrier. Not modelled: a compiler that loads the weight twice, and the assignment of blocks of 256 iterations to threads (every iteration is a thread of its own)."
 },
 "C94": {
  "status": "proved",
  "note": "std::shuffle is modelled as the exchange of each element with one at a random position up to it, as in the common standard libraries; the random positions are arbitrary. That they are independent and uniformly distributed is a matter of the random generator and not part of the model."
 },
 "C95": {
  "status": "proved",
  "note": "Objects with pointers to blocks; the environment decides for every allocation whether it fails. Legal programs are those whose objects exist, positions are in range and sizes agree; resize(n, true) is excluded where it is defective (C12). The allocator itself (aligned_alloc/aligned_free) is taken as one that returns fresh blocks or fails."
 },
 "C96": {
  "status": "partial",
  "note": "Proved for allocations that succeed; violated by the code if malloc returns null: it stores a byte at an address below the alignment (63 for bit vectors) instead of returning null, so std::bad_alloc is never thrown (C96_malloc_fails_violated). malloc itself is an environment that returns blocks that are not in use."
 },
 "C97": {
  "status": "proved",
  "note": "The loops with the callback inside, for callbacks with a state; the list versions used elsewhere in the model report the same arcs."
 },
 "C98": {
  "status": "proved",
  "note": "Sequentially consistent interleavings of lock, compare, store and unlock. That the load outside of the mutex is formally a data race of the language is the subject of C93; plain stores to a variable under compare and swap are outside of the programs considered (the code has none)."
 },
 "C99": {
  "status": "partial",
  "note": "Violated in three places, each proved: size() returns 2^64-1 without exception if the second ftell fails, the error indicator survives rewind() so that all later reads throw, and rewind() or read() without an open file hand a null pointer to the C library. The rest is proved for every history. Moves are not part of this model."
 },
 "C100": {
  "status": "proved",
  "note": "std::sort is any function within its contract, std::stable_sort is merge sort, as for C06."
 },
 "C101": {
  "status": "partial",
  "note": "The code violates the last sentence: if the buffer or the thread cannot be obtained, the destructor of the record joins a thread that was never started, throws inside a destructor and the program ends (proved for every state). The rest is proved for all histories in which buffers and threads can be obtained. Time and the thread itself are not part of this model; C38 has the protocol between reader and thread."
 },
 "C102": {
  "status": "partial",
  "note": "The code violates 'together they count every object': what is read after the last report is in no report (C102_rest_not_reported: of a file read within a second only the first object is). Everything else is proved; the reports and the unreported rest cover every object exactly once. Counters are unbounded instead of 64 bits wide, the clock is an arbitrary function to integers."
 },
 "C103": {
  "status": "proved",
  "note": "Proved for all programs over any number of variables. The limits on weights and sizes are those of C22-C24 (light arcs, at most 2^30 nodes). Functions that do not dereference the pointer (such as get_distance) are treated as if they did."
 },
 "C104": {
  "status": "partial",
  "note": "The code violates the last sentence (C104_violated): reset(first_out, tail, head) reads the size of the vector at the old address to decide whether the arrays have to be resized. If the graph was replaced in place by a larger one, the arrays stay too small and add_source writes behind their end; if it was destroyed, the read is undefined. Proved for all programs in which at each such reset the variable of the old graph still exists and, if it then holds a graph as large as the new one, the old graph was as large, too. Objects are constructed for a graph (the default constructor is in C18)."
 }
}
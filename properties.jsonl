{"id": "C01", "title": "MinIDQueue behaves like an abstract priority map", "statement": "For every sequence of push / decrease_key / increase_key / pop / peek / clear / contains_id / get_key / size / empty calls that respects the documented preconditions (ids below id_count, push only absent ids, key changes only on present ids, pop/peek only when non-empty), the queue answers exactly like a finite map id -> key: contains_id/get_key/size read the map, pop and peek return an entry whose key is minimal among all present keys and pop removes exactly this entry, decrease_key/increase_key report and perform the update iff the new key is strictly smaller/larger. No call touches memory out of bounds.", "quantifier": "all id_count values up to 2^30 (larger ones overflow the 32-bit child index), all keys, all finite call histories that satisfy the preconditions", "why_tests_cant": "The heap layout depends on the whole history; a sift bug may only show for particular shapes of a 4-ary heap and particular tie patterns.", "anchors": ["include/routingkit/id_queue.h: MinIDQueue"]}
{"id": "C02", "title": "TimestampFlags behaves like a set of ids under any number of resets", "statement": "After any sequence of set / reset_one / reset_all, is_set(id) is true iff id was set after the last reset_one(id) and the last reset_all. This holds for any number of reset_all calls, including those that wrap the 16-bit timestamp around.", "quantifier": "all id counts, all finite call histories (in particular more than 65535 reset_all calls)", "why_tests_cant": "The interesting behaviour needs >65535 resets interleaved with sets at arbitrary points of the cycle; tests cannot cover all interleavings.", "anchors": ["include/routingkit/timestamp_flag.h: TimestampFlags"]}
{"id": "C03", "title": "IDSetMinQueue behaves like a finite set of ids with minimum extraction", "statement": "For every history of push / pop / contains / peek / empty / clear with ids below n, the queue behaves like a finite set of ids: push inserts (idempotently), contains is membership, peek/pop return the smallest member (peek returns invalid_id iff empty) and pop (called on a non-empty queue) removes exactly it, clear empties it. All accesses stay inside the bit array and the debug assertions never fire.", "quantifier": "all n < 2^31-1, all finite call histories respecting the preconditions", "why_tests_cant": "Correctness depends on an implicit binary tree for arbitrary (odd, even, power-of-two) n and arbitrary histories.", "anchors": ["include/routingkit/id_set_queue.h: IDSetMinQueue"]}
{"id": "C04", "title": "Permutation functions obey the permutation laws", "statement": "is_permutation accepts exactly the vectors that contain every index below their size exactly once. For a permutation p: apply_permutation(p,v)[i] = v[p[i]], apply_inverse_permutation(p,v)[p[i]] = v[i], both are mutually inverse, invert_permutation(p) is the two-sided inverse permutation and an involution, chaining permutations equals composing them, identity_permutation is neutral.", "quantifier": "all vectors, all permutations of any size, all element types", "why_tests_cant": "Laws quantify over all permutations of all sizes.", "anchors": ["include/routingkit/permutation.h"]}
{"id": "C05", "title": "Applying a permutation to possibly invalid elements leaves invalid_id untouched", "statement": "apply_permutation_to_possibly_invalid_elements_of(p,v) and its in-place variant return the vector that maps every element x != invalid_id to p[x] and keeps invalid_id, for every vector whose elements are below p.size() or equal to invalid_id.", "quantifier": "all permutations, all vectors whose elements are valid or invalid_id", "why_tests_cant": "The claim is about every admissible input; the non in-place variant is untested with invalid elements.", "anchors": ["include/routingkit/permutation.h: apply_permutation_to_possibly_invalid_elements_of, inplace_apply_permutation_to_possibly_invalid_elements_of"]}
{"id": "C06", "title": "Sorting by key computes a (stable) sort permutation", "statement": "compute_[inverse_][stable_]sort_permutation_using_key return a permutation p (resp. its inverse) such that the keys read in the order given by p are non-decreasing; in the bucket-sort branch and in the stable variants elements with equal keys keep their relative order, so the result is uniquely determined. [stable_]sort_using_key returns the elements in this order. This holds on both sides of the size threshold that switches between bucket sort and comparison sort.", "quantifier": "all element vectors, all key functions into [0,key_count), all key counts", "why_tests_cant": "The result must be right for every multiset of keys and on both algorithm branches.", "anchors": ["include/routingkit/sort.h: compute_key_pos, compute_maybe_stable_sort_permutation_using_key, compute_inverse_maybe_stable_sort_permutation_using_key, maybe_stable_sort_using_key"]}
{"id": "C07", "title": "Lexicographic arc sort orders arcs by tail and then by head", "statement": "compute_[inverse_]sort_permutation_first_by_tail_then_by_head_and_apply_sort_to_tail returns a (inverse) permutation that sorts the (tail,head) pairs lexicographically and at the same time replaces tail by the sorted tail array, for all arc lists with ids below node_count.", "quantifier": "all node counts and all arc lists (including multi arcs, loops, empty lists)", "why_tests_cant": "Composition of two bucket sorts; must be right for every arc list.", "anchors": ["include/routingkit/graph_util.h", "src/graph_util.cpp"]}
{"id": "C08", "title": "invert_vector builds the exact range index of a sorted vector and invert_inverse_vector undoes it", "statement": "For a sorted vector v with all elements below n, invert_vector(v,n) has n+1 entries and for every i<n the positions j with v[j]=i are exactly those with index[i] <= j < index[i+1]; invert_inverse_vector(invert_vector(v,n)) = v; and invert_vector(invert_inverse_vector(s),|s|-1) = s for every non-decreasing index s starting with 0.", "quantifier": "all sorted vectors and element counts, all non-decreasing index vectors", "why_tests_cant": "Quantifies over all vectors including empty ranges at both ends.", "anchors": ["include/routingkit/inverse_vector.h"]}
{"id": "C09", "title": "Vector filters keep exactly the selected elements in order", "statement": "keep_element_of_vector_if / remove_element_from_vector_if and their in-place variants return exactly the elements whose filter bit is set (resp. not set), in the original order.", "quantifier": "all vectors and all filters of the same size", "why_tests_cant": "In-place compaction must be right for every filter pattern.", "anchors": ["include/routingkit/filter.h"]}
{"id": "C10", "title": "BitVector element operations act on exactly one bit", "statement": "is_set/set/reset/set_if/toggle on a BitVector of any size read or write exactly the addressed bit: a read after any history of element writes returns the last value written to this index (or the initial value).", "quantifier": "all sizes, all indices, all histories of element operations", "why_tests_cant": "Bits are packed into 64-bit words; aliasing between indices must be excluded for every pair of indices.", "anchors": ["include/routingkit/bit_vector.h", "src/bit_vector.cpp"]}
{"id": "C11", "title": "BitVector bulk operations equal the element-wise boolean operations", "statement": "set_all/reset_all/set_all(v), |=, ^=, &= and inplace_not produce, at every index, the boolean operation of the operands' bits; population_count/count_false equal the number of set/unset indices; == holds iff sizes and all bits agree; are_all_set is true iff all bits are set and is_any_set iff some bit is set; < is a strict total order compatible with ==; make_bit_vector(n,f) has bit f(i) at i.", "quantifier": "all sizes (in particular multiples of 512 and sizes that leave padding bits), all contents", "why_tests_cant": "Padding bits and block boundaries make each size a separate case.", "anchors": ["include/routingkit/bit_vector.h", "src/bit_vector.cpp: are_all_set, population_count, get_padding_mask"]}
{"id": "C12", "title": "BitVector::resize keeps old bits and gives new bits the requested value", "statement": "After resize(n,v) the vector has size n, every index below min(old size,n) keeps its bit, and every index from old size to n-1 has value v (for the initialising variants).", "quantifier": "all old sizes, new sizes, contents, fill values", "why_tests_cant": "Behaviour differs at each 512-bit block boundary.", "anchors": ["src/bit_vector.cpp: BitVector::resize, make_large_enough_for"]}
{"id": "C13", "title": "LocalIDMapper numbers the set bits consecutively", "statement": "For every bit vector, to_local(g) of a set bit g is the number of set bits below g; is_mapped(g) is the bit; local_id_count is the population count; to_local is a strictly monotone bijection from the set bits onto [0,local_id_count).", "quantifier": "all bit vectors, all indices", "why_tests_cant": "Rank tables over 512-bit blocks with popcounts of masked words; all bit patterns.", "anchors": ["include/routingkit/id_mapper.h: LocalIDMapper", "src/id_mapper.cpp"]}
{"id": "C14", "title": "IDMapper's to_global is the inverse of to_local", "statement": "For every bit vector, to_global(l) of every l < local_id_count is the index of the l-th set bit, so to_local(to_global(l)) = l and to_global(to_local(g)) = g for every set g.", "quantifier": "all bit vectors, all local ids", "why_tests_cant": "Select is implemented by a bit trick on words and sampled binary search; all 2^64 words and all vectors matter.", "anchors": ["include/routingkit/id_mapper.h: IDMapper", "src/id_mapper.cpp", "src/bit_select.cpp"]}
{"id": "C15", "title": "Node paths and arc paths convert into each other", "statement": "convert_arc_path_to_node_path lists the tail of the first arc followed by the heads of all arcs of a connected arc path.", "quantifier": "all graphs and all arc paths", "why_tests_cant": "Must hold for paths of every length.", "anchors": ["src/graph_util.cpp: convert_arc_path_to_node_path"]}
{"id": "C16", "title": "Dijkstra settles nodes in non-decreasing order with exact shortest distances", "statement": "For scalar arc weights such that no path weight from a source overflows 32 bits, every settle() of a Dijkstra object returns a node together with its exact shortest distance from the source set (including departure offsets, ignoring arcs of weight >= inf_weight); successive distances are non-decreasing, each node is settled at most once, and when the queue runs empty exactly the reachable nodes have been settled. get_distance_to returns the exact distance for settled nodes and inf_weight for the others.", "quantifier": "all graphs, all non-negative weights without overflow, all source sets with offsets, every number of settle steps", "why_tests_cant": "Quantifies over all graphs, weights and tie-breaking situations.", "anchors": ["include/routingkit/dijkstra.h: Dijkstra, ScalarGetWeight"]}
{"id": "C17", "title": "Dijkstra's predecessor paths are shortest paths", "statement": "For every settled node x, get_arc_path_to(x) is a connected arc path from some source to x whose weight plus the departure offset of this source equals get_distance_to(x); get_node_path_to(x) lists exactly the nodes of this path. For nodes that have not been reached both are empty.", "quantifier": "all graphs, weights, source sets, all prefixes of the search", "why_tests_cant": "Zero-weight arcs, ties and decrease-key updates must not produce cyclic or stale predecessor chains on any input.", "anchors": ["include/routingkit/dijkstra.h: get_node_path_to, get_arc_path_to"]}
{"id": "C18", "title": "A reused Dijkstra object answers like a fresh one", "statement": "After any previous use (any sources, any number of settle steps, any number of earlier resets) reset() makes the object indistinguishable from a newly constructed one.", "quantifier": "all histories of calls, in particular more than 65535 resets and resets of half-finished searches", "why_tests_cant": "State leaks only show for specific histories.", "anchors": ["include/routingkit/dijkstra.h: reset", "include/routingkit/timestamp_flag.h"]}
{"id": "C19", "title": "Strongly connected components are computed exactly", "statement": "compute_largest_strongly_connected_component marks a set of nodes that is a strongly connected component of maximum size: any two marked nodes are mutually reachable, no unmarked node is mutually reachable with a marked one, and no component has more nodes.", "quantifier": "all directed graphs", "why_tests_cant": "Depends on DFS low-link bookkeeping for arbitrary graphs.", "anchors": ["src/strongly_connected_component.cpp"]}
{"id": "C20", "title": "Parallel arcs and loops are reduced to one lightest arc per node pair", "statement": "The arc reduction performed before building a contraction hierarchy produces an arc list without loops, sorted by (tail,head) without duplicates, containing for each node pair (x,y), x != y, that had at least one arc exactly one arc with the minimum weight among them and with an input arc id that realises it.", "quantifier": "all arc lists", "why_tests_cant": "Must pick the minimum among any number of parallel arcs in any order.", "anchors": ["src/contraction_hierarchy.cpp: sort_arcs_and_remove_multi_and_loop_arcs"]}
{"id": "C21", "title": "Node contraction preserves shortest distances among the remaining nodes", "statement": "Contracting a node (with any witness-search limit) yields a graph on the remaining nodes in which all pairwise distances equal those before the contraction; a shortcut is omitted only if a path of at most the same length that avoids the contracted node exists.", "quantifier": "all weighted graphs without overflow, all nodes, all pop limits", "why_tests_cant": "The local witness search is bounded and reuses state between targets while the graph is being modified; soundness must hold for every graph.", "anchors": ["src/contraction_hierarchy.cpp: contract_node, ShorterPathTest, Graph"]}
{"id": "C22", "title": "Contraction hierarchy queries return exact shortest path distances", "statement": "For a contraction hierarchy built for any node order, run() followed by get_distance() returns the exact shortest distance from the source set to the target set (with offsets), or inf_weight if no target is reachable. Stall-on-demand and the early stopping criterion never change the answer.", "quantifier": "all graphs, weights (no overflow), node orders, witness limits, source and target sets with offsets", "why_tests_cant": "The core correctness claim of the library; quantifies over all graphs, orders and ties.", "anchors": ["src/contraction_hierarchy.cpp: build_ch_given_rank, build_ch_and_order, ContractionHierarchyQuery::run, get_distance"]}
{"id": "C23", "title": "Contraction hierarchy path unpacking returns a shortest path of the input graph", "statement": "After run() with a finite distance, get_arc_path() is a connected path of input arcs from get_used_source() to get_used_target() whose weight plus the two offsets equals get_distance(), and get_node_path() lists its nodes. If no path exists both are empty and the used source/target are invalid_id.", "quantifier": "all graphs, weights, orders, queries", "why_tests_cant": "Shortcut unpacking recursion must be right for every hierarchy.", "anchors": ["src/contraction_hierarchy.cpp: build_unpacking_information, unpack_forward_arc, unpack_backward_arc, get_arc_path, get_node_path, get_used_source, get_used_target"]}
{"id": "C24", "title": "Pinned one-to-many and many-to-one contraction hierarchy queries are exact", "statement": "After pin_targets(T) and add_source.., run_to_pinned_targets() and get_distances_to_targets() return, for each i, the exact distance to T[i]; the symmetric statement holds for pinned sources. This holds for repeated runs with the same pinned set.", "quantifier": "all graphs, pinned sets, sources, histories of pinned runs", "why_tests_cant": "Repeated pinned runs share state.", "anchors": ["src/contraction_hierarchy.cpp: pin, pinned_run, get_distances_to_targets, get_distances_to_sources"]}
{"id": "C25", "title": "The CCH topology is the chordal supergraph of the elimination order", "statement": "The upward arcs of a CustomizableContractionHierarchy (built without arc filtering) are exactly the pairs (x,y), rank x < rank y, such that the undirected input graph has an x-y path whose inner nodes all have rank below x. In particular it contains all input arcs and is closed under lower triangles.", "quantifier": "all graphs and all node orders", "why_tests_cant": "Quasi-linear elimination algorithm must be right for all graphs and orders.", "anchors": ["src/customizable_contraction_hierarchy.cpp: compute_chordal_supergraph, CustomizableContractionHierarchy"]}
{"id": "C26", "title": "The CCH search space of a node is the path of its elimination tree ancestors", "statement": "The elimination tree parent of a node is its lowest upward neighbour, and every node reachable by upward arcs from x is an ancestor of x in the elimination tree.", "quantifier": "all graphs and orders", "why_tests_cant": "Structural property of all chordal graphs.", "anchors": ["src/customizable_contraction_hierarchy.cpp: elimination_tree_parent, forall_ancestors"]}
{"id": "C27", "title": "CCH customization computes the least weights that satisfy the lower triangle inequality", "statement": "After customize(), every upward arc weight (forward and backward) equals the minimum of the weights of the input arcs mapped to it and of all lower-triangle detours, i.e. the minimum weight over all input paths between its ends through lower nodes only (inf_weight if there is none).", "quantifier": "all CCHs, all weight vectors bounded by inf_weight", "why_tests_cant": "Fixpoint over all lower triangles in arc order.", "anchors": ["src/customizable_contraction_hierarchy.cpp: extract_initial_metric, customize, CustomizableContractionHierarchyMetric"]}
{"id": "C28", "title": "Parallel customization computes the same metric as sequential customization under every schedule", "statement": "For any number of threads and any interleaving of their memory operations, the parallel customization ends with exactly the metric of the sequential customization.", "quantifier": "all CCHs, metrics, thread counts, interleavings of atomic reads and compare-exchange operations", "why_tests_cant": "Thread schedules cannot be enumerated by tests.", "anchors": ["src/customizable_contraction_hierarchy.cpp: atomic_min_to, CustomizableContractionHierarchyParallelization"]}
{"id": "C29", "title": "Partial customization equals a full customization with the new weights", "statement": "Starting from a customized metric, after changing any set of input weights, reporting exactly these arcs to a CustomizableContractionHierarchyPartialCustomization and calling customize, the metric equals the one obtained from a full customization with the new weights.", "quantifier": "all CCHs, all old and new weight vectors, all sets of reported arcs covering the changes, in any order, over repeated updates", "why_tests_cant": "Whether a change must be propagated depends on equality between old values; histories of increases and decreases are unbounded.", "anchors": ["src/customizable_contraction_hierarchy.cpp: CustomizableContractionHierarchyPartialCustomization"]}
{"id": "C30", "title": "CCH queries return exact shortest path distances", "statement": "For a customized metric, run() and get_distance() return the exact shortest distance from the source set to the target set with offsets, or inf_weight if unreachable.", "quantifier": "all graphs, orders, weights (no finite path weight reaching inf_weight), source/target sets", "why_tests_cant": "Elimination-tree query with several sources relies on a non-trivial processing order.", "anchors": ["src/customizable_contraction_hierarchy.cpp: CustomizableContractionHierarchyQuery::add_source, add_target, run, get_distance"]}
{"id": "C31", "title": "CCH path unpacking returns a shortest path of the input graph", "statement": "After run() with finite distance, get_arc_path() is a connected input-arc path from the used source to the used target with weight equal to the distance minus offsets; get_node_path() lists its nodes.", "quantifier": "all graphs, orders, weights, queries", "why_tests_cant": "Triangle unpacking must terminate and find exact decompositions on every instance.", "anchors": ["src/customizable_contraction_hierarchy.cpp: unpack_arc, get_arc_path, get_node_path"]}
{"id": "C32", "title": "Pinned CCH queries are exact", "statement": "Pinned one-to-many (many-to-one) CCH queries return for every pinned node the exact distance, also when the query is re-run with other sources.", "quantifier": "all graphs, orders, weights, pinned sets, histories", "why_tests_cant": "Shared state between runs.", "anchors": ["src/customizable_contraction_hierarchy.cpp: pin_targets, run_to_pinned_targets, get_distances_to_targets"]}
{"id": "C33", "title": "Filtering always-infinite arcs does not change customization results", "statement": "Building the CCH with filter_always_inf_arcs=true removes only arcs whose weight is inf_weight for every metric, and customization on the filtered CCH gives every kept arc the same weights as without filtering although stale arc-id cache entries are used.", "quantifier": "all graphs, orders and metrics bounded by inf_weight", "why_tests_cant": "The code reads stale cache entries; harmlessness is a global invariant.", "anchors": ["src/customizable_contraction_hierarchy.cpp: filter_always_inf_arcs, customize"]}
{"id": "C34", "title": "A reused CH or CCH query object answers like a fresh one", "statement": "For any sequence of earlier operations on a query object, reset() makes all later answers equal to those of a fresh object.", "quantifier": "all histories", "why_tests_cant": "State leaks are history dependent.", "anchors": ["src/contraction_hierarchy.cpp: ContractionHierarchyQuery::reset", "src/customizable_contraction_hierarchy.cpp: CustomizableContractionHierarchyQuery::reset"]}
{"id": "C35", "title": "A saved contraction hierarchy loads back unchanged", "statement": "Writing a contraction hierarchy and reading it back yields the same hierarchy; files with a wrong magic number or size are rejected, and whatever is accepted is exactly what writing the returned hierarchy produces.", "quantifier": "all contraction hierarchies within the 32-bit size limits, all byte strings", "why_tests_cant": "Round-trip for all contents.", "anchors": ["src/contraction_hierarchy.cpp: ContractionHierarchy::read, write"]}
{"id": "C36", "title": "Varint and zigzag decoding follow the protobuf encoding", "statement": "decode_varint returns x and consumes exactly the encoding for every encoded 64-bit value x followed by arbitrary bytes, never reads at or beyond the end pointer, and rejects unterminated input and values that do not fit into 64 bits; zigzag decoding is the inverse of zigzag encoding for all 64-bit integers.", "quantifier": "all 64-bit values, all byte strings", "why_tests_cant": "2^64 values and all malformed strings.", "anchors": ["src/protobuf.cpp"]}
{"id": "C37", "title": "Protobuf message decoding reports every field once and never reads past the end", "statement": "For every byte string the decoder either reports an error or calls the callbacks for a sequence of fields whose encodings concatenate to the whole input, in order.", "quantifier": "all byte strings", "why_tests_cant": "All malformed inputs.", "anchors": ["src/protobuf.h: decode_protobuf_message_with_callbacks"]}
{"id": "C38", "title": "The asynchronous reader delivers exactly the source's byte stream under every schedule", "statement": "For every byte source (any chunking), every sequence of read(size <= block_size) calls and every interleaving of worker and reader, the returned buffers contain consecutive slices of the source stream, remain intact until the next read call, and read returns null only if fewer than size bytes remain. Neither thread waits forever.", "quantifier": "all sources, chunk sizes, read sizes, thread schedules", "why_tests_cant": "Concurrency and ring-buffer wrap-around with a mirror block.", "anchors": ["src/buffered_asynchronous_reader.cpp"]}
{"id": "C39", "title": "TagMap lookup returns the first matching value", "statement": "After build(n, keys, values) with distinct or duplicate keys, map[key] returns the value of the first pair with this key and null if there is none, for every hash collision pattern.", "quantifier": "all key-value lists with at most 65535 entries, all keys, all collision patterns", "why_tests_cant": "Depends on hash collisions and sort order.", "anchors": ["include/routingkit/tag_map.h: TagMap"]}
{"id": "C40", "title": "The geographic index finds a nearest point within the radius", "statement": "find_nearest_neighbor_within_radius returns a point of minimum distance if one lies within the radius and invalid_id otherwise; find_all_nodes_within_radius returns exactly the points within the radius, each once. (Stated for an exact metric.)", "quantifier": "all point sets, queries and radii, every outcome of nth_element permitted by the standard", "why_tests_cant": "Vantage-point pruning must be right for all point sets.", "anchors": ["src/geo_position_to_node.cpp"]}
{"id": "C41", "title": "The nested dissection order is a permutation with separators last", "statement": "compute_nested_node_dissection_order returns every node exactly once for every separator function that returns a non-empty separator on every connected fragment with at least two nodes.", "quantifier": "all graphs, all separator functions", "why_tests_cant": "Recursive decomposition over arbitrary graphs and oracles.", "anchors": ["src/nested_dissection.cpp: compute_separator_decomposition, decompose_graph_fragment_into_connected_components"]}
{"id": "C42", "title": "The flow cutter returns a minimum cut between its source and target sets", "statement": "When BlockingFlow is finished, get_source_cut / get_target_cut / get_balanced_cut return a node set that contains all sources and no target (resp. vice versa), the number of arcs leaving it equals cut_size = the flow intensity, and no set separating sources from targets has fewer leaving arcs.", "quantifier": "all graphs, all disjoint source and target sets", "why_tests_cant": "Max-flow/min-cut on all graphs.", "anchors": ["src/nested_dissection.cpp: BlockingFlow"]}
{"id": "C43", "title": "A separator derived from a cut separates the two sides", "statement": "After removing the nodes marked by derive_separator_from_cut no arc connects the remaining nodes of the two sides, and all separator nodes lie on one side.", "quantifier": "all graphs and cuts", "why_tests_cant": "All graphs.", "anchors": ["src/nested_dissection.cpp: derive_separator_from_cut"]}
{"id": "C44", "title": "make_graph_fragment builds a symmetric graph with involutive back arcs", "statement": "The fragment contains for every non-loop input arc both directions, arcs are sorted by tail and head, back_arc is an involution that maps each arc to one with swapped ends, and first_out is the index of tail.", "quantifier": "all arc lists", "why_tests_cant": "All arc lists including multi arcs.", "anchors": ["src/nested_dissection.cpp: make_graph_fragment"]}
{"id": "C45", "title": "OSM node coordinates are decoded as offset + granularity * value", "statement": "Sparse and dense OSM nodes get latitude = lat_offset + granularity*lat and longitude = lon_offset + granularity*lon (dense values being delta coded), as the PBF format prescribes.", "quantifier": "all offsets, granularities and (delta coded) coordinate lists", "why_tests_cant": "Default offsets are 0 in usual files, so tests never see non-zero offsets.", "anchors": ["src/osm_decoder.cpp: internal_read_osm_pbf"]}
{"id": "C46", "title": "Way speeds are positive and travel times follow distance/speed", "statement": "get_osm_way_speed never returns 0, so travel time computation never divides by zero, and the travel time equals floor(floor(18000*dist/speed)/5) milliseconds for every arc whose distance does not overflow.", "quantifier": "all tag maps, all distances", "why_tests_cant": "All strings as maxspeed values.", "anchors": ["src/osm_profile.cpp: get_osm_way_speed, parse_maxspeed_value", "src/osm_simple.cpp"]}
{"id": "C47", "title": "Vectors, strings and bit vectors survive a save/load round trip", "statement": "load_vector(save_vector(v)) = v, load_bit_vector(save_bit_vector(b)) = b, and load_vector<string> inverts save_vector<string> for strings without NUL bytes.", "quantifier": "all vectors, bit vectors, string vectors", "why_tests_cant": "All contents.", "anchors": ["src/vector_io.cpp", "include/routingkit/vector_io.h"]}
{"id": "C48", "title": "The perfect customization yields a contraction hierarchy with exact queries", "statement": "build_contraction_hierarchy_using_perfect_witness_search keeps exactly the arcs whose customized weight is the shortest distance, and queries on the resulting hierarchy are exact.", "quantifier": "all CCHs and metrics", "why_tests_cant": "All graphs, ties.", "anchors": ["src/customizable_contraction_hierarchy.cpp: build_contraction_hierarchy_using_perfect_witness_search"]}
{"id": "C49", "title": "find_arc finds an arc if and only if one exists", "statement": "find_arc_or_return_invalid(first_out, head, x, y) returns the first arc from x to y, and invalid_id exactly if there is none; the _given_sorted_head variant agrees for graphs with sorted heads; find_arc succeeds exactly if the arc exists.", "quantifier": "all adjacency arrays, all pairs of nodes", "why_tests_cant": "Must hold for every graph, including empty adjacency lists and multi arcs.", "anchors": ["src/graph_util.cpp: find_arc, find_arc_or_return_invalid, find_arc_or_return_invalid_given_sorted_head"]}
{"id": "C50", "title": "Checking a contraction hierarchy for errors", "statement": "check_contraction_hierarchy_for_errors returns normally exactly if the hierarchy is well-formed (rank and order are inverse, both directions are adjacency arrays that point upward, original arcs have a valid id and an existing node, the two parts of every shortcut are existing arcs whose weights add up, the part in the same direction preceding the shortcut), and throws otherwise; it never reads outside the vectors.", "quantifier": "all contents of all vectors of a hierarchy", "why_tests_cant": "The space of malformed hierarchies is infinite; a test tries a few broken files, and memory errors on others go unnoticed.", "anchors": ["src/contraction_hierarchy.cpp:1189-1287"]}
{"id": "C51", "title": "geo_dist is the great circle distance", "statement": "With exact arithmetic geo_dist(lat_a, lon_a, lat_b, lon_b) is the earth's radius times the angle between the two points on the sphere, the argument of acos is always within [-1,1], the function is a metric (zero exactly for the same point of the sphere, symmetric, triangle inequality), and the different formula used while building the geographic index gives the same distances.", "quantifier": "all latitudes and longitudes", "why_tests_cant": "A statement about a continuum of inputs; the triangle inequality is what the pruning of the geographic index relies on.", "anchors": ["include/routingkit/geo_dist.h", "src/geo_position_to_node.cpp"]}
{"id": "C52", "title": "Decomposition into connected components", "statement": "decompose_graph_fragment_into_connected_components of a valid fragment returns valid, connected, non-empty fragments; every node (by global id) and every arc of the given fragment occurs in exactly one of them, with multiplicities.", "quantifier": "all valid fragments with at least one node", "why_tests_cant": "Renumbering, searching and splitting of all graphs, including isolated nodes, parallel arcs and loops.", "anchors": ["src/nested_dissection.cpp:612-724"]}
{"id": "C53", "title": "The separator decomposition is a nested dissection", "statement": "compute_separator_decomposition arranges the nodes of each connected component consecutively, with the separator that compute_separator returned for the component last and the components remaining without the separator arranged in the same way before it; the tree entries give this nesting with the right positions.", "quantifier": "all graphs, all separator functions", "why_tests_cant": "Recursive structure over arbitrary graphs and user supplied separator functions.", "anchors": ["src/nested_dissection.cpp:740-842", "include/routingkit/nested_dissection.h:88-98"]}
{"id": "C54", "title": "Inertial flow returns balanced minimum cuts", "statement": "inertial_flow(fragment, min_balance, latitude, longitude) takes in each of four directions (latitude, longitude, both diagonals) the min_balance percent of the nodes with the smallest and with the largest coordinate as sources and targets, and returns a minimum cut for one direction which is no larger than any cut between sources and targets of any direction; both sides have at least min_balance percent of the nodes. inertial_flow without a balance picks the best ratio of cut size to side size of 25, 33 and 40 percent, and the nested dissection order by inertial flow is a permutation of the nodes for every graph.", "quantifier": "all fragments with at least two nodes, all coordinates, every nth_element that meets the standard", "why_tests_cant": "Minimality quantifies over all node sets between the ends, and the selection depends on the unspecified order std::nth_element leaves behind.", "anchors": ["src/nested_dissection.cpp:442-609", "src/nested_dissection.cpp:852-879", "include/routingkit/nested_dissection.h:60-110"]}
{"id": "C55", "title": "OSM blocks are reported exactly", "statement": "When a valid primitive block is read (offsets zero, no sparse Node messages), the given callbacks are called exactly once for each node, way and relation of their type, in the order of the block, with its id, coordinates, node ids, members with types and roles, and tags; a callback that is not given is not missed, and there is no exception or undefined behaviour.", "quantifier": "all valid encodings of all blocks, field orders, string tables, granularities; all sequences of blocks; all choices of callbacks", "why_tests_cant": "Arbitrary byte encodings (any varint lengths, field orders, unknown fields) and arbitrary sequences of blocks that share state.", "anchors": ["src/osm_decoder.cpp: internal_read_osm_pbf", "include/routingkit/tag_map.h"]}
{"id": "C56", "title": "OSM files are read completely; ordered reading delivers nodes, then ways, then relations", "statement": "For every valid PBF file, unordered_read_osm_pbf reports all objects of the wanted types in file order and returns; ordered_read_osm_pbf reports all nodes, then all ways, then all relations. Blocks of unknown type are skipped. Incomplete files lead to an exception, with only objects of complete blocks reported before.", "quantifier": "all files, compressed or not, all schedules of the reading threads", "why_tests_cant": "Arbitrary files; exceptions arrive at points that depend on the schedule.", "anchors": ["src/osm_decoder.cpp: OsmPBFDecompressor, unordered_read_osm_pbf, ordered_read_osm_pbf"]}
{"id": "C57", "title": "Access and one-way tags of OpenStreetMap ways are respected", "statement": "The profiles for cars and bicycles do not use a way whose tags forbid it (motorcar, motor_vehicle, bicycle, access), the one-way tags give the open directions, a way with an unknown value of oneway is closed as the log message says, ferries are used by all three profiles alike, and the bicycle comfort level lies between the documented minimum and maximum.", "quantifier": "all combinations of tags", "why_tests_cant": "The tags of a way are arbitrary strings for many keys; the tests cannot enumerate the combinations.", "anchors": ["src/osm_profile.cpp: is_osm_way_used_by_cars, is_osm_way_used_by_bicycles, is_osm_way_used_by_pedestrians, get_osm_car_direction_category, get_osm_bicycle_direction_category, get_osm_way_bicycle_comfort_level"]}
{"id": "C58", "title": "Turn restriction relations are decoded exactly", "statement": "decode_osm_car_turn_restrictions reports, for a relation whose restriction tag is only_ or no_ followed by a known direction, one restriction per pair of a from-way and a to-way if the relation has at most one via member, which is a node, at least one from-way and to-way and (if mandatory) exactly one of each; it reports nothing for any other relation.", "quantifier": "all member lists and tags", "why_tests_cant": "Member lists of any length with arbitrary roles and types.", "anchors": ["src/osm_profile.cpp: decode_osm_car_turn_restrictions"]}
{"id": "C59", "title": "The ID mapping of an OSM file marks exactly the routing ways and nodes", "statement": "load_osm_id_mapping_from_pbf marks a way iff it has at least two nodes and is accepted by the callback, a node as modelling node iff it is accepted by the node callback or lies on a marked way, and a modelling node as routing node iff it is accepted, is the first or last node of a marked way or is listed at least twice in all marked ways together (or always, if all modelling nodes are to be routing nodes).", "quantifier": "all files, all callbacks, all orders of the objects in the file", "why_tests_cant": "The marks depend on the multiset of all node references of the whole file; tests use a few small extracts.", "anchors": ["src/osm_graph_builder.cpp: load_osm_id_mapping_from_pbf"]}
{"id": "C60", "title": "The routing graph of an OSM file has one arc per open direction of each way segment", "statement": "load_osm_routing_graph_from_pbf returns exactly one arc for every part of a used way between two consecutive routing nodes and every direction the way callback opens: with the numbers of its head and way as given by the ID mapping, its direction, its length (sum of the lengths of its lines) and the coordinates of the nodes between (all of them, the first and last, or none). The arcs are sorted by tail and head, arcs with equal tail and head keep the order of the file, first_out delimits the arcs out of each node, and latitude and longitude are those of the nodes in the file. The ID mapping computed from the same file is always suitable.", "quantifier": "all files, ID mappings that fit the file, way callbacks (with a state), geometry options, orders of the objects", "why_tests_cant": "The graph depends on the whole file: how ways share nodes, in which order objects come, and what the callback answers; tests compare one extract.", "anchors": ["src/osm_graph_builder.cpp: load_osm_routing_graph_from_pbf", "include/routingkit/osm_graph_builder.h: OSMRoutingGraph"]}
{"id": "C61", "title": "The forbidden turns of an OSM file are exactly those of its turn restrictions", "statement": "If load_osm_routing_graph_from_pbf is given a decoder for turn restrictions, then the graph is the same as without, and the lists of forbidden turns contain each pair of arcs at most once, sorted, and exactly the pairs that a restriction found in the relations of the file forbids: for a prohibitive restriction the one turn from an arc of the first way into the via node to an arc of the second way out of it (if there are several, the one which fits to the direction, else none), for a mandatory one all other turns from that arc; without via node the via node is the one which the two ways share if it is unambiguous; for a mandatory restriction from a way to itself all turns which leave the way. Every forbidden turn consists of consecutive arcs.", "quantifier": "all files, decoders, ID mappings that fit the file, way callbacks, implementations of std::sort", "why_tests_cant": "The result depends on the arcs around every via node, their geometry and on all restrictions together; tests compare one extract.", "anchors": ["src/osm_graph_builder.cpp: load_osm_routing_graph_from_pbf", "include/routingkit/osm_graph_builder.h: OSMTurnRestriction, OSMRoutingGraph::forbidden_turn_from_arc"]}
{"id": "C62", "title": "The car, pedestrian and bicycle graphs of an OSM file", "statement": "simple_load_osm_car_routing_graph_from_pbf returns the graph of exactly those way segments and directions that the car profile allows, with travel_time = geo_distance * 3600 / speed (rounded down) at the speed of the way of each arc, and with exactly the turns forbidden by the turn restrictions of the file; the pedestrian graph has both directions of all ways that pedestrians may use; the bicycle graph has the directions that bicycles may use, each arc with the comfort level of its way. No index is out of bounds and no division is by zero.", "quantifier": "all files with unique ways, all schedules of the reading threads", "why_tests_cant": "The per-way speeds are indexed by numbers which depend on all ways in the file; the arcs are reordered afterwards. Tests compare one extract.", "anchors": ["src/osm_simple.cpp", "include/routingkit/osm_simple.h"]}
{"id": "C63", "title": "Extra weights of shortest paths", "statement": "After a query on a contraction hierarchy, get_extra_weight_distance returns the extra weight of exactly the path that get_arc_path returns: the extra weights of its arcs linked in order (with some bracketing that only matters for non-associative link functions), and the default weight for a path without arcs. For pinned targets and sources the extra weights belong to shortest paths between each pinned node and its reported used source or target. The answers are the same for weights given per input arc and for a ContractionHierarchyExtraWeight object, which may be reused. Calls for extra weights do not disturb later calls on the query object, and no index is out of bounds if the containers are large enough.", "quantifier": "all graphs, hierarchies, weight types, link functions (also non-commutative ones), histories of calls", "why_tests_cant": "The order of linking matters only for non-commutative link functions and depends on where shortcuts and the meeting node lie; the pinned variant reuses scratch memory between targets.", "anchors": ["include/routingkit/contraction_hierarchy.h"]}
{"id": "C64", "title": "DIMACS graphs survive import and export", "statement": "Converting a DIMACS file to a graph yields exactly the nodes and arcs of the file, ordered by tail, then head, then position, whatever the spacing, the comments and the order of the lines; a well-formed file with a wrong arc count, an id out of range or a number of more than 32 bits is rejected; whatever text is converted successfully, the result is a valid graph. Exporting a graph that has arcs writes its arcs, and importing that file yields the graph again, with the arcs of each node ordered by head.", "quantifier": "For every text, every well-formed DIMACS file of less than 2^32 arcs and less than 2^32-1 nodes, and every graph with arcs.", "why_tests_cant": "The inputs are arbitrary texts and graphs; tests convert a few files with one style of spacing.", "anchors": ["src/convert_road_dimacs_graph.cpp:40-101", "src/export_road_dimacs_graph.cpp:37-67", "include/routingkit/inverse_vector.h:20-53"]}
{"id": "C65", "title": "Vectors survive conversion to text and back", "statement": "Printing a vector file as text and encoding the text again yields the same vector for the types int16, uint16, int32, uint32, int64, uint64 and string; encoding the text of numbers yields exactly these numbers if all fit into the type and an error otherwise.", "quantifier": "For every vector of these types and every text of one number per line.", "why_tests_cant": "All values, including extreme ones and strings with line breaks and backslashes; tests cover a few vectors.", "anchors": ["src/encode_vector.cpp:11-61", "src/decode_vector.cpp:11-33"]}
{"id": "C66", "title": "Input checks accept exactly well-formed data", "statement": "The checks that the command line tools apply to their input accept a graph exactly if it is an adjacency array (offsets start at 0, do not decrease and end at the number of arcs, every head is a node), travel time profiles exactly if every arc has at least one point with non-decreasing departure times within the period, and queries exactly if all ids and times are in range and the vectors have the same size; everything else is reported with an exception.", "quantifier": "For every combination of vectors.", "why_tests_cant": "The checks are loops over vectors of any size; tests cannot show that no malformed input passes and no well-formed input is rejected.", "anchors": ["src/verify.cpp:8-22", "src/verify.cpp:24-51", "src/verify.cpp:53-64", "src/verify.cpp:69-91"]}
{"id": "C67", "title": "Random renumbering preserves the graph", "statement": "Randomly permuting the nodes of a graph with at least one arc yields a well-formed adjacency array with the arcs of each node ordered by head, in which every node and arc of the given graph occurs exactly once under its new id with the same end points and the same value in every weight vector; all distances stay the same.", "quantifier": "For every graph, every number of weight vectors and every permutation the random generator may draw.", "why_tests_cant": "The permutation is random and the order of parallel arcs depends on the sort implementation; tests see one seed.", "anchors": ["src/randomly_permute_nodes.cpp:44-80", "include/routingkit/permutation.h:155-160"]}
{"id": "C68", "title": "The routing tools compute exact distances end to end", "statement": "Given the files of a graph and files with queries, run_dijkstra saves for each query the length of a shortest walk (inf_weight if there is none). compute_contraction_hierarchy followed by run_contraction_hierarchy_query saves the same vector: the built hierarchy passes its own check, survives the file, and answers every query with the exact distance (inf_weight if no walk is shorter). Wrong input is reported and nothing is saved.", "quantifier": "all adjacency arrays with at least one arc, all weights within the documented limits, all non-empty query files", "why_tests_cant": "the tools are only tried on a few road graphs; that stopping at the target, reusing the search objects, the self check and the file format never change an answer needs all graphs and all query sequences", "anchors": ["src/run_dijkstra.cpp", "src/compute_contraction_hierarchy.cpp", "src/run_contraction_hierarchy_query.cpp"]}
{"id": "C69", "title": "Files as data sources: content in order, no lost descriptors", "statement": "Any number of FileDataSource objects can be opened, closed, rewound, moved and read in any order: each delivers the bytes of its file in order, however many bytes a single read delivers, and nothing but its file; a failed open changes nothing; size() is the size of the open file; when all objects are closed or destroyed, no file is left open.", "quantifier": "all histories of calls on any number of objects, all file contents, all sizes of partial reads, all descriptors opened by the rest of the program", "why_tests_cant": "partial reads depend on device and kernel, descriptor numbers on everything else in the process; leaks are invisible until the descriptors run out", "anchors": ["src/file_data_source.h", "src/file_data_source.cpp"]}
{"id": "C70", "title": "Dijkstra rank queries: exact distances, every rank once, no rank missing", "statement": "The tool that generates Dijkstra rank queries saves, for each drawn source in order, exactly one query for each rank 6, 7, ... for which 2^rank nodes can be reached; each saved distance is the exact shortest path distance, and the target is one of the 2^rank nodes closest to the source.", "quantifier": "all graphs with at most 2^30 nodes, all weights whose sums fit into 32 bits, all sequences of drawn source nodes", "why_tests_cant": "depends on the graph, the ties between nodes and the random draws; benchmark inputs are never checked against anything", "anchors": ["src/generate_dijkstra_rank_test_queries.cpp"]}
{"id": "C71", "title": "Import of DIMACS coordinates: each node gets its position, everything else is rejected", "statement": "convert_road_dimacs_coordinates turns a DIMACS coordinate file in which each node has exactly one position into the two vectors with exactly these positions, whatever the spacing, comments and order of lines. A file in which a node has no position or two, a node number is 0 or too large, or a number does not fit is rejected and nothing is saved. No text with a header causes undefined behaviour.", "quantifier": "all texts; all well-formed files with any number of points; all out-of-range numbers", "why_tests_cant": "the space of texts is unbounded; the wrap of node 0, 64 bit limits, missing nodes and duplicates interact with the line order", "anchors": ["src/convert_road_dimacs_coordinates.cpp"]}
{"id": "C72", "title": "Extreme elements and comparison of vectors", "statement": "The position functions return the first position of a minimum (maximum) of a non-empty vector, the element functions its value, or the given value for an empty vector. compare_vector reports two vectors as the same if and only if they are equal; for vectors that differ it reports the exact numbers of smaller, larger, equal and different elements and the first position that differs.", "quantifier": "all vectors of any length over any totally ordered element type", "why_tests_cant": "vectors and their contents are unbounded; ties, differences at the last position and the sentinel for the first difference are boundary cases", "anchors": ["include/routingkit/min_max.h", "src/compare_vector.cpp"]}
{"id": "C73", "title": "The extraction tool saves the car graph with matching ways, speeds, names and ids", "statement": "osm_extract saves, for every OpenStreetMap file with at least one road for cars: the graph of the arcs that cars may use; for each arc its length, its way and the travel time at the speed of this way; for each way its speed and its name (tags name and ref); and the sets of OSM ids from which the original ids can be recovered. The printed arc has the maximum travel time and the printed OSM id is the id of its way.", "quantifier": "all well-formed files, all tags, all schedules of the reading threads", "why_tests_cant": "files, tags and schedules are unbounded; that positions in ten vectors written by different parts of the program belong together cannot be seen from samples", "anchors": ["src/osm_extract.cpp"]}
{"id": "C74", "title": "Node orders from the command line tool always give exact hierarchies", "statement": "compute_nested_dissection_order saves, for every valid graph with at least one node and a coordinate per node, a permutation of the nodes. A customizable contraction hierarchy built from the same graph and this order accepts every metric and answers every query with the distance, the arcs and the nodes of a shortest path of the graph in the files; for graphs with at most 92682 nodes no step can fail.", "quantifier": "all graphs, coordinates, weights, queries, contents of uninitialised memory and implementations of nth_element that follow the standard", "why_tests_cant": "the order is computed by nested minimum cuts; that each of the possible orders is a permutation and serves every metric cannot be settled by samples", "anchors": ["src/compute_nested_dissection_order.cpp", "src/nested_dissection.cpp", "src/customizable_contraction_hierarchy.cpp"]}
{"id": "C75", "title": "The drawings of paths show shortest paths", "statement": "show_path reads pairs of nodes from its input and prints, for each pair in order, the end points, the distance and the coordinates of all nodes of a shortest path of the graph from which the hierarchy file was computed. Numbers that are not nodes are reported as an error; what was printed before stays.", "quantifier": "all graphs, hierarchy files computed for them, coordinates and input texts", "why_tests_cant": "graphs and texts are unbounded and the query object is reused between queries", "anchors": ["src/show_path.cpp", "src/contraction_hierarchy.cpp"]}
{"id": "C76", "title": "Weights, documents and drawings of a graph cover every arc", "statement": "compute_geographic_distance_weights assigns to each arc the distance of its end points and refuses invalid graphs; graph_to_dot writes a document with exactly the arcs of the graph and their weights, from which the graph can be recovered; graph_to_svg draws one line per arc, from tail to head, inside of the picture. Input that does not fit together is refused.", "quantifier": "all graphs, coordinates and weights", "why_tests_cant": "graphs are unbounded; the loops run over the ranges of an adjacency array whose consistency with the other vectors is a precondition", "anchors": ["src/compute_geographic_distance_weights.cpp", "src/graph_to_dot.cpp", "src/graph_to_svg.cpp"]}
{"id": "C77", "title": "Generated node lists, queries, times and constants", "statement": "generate_random_node_list, generate_test_queries and generate_random_source_times produce exactly the requested number of elements, all of them valid nodes or times within the period; the number may be given as a number or as a vector of which the size is taken. generate_constant_vector produces the requested number of copies. Arguments that are no numbers are refused. examine_ch prints the number of nodes and arcs of the stored hierarchy.", "quantifier": "all arguments, files, seeds and sequences of random numbers", "why_tests_cant": "node counts, seeds and random sequences are unbounded; failures occur at counts of 0 and beyond 2^31", "anchors": ["src/generate_random_node_list.cpp", "src/generate_test_queries.cpp", "src/generate_random_source_times.cpp", "src/generate_constant_vector.cpp", "src/examine_ch.cpp"]}
{"id": "C78", "title": "Building a contraction hierarchy returns a hierarchy", "statement": "build, build_given_rank and build_given_order return (they neither run forever, nor throw, abort, divide by zero or access memory out of bounds), for every graph with valid arguments and every node order and limit of the witness searches, as long as the weights of the shortcuts and the numbers of original arcs in them fit into their 32-bit variables. This is in particular the case for small graphs with small weights, and for graphs in which no arc is longer than the distance of its ends if the witness searches are not cut off. The result can be used for queries.", "quantifier": "all graphs with arguments in range, all node orders, all pop limits, all contents of uninitialised memory", "why_tests_cant": "Non-termination, division by zero of a wrapped counter and out of bounds accesses depend on the states a construction runs through; the number of possible states is unbounded.", "anchors": ["src/contraction_hierarchy.cpp: ContractionHierarchy::build, build_given_rank, build_given_order, build_ch_and_order, build_ch_given_rank"]}
{"id": "C79", "title": "Contracting a node adds only needed shortcuts", "statement": "If the limit on the number of nodes a witness search may visit is at least twice the number of nodes, then a shortcut is added (or made lighter) only if every path around the contracted node is longer than it. In particular, ties are decided in favour of the existing path, and the early end of the bidirectional search misses no path.", "quantifier": "all states of the construction of a hierarchy, all nodes, all pop limits of at least 2n", "why_tests_cant": "The tests compare distances, which are right even if superfluous shortcuts are added; the early stopping criterion of the bidirectional search and its reuse for several targets can only be verified for all graphs by proof.", "anchors": ["src/contraction_hierarchy.cpp: ShorterPathTest, contract_node"]}
{"id": "C80", "title": "Reading arbitrary bytes as an OpenStreetMap file ends", "statement": "Whatever bytes a file contains, reading it as an OSM PBF file (in any mode, with at least one callback, whatever the decompressor delivers and however the two threads are scheduled) returns or throws an exception: no endless loop, no access outside of the memory that was read. The exceptions are known and listed: a number of more than ten bytes whose tenth byte is 0x81 at a position where a number is read, an index of a tag that equals the number of strings of the block, the name of a known feature followed by a zero byte and more, and, for ordered reading that has to find out the order, a file that contains nothing to report.", "quantifier": "all byte sequences, all behaviours of the decompressor, all schedules, all sets of callbacks", "why_tests_cant": "The space of damaged or hostile files is infinite; fuzzing samples it and cannot exclude an endless loop.", "anchors": ["src/osm_decoder.cpp:94-237", "src/osm_decoder.cpp:264-646", "src/protobuf.h", "src/buffered_asynchronous_reader.cpp:141-182"]}
{"id": "C81", "title": "All three ways to compute a distance agree", "statement": "For the same graph and the same pair of nodes, Dijkstra's algorithm, a contraction hierarchy and a customizable contraction hierarchy that is customized with the weights of the graph return the same distance, which is the length of a shortest path over open arcs, or inf_weight if there is none. The orders of the two hierarchies may be different and arbitrary. For small graphs, and for graphs in which no arc is longer than the distance of its ends, both constructions succeed, so that the agreement holds without any condition on their results.", "quantifier": "all graphs, all pairs of nodes, all node orders, all limits of the witness searches, all contents of uninitialised memory", "why_tests_cant": "A randomised comparison of the three algorithms samples finitely many graphs and orders.", "anchors": ["src/contraction_hierarchy.cpp: ContractionHierarchyQuery", "src/customizable_contraction_hierarchy.cpp: CustomizableContractionHierarchyQuery", "include/routingkit/dijkstra.h"]}
{"id": "C82", "title": "The arcs of a hierarchy lead upwards, are sorted, and contain no duplicates", "statement": "In every hierarchy that build, build_given_rank, build_given_order or the perfect witness search return, each arc of the forward and of the backward graph leads to a node of higher rank (so there are no loops), the arcs of a node are sorted by their heads, and no two of them have the same head. Hence each direction has at most n(n-1)/2 arcs, and hierarchies of graphs with at most 32767 nodes can always be saved and loaded.", "quantifier": "all graphs, all node orders, all limits of the witness searches, all contents of uninitialised memory", "why_tests_cant": "Superfluous parallel arcs do not change any distance, so no test of distances notices them; the bound on the number of arcs is a statement about all graphs.", "anchors": ["src/contraction_hierarchy.cpp: Graph::add_arc_or_reduce_arc_weight, build_ch_given_rank, build_ch_and_order, sort_ch_arcs_and_build_first_out_arrays", "src/customizable_contraction_hierarchy.cpp: build_contraction_hierarchy_using_perfect_witness_search"]}
{"id": "C83", "title": "A reported route visits no node twice", "statement": "The node path reported by a Dijkstra search, by a query on a contraction hierarchy or by a query on a customizable contraction hierarchy contains every node at most once; in particular it has at most as many nodes as the graph.", "quantifier": "for all graphs, weights, node orders, limits of the witness searches, and all sources and targets with offsets", "why_tests_cant": "Only graphs with cycles of length zero can produce a route that returns to a node, and then only for particular node orders; tests compare distances, which are right in any case.", "anchors": ["src/contraction_hierarchy.cpp:get_node_path", "src/customizable_contraction_hierarchy.cpp:get_node_path", "include/routingkit/dijkstra.h:get_node_path_to"]}
{"id": "C84", "title": "From an OpenStreetMap file to a route", "statement": "A car routing graph is loaded from an OpenStreetMap PBF file and an index is built on its travel times, as in the example program of the README. Then every query from s to t returns the least time of a drive from node s to node t along the ways of the file that cars may use in the directions in which they may use them, where the time of a stretch in milliseconds is its length in metres times 3600 divided by the speed of its way in km/h, rounded down; the returned nodes are the routing nodes of such a drive in order. If there is no drive of less than 2^31-1 milliseconds, then this number and no nodes are returned. This holds for customizable contraction hierarchies with every order of up to 65535 nodes, and for contraction hierarchies that are built and whose arcs are light (the condition of C22). The example program answers each pair of positions, one after the other with the same query object, with the route between the nodes nearest to both positions, or says that there is no node within the radius, for the first position for which this holds.", "quantifier": "for every well-formed file (any blocks, any order of entities, any compression), every two routing nodes, every sequence of pairs of positions", "why_tests_cant": "the claim composes a decoder, a graph extraction, two indices and a reused query object; tests compare at most a few routes on one extract with another run of the same loader", "anchors": ["README.md:24-69", "src/osm_simple.cpp:17-105", "src/osm_graph_builder.cpp", "src/contraction_hierarchy.cpp", "src/customizable_contraction_hierarchy.cpp", "src/geo_position_to_node.cpp", "include/routingkit/inverse_vector.h"]}
{"id": "C85", "title": "Distances and nearest nodes in floating point arithmetic", "statement": "With double precision arithmetic, geo_dist returns for any two positions in the documented range a number that differs from the great circle distance by at most 1.5 metres; the distance of a position to itself is a number of at most 1.5 metres. The index of positions then finds, up to an error of a few times the error of the distances, the nearest node within a radius and all nodes within a radius; in particular a query at the position of a node with a radius of at least 10 metres finds a node.", "quantifier": "for every pair of positions with latitudes in [-90,90] and longitudes in [-180,180], every list of positions, every query position and radius, every mathematical library whose cosine and arc cosine are accurate to 0.9 units in the last place, with and without contraction of multiplications and additions", "why_tests_cant": "the positions at which rounding pushes the argument of the arc cosine above 1 are a few percent of the latitudes between 30 and 45 degrees and depend on the last bit; a test samples some positions and cannot bound the error for all of them", "anchors": ["include/routingkit/geo_dist.h:9-124", "src/geo_position_to_node.cpp:15-230"]}
{"id": "C86", "title": "Lengths of arcs in the graph of a map are correct up to rounding", "statement": "The lengths which load_osm_routing_graph_from_pbf and compute_geographic_distance_weights assign to arcs, computed with floating point numbers and cut to whole meters, differ from the exact lengths by at most a few meters per line, for every map in the usual range of coordinates, also where nodes of a way are close to each other or have the same position. The stored coordinates differ from those in the file by at most 0.0000125 degrees.", "quantifier": "all OpenStreetMap files, mappings, callbacks and schedules of the reader; all graphs with coordinates; all mathematical libraries within the bounds of IEEE 754 and less than one unit in the last place", "why_tests_cant": "The set of positions is far too large to be tested, and the error depends on each bit of the coordinates; the distance of two nodes with the same position is not a number only on some latitudes.", "anchors": ["src/osm_graph_builder.cpp:161-193", "src/osm_graph_builder.cpp:220-275", "src/osm_decoder.cpp:318-320", "src/osm_decoder.cpp:421-425", "src/compute_geographic_distance_weights.cpp:53-60", "include/routingkit/geo_dist.h"]}
{"id": "C87", "title": "The direction of a turn restriction is compared with the turn on the ground", "statement": "If the ways and the via node of a turn restriction leave several pairs of arcs, then load_osm_routing_graph_from_pbf takes those whose turn, as seen on the ground, has the direction of the restriction: 45 to 135 degrees to the left or right, less than 60 degrees for straight on, more than 120 degrees for a u-turn. Rounding matters only within a hundred thousandth of a radian of the borders.", "quantifier": "all positions of the node, the one before and the one behind it; all four directions; all implementations of atan2 with an error of less than nine tenths of a unit in the last place", "why_tests_cant": "The positions are real data from all over the world, and a test uses those of one region: there are no errors visible close to the equator and away from the date line, and rounding cannot be enumerated.", "anchors": ["src/osm_graph_builder.cpp:665-742"]}
{"id": "C88", "title": "From an OpenStreetMap file to a walk or a ride", "statement": "A routing graph for pedestrians or for bicycles is loaded from an OpenStreetMap PBF file and an index is built on it. With the distances of the pedestrian graph as weights, every query from s to t returns the least length of a walk from node s to node t along the ways of the file that pedestrians may use (all of them in both directions) and its routing nodes in order. With weights of the bicycle graph computed from the distance and the comfort level of each arc by any function, every query returns the least costs of a ride along the ways of the file that bicycles may use, in the directions in which they may use them, where the costs of a stretch are this function of its length and of the comfort level of its way. If every trip costs at least 2^31-1 then this number and no nodes are returned. This holds for customizable contraction hierarchies with every order of up to 65535 nodes, and for contraction hierarchies that are built and whose arcs are light (the condition of C22).", "quantifier": "for every well-formed file (any blocks, any order of entities, any compression), every function for the costs with values of at most 715827882, every two routing nodes", "why_tests_cant": "the claim composes a decoder, a graph extraction, the choice of ways by tags and two indices; tests compare at most a few routes on one extract with another run of the same loader", "anchors": ["src/osm_simple.cpp:66-152", "src/osm_graph_builder.cpp", "src/osm_profile.cpp", "src/contraction_hierarchy.cpp", "src/customizable_contraction_hierarchy.cpp", "include/routingkit/inverse_vector.h"]}
{"id": "C89", "title": "The example program with floating point numbers", "statement": "The example program of the README, with all computations in IEEE arithmetic: coordinates are stored as float, the lengths of the stretches and the distances to nodes are computed by geo_dist in double, the index by the formula in its constructor in float. For every pair of positions the program prints the time and the nodes of a fastest drive between two nodes. Each of them is nearly a nearest node: its exact distance to the position exceeds that of every other node by at most 73 m and 18.3 millionths of the size of the map, and the radius by at most 4 m and a ten millionth of the size. If it says that there is no node then no node is closer than the radius less 70 m and 18.2 millionths of the size. The time for a stretch differs from the time for its exact length by at most the time for 6 m for each line between consecutive nodes and 1 m, and one millisecond.", "quantifier": "for every well-formed file whose routing nodes are at least 6 m apart on a map of at most 10000 km, every sequence of pairs of positions at least 4 m from all nodes", "why_tests_cant": "rounding errors depend on all coordinates; tests compare a few queries with the same computation", "anchors": ["README.md:24-69", "src/osm_simple.cpp", "src/osm_graph_builder.cpp", "src/geo_position_to_node.cpp", "include/routingkit/geo_dist.h", "src/contraction_hierarchy.cpp"]}
{"id": "C90", "title": "Floating point vectors survive conversion to text and back", "statement": "Encoding decimal numbers yields the floating point numbers with the right signs next to them; printing a vector of float32 or float64 as text and encoding the text again yields the same kinds of numbers and signs (including zeros, infinities and not a number) with an error of at most 0.0000006 respectively 0.0000000000000007 times the number; numbers with at most 7 respectively 16 decimal digits come back exactly, and so does everything that was encoded from decimal numbers with that many digits; lines without a number are rejected.", "quantifier": "For every vector of all floating point numbers of these types and every text with decimal numbers.", "why_tests_cant": "2^32 or 2^64 values per element with rounding to decimal and back twice; tests cover a few.", "anchors": ["src/encode_vector.cpp:26-34", "src/decode_vector.cpp:11-17"]}
{"id": "C91", "title": "The text of the drawing of a graph", "statement": "The tool that draws a graph writes an SVG file with one line element for each arc, in the order of the arcs, from the tail to the head. The coordinates in the text are decimal numbers that differ by at most 0.001 from the exact positions in a picture from 0 to 300, although the tool computes with numbers of type float and prints six digits; all of them lie inside of the picture.", "quantifier": "for all graphs and all finite coordinates of type float up to 10^30, including subnormal numbers and both zeros", "why_tests_cant": "the result of four rounded operations and of a decimal rounding per coordinate depends on all bits of the coordinates; tests with ordinary maps stay away from the rare bit patterns for which a node is drawn outside of the picture", "anchors": ["src/graph_to_svg.cpp:41-77"]}
{"id": "C92", "title": "The text of the documents with routes", "statement": "The tool that shows paths prints, for each pair of nodes on the standard input and in this order, a complete KML document with the source, the target, the length and the nodes along a shortest path of the graph. Every printed coordinate identifies the number of type float in the coordinate file: reading the decimal number as float yields the same number.", "quantifier": "for all graphs, hierarchies, finite coordinates of type float and all texts with pairs of nodes", "why_tests_cant": "a decimal number with a fixed number of digits has to be nearer to one float than to all others, for every one of the 2^32 bit patterns, and combined with every route", "anchors": ["src/show_path.cpp:31-74"]}
{"id": "C93", "title": "The threads of the parallel customization do not race, and outdated loads do not matter", "statement": "No two threads of the parallel customization access the same weight at the same time unless both only read it or both use atomic operations. Whatever value that a weight has had since the last barrier is returned by the loads in front of the compare-and-swap operations, the parallel customization stays within the bounds of its vectors, can be finished, and computes the metric of the sequential customization.", "quantifier": "all CCHs, metrics, interleavings, and all choices of outdated values", "why_tests_cant": "Tests run on the memory model of one machine, where loads of single weights are atomic and mostly up to date; neither schedules nor outdated values can be enumerated.", "anchors": ["src/customizable_contraction_hierarchy.cpp:807-835 atomic_min_to, AtomicLowerTriangleRelaxer", "src/customizable_contraction_hierarchy.cpp:916-935"]}
{"id": "C94", "title": "Random permutations are permutations, and all of them are equally likely", "statement": "Whatever the random generator returns, random_permutation yields a permutation of the requested size, every permutation is reached by exactly one sequence of random positions, and randomly_permute_nodes renumbers the graph for every seed.", "quantifier": "all sizes and all sequences of random numbers", "why_tests_cant": "A test runs a handful of seeds; that no sequence of random numbers leads to a repeated or missing element and that no permutation is preferred concerns all n! outcomes.", "anchors": ["include/routingkit/permutation.h:155-160 random_permutation", "src/randomly_permute_nodes.cpp:60-66"]}
{"id": "C95", "title": "Bit vectors own their memory and survive failing allocations", "statement": "Any program that constructs, copies, moves, assigns, exchanges, resizes, changes and destroys bit vectors, with any allocations failing, sees plain values: no operation changes another vector, no memory is used after it was freed, freed twice or leaked, and an operation that throws std::bad_alloc has changed nothing.", "quantifier": "all programs over any number of vectors, all patterns of failing allocations", "why_tests_cant": "Tests run a few programs without allocation failures; aliasing, double frees and lost updates depend on the order of copies, moves and exceptions.", "anchors": ["src/bit_vector.cpp:175-274", "src/bit_vector.cpp:285-367 resize", "include/routingkit/bit_vector.h:20-119"]}
{"id": "C96", "title": "The replacement for aligned_alloc hands out aligned, separate buffers and frees what malloc returned", "statement": "With ROUTING_KIT_NO_ALIGNED_ALLOC, whatever malloc answers, every program that uses only its own buffers gets aligned buffers that do not overlap, reads back what it wrote, and freeing a buffer gives exactly the block behind it back to the system; if malloc fails then the null pointer is returned.", "quantifier": "all programs, all alignments that fit in a byte, all sizes and all answers of malloc", "why_tests_cant": "Whether the shift of the address fits in its byte, is overwritten or is lost depends on the addresses that malloc returns, which a test does not control; failing allocations are hard to provoke.", "anchors": ["src/bit_vector.cpp:26-43"]}
{"id": "C97", "title": "The triangles of a CCH are enumerated exactly", "statement": "For every customizable contraction hierarchy and each of its arcs, the enumerations of the upper, intermediate and lower triangles of the arc call the given callback exactly once for every triple of arcs bottom->mid, bottom->top, mid->top that contains the arc in the respective role, and for no other, in increasing order of the third node. The six arguments are the three arcs and three nodes, numbered from bottom to top. A callback that answers false ends the enumeration, and the enumeration returns false exactly then. No array is read outside of its range, and the checks of the debug verifier of triangles never fail.", "quantifier": "every order, graph, with and without filtering, every arc, every callback with any state and any answers", "why_tests_cant": "Triangles exist only in graphs with dense parts and their number depends on the whole topology; a test can compare some graphs only, and a missed triangle shows up as a wrong weight for few metrics.", "anchors": ["src/customizable_contraction_hierarchy.cpp:45-153", "src/customizable_contraction_hierarchy.cpp:155-193"]}
{"id": "C98", "title": "The fallbacks for compilers without GCC extensions compute the same", "statement": "Built with ROUTING_KIT_NO_GCC_EXTENSIONS, the bit counting and bit searching builtins, the compare and swap and the vector register of eight words are replaced by own code. The replacements count the one bits and find the lowest one bit of every word, apply each vector operation to all eight words, and end for every argument. Any number of threads that use loads and the replaced compare and swap see, on sequentially consistent memory and under every schedule, only results that are possible if each compare and swap is one indivisible step; at most one thread is inside at a time, and there is no deadlock.", "quantifier": "every word, every content of uninitialized memory, every number of threads, every program of loads and compare and swap, every schedule", "why_tests_cant": "There are 2^64 words and unboundedly many schedules; tests run on few of them, and the fallback build is rarely tested with threads at all.", "anchors": ["src/emulate_gcc_builtin.h:11-50", "src/bit_vector.cpp:49-100", "src/customizable_contraction_hierarchy.cpp:807-813"]}
{"id": "C99", "title": "Files as data sources without POSIX: content in order, size, failures", "statement": "Built with ROUTING_KIT_NO_POSIX, a FileDataSource can be opened, closed, rewound, asked for its size and read in any order, with failures of the device at any point. A read delivers the next bytes of the file, as many as asked for unless the file ends; reading blocks until nothing comes yields the file; size() is the size of the file and does not move the position; every failure of the device and every use without an open file is an exception; after rewind() the file can be read again.", "quantifier": "all histories of calls, all file contents, all block sizes, all failures of the device", "why_tests_cant": "failures of devices cannot be provoked at every point of every history, and files beyond the range of long are impractical in tests", "anchors": ["src/file_data_source.cpp:95-174", "src/file_data_source.cpp:176-178"]}
{"id": "C100", "title": "Sorting a temporary vector gives the same as sorting a copy", "statement": "The overloads of sort_using_key, stable_sort_using_key, sort_using_comparator and stable_sort_using_comparator that take a temporary vector return the same as the overloads that copy, never use an element after it was moved away, and leave the argument either unchanged or with all elements moved from.", "quantifier": "all vectors, element types, key functions, key counts, all behaviours of std::sort within its contract", "why_tests_cant": "Which path is taken depends on the ratio of elements and keys, and using a moved-from element goes unnoticed for types whose moves are copies.", "anchors": ["include/routingkit/sort.h:74-78", "include/routingkit/sort.h:99-103", "include/routingkit/sort.h:277-317"]}
{"id": "C101", "title": "Construction, moves and destruction of asynchronous readers", "statement": "In every history in which variables of type BufferedAsynchronousReader are constructed, moved from, assigned to (also from themselves) and destroyed, a move hands the reader over and leaves the source empty, and exactly the reader that loses its variable is ended: its thread is joined once and its memory is returned once. Nothing leaks. A construction that cannot obtain memory or a thread throws an exception to the caller and changes nothing.", "quantifier": "for every history of constructions, moves, assignments and destructions, and every failure of an allocation or of the creation of a thread", "why_tests_cant": "The failures do not occur in tests, and the aliasing of variables, self assignment and the order of moves are combinations of unbounded length.", "anchors": ["src/buffered_asynchronous_reader.cpp:15-41", "src/buffered_asynchronous_reader.cpp:52-93", "src/buffered_asynchronous_reader.h:12-31"]}
{"id": "C102", "title": "The speedtest of the PBF reader reports what it reads", "statement": "speedtest_osm_pbf_reading sends a first message, then, whenever an object is read more than a second after the previous report, a report with the numbers of nodes, ways and relations since the previous report, and, if the file could be read, a last message. For valid files the reports are about the objects of the file in its order, and together they count every object exactly once. If reading fails, the exception reaches the caller after the reports on what was read; without a function for messages nothing is read.", "quantifier": "for every file, every behaviour of the clock (also one that is set back) and every schedule of the reading thread", "why_tests_cant": "The reports depend on the clock and on the length of the file; a test would have to control both, and what is missing from the reports is not seen in any output.", "anchors": ["src/osm_decoder.cpp:719-762", "src/timer.cpp:14-16"]}
{"id": "C103", "title": "Query objects and hierarchies with separate lives", "statement": "In every program that builds, copies, moves and destroys contraction hierarchies, constructs, copies and destroys query objects and calls their functions in any interleaving, every answer of a query object is correct for the graph of the hierarchy it was constructed for or last reset to, and no call on one object affects another, provided that the hierarchy variable has not been assigned, moved from or destroyed since. A query object whose hierarchy is gone can still be copied, destroyed, and reset to another hierarchy, after which it works again.", "quantifier": "for every number of hierarchies and query objects, every graph, and every interleaving of statements of any length", "why_tests_cant": "A test runs one interleaving with few objects; use of a stale pointer often goes unnoticed in a test run.", "anchors": ["include/routingkit/contraction_hierarchy.h:104-219", "src/contraction_hierarchy.cpp:1426-1460", "src/contraction_hierarchy.cpp:1462-2198"]}
{"id": "C104", "title": "Dijkstra objects and graphs with separate lives", "statement": "In every program that assigns and destroys graphs, constructs, copies and resets Dijkstra objects and searches with them in any interleaving, every answer of an object is correct for the graph it was constructed for or last reset to, and no call on one object affects another, provided that the vectors of the graph have not been changed or destroyed since. reset(first_out, tail, head) makes an object usable for the given graph, whatever happened to its previous graph.", "quantifier": "for every number of graphs and objects, every graph, and every interleaving of statements of any length", "why_tests_cant": "A test runs one interleaving; writing behind the end of an array after a reset often goes unnoticed in a test run.", "anchors": ["include/routingkit/dijkstra.h:11-68", "include/routingkit/dijkstra.h:149-158"]}

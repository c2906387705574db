# Formal model of RoutingKit in Lean 4 — design

The properties are listed in `properties.jsonl` (C01 …).  `MANIFEST.json` maps
them to theorem names.  This file says what is modelled, how each property is
proved, and what is trusted.

## Layout

* `lean/Verif/Basic.lean` – constants, checked vector access, 32-bit arithmetic.
* `lean/Verif/Model/*.lean` – the model: total, computable Lean functions, each
  citing the file and lines in `/repo` it was read from.
* `lean/Verif/Spec/*.lean` – small independent specifications (walks,
  distances, abstract maps, …) that do not mention the model.
* `lean/Verif/Proof/*.lean` – helper lemmas and invariants.
* `lean/Verif/Props/*.lean` – the property theorems, next to `example`s which
  show that their hypotheses are met by concrete non-trivial cases.

## Modelling conventions

* `unsigned` values are `Nat`; wherever the C++ adds two values whose sum is
  not obviously in range the model uses `add32 a b = (a+b) % 2^32`, so
  wrap-around is part of the model and not assumed away.
* `std::vector` is `List`.  `v[i]` is the *checked* read `rd v i : Option _`
  and `v[i] = x` the checked write `wr v i x : Option _`.  `none` means
  undefined behaviour (out-of-bounds access, reading an uninitialised
  variable, a violated documented precondition) or a failing `assert`.
  A theorem of the form `f … = some r` therefore also says that the code has
  no undefined behaviour on that input.
* Loops are folds over `List.range`-like index lists when the trip count is
  fixed, and otherwise recursion on a fuel argument that returns `none` when
  the fuel runs out.  A theorem `f … = some r` hence also includes termination.
* Classes are structures; member functions return the new state.
* `std::sort`, `std::stable_sort`, `std::nth_element`, `std::lower_bound` are
  not re-implemented: the stable sort is a function (its result is unique),
  for the others the theorem quantifies over every result that the C++ standard
  permits.
* Exceptions are the outcome `none` as well, unless the exception is what the
  property is about.
* Vector sizes are below 2^32.  Loop counters and indices that are bounded by a
  vector size are plain `Nat`; every other `unsigned` sum uses `add32`.
* A default-initialised vector or array whose content the code reads only after
  writing is either given arbitrary content (a `junk` parameter that the theorems
  quantify over) or `none` on read.
* Object lifetimes are modelled only where a property is about them (C95, C96, C101,
  C103, C104).  Elsewhere pointers between objects are copies of the pointed-to value; where the code compares addresses the model carries an
  address (`CchHandle.addr`).
* `&v[0]` on an empty vector is undefined behaviour where the result is returned
  to the caller (pinned queries); constructing a metric from an empty vector is
  outside the model.
* The parallel customization is modelled by an interleaving semantics of single
  memory accesses (sequentially consistent, word-atomic); every loop iteration
  between two barriers is its own task, so every OpenMP schedule is covered.
* Logging, timers and memory allocation failure are not modelled, except in C95, C96,
  C101 and C102.

Size limits that appear as hypotheses, with the reason:

| where | limit | reason |
|-------|-------|--------|
| MinIDQueue (and everything on top of it) | 2^30 ids | 32-bit child index `4*i+1` wraps |
| IDSetMinQueue | n < 2^31 - 1 | 32-bit array size wraps |
| BitVector | size ≤ 2^64 - 512 | rounding up to blocks wraps |
| CH construction | arc weights ≤ 715827882, weights in the result ≤ 357913941 = (2^32-1)/12 | 32-bit sums in the witness search |
| CCH construction | < 2^31 arcs | `2*input_arc_count` wraps |
| CCH metric | weights ≤ inf_weight | sums wrap |

## Trusted base

* Lean 4 kernel and the axioms `propext`, `Classical.choice`, `Quot.sound`.
* The reading of the C++ source recorded in the comments of `Verif/Model`.
* 2's complement fixed-width arithmetic, `sizeof(unsigned)=4`,
  `sizeof(unsigned short)=2`, `sizeof(unsigned long long)=8`.

## Plan per property

| id | model | proof |
|----|-------|-------|
| C01 | `Model/IdQueue` (heap array, id_pos array, sift loops) | refinement to a partial map by heap/position invariants, induction over call histories |
| C02 | `Model/TimestampFlags` with 16-bit wrap | refinement to a set; invariant `last_seen ≤ current`; induction over histories |
| C03 | `Model/IdSetQueue` (implicit tree bits) | refinement to a finite set; tree invariant |
| C04, C05 | `Model/Permutation` | pointwise characterisation of the loops; for C05 the non in-place variant violates the claim → negation with a witness and a proof for the in-place variant |
| C06, C07 | `Model/Sort`, `Model/GraphUtil` | loop invariant of the bucket sort (counting), uniqueness of the stable order |
| C08 | `Model/InverseVector` | loop invariant (position = number of smaller elements) |
| C09 | `Model/Filter` | loop invariant |
| C10–C12 | `Model/BitVector` (512-bit blocks of 64-bit words) | refinement to a list of booleans; negations for multiples of 512 (`are_all_set`, `resize(n,true)`) |
| C13, C14 | `Model/IdMapper`, `Model/BitSelect` | rank/select correctness over all words |
| C15 | `Model/GraphUtil` | negation for every non-empty path with a witness; partial statement for the entries that are right |
| C16–C18 | `Model/Dijkstra` (on top of the C01/C02 models) | invariant of Dijkstra's algorithm against walk-based distances (`Spec/Graph`); reset re-establishes the initial abstract state |
| C19 | `Model/Scc` | Tarjan invariant |
| C20 | `Model/ArcReduction` | corollary of C07 plus scan invariant |
| C21 | `Model/Contraction` (dynamic graph, witness search, contract_node) | soundness of the bounded bidirectional search, distance preservation |
| C22–C24, C34 | `Model/ChBuild`, `Model/ChQuery` | CH invariant of the arc sets + correctness of the stalled bidirectional search; simulation of an abstract query object (`Spec/Query`); C34: two objects in the same abstract situation answer identically (lockstep relation that ignores stale memory, `Spec/Reuse`) |
| C25, C26, C33 | `Model/Cch` | elimination-game specification (paths through lower nodes), elimination tree, filter |
| C27, C29 | `Model/CchMetric` | lower-triangle fixpoint, customization invariant over nodes; partial customization as work-list invariant |
| C28 | `Model/CchParallel` | interleaving semantics; every schedule ends in the same metric |
| C30–C32, C34 | `Model/CchQuery` | elimination-tree search spaces, label invariants, triangle unpacking; simulation of an abstract query object; C34 lockstep relation |
| C48 | `Model/CchPerfect` | all-pairs invariant over the downward sweep: after the sweep every arc weight is the distance; kept arcs still contain an up-down path of every distance; the unpacking data and the final check are followed to the end. Without filtering; negation with witnesses for filtered hierarchies |
| C50 | `Model/ChCheck`, `Spec/Hierarchy` | decision procedure: each loop decides its conjunct; aborts for non-permutations |
| C35, C47 | `Model/VectorIO`, `Model/ChFile` | round-trip equations on byte lists in both directions (read∘write and write∘read), for all element types copied bytewise, all stream buffers and device sizes; negations for hardened builds, full devices, large files, foreign bit vector files |
| C36, C37 | `Model/Protobuf`, `Spec/Protobuf` | complete classification of the outcomes for every byte list (returned exactly for terminated numbers of at most ten bytes / messages of fields with such numbers); the 64-bit overflow check is violated → negation and undefined shift |
| C38 | `Model/AsyncReader` (interleaving semantics of worker and client: mutex, condition variables, spurious wakeups, arbitrary sources; sequentially consistent memory), `Spec/AsyncReader` (sequential reader) | inductive invariant over all finite executions (ring buffer positions are the stream positions modulo `5*block_size`); deadlock freedom from the invariant; a measure bounds the steps between calls; lost wake-up for throwing sources → negation. `Model/AsyncRace` lists the variables and bytes which the next step of each thread reads and writes; data race freedom follows from the invariant, and that steps change nothing else is proved. So weak memory is covered by the guarantee of the language for programs without data races (trusted) unless the source throws |
| C39 | `Model/TagMap` | the table after every history of `build` and `clear` gives the first pair with the key; more than 65536 pairs → negation |
| C40 | `Model/VpTree` over any metric with values in an ordered commutative group (exact arithmetic); `nth_element` is a parameter | induction over the recursion (each half is a permutation, boundary distances); radius boundary case is violated → negation |
| C51 | `Model/GeoDist` (real numbers) | trigonometric identities; triangle inequality of angles from Mathlib |
| C41, C43, C44, C52, C53 | `Model/Fragment`; vocabulary in `Spec/Fragment`, `Spec/Dissection` | `make_graph_fragment`: counting and sorting invariants; components: depth first search invariant (visited nodes of a component are connected, nothing is left when the stack is empty), then the renumbered fragment is split into ranges; dissection: induction on the number of arcs, the tree entries equal a preorder encoding |
| C42 | `Model/Flow` | for every node set with all sources and no target the saturated arcs that leave minus those that enter equal the intensity (invariant of each augmentation); closed sets then have exactly that many leaving arcs, and every other set at least as many |
| C54 | `Model/Inertial`; vocabulary in `Spec/Inertial` | `nth_element` as an arbitrary function with the guarantee of the standard (`NthOk`); four flows advanced until the one of least intensity is finished (decreasing measure), so its cut is bounded by the cuts of the other directions; ratios compared by 64-bit products without overflow; composition with C43, C44, C41 to the order of the whole graph |
| C45, C55, C56 | `Model/OsmPbf`, `Model/OsmFile`; the format in `Spec/OsmPbf`, `Spec/OsmFile`, what a callback must see in `Spec/OsmReport` | coordinates are integers (nanodegrees) first; `Model/OsmDouble` is the same decoder with coordinates of type `double` (rounding of the granularity, of each product and each sum, with and without contraction), related to the exact one by a simulation whose error grows with the number of nodes in a block; zlib is a parameter; both asynchronous readers are streams (C38), an exception of the inner thread may arrive after any number of blocks (parameter `k`); `Model/OsmStatus` interleaves the stores to the status word with the loop that waits for it; the format is a relation between bytes and objects, so all encodings are covered; induction over packed lists, fields, groups, blocks; tags by C39 |
| C46, C57, C58 | `Model/OsmProfile` (tag maps are lookup functions, C39; log messages omitted); vocabulary in `Spec/OsmProfile` | the text of a list of limits is a relation; induction over the list; case analysis for the profiles; loop invariant relating index lists to filtered member lists |
| C59 | `Model/OsmMapping`; vocabulary in `Spec/OsmGraph` | invariant over the sequence of callbacks: the marked ids are those of the prefix; C56 gives the sequence for a file |
| C60 | `Model/OsmGraph` (floating point operations are an abstract structure; callbacks may have a state) | the arrays are maps of the list of arcs so far; then C07, C08, C13, C14, C09 |
| C61 | `Model/OsmTurns` (fitting of a turn to a direction is part of the floating point structure) | loops as list operations; each restriction adds a list of turns; sorting and removing duplicates by C16, C13 |
| C62 | `Model/OsmSimple` | C59 - C61 with C46, C57; the list of speeds after the scan by induction over the file |
| C63 | `Model/ChExtra` (arbitrary weight type; the link function is a pure total function); vocabulary in `Spec/ExtraWeight` | unpacking a shortcut and linking follow the same recursion; one-to-one: along the predecessor chains; pinned nodes: every label has a trace of arcs to its source, the stack discipline of the extraction is shown by induction over the trace (push and pop fused) |
| C64 | `Model/TextIO` (stream extraction as in libstdc++, "C" locale), `Model/Dimacs`; the file format as a relation in `Spec/Dimacs` | every line has a meaning, the loop is a fold over meanings; invariant over the arcs read so far including the wrap of the counter; C06, C07, C08 for the order of the arcs; a second invariant for arbitrary texts; what is known about the words of accepted lines (`Spec/FirstWords`) |
| C65 | `Model/VectorText`; vocabulary in `Spec/VectorText` | induction over the lines; a line that starts with a number is a relation; the two replacements are described character by character; all 256 bytes are checked by evaluation (this is the whole type) |
| C66 | `Model/Verify`; well-formed data in `Spec/Verify`, `Spec/Graph` | every check is a test of a proposition (`Tests`): it accepts or reports; composition of tests |
| C67 | `Model/PermuteNodes` (the drawn permutation is a parameter); vocabulary in `Spec/PermuteNodes` | sorting by head (not stable) and stably by tail is a weak lexicographic order; C05 - C08; walks correspond arc by arc |
| C68 | `Model/Tools` (the vectors as loaded, the vector or file as saved); vocabulary in `Spec/Tools` | invariant over the queries on top of C16 - C18 and C22; built hierarchies are storable and pass `check_contraction_hierarchy_for_errors` (`Proof/ChStored`), C35 for the file |
| C69 | `Model/FileSource` (descriptor table of the process, lowest free number, partial reads); specification by views in `Spec/FileSource` | simulation: descriptors of objects are open and distinct; ownership invariant for leaks |
| C70 | `Model/RankQuery` (vectors as loaded, drawn nodes a parameter, the four output vectors as rows); ranks in `Spec/RankQuery` | invariant of the search loop over the settled nodes on top of C16: 2^(r-1) ≤ settled < 2^r; distances are bounded by nodes times weight (`Proof/ShortWalk`) |
| C71 | `Model/DimacsCoord` (getline and `>>` as in C66, signed 64 bit numbers, the division by 10^6 in floating point is a parameter); files as spellings of lines in `Spec/DimacsCoord` | line by line on top of the reading lemmas of C66; the state after a prefix of the points is determined by this prefix; counting for the final check; what is known about the words of accepted lines (`Spec/FirstWords`) |
| C72 | `Model/MinMax` (element type and its operators are parameters, the reports of `compare_vector` as values) | loop invariants over prefixes; counting lemmas for pairs of elements |
| C73 | `Model/OsmExtract` (on top of the models of C46, C59, C60, C14); names of roads in `Spec/OsmExtract` | the callback that stores speed and name is an instance of a general lemma about callbacks that store a value per way; the printed id by C14 |
| C74 | `Model/OrderTool` (on top of the models of C54 and C25–C31); routes in `Spec/OrderTool` | composition of the theorems about orders, construction, customization and queries; at most `n(n-1)/2` pairs of nodes can become arcs |
| C75 | `Model/ShowPath` (on top of the models of C22, C35 and of reading numbers); texts of numbers and drawings in `Spec/ShowPath` | induction over the pairs with the history invariant of the query object |
| C76 | `Model/ArcTools`; the Graphviz text and the scale of a drawing in `Spec/ArcTools`; distances are a parameter, drawings over an arbitrary ordered field (C91 has the drawing with `float` and the text) | the two loops are a fold over the list of visited pairs (node, arc), which for a valid graph lists the arcs by id; digits before a non-digit are determined by the text |
| C77 | `Model/Generators`; arguments as in `Spec/VectorText` (`StartsWithNumber`), files as in `Model/VectorIO`, hierarchies as in `Model/ChFile`; the random engine is a parameter of which only the bounds of its draws are assumed | induction on the number of draws; arithmetic of the 32 bit conversions; the numbers of a hierarchy from the round trip of C35 |
| C78 | `Model/ChBuild`; the states of a construction as an inductive relation in `Spec/BuildRun` | every step succeeds in a state that fits into 32 bits (`Proof/ChTotal`), the rest of the construction by C20, C21 and the lemmas for C22; bounds for all states by induction over runs (`Proof/ChBound`; without cycles of weight zero every shortcut is a simple path whose nodes are all on shortest paths between its ends, `Proof/ChSimple`) |
| C79 | `Model/ChGraph` (witness search, contraction) | invariants of the bidirectional search: popped nodes are relaxed, no node reached from both sides is on a short path; each pop counts, so `2n` pops suffice |
| C80 | `Model/OsmFile`, `Model/OsmPbf`, `Model/Protobuf`, `Model/TagMap` on arbitrary bytes | every loop consumes input; for each function: undefined only if its part of the file is one of the contents listed in `Spec/OsmDefined` (precise positions: fields of messages, numbers of lists, blocks behind blocks); the tag map stays usable for blocks of up to 2^28 bytes. Misaligned reads of fixed size fields count as defined |
| C81 | `Model/Dijkstra`, `Model/ChQuery`, `Model/CchQuery` together | each of the three is exact (C14, C22, C30), exact distances are unique; the constructions succeed by C78 and C25 (the edges of a hierarchy with at most 65535 nodes are pairs of nodes, so fewer than 2^32) |
| C82 | `Model/ChBuild` (rows, sorting, renaming), `Model/CchPerfect` | the rows of the construction are injective in (tail, head); sorting and renaming keep that; counting: the heads of node x are increasing in (x, n), induction over x |
| C83 | `Model/Dijkstra`, `Model/ChQuery`, `Model/CchQuery` | Dijkstra: the nodes of a path are a sublist of the settled nodes; contraction hierarchies: a shortest walk that visits a node twice contains a cycle of length zero (C23); customizable contraction hierarchies: all choices (triangle, predecessor, meeting node) prefer the lowest node among equals, and if both parts of a path through its highest node shared a node, leaving out the cycle would give a path with a lower highest node (`Proof/CchSimple`) |
| C84 | `Model/Readme` (the example program of the README), `Model/OsmSimple`, `Model/ChBuild`, `Model/ChQuery`, `Model/Cch`, `Model/CchMetric`, `Model/CchQuery`, `Model/VpTree` | `Spec/Routes` defines drives along the arcs of a map; walks in the loaded graph correspond to drives (C60, C62), so the shortest routes of C22/C23 and C27–C29 are fastest drives; with the nearest nodes of C40 this gives the output of the program. `C84_readme_program_small`: for at most 250 routing nodes and no round trips that take no time nothing is assumed about the hierarchy (C78) |
| C85 | `Model/Ieee` (rounding to nearest-even with 53 or 24 bits as a function on real numbers; without overflow and subnormal numbers: no value is larger than 2^25, and numbers below 2^-1022 arise only as differences of coordinates whose cosine is 1), `Model/GeoFloat`, `Model/VpFloat` (the index with all operations on distances as parameters) | error propagation through each operation, `arccos` by its derivative away from ±1 and by `1 - cos` near them; induction over the tree with tolerances; the violation by enclosing the cosine with its series to within less than half a unit in the last place. `Model/BuildFloat`: the `float` formula in `construct_tree`, by relative errors, where the rounding of coordinates is a change of the positions; a relative error of `sinf`, `cosf` and `atan2f` of 2^-21 is permitted (the vectorised functions of glibc); squares of differences of coordinates below 2^-126 would be subnormal and are not modelled. `-ffast-math` (used by the makefile of the library, not by users of the header) is not modelled |
| C86 | `Model/OsmFloat` (the operations of `load_osm_routing_graph_from_pbf` as an instance of the parameter of C60, with rounding; one fixed conversion of coordinates; `loadGraphDouble` in `Model/OsmDouble` instead runs on the coordinates that the decoder adds up) | a bound of the distance by the differences of the coordinates, the triangle inequality and C85 for each line; induction over the lines; induction over the nodes of a block for the coordinates; the scan of the file is undefined as soon as one length cannot be converted |
| C87 | `Model/TurnFloat` (the angles and comparisons for turn restrictions with a direction, as an instance of the parameter of C60 and C61, with rounding; `Spec/Turn` defines the exact turn, in the plane of latitudes and longitudes and on the ground) | rounding both differences turns a vector by at most 2e-7; the error of `atan2`, of the difference and of the at most three corrections by a whole turn are added up modulo 2π; the exact turn is the argument of a quotient of complex numbers; both violations have witnesses whose angles are known exactly |
| C88 | `Model/OsmSimple`, `Model/ChBuild`, `Model/ChQuery`, `Model/Cch`, `Model/CchMetric`, `Model/CchQuery` (as C84) | as C84: walks in the loaded graph correspond to trips along the arcs of the map (`Spec/Routes`), now for any costs of arcs that agree with the weights; lengths for pedestrians, functions of length and comfort level for bicycles (C62); that the hierarchy is built follows from C78 |
| C89 | `Model/ReadmeFloat` (the example program over the index with rounding), `Model/OsmFloat`, `Model/GeoFloat`, `Model/BuildFloat`, `Model/OsmSimple`, `Model/ChBuild`, `Model/ChQuery` | composes C86 (lengths), C62 (graph), C22/C23 (queries) and C85 (index); the stored coordinates are at most 2.17 m from the exact positions, so bounds for stored positions become bounds for exact ones by the triangle inequality (C51); small networks: C78 |
| C90 | `Model/FloatText` (numbers are a sign and an absolute value, rounding to nearest-even with subnormal numbers and overflow; `%.*g` with correctly rounded digits; the grammar of `strtold` with hexadecimal numbers, `inf` and `nan`; rounding to the 64 bits of `long double` and then to the type); vocabulary in `Spec/FloatText` | reading what was printed as lemma about the layout; decimal rounding is the best approximation among all numbers with that many digits; rounding within a binade is symmetric, therefore a number that is at most as far away as one that is rounded to x is also rounded to x |
| C91 | `Model/SvgText` (operations on `float` with rounding, signed zeros, infinities and what is not a number; printing with six digits; the text of the file); what a decimal number denotes and what the lines look like in `Spec/Svg` | differences of numbers of the type and their products with integers are multiples of the smallest subnormal number and thus have only relative errors; the quotient is between multiples of the exact position; the decimal rounding is a best approximation with six digits |
| C92 | `Model/KmlText` on top of `Model/ShowPath` and the numbers of C90; the document and what it means that a text identifies a `float` in `Spec/Kml` | two different numbers with 24 bits have a distance of at least 2^-24 times their size, ten digits have an error of 5 * 10^-10 times the size; the routes are those of C75 |
| C93 | `Model/CchRace`: the access of the next step of every iteration, executions in which the loads of lines 810 and 812 may be outdated | races: the invariant of C28, arcs of the current level are never the top arc of a triangle of that level; outdated loads: a simulation in which a compare-and-swap that is bound to fail is a load that has not happened yet |
| C94 | `Model/Shuffle` (`stdShuffle`, `randomPermutation`) | induction on the position: the place of the largest element determines the last random number, undoing the exchange determines the others |
| C95 | `Model/BitVectorHeap` (objects, pointers, blocks, failing allocations) on top of `Model/BitVector` | invariant `MemoryOk` (pointers valid, blocks unshared and owned); forward simulation to values and to lists of bits |
| C96 | `Model/AlignedAlloc` (blocks of `malloc`, bytes, `alignedAlloc`, `alignedFree`) | invariant: the byte before each buffer holds its distance to the block; forward simulation; violated if `malloc` fails |
| C97 | `Model/CchTriangles`: the three `forall_*_triangles_of_arc` with the callback inside the loop (state passing, abort on false), and `TriangleVerifier`; the other CCH modules use the list of reported triangles instead. | `Spec/Triangles`: `Triangle` (three up arcs), `visit` (call in order until false), `Enumerates`. The loop is shown equal to `visit` over the mapped join by induction over the rounds; membership comes from the specification of the join of two sorted ranges; order of the arc numbers from the sorting of the up arcs. |
| C98 | `Model/GccBuiltin` (loops of popcountll, popcount, ffsll; the eight word structure with its operators), `Model/EmulatedCas` (steps lock, equal, differ, store, unlock, load of any number of threads running any `Client`) | loops by induction over the shifted bit; operators by computation on eight variables; compare and swap: invariant (owner of the mutex is the only thread inside, a matched value stays) and forward simulation to `Spec/Atomic`, linearized at the store or at the failed comparison; converse by composing the steps; progress from the invariant. Memory is sequentially consistent, the fences are no steps. |
| C99 | `Model/StdioSource` (one object of the variant without POSIX: content, position, error indicator; the failures of `ftell`, `fseek` and `fread` are part of the call) | case analysis of each call against `Spec/StdioSource`, lifted to histories by simulation; reading everything by induction over the rounds; three violations with witnesses |
| C100 | `Model/SortMove`: the overloads for temporary vectors; an element that was moved from is `none`, using it makes the call undefined | the loop runs in step with that of the copying overload: after `i` rounds exactly the first `i` elements have been moved from; the specification is that of C06 |
| C101 | `Model/ReaderLife`: the pointers of all variables and the records that exist, each with or without buffer and joinable thread; joining what is not joinable ends the program, deleting twice or an uninitialized pointer is undefined | invariant: the records that exist are complete and each is held by exactly one variable; simulation against `Spec/ReaderLife`; the violation by evaluation in an arbitrary state |
| C102 | `Model/Speedtest`: the callbacks with their counters on top of the model of the PBF reader (C56, C80); the clock is an arbitrary function of the number of the call | induction over the calls with the objects not yet reported as accumulator, against the inductive specification in `Spec/Speedtest`; composed with C56 for valid files |
| C103 | `Model/QueryLife`: variables for hierarchies and query objects; a query object has the number of a variable, and every call works with what the variable holds at that time; `reset(new_ch)` does not look at the old one | simulation against `Spec/QueryLife`: the members of each object represent its query for the hierarchy they were computed for, which is still in the variable while the object is intact; each call by the theorem behind C22–C24, and no call but `reset(new_ch)` changes the pointer |
| C104 | `Model/DijkstraLife`: variables for graphs and `Dijkstra` objects; an object has the number of a graph, every call works with what the variable holds at that time, and `reset(first_out, tail, head)` reads the size at the old address | simulation against `Spec/DijkstraLife` as for C103, each call by the theorem behind C16–C18; the violation for every pair of graphs of different sizes |

## Findings

Places where the code does not do what its documentation or a user expects;
each is a theorem with a concrete witness.

| finding | theorem |
|---------|---------|
| `apply_permutation_to_possibly_invalid_elements_of` ignores invalid ids | `C05_*` |
| two arc sort functions assert the wrong vector (debug builds abort) | `C07_*` |
| `are_all_set` ignores the last 512 bits for sizes that are multiples of 512 | `C11_*` |
| `resize(n, true)` for sizes that are multiples of 512 | `C12_*` |
| converting an arc path to a node path yields wrong nodes for every non-empty path | `C15_convert_arc_path_to_node_path_violated` |
| `Dijkstra::add_source` twice with the same node is undefined | `C16_duplicate_source_undefined` |
| pinning more nodes than the graph has, or none | `C24_*`, `C32_no_pinned_targets_undefined` |
| default-constructed query objects | `C34_default_constructed_empty`, `C34_default_constructed_cch_query_undefined` |
| replacing a CCH at the same address | `C34_replaced_hierarchy_undefined` |
| CH construction aborts for graphs without arcs (debug builds) | `C22_build_without_arcs_aborts` |
| perfect witness search on filtered CCHs keeps arcs that are not shortest, or aborts | `C48_filtered_*_violated` |
| checking a hierarchy whose order is not a permutation aborts or writes out of bounds | `C50_bad_order_aborts` |
| the last debug assertion of the perfect witness search compares a weight with itself | (comment in `Model/CchPerfect`) |
| `load_file` rejects intact hierarchies with about 2^30 arcs or more (32-bit arithmetic) | `C35_large_file_rejected` |
| a default-constructed hierarchy cannot be read back; small files on a full device are lost silently; ranks in files are not checked | `C35_default_constructed_violated`, `C35_full_device_unnoticed`, `C35_undefined_only_for_bad_ranks` |
| `save_vector`, `save_bit_vector` do not notice a full device; string files that cannot be opened are ignored; unterminated strings dropped; padding bits of bit vector files trusted; huge sizes wrap | `C47_*` |
| the varint decoder accepts numbers of more than 64 bits (drops the high bits) and shifts by 70 for some eleven byte numbers | `C36_too_large_accepted_violated`, `C36_eleven_bytes_undefined` |
| `TagMap::build` with more than 65536 pairs gives wrong lookups; `clear` does not reset `size()` | `C39_more_than_65536_violated`, `C39_clear_keeps_size` |
| `BufferedAsynchronousReader`: if the source throws, `read` may never return (the flag is set and notified without the mutex), and the flag is read and written concurrently; block sizes of `2^32/6` bytes or more overflow | `C38_throwing_source_deadlock_violated`, `C38_exception_data_race_violated`, `C38_throwing_source_data_race_violated`, `C38_large_blocks_undefined` |
| `find_nearest_neighbor_within_radius` may miss a nearest point whose distance is exactly the radius | `C40_point_on_the_radius_missed_violated` |
| `make_graph_fragment` with 2^31 or more arcs writes out of bounds; nested dissection and component decomposition of a graph without nodes read out of bounds; an empty separator makes the recursion endless | `C44_too_many_arcs_undefined`, `C52_no_nodes_undefined`, `C41_no_nodes_undefined`, `C41_empty_separator_never_returns` |
| inertial flow computes `node_count * min_balance` with 32 bits: from 171798692 nodes on the requested balance of 25 percent is lost; a fragment with one node fails the assertion | `C54_large_graph_balance_violated`, `C54_single_node_aborts`, `C54_balance_above_half_aborts` |
| OSM `Node` messages: coordinates are read from the fields 19 and 20 instead of 8 and 9, so they are always 0; the id is not zigzag decoded | `C45_sparse_violated` |
| OSM block offsets: `int64` fields decoded as `sint64`, latitude and longitude exchanged, added once per node of a delta coded list | `C45_offset_encoding_violated`, `C45_dense_offsets_violated` |
| OSM string index equal to the size of the string table passes the check `i > size` | `C55_string_index_undefined` |
| OSM dense nodes without tag field: iteration over the tags shows those of an earlier object | `C55_tags_of_other_objects_violated` |
| OSM ways with id -1 are rejected | `C55_reserved_id_rejected_violated` |
| OSM header block: the blob is not unpacked, so required features are not checked and sorted files not recognised | `C56_unknown_features_accepted_violated`, `C56_sorted_not_recognised_violated` |
| OSM: ordered reading of an empty file waits forever; up to three trailing bytes are ignored; an incomplete block of unknown type is decoded as if it were the following blocks | `C56_empty_file_never_returns`, `C56_trailing_bytes_ignored_violated`, `C56_truncated_unknown_block_violated` |
| travel times of arcs longer than 238609 m overflow; `maxspeed` numbers wrap, a space behind a unit makes it km/h, values are cut after 1022 characters | `C46_long_arc_violated`, `C46_large_number_wraps`, `C46_space_behind_unit_violated`, `C46_long_value_cut_violated` |
| OSM ways with a `junction` tag are used whatever their access tags say; unknown `oneway` values leave the way open for cars though the log says closed; `ferry=yes` only for cars | `C57_junction_access_ignored_violated`, `C57_unknown_oneway_violated`, `C57_ferry_only_for_cars_violated` |
| negative OSM ids (used by editors for new objects): the ID mapping never returns | `C59_negative_id_never_returns` |
| `load_osm_routing_graph_from_pbf` asserts that the two node bit vectors of the mapping are related by comparing vectors of different sizes: with assertions enabled, the mapping `load_osm_id_mapping_from_pbf` returns for a single way 1-5-3 makes it fail | `C60_assertion_aborts` |
| If a way occurs in two versions with different nodes (or the mapping is from another extract), a node that is not in the mapping is used as an index: out of bounds access | `C60_unfitting_way_undefined` |
| A routing node that is missing in the file silently gets the coordinates 0/0 (which also enter the lengths of its arcs) | `coordinates` in `C60_routing_graph` |
| A turn restriction without via node is dropped as ambiguous if two arcs of its second way begin at the one node which both ways share (that node is counted twice) | `C61_two_arcs_ambiguous` |
| A mandatory restriction without via node from a two-way way to itself forbids all turns from one of the arcs into each inner routing node, and forces U-turns at both ends | `C61_straight_on_dead_end`, `C61_straight_on_u_turn` |
| `SaturatedWeightAddition` for `int` is not associative, so the extra weight of a path depends on how the hierarchy brackets it; small containers are not checked | `C63_saturated_int_depends_on_bracketing`, `C63_small_containers_undefined` |
| DIMACS import: no header or an empty file reads an uninitialised variable; 2^32-1 nodes write out of bounds; 2^32 superfluous arcs are accepted; negative weights wrap and trailing characters are ignored; empty lines with Windows line breaks are rejected | `C64_no_header_undefined`, `C64_largest_node_count_undefined`, `C64_arc_count_wraps`, `C64_import_lenient`, `C64_import_crlf` |
| DIMACS export: graphs without arcs are rejected; an empty or unsorted `first_out` is used before it is checked | `C64_export_rejects`, `C64_export_unchecked_undefined` |
| `decode_vector` followed by `encode_vector` changes strings that contain a backslash followed by `n`, every `int8`/`uint8` vector (printed as characters) and floating point vectors (too few digits); characters behind a number are ignored | `C65_string_round_trip_iff`, `C65_string_violated`, `C65_bytes_violated`, `C65_float_violated`, `C65_encode_lenient` |
| the checks of the tools use `front()` of an empty offset vector; two points with the same departure time and different travel times, and overtaking, pass the check | `C66_graph_undefined_iff`, `C66_profiles_undefined_iff`, `C66_ambiguous_profile_accepted` |
| `randomly_permute_nodes` rejects graphs without arcs and does not notice decreasing offsets (wrong graph or write out of bounds); the drawn permutation is not saved, so other node vectors such as coordinates no longer fit | `C67_no_arcs_rejected`, `C67_decreasing_offsets_violated`, `C67_decreasing_offsets_undefined` |
| the query tools divide by the number of queries, which may be 0; `run_contraction_hierarchy_query` does not compare the lengths of its query files; `run_dijkstra` takes the maximum of an empty vector for a graph without arcs | `C68_no_queries_undefined`, `C68_missing_targets_undefined`, `C68_no_arcs_undefined` |
| `FileDataSource::size()` throws for every open file (the result of `fstat` is tested the wrong way round); move assignment loses the descriptor of the overwritten object; a read function object used after `close` reads another file | `C69_size_violated`, `C69_move_assignment_leaks`, `C69_stale_reader_violated` |
| `generate_dijkstra_rank_test_queries` on a graph without nodes creates a distribution on 0 .. -1 (undefined); it does not check the length of the weight vector and reads behind its end | `C70_no_nodes_undefined`, `C70_short_weight_undefined` |
| `convert_road_dimacs_coordinates`: for a text without header an uninitialised node count is read; negative node numbers are taken modulo 2^32 | `C71_no_header_undefined`, `C71_coordinates_lenient` |
| `compare_vector`: NaN counts as equal to every number, different vectors are reported as the same; minima and maxima depend on the position of a NaN | `C72_nan` |
| `osm_extract`: if cars may use no way of the file, `travel_time[invalid_id]` is read | `C73_no_arcs_undefined` |
| `compute_nested_dissection_order` checks none of its files: an empty `first_out`, a graph without nodes, a coordinate file that is too short and a head file of another graph are undefined behaviour | `C74_no_nodes_undefined`, `C74_unchecked_files_undefined` |
| `show_path` compares node ids with `>` instead of `>=`: the number of nodes passes the check and is undefined behaviour; coordinate files are not checked; without a path a path of length 2147483647 is drawn | `C75_node_count_undefined`, `C75_unchecked_coordinates_undefined` |
| feature names in an OSM header are compared only up to their own length: every prefix, even the empty name, counts as the feature (the names are only seen if the header is not wrapped in a blob) | `C56_bare_header_accepted` |
| a feature name that continues `DenseNodes` with a zero byte makes the comparison read beyond the constant | `C56_long_feature_name_undefined` |
| `compute_geographic_distance_weights`, `graph_to_dot`, `graph_to_svg` do not check that the other vectors fit to the graph: undefined behaviour | `C76_weights_undefined`, `C76_dot_undefined_iff`, `C76_svg_undefined` |
| the drawing of a graph on a single latitude has coordinates that are not numbers; isolated nodes at the end are lost in a Graphviz document | `C76_svg_same_latitude_not_a_number`, `C76_dot_isolated_nodes_lost` |
| generate_random_node_list, generate_test_queries and generate_random_source_times have undefined behaviour if there are no nodes (or the period is 0), or more than 2^31: the bounds of the distribution are `int` and become negative | `C77_node_count_undefined`, `C77_period_undefined` |
| sizes and values on the command line of the generators are reduced modulo 2^32 without notice; a vector file whose name starts with a digit is taken for a number | `C77_constant_vector`, `C77_size_wraps`, `C77_file_name_taken_for_number` |
| arcs that weigh less than `inf_weight` make contraction hierarchies report wrong distances, because weights of shortcuts wrap (no check, even with assertions) | `C22_heavy_weights_violated` |
| if the graph has cycles of length zero, the paths of queries on a contraction hierarchy may visit nodes several times, as the meeting node and the witness searches do not prefer paths with fewer arcs; the path can have many more nodes than the graph | `C83_zero_cycle_violated`, `C83_long_path_violated` |
| `geo_dist(p, p)` is not a number at many latitudes between 30 and 45 degrees (for example 41.75): rounding gives an argument of the arc cosine of 1 + 2^-52; a node is then not found at its own position; and if nodes share a position, then the construction of the index calls `std::nth_element` with a comparison that is not a strict weak order | `C85_self_distance_nan_violated`, `C85_own_position_missed_violated`, `C85_same_position_undefined_violated` |
| a way with two consecutive nodes on the same position (for example 41.75 degrees north) has a length that is not a number, its conversion to `unsigned` is undefined behaviour; likewise for loops in `compute_geographic_distance_weights` | `C86_same_position_violated`, `C86_example_file_violated`, `C86_tool_weights_violated` |
| the direction of a turn restriction is computed from latitudes and longitudes as if the earth was a plane (C87): across the date line a left turn is taken for a right turn; away from the equator angles are distorted, at a latitude of 60 degrees a left turn by 106 degrees is taken for a u-turn | `C87_date_line_violated`, `C87_high_latitude_violated` |
| `decode_vector` prints floating point numbers with too few digits: the `float` 16777216 comes back as 16777220; the largest `double` is printed as a number that is too large for the type, its conversion in `encode_vector` is undefined (most compilers yield infinity) | `C90_float32_violated`, `C90_float64_largest_violated`, `C65_float_violated`; bounds in `C90_float32_round_trip_partial`, `C90_float64_round_trip_partial` |
| `graph_to_svg` can draw a node outside of the picture: with latitudes 0 and 14316562/2^18 the second node gets the height -3.05176e-05 because 300 times the difference is rounded up and divided by the difference; with equal latitudes it writes `-nan` | `C91_outside_violated`, `C91_same_latitude_not_a_number` |
| `ordered_read_osm_pbf` waits for a status word that another thread writes; it is neither atomic nor protected by a mutex (osm_decoder.cpp:680, 687 and 130, 158, 160) | `C56_status_data_race_violated` |
| `atomic_min_to` (customizable_contraction_hierarchy.cpp:810-812) loads the weight with a plain load while other threads may replace it with `__sync_bool_compare_and_swap`: a data race in the sense of the C++ standard (undefined behaviour). Harmless as long as the compiler loads the weight once into `z`, even if the load is outdated | `C93_data_race_violated`, `C93_outdated_loads_partial` |
| copying a vector without bits allocates a block of size 0, so that copies of default constructed or moved vectors may throw (bit_vector.cpp:230-245) | C95: example after `C95_strong_exception_guarantee`; `C95_every_program` allows it |
| with `ROUTING_KIT_NO_ALIGNED_ALLOC` a failing `malloc` leads to a write at address 63 instead of `std::bad_alloc` (bit_vector.cpp:27-33) | `C96_malloc_fails_violated` |
| without POSIX, `FileDataSource::size()` tests the first result of `ftell` twice and the second never: if the second fails (a file beyond the range of `long`), the size is 2^64 - 1 (file_data_source.cpp:153-160) | C99: `C99_size_violated` |
| without POSIX, a failed read cannot be repaired by `rewind()`: `fseek` does not clear the error indicator, so every further read throws (file_data_source.cpp:138-141 and 166-169) | C99: `C99_failed_read_is_forever` |
| without POSIX, `rewind()` and `read()` of a source without an open file pass a null pointer to the C library, where the POSIX variant throws (file_data_source.cpp:139 and 166) | C99: `C99_no_file_is_undefined` |
| if the constructor of `BufferedAsynchronousReader` cannot obtain the buffer or the thread, the caller gets no exception: the destructor of the half-built record joins a thread that was never started and the program ends (buffered_asynchronous_reader.cpp:38, 74, 85) | C101: `C101_failed_construction_ends_the_program` |
| the speedtest of the PBF reader never reports the objects after the last report; of a file that is read within a second only the first object is counted (osm_decoder.cpp:731-742, 761) | C102: `C102_rest_not_reported` |
| `Dijkstra::reset(first_out, tail, head)` decides by the size of the vector at the old address whether its arrays have to be resized: if the graph was replaced in place by a larger one, the arrays stay too small and `add_source` writes behind their end; if the old graph was destroyed, freed memory is read (dijkstra.h:43). `ContractionHierarchyQuery::reset` compares with its own arrays and does not have the problem (C103) | C104: `C104_violated`, `C104_larger_graph_undefined`, `C104_old_graph_gone_undefined` |
| a roundabout without the tag `oneway` is one-way for cars but open in both directions for bicycles (osm_profile.cpp:266-291 and 568-627) | C57: `C57_roundabout_directions` |
| the replacement for `ntohl` is wrong from 65536 on (harmless for valid files) | `C56_own_ntohl` |
| CCH construction with an empty log function, or without nodes | `C25_*_undefined` |

The rounding of `geo_dist` (C85), of the lengths of arcs (C86) and of angles (C87) is modelled; `-ffast-math`, overflow and
subnormal numbers, threads' weak-memory behaviour, zlib and the operating system are outside the model.

## The log of wrong programs

Each line of `seeded/LOG.jsonl` is one edit of the model. The field `outcome` says what was measured: `caught` (the
edited file compiles and a theorem fails), `survived` (everything still proves; either the edit is harmless or a theorem
was tightened, see `tightened`), `invalid` (the edit itself does not compile, so it says nothing about the theorems).
80 early lines have no `outcome`: a theorem failed, but the edits were not replayed later to see whether
the edited definition compiles by itself.
Lines keep the theorem names of their time: some theorems of C38, C47, C50, C55, C56, C65, C66, C71–C74, C76 and C77 got the suffix
`_partial` later.

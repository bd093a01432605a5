{"id": "C01", "title": "Vertex renumbering is a bijection", "statement": "For every graph size the internal renumbering of vertex ids maps 1..n one-to-one onto 1..n, and translating an internal id back gives exactly the id the user supplied.", "quantifier": "every number of vertices n, every thread count >= 1, every number of vector segments (ranks) >= 1, every vertex id in 1..n", "why_tests_cant": "The mapping depends on n, threads and ranks jointly (div/mod of a product); tests only run a few (n, thread, rank) combinations on one machine.", "anchors": ["include/Graph.h:vertexToNative", "include/Graph.h:nativeToVertex"]}
{"id": "C02", "title": "Every vertex has exactly one owner", "statement": "For every vertex id in 1..n exactly one MPI rank reports that it owns the vertex, and the vertex falls into exactly one vector segment.", "quantifier": "every n, every rank count, every vertex id", "why_tests_cant": "Boundaries are rounded to multiples of 256 and clamped; tests run one rank count and cannot enumerate all n.", "anchors": ["include/Graph.h:vertexNodeOwner", "include/GMDP/vectors/SpVec.h:getPartition", "include/GMDP/vectors/SpVec.h:node_owner", "include/GMDP/matrices/layouts.h:vector_partition_fn"]}
{"id": "C03", "title": "Vertex properties behave like a map", "statement": "After any sequence of setVertexproperty / setAllVertexproperty calls, getVertexproperty(v) on the owner returns the value most recently written to v, and writes to one vertex never change another vertex.", "quantifier": "every history of set / setAll operations, every n, thread count, rank count, every vertex", "why_tests_cant": "Histories are unbounded and aliasing bugs only appear for particular sizes.", "anchors": ["include/Graph.h:setVertexproperty", "include/Graph.h:getVertexproperty", "include/Graph.h:setAllVertexproperty", "include/GMDP/vectors/SpVec.h:set", "include/GMDP/vectors/SpVec.h:get", "include/GMDP/vectors/DenseSegment.h:set", "include/GMDP/vectors/DenseSegment.h:setAll"]}
{"id": "C04", "title": "Activity flags behave like a set", "statement": "Starting from setAllInactive (or setAllActive), after any sequence of setActive / setInactive / setAllActive / setAllInactive calls the vertices for which a message is generated in the next superstep are exactly the ones marked active.", "quantifier": "every history of activity calls, every vertex, every n", "why_tests_cant": "Activity is stored twice (a presence bit and a value); only a proof over all histories shows they stay consistent.", "anchors": ["include/Graph.h:setAllActive", "include/Graph.h:setAllInactive", "include/Graph.h:setActive", "include/Graph.h:setInactive", "include/GraphMatRuntime.h:send_message", "include/GMDP/singlenode/intersectreduce.h"]}
{"id": "C05", "title": "Sparse-vector count is exact", "statement": "getNNZ of a distributed vector equals the number of distinct ids currently present, after any history of set / unset / setAll / Clear.", "quantifier": "every history of vector operations, every length and rank count", "why_tests_cant": "Popcount over partial last words and several segments; tests check a handful of counts on length 1000.", "anchors": ["include/GMDP/vectors/SpVec.h:getNNZ", "include/GMDP/vectors/DenseSegment.h:compute_nnz", "include/GMDP/singlenode/clear.h"]}
{"id": "C06", "title": "Edge list survives loading", "statement": "After ReadEdgelist(E), getEdgelist returns exactly the multiset of edges of E - same source, destination and value, duplicates kept, nothing added or lost.", "quantifier": "every edge list with ids in 1..n (any order, duplicates, self loops), every thread count and rank count", "why_tests_cant": "Edges go through renumbering, all-to-all exchange, tile sort and per-thread partitioning; bugs appear only for particular distributions.", "anchors": ["include/Graph.h:ReadEdgelist", "include/Graph.h:getEdgelist", "include/GMDP/matrices/SpMat.h:ingestEdgelist", "include/GMDP/matrices/DCSCTile.h"]}
{"id": "C07", "title": "Every edge stored exactly once per orientation", "statement": "After loading, each input edge lives in exactly one tile of the forward matrix and exactly one tile of the transposed matrix, on exactly one rank each, and the reported number of nonzeros equals the number of input edges.", "quantifier": "every edge list, every rank count, both partitioning functions", "why_tests_cant": "Sizes, ranks and boundaries are unbounded.", "anchors": ["include/GMDP/matrices/SpMat.h:getPartition", "include/GMDP/matrices/SpMat.h:getNNZ", "include/GMDP/matrices/SpMat.h:Transpose", "include/GMDP/matrices/layouts.h"]}
{"id": "C08", "title": "applyToAllEdges updates each edge once, consistently", "statement": "applyToAllEdges(f) replaces the value of every edge (u,v,w) by f(w, prop(u), prop(v)) exactly once, and the two stored orientations of the edge agree afterwards, so later IN_EDGES and OUT_EDGES traversals see the same value.", "quantifier": "every graph, every property assignment, every f, every thread count", "why_tests_cant": "Two copies of every edge are updated by two different loops with swapped arguments.", "anchors": ["include/Graph.h:applyToAllEdges", "include/GMDP/singlenode/applyedges.h", "include/GMDP/multinode/applyedges.h"]}
{"id": "C09", "title": "OUT_EDGES superstep delivers exactly the right messages", "statement": "In one superstep with OUT_EDGES a vertex receives a message iff some active vertex has an edge to it; the reduced value combines process_message of every such edge exactly once and nothing else.", "quantifier": "every graph, activity set, program, thread count", "why_tests_cant": "Message combination depends on partition boundaries, word boundaries and activity patterns.", "anchors": ["include/GraphMatRuntime.h:run_graph_program", "include/SPMV.h:SpMTSpV", "include/GMDP/singlenode/spmspv.h:my_spmspv", "include/GMDP/singlenode/spmspv3.h:my_spmspv3"]}
{"id": "C10", "title": "IN_EDGES superstep delivers exactly the right messages", "statement": "In one superstep with IN_EDGES a vertex receives a message iff it has an edge to some active vertex; the reduced value combines process_message of every such edge exactly once and nothing else.", "quantifier": "every graph, activity set, program, thread count", "why_tests_cant": "As C09 for the transposed matrix.", "anchors": ["include/GraphMatRuntime.h:run_graph_program", "include/SPMV.h:SpMSpV", "include/GMDP/singlenode/spmspv.h:my_spmspv"]}
{"id": "C11", "title": "ALL_EDGES superstep combines both directions", "statement": "With ALL_EDGES a vertex receives a message iff it is adjacent to an active vertex in either direction, and the reduced value combines every incident edge's message once per direction.", "quantifier": "every graph, activity set, program", "why_tests_cant": "Two multiplications accumulate into the same output; needs reasoning about the initial contents of the second one.", "anchors": ["include/GraphMatRuntime.h:run_graph_program"]}
{"id": "C12", "title": "Result independent of thread count and schedule", "statement": "On one rank the outcome of a superstep is the same for every number of worker threads and every interleaving of their steps, for an arbitrary (even non-commutative) reduce function.", "quantifier": "every graph, program, thread count and every interleaving of the parallel loop bodies", "why_tests_cant": "Races only show up under particular schedules; testing cannot enumerate interleavings.", "anchors": ["include/GMDP/singlenode/spmspv.h:my_spmspv", "include/GMDP/matrices/DCSCTile.h:static_partition", "include/GMDP/utils/bitvector.h"]}
{"id": "C13", "title": "Result independent of the number of ranks", "statement": "If reduce_function is associative and commutative, the vertex properties after a superstep are the same for every number of MPI ranks.", "quantifier": "every graph, every rank count, every associative-commutative reduce", "why_tests_cant": "Tests run on one rank count; the union of partial products depends on tile layout.", "anchors": ["include/GMDP/multinode/spmspv.h", "include/GMDP/singlenode/unionreduce.h", "include/GMDP/vectors/DenseSegment.h:union_received"]}
{"id": "C14", "title": "process_message sees the receiving vertex's property", "statement": "When a program declares that process_message needs the vertex property, each call receives the pre-superstep property of the vertex that will receive the message; when it does not, the result equals calling it with a default property.", "quantifier": "every graph, program, property assignment", "why_tests_cant": "A wrong index would only be visible for programs that use the argument on asymmetric data.", "anchors": ["include/SPMV.h:Mulfn", "include/GMDP/singlenode/spmspv3.h:my_spmspv3", "include/GMDP/multinode/spmspv3.h"]}
{"id": "C15", "title": "Number of supersteps", "statement": "run_graph_program with a positive iteration count executes exactly that many supersteps; do_every_iteration is called once per superstep with 0,1,2,...", "quantifier": "every program, graph, iteration count >= 1", "why_tests_cant": "Unbounded iteration counts; interplay with convergence flag.", "anchors": ["include/GraphMatRuntime.h:run_graph_program"]}
{"id": "C16", "title": "UNTIL_CONVERGENCE stops exactly at the first quiet superstep", "statement": "With UNTIL_CONVERGENCE (or any count <= 0) the run stops after the first superstep in which no vertex property changed, never earlier and never later; at least one superstep is always executed.", "quantifier": "every program, graph and initial state for which such a superstep exists; if none exists the run does not stop", "why_tests_cant": "Requires an argument about all executions, including nonterminating ones.", "anchors": ["include/GraphMatRuntime.h:run_graph_program", "include/GraphMatRuntime.h:UNTIL_CONVERGENCE"]}
{"id": "C17", "title": "Activity after a superstep", "statement": "After a superstep of an ACTIVE_ONLY program the active vertices are exactly those whose property changed in that superstep; for ALL_VERTICES programs every vertex is active.", "quantifier": "every program, graph and state", "why_tests_cant": "Needs reasoning about stale activity values for every vertex.", "anchors": ["include/GraphMatRuntime.h:run_graph_program", "include/Graph.h:setAllInactive", "include/Graph.h:setAllActive"]}
{"id": "C18", "title": "Vertices without messages are untouched", "statement": "A superstep leaves the property of every vertex that receives no message exactly as it was, and apply is called exactly once for every vertex that does.", "quantifier": "every program, graph and state", "why_tests_cant": "Universal over all vertices and states.", "anchors": ["include/GraphMatRuntime.h:run_graph_program"]}
{"id": "C19", "title": "Reused scratch space has no effect", "statement": "Passing a scratch structure from graph_program_init (fresh or left over from earlier runs) gives the same vertex properties and activity as passing none.", "quantifier": "every program that fully writes its message, every scratch contents, every graph", "why_tests_cant": "Depends on stale values left in scratch; tests reuse scratch at most once.", "anchors": ["include/GraphMatRuntime.h:graph_program_init", "include/GraphMatRuntime.h:run_graph_program", "include/GMDP/singlenode/clear.h"]}
{"id": "C20", "title": "send_message can veto a message", "statement": "If send_message returns false for an active vertex, no neighbour receives a message from that vertex in that superstep.", "quantifier": "every program, graph and state", "why_tests_cant": "The documented boolean result must matter in every state, not just in programs where it happens to be redundant.", "anchors": ["include/GraphMatRuntime.h:send_message", "include/GraphProgram.h:send_message"]}
{"id": "C21", "title": "A freshly loaded graph has no active vertex", "statement": "After ReadEdgelist / ReadMTX no vertex is active: running an ACTIVE_ONLY program after activating only v delivers messages only along v's edges.", "quantifier": "every graph, program, vertex v", "why_tests_cant": "The presence bits and activity values can disagree; tests always call setAllInactive first.", "anchors": ["include/Graph.h:ReadEdgelist", "include/Graph.h:setActive", "include/GraphMatRuntime.h:send_message"]}
{"id": "C22", "title": "applyReduceAllVertices is a reduction over all vertices", "statement": "applyReduceAllVertices computes the reduction of the mapped properties of all vertices, each exactly once, independent of thread and rank count for an associative-commutative operator.", "quantifier": "every graph, map function, associative-commutative reduce, initial value, thread and rank count", "why_tests_cant": "Chunking by thread and rank; identity handling is only visible with nonneutral initial values.", "anchors": ["include/Graph.h:applyReduceAllVertices", "include/GMDP/singlenode/reduce.h:mapreduce_dense_segment", "include/GMDP/multinode/reduce.h"]}
{"id": "C23", "title": "applyToAllVertices touches each vertex once", "statement": "applyToAllVertices(f) replaces every vertex's property p by f(p) exactly once, and changes nothing else.", "quantifier": "every graph, f, thread count, rank count", "why_tests_cant": "Universal over sizes (last partial word) and histories.", "anchors": ["include/Graph.h:applyToAllVertices", "include/GMDP/singlenode/apply.h"]}
{"id": "C24", "title": "Compressed segments round-trip", "statement": "A vector segment that is compressed for sending and decompressed at the receiver has the same present ids with the same values, whichever encoding was chosen.", "quantifier": "every segment contents and length, every thread count on either side, both value kinds (plain, serializable)", "why_tests_cant": "Encoding choice depends on density; per-thread offsets depend on counts.", "anchors": ["include/GMDP/vectors/DenseSegment.h:compress", "include/GMDP/vectors/DenseSegment.h:decompress", "include/GMDP/vectors/DenseSegment.h:should_compress"]}
{"id": "C25", "title": "Received partial results are merged exactly once", "statement": "Merging the buffers received from other ranks yields, for each id, the reduction of exactly the partial values present for the id, independent of the merge thread count and of the encoding of each buffer.", "quantifier": "every number of received buffers, every contents, every thread count", "why_tests_cant": "Merge partitions are found by binary search on compressed indices; edge cases depend on the data.", "anchors": ["include/GMDP/vectors/DenseSegment.h:union_received", "include/GMDP/singlenode/unionreduce.h:union_dense", "include/GMDP/singlenode/unionreduce.h:union_compressed"]}
{"id": "C26", "title": "Communication cannot deadlock", "statement": "The exchanges between the ranks always complete, in supersteps, applyToAllEdges, applyReduceAllVertices, and when graphs are loaded or saved and edge lists shuffled: for every rank count no reachable state has all unfinished ranks blocked, even when sends are synchronous, and every receive gets the message it is meant for.", "quantifier": "every rank count, every tile layout, every sequence of operations, every interleaving of the ranks", "why_tests_cant": "Deadlocks depend on timing and message size thresholds.", "anchors": ["include/GMDP/multinode/spmspv.h", "include/GMDP/multinode/spmspv3.h", "include/GMDP/vectors/DenseSegment.h:send_nnz", "include/GMDP/vectors/DenseSegment.h:recv_nnz_queue", "include/GMDP/matrices/SpMat.h:ingestEdgelist", "include/GMDP/vectors/SpVec.h:ingestEdgelist", "include/GMDP/utils/edgelist_transformation.h:shuffle_edges"]}
{"id": "C27", "title": "BFS computes hop distances", "statement": "After the bundled BFS converges, each vertex's depth is its minimum hop distance from the root, unreachable vertices keep the infinite depth, and the recorded parent of a reached vertex is an in-neighbour one hop closer.", "quantifier": "every directed graph, every root (fewer than 2^32-1 levels)", "why_tests_cant": "All graphs.", "anchors": ["src/BFS.cpp"]}
{"id": "C28", "title": "SSSP computes shortest distances", "statement": "After the bundled SSSP converges, each vertex's distance is the minimum total weight over all paths from the source, unreachable vertices keep the infinite distance, and the program always converges.", "quantifier": "every graph with nonnegative integer weights whose path sums do not overflow, every source", "why_tests_cant": "All graphs; termination.", "anchors": ["src/SSSP.cpp"]}
{"id": "C29", "title": "Topological sort levels", "statement": "On a DAG the bundled topological sort gives every vertex a position larger than each of its predecessors; on a graph with a cycle, vertices on or behind the cycle are never given a position.", "quantifier": "every directed graph", "why_tests_cant": "All graphs, including cyclic ones.", "anchors": ["src/TopologicalSort.cpp"]}
{"id": "C30", "title": "Triangle counting", "statement": "On an edge list oriented as a DAG the bundled triangle counter's total equals the number of triples u->v, v->w, u->w.", "quantifier": "every simple DAG", "why_tests_cant": "All graphs.", "anchors": ["src/TriangleCounting.cpp"]}
{"id": "C31", "title": "PageRank step and out-degree", "statement": "The degree pass gives each vertex its out-degree, and each PageRank iteration sets every vertex with in-edges to alpha + (1-alpha) * sum over in-neighbours of rank/degree.", "quantifier": "every graph, every property assignment, exact arithmetic", "why_tests_cant": "All graphs; tests compare a few floats.", "anchors": ["src/PageRank.cpp"]}
{"id": "C32", "title": "Delta-stepping computes shortest distances", "statement": "The bundled delta-stepping computes the same distances as shortest paths for every positive bucket width.", "quantifier": "every graph with nonnegative weights, every delta >= 1", "why_tests_cant": "Bucket boundaries and re-activations depend on weights.", "anchors": ["src/DeltaStepping.cpp"]}
{"id": "C33", "title": "remove_selfedges", "statement": "remove_selfedges keeps exactly the edges with source different from destination, in their original order, and keeps the dimensions.", "quantifier": "every edge list", "why_tests_cant": "In-place compaction over arbitrary lists.", "anchors": ["include/GMDP/utils/edgelist_transformation.h:remove_selfedges"]}
{"id": "C34", "title": "remove_duplicate_edges", "statement": "After remove_duplicate_edges every (source, destination) pair of the input occurs exactly once over all ranks, no new pair appears, and each surviving edge is one of the input edges.", "quantifier": "every edge list distributed in any way over any number of ranks and threads", "why_tests_cant": "Distribution, hashing to ranks and in-place compaction.", "anchors": ["include/GMDP/utils/edgelist_transformation.h:remove_duplicate_edges", "include/GMDP/utils/edgelist_transformation.h:remove_duplicate_edges_local"]}
{"id": "C35", "title": "shuffle_edges redistributes without loss", "statement": "shuffle_edges delivers every edge to exactly one rank, loses and duplicates none, and places all edges with the same source on the same rank.", "quantifier": "every edge list, rank count, thread count", "why_tests_cant": "Parallel histogram/offset computation; tests use one distribution.", "anchors": ["include/GMDP/utils/edgelist_transformation.h:shuffle_edges"]}
{"id": "C36", "title": "create_bidirectional_edges and convert_to_dag", "statement": "create_bidirectional_edges returns every edge and its reverse with the same value; convert_to_dag orients every edge from the smaller to the larger id, keeps its value and the edge count, so the result has no cycles other than self loops.", "quantifier": "every edge list", "why_tests_cant": "All lists; acyclicity is a global property.", "anchors": ["include/GMDP/utils/edgelist_transformation.h:create_bidirectional_edges", "include/GMDP/utils/edgelist_transformation.h:convert_to_dag"]}
{"id": "C37", "title": "filter_edges and filter_edges_by_row", "statement": "filter_edges returns exactly the edges satisfying the predicate, in order and without modifying the input; filter_edges_by_row keeps exactly the edges with source in the requested range, shifted to start at one.", "quantifier": "every edge list, predicate and row range", "why_tests_cant": "All lists and predicates; two-pass allocation must agree with the copy pass.", "anchors": ["include/GMDP/utils/edgelist_transformation.h:filter_edges", "include/GMDP/utils/edgelist.h:filter_edges_by_row"]}
{"id": "C38", "title": "remove_empty_columns is reversible", "statement": "remove_empty_columns renumbers destinations onto 1..k without gaps and returns a table that maps every new destination back to the original one; sources and values are unchanged.", "quantifier": "every edge list", "why_tests_cant": "All lists.", "anchors": ["include/GMDP/utils/edgelist.h:remove_empty_columns"]}
{"id": "C39", "title": "Binary edge list files round-trip", "statement": "Writing an edge list in binary format and loading it with the same header/weight flags yields on every rank the same edges in the same order (weight one if weights are not written) with the same dimensions (with header) or tight dimensions (without).", "quantifier": "every edge list, every combination of header and weight flags", "why_tests_cant": "All lists and flag combinations.", "anchors": ["include/GMDP/utils/edgelist.h:write_edgelist", "include/GMDP/utils/edgelist.h:load_edgelist", "include/GMDP/utils/edgelist.h:readLine", "include/GMDP/utils/edgelist.h:writeLine"]}
{"id": "C40", "title": "Text edge list files load completely", "statement": "Loading a text edge list yields one edge per data line, whether or not the last line ends in a newline, with or without header.", "quantifier": "every well-formed text file", "why_tests_cant": "End-of-file handling depends on the exact last bytes.", "anchors": ["include/GMDP/utils/edgelist.h:load_edgelist", "include/GMDP/utils/edgelist.h:get_maxid_and_nnz", "include/GMDP/utils/edgelist.h:readLine"]}
{"id": "C41", "title": "Graph binary snapshot round-trip", "statement": "WriteGraphMatBin followed by ReadGraphMatBin with the same rank and thread count yields a graph with the same vertices, edges and values in both orientations; a mismatch in rank or thread count is detected and refused.", "quantifier": "every graph, every rank and thread count", "why_tests_cant": "All graphs and configurations.", "anchors": ["include/Graph.h:ReadGraphMatBin", "include/Graph.h:WriteGraphMatBin", "include/GMDP/matrices/DCSCTile.h:save", "include/GMDP/matrices/DCSCTile.h:load"]}
{"id": "C42", "title": "Sorted-array searches are exact and stay in bounds", "statement": "On a sorted array, binary_search_left_border / right_border return the first / last index holding the key or -1, l_binary_search / l_linear_search return the first index whose element is >= the key (or the end), all terminate, and none reads outside the array.", "quantifier": "every sorted array, key and index range", "why_tests_cant": "All arrays; out-of-bounds reads are invisible to value tests.", "anchors": ["include/GMDP/utils/binary_search.h"]}
{"id": "C43", "title": "saveVertexproperty writes the user's vertex ids", "statement": "saveVertexproperty writes one line per vertex, and the id on the line is the id with which the user addresses that vertex.", "quantifier": "every graph and property assignment", "why_tests_cant": "Needs the composition of renumbering and segment offsets for all sizes.", "anchors": ["include/Graph.h:saveVertexproperty", "include/GMDP/vectors/SpVec.h:save", "include/GMDP/vectors/DenseSegment.h:save"]}
{"id": "C44", "title": "All tile formats are interchangeable", "statement": "COO, CSR, DCSR, DCSC, COO-SIMD and hybrid tiles built from the same edges return the same multiset of edges and produce the same product for the same input vector when reduce is associative and commutative.", "quantifier": "every edge list, input vector and thread count", "why_tests_cant": "Six different layouts and loops.", "anchors": ["include/GMDP/matrices/COOTile.h", "include/GMDP/matrices/CSRTile.h", "include/GMDP/matrices/DCSRTile.h", "include/GMDP/matrices/DCSCTile.h", "include/GMDP/matrices/COOSIMD32Tile.h", "include/GMDP/matrices/HybridTile.h", "include/GMDP/singlenode/spmspv.h"]}
{"id": "C45", "title": "Out-of-range vertex ids are never aliased to a valid vertex", "statement": "Writing a property to an id outside 1..n never changes the property of a vertex in 1..n (the call is refused instead).", "quantifier": "every id outside 1..n, every n, thread and rank count", "why_tests_cant": "Needs every combination of n and configuration.", "anchors": ["include/Graph.h:setVertexproperty", "include/Graph.h:vertexToNative", "include/GMDP/vectors/SpVec.h:getPartition"]}
{"id": "C46", "title": "Loading does not modify the caller's edge list", "statement": "ReadEdgelist leaves the edge array passed by the caller with the same edges it had before.", "quantifier": "every edge list", "why_tests_cant": "Visible only if the caller reuses its array.", "anchors": ["include/Graph.h:ReadEdgelist"]}
{"id": "C47", "title": "Sharing vertex properties is safe", "statement": "After g.shareVertexProperty(h), reads and writes of vertex properties through g and h see the same values, and any number of sharing calls followed by destruction frees each property vector exactly once.", "quantifier": "every history of share / destroy operations", "why_tests_cant": "Lifetime errors depend on call history.", "anchors": ["include/Graph.h:shareVertexProperty", "include/Graph.h:~Graph"]}
{"id": "C48", "title": "Converter option validation", "statement": "graph_converter rejects inconsistent options and otherwise writes edges whose ids, weights and transformations are what the options say.", "quantifier": "every option combination and input", "why_tests_cant": "Combinatorial options.", "anchors": ["src/graph_converter.cpp"]}
{"id": "C49", "title": "The multiplication kernel has no undefined behaviour", "statement": "The tile multiplication never reads or writes outside its arrays and never overflows an int, whatever tile and vectors the loader built.", "quantifier": "every tile and every input vector", "why_tests_cant": "Out-of-bounds reads by a few elements and overflow of a value nobody uses rarely show in tests.", "anchors": ["include/GMDP/singlenode/spmspv.h:my_spmspv", "include/GMDP/singlenode/spmspv.h:my_coospmspv"]}
{"id": "C50", "title": "Marking the sources of a topological sort is free of races", "statement": "The parallel loop of TopologicalSort that marks the vertices without incoming edges marks exactly these, under every interleaving of its threads.", "quantifier": "every graph, thread count and interleaving", "why_tests_cant": "A lost update needs two threads in the same few instructions.", "anchors": ["src/TopologicalSort.cpp:run_topsort", "include/Graph.h:setActive", "include/GMDP/utils/bitvector.h:set_bitvector"]}
{"id": "C51", "title": "Random renumbering is a permutation", "statement": "randomize_edgelist_square renames vertices by one permutation of 1..m applied to sources and destinations alike, keeping values, for every edge list valid for its dimensions.", "quantifier": "every edge list and random sequence", "why_tests_cant": "Random; a repeated or lost id needs a statistical check.", "anchors": ["include/GMDP/utils/edgelist.h:randomize_edgelist_square"]}
{"id": "C52", "title": "Randomising directions keeps the undirected graph", "statement": "randomize_edge_direction reverses exactly the edges whose coin toss says so and keeps ends, values, order and dimensions.", "quantifier": "every edge list and random sequence", "why_tests_cant": "Random.", "anchors": ["include/GMDP/utils/edgelist_transformation.h:randomize_edge_direction"]}
{"id": "C53", "title": "Text edge list files with integer weights round-trip", "statement": "Writing an edge list with int weights in text format and loading it with the same header/weight flags yields on every rank the same edges in the same order (weight one if weights are not written).", "quantifier": "every edge list, every combination of header and weight flags, every number of ranks", "why_tests_cant": "Depends on the exact text of every integer and on end-of-file handling.", "anchors": ["include/GMDP/utils/edgelist.h:write_edgelist", "include/GMDP/utils/edgelist.h:writeLine", "include/GMDP/utils/edgelist.h:load_edgelist", "include/GMDP/utils/edgelist.h:readLine"]}
{"id": "C54", "title": "Incremental PageRank reaches the PageRank equation", "statement": "The delta-propagating PageRank program stops, on every graph, after at most 49+7n supersteps; then every vertex holds its out-degree and a rank that is not above 0.3+0.7*sum(rank(u)/outdegree(u)) over its in-edges and at most 1e-8 below it, so that the ranks differ in total by at most n/30000000 from the solution of the PageRank equation.", "quantifier": "every graph, every number of ranks and threads", "why_tests_cant": "Termination and accuracy on all graphs; rests on an invariant over the deltas in flight and held back that no finite set of graphs exhibits.", "anchors": ["src/IncrementalPageRank.cpp:DeltaPageRank", "src/IncrementalPageRank.cpp:Degree", "src/IncrementalPageRank.cpp:run_pagerank"]}
{"id": "C55", "title": "SGD takes gradient steps and reports the squared errors", "statement": "run_sgd leaves with every vertex the latent vector obtained from the random initial ones by ten simultaneous steps x_v += step*(-lambda*x_v + sum over the ratings at v of error*x_other) (vertices without ratings are unchanged), which is a step along minus the gradient of half the squared error plus half of lambda times the squared lengths; the value it reports before and after is the sum over all ratings of the squared error, each rating once.", "quantifier": "every graph, initial vectors, number of ranks and threads", "why_tests_cant": "Sums over all edges in every partitioning; a step that used partly updated vectors or counted an edge twice would pass convergence checks.", "anchors": ["src/SGD.cpp:SGDProgram", "src/SGD.cpp:RMSEProgram", "src/SGD.cpp:run_sgd"]}
{"id": "C56", "title": "LDA: token counts are conserved and the reported numbers are the topic model's", "statement": "run_lda on a corpus (every edge joins a document and a word and carries a positive number of occurrences, every word occurs, ndoc + nterms = number of vertices): at the end each vertex holds the expected topic counts obtained by the drawn initial assignment followed by niterations updates (if niterations <= 0: by updates up to and including the first that changes no count by more than 1e-3) N_v[k] = sum over its edges of c * gamma_k / sum gamma, all computed from the counts before the update; the counts of a vertex are non-negative and add up to its number of occurrences; each topic has the same total over documents as over words; global_N is the total over the words; nothing is divided by zero and log is applied only to positive probabilities which for each document add up to one over the words; the printed log likelihood is the sum over all edges of c * log(probability). Contents of the uninitialised N have no influence. A wrong ndoc/nterms is refused.", "quantifier": "all corpora, numbers of topics, alpha >= 1, eta > 1, iterations, rank and thread counts, outcomes of rand_r that are non-negative and not all zero for an edge; exact arithmetic", "why_tests_cant": "Conservation is a sum over all edges in every partitioning; an update that mixed old and new counts or lost an edge of one tile would still print plausible topics. Uninitialised memory is usually zero in tests.", "anchors": ["src/LDA.cpp:LDAInitProgram", "src/LDA.cpp:LDAProgram", "src/LDA.cpp:LDALLProgram", "src/LDA.cpp:run_lda", "include/GraphMatRuntime.h:run_graph_program"]}
{"id": "C57", "title": "IntersectReduce uses no entries of cleared vectors", "statement": "IntersectReduce(a, b, &c) with c new or cleared: afterwards c holds exactly the positions present in both a and b, whether the segments of a and b are initialised or were cleared (a cleared segment counts as empty although its memory still holds old bits and values), and the value at each is the one op_fp computed from the two entries.", "quantifier": "all vectors, segments, capacities, ranks, old memory contents, functions", "why_tests_cant": "Old contents become visible only if a vector is cleared and not initialised before the call, in the segment concerned; run_graph_program never does this, so the bundled programs cannot show it.", "anchors": ["include/GMDP/singlenode/intersectreduce.h:intersect_segment", "include/GMDP/singlenode/intersectreduce.h:intersect_dense_segment", "include/GMDP/multinode/intersectreduce.h:IntersectReduce", "include/GMDP/singlenode/clear.h:clear_segment"]}
{"id": "C58", "title": "ReadMTX gives the graph in the files", "statement": "A graph loaded with ReadMTX from binary edge list files has as many vertices as the largest dimension in a header, the ranks together hold exactly the edges of all files with their values and multiplicities, and the reported edge count is their number, however many files there are and however many ranks and threads load them; algorithms run on it compute results about the edges in the files.", "quantifier": "every set of files whose edges are between existing vertices, every number of ranks and threads", "why_tests_cant": "Composition of file format, distribution of files over ranks, renumbering, exchange and tiling; tests load one fixed file on one configuration.", "anchors": ["include/Graph.h:ReadMTX", "include/GMDP/utils/edgelist.h:load_edgelist", "include/Graph.h:ReadEdgelist"]}
{"id": "C59", "title": "Archives of a vector give the vector back", "statement": "A distributed vector saved to an archive on every rank and loaded into default-constructed vectors gives, on every rank, the same results for get of every index, getNNZ, get_edges and the text files of save, whatever the vector's history (entries set, removed, vector cleared, segments never touched) and whatever the newly allocated memory contains; further calls on the loaded vector behave as on the original.", "quantifier": "every history of set/unset/setAll/Clear before and after, every length, number of segments and ranks", "why_tests_cant": "Depends on every array of every segment being written and read with the same length and order, including unallocated and cleared segments; one small vector is tested.", "anchors": ["include/GMDP/vectors/SpVec.h:serialize", "include/GMDP/vectors/DenseSegment.h:buffer::save", "include/GMDP/vectors/DenseSegment.h:buffer::load", "include/GMDP/vectors/DenseSegment.h:DenseSegment::save", "include/GMDP/vectors/DenseSegment.h:DenseSegment::load"]}
{"id": "C60", "title": "Tiles of every format survive an archive", "statement": "A tile of any of the six formats that is saved to an archive and loaded into a default-constructed tile returns the same edges from get_edges, and multiplying a vector segment with it gives the same result as with the original; saving and loading read and write only within the arrays of the tile, and loading consumes exactly what was saved.", "quantifier": "all edges, tile sizes, thread counts, vectors, contents of fresh memory, whatever precedes and follows in the archive", "why_tests_cant": "The existing tests only compare the edges of loaded tiles; an array that is not restored, or read behind its end, shows up only in products or under a memory checker, and only for tiles with certain row counts.", "anchors": ["include/GMDP/matrices/CSRTile.h:save", "include/GMDP/matrices/COOTile.h:save", "include/GMDP/matrices/COOSIMD32Tile.h:save", "include/GMDP/matrices/DCSRTile.h:save", "include/GMDP/matrices/DCSRTile.h:load", "include/GMDP/matrices/HybridTile.h:serialize", "include/GMDP/matrices/DCSCTile.h:save"]}
{"id": "C61", "title": "Tiles and matrices release their memory exactly once", "statement": "However tiles of a format are created (without edges, from edges, from an archive), used and destroyed, and however matrices of them are created, loaded, transposed, asked for their edges and deleted, every block of memory is released exactly once with the function matching its allocation, no pointer that was never set or already released is followed or released, and after the last tile and matrix nothing they allocated is left; assigning one tile to another leaves both usable and destroyable.", "quantifier": "all sequences of such operations, all numbers of edges, tiles, threads and ranks, all initial heaps", "why_tests_cant": "A mismatched release, a leak or a double free does not change any result; it shows only under a memory checker and only for the formats and histories that are exercised. The tests destroy restored tiles of some formats, which is undefined but happens to work with common allocators.", "anchors": ["include/GMDP/matrices/CSRTile.h:~CSRTile", "include/GMDP/matrices/COOTile.h:~COOTile", "include/GMDP/matrices/COOTile.h:load", "include/GMDP/matrices/COOSIMD32Tile.h:~COOSIMD32Tile", "include/GMDP/matrices/DCSRTile.h:~DCSRTile", "include/GMDP/matrices/DCSRTile.h:load", "include/GMDP/matrices/DCSCTile.h:~DCSCTile", "include/GMDP/matrices/HybridTile.h:~HybridTile", "include/GMDP/matrices/CSRTile.h:operator=", "include/GMDP/matrices/SpMat.h:~SpMat", "include/GMDP/matrices/SpMat.h:ingestEdgelist", "include/GMDP/matrices/SpMat.h:Transpose"]}
{"id": "C62", "title": "Vectors release their memory exactly once and receiving does not make it grow", "statement": "However vectors are created, loaded from archives, written, read, sent, received into and deleted on a rank, every block of memory is released exactly once with the function matching its allocation, no dead or unset pointer is followed, the arrays describing the partitions of a message are large enough, and nothing is left after the last vector is deleted; the memory of a segment depends only on whether it was written and on the largest number of messages it received at once, so that repeating supersteps does not make it grow; ingestEdgelist releases what it allocates.", "quantifier": "all sequences of operations, numbers of threads on each rank, messages of every kind and number, archives, all initial heaps", "why_tests_cant": "Leaks and overruns change no result; an overrun needs ranks with different numbers of threads, growth shows only after many supersteps.", "anchors": ["include/GMDP/vectors/DenseSegment.h:~buffer", "include/GMDP/vectors/DenseSegment.h:recv_buffer", "include/GMDP/vectors/DenseSegment.h:recv_segment_queue", "include/GMDP/vectors/DenseSegment.h:set_uninitialized_received", "include/GMDP/vectors/DenseSegment.h:~DenseSegment", "include/GMDP/vectors/SpVec.h:~SpVec", "include/GMDP/vectors/SpVec.h:ingestEdgelist"]}
{"id": "C63", "title": "A graph releases its memory exactly once", "statement": "However a program fills a graph (from an edge list, from files, from a snapshot), sets and fetches vertex properties, active flags and edges, runs graph programs with or without temporary structures, saves vertex properties and writes snapshots, every block of memory is released exactly once with the function matching its allocation, no null, dead or unset pointer is followed, and when the temporary structures are cleared and the graph is destroyed nothing is left on any rank.", "quantifier": "all sequences of operations, graphs, numbers of ranks, threads and supersteps, all initial heaps", "why_tests_cant": "Leaks change no result; they depend on the history of the graph and on ranks without edges or vertices, which small single-rank tests do not have.", "anchors": ["include/Graph.h:ReadEdgelist", "include/Graph.h:ReadMTX", "include/Graph.h:ReadGraphMatBin", "include/Graph.h:saveVertexproperty", "include/Graph.h:~Graph", "include/GraphMatRuntime.h:run_graph_program", "include/GraphMatRuntime.h:graph_program_init", "include/GraphMatRuntime.h:graph_program_clear", "include/GMDP/vectors/SpVec.h:save"]}
{"id": "C64", "title": "Edge lists release their arrays exactly once", "statement": "However a program declares, creates, loads, shuffles, transforms (self loops, duplicates, both directions, DAG, random weights, renumbering, empty columns, row ranges), filters and clears edge lists, every array is released exactly once with the function matching its allocation, no null, dead or unset pointer is followed, and once all lists are cleared nothing is left on any rank; in particular graph_converter gives back all memory for all options and inputs.", "quantifier": "all sequences of operations on any number of lists, numbers of edges kept and received, ranks, options of the converter, all initial heaps", "why_tests_cant": "Leaks change no result; they need a rank without edges, or one that loses all its edges, which single-rank tests do not have.", "anchors": ["include/GMDP/utils/edgelist.h:edgelist_t::clear", "include/GMDP/utils/edgelist.h:load_edgelist", "include/GMDP/utils/edgelist.h:randomize_edgelist_square", "include/GMDP/utils/edgelist.h:remove_empty_columns", "include/GMDP/utils/edgelist.h:filter_edges_by_row", "include/GMDP/utils/edgelist_transformation.h:remove_selfedges", "include/GMDP/utils/edgelist_transformation.h:remove_duplicate_edges", "include/GMDP/utils/edgelist_transformation.h:shuffle_edges", "include/GMDP/utils/edgelist_transformation.h:create_bidirectional_edges", "include/GMDP/utils/edgelist_transformation.h:filter_edges", "src/graph_converter.cpp:process_graph"]}
{"id": "C65", "title": "Data handed to MPI is left alone until it has been waited for", "statement": "Between a non-blocking send or receive and the MPI_Waitall that completes it a rank does not write the data being sent, does not read or write the data being received, and releases neither array; receives overlap no other transfer under way; every transfer lies within its array; MPI_Waitall is given only requests under way; and every operation (SpMSpV, SpMSpV3, ApplyEdges, ingestEdgelist of matrices and vectors, shuffle_edges) ends with no transfer under way. All ranks use the same number of threads.", "quantifier": "all sequences of operations, tables of owners, numbers of ranks and threads, fill ratios of segments (compressed, serialized, plain messages), and numbers announced by other ranks", "why_tests_cant": "Touching a buffer too early corrupts data only if the network is slow enough at that moment; with one rank nothing is sent at all, and small messages are usually copied before the call returns.", "anchors": ["include/GMDP/multinode/spmspv.h:SpMSpV", "include/GMDP/multinode/spmspv3.h:SpMSpV3", "include/GMDP/multinode/applyedges.h:ApplyEdges", "include/GMDP/vectors/DenseSegment.h:send_segment", "include/GMDP/vectors/DenseSegment.h:recv_buffer", "include/GMDP/vectors/DenseSegment.h:recv_segment_queue", "include/GMDP/vectors/DenseSegment.h:compress", "include/GMDP/matrices/SpMat.h:ingestEdgelist", "include/GMDP/vectors/SpVec.h:ingestEdgelist", "include/GMDP/utils/edgelist_transformation.h:shuffle_edges"]}
{"id": "C66", "title": "Edges survive WriteEdges and ReadEdges, and get_dimensions finds the largest ids", "statement": "get_dimensions gives every rank the largest source and destination id among the edges of all ranks (0 if there are none). If every rank writes its edges with WriteEdges and the files are read with ReadEdges and the same flags, every rank gets its edges back in order, with the dimensions of the header or, without header, those get_dimensions reports; with randomize, a square list comes back with all ids renamed by one permutation of 1..m, the same on all ranks.", "quantifier": "all edge lists, distributions over ranks, assignments of iterations to threads, flags and random numbers", "why_tests_cant": "None of these functions is called by the tests or programs; the reduction depends on the number of threads, and reading without header goes wrong only if the largest id is not a source.", "anchors": ["include/GMDP/utils/edgelist.h:get_dimensions", "include/GMDP/utils/edgelist.h:ReadEdges", "include/GMDP/utils/edgelist.h:WriteEdges", "include/GMDP/utils/edgelist.h:randomize_edgelist_square"]}
{"id": "C67", "title": "The parallel loops over vectors and tiles have no data race and one outcome", "statement": "In every parallel loop of the library (include/) over the elements of a vector, the arrays of a message, the edges of a list, the vertices or the partitions of a tile (unions, compress, decompress, apply, reduce, intersect, counting, loading, shuffling and transposing of edges, construction of tiles, applyToAllEdges, products for all tile formats), no two iterations access the same element of an array (or the same word of a bit vector) at the same time with one of them writing; for every assignment of iterations to threads and every interleaving the loop ends with the contents that running the iterations one after the other gives.", "quantifier": "all sizes, contents, numbers of threads, schedules, interleavings of single loads and stores (sequentially consistent), tiles built by the constructors", "why_tests_cant": "A race shows only under particular timing; neighbouring iterations share words of bit vectors only at boundaries of partitions, which tests with small inputs do not place in the middle of a word.", "anchors": ["include/GMDP/singlenode/unionreduce.h:union_compressed", "include/GMDP/vectors/DenseSegment.h:compress", "include/GMDP/vectors/DenseSegment.h:decompress", "include/GMDP/singlenode/reduce.h:mapreduce_dense_segment", "include/GMDP/singlenode/applyedges.h:my_applyedges", "include/GMDP/singlenode/spmspv.h:my_csrspmspv", "include/GMDP/singlenode/spmspv.h:my_dcsrspmspv", "include/GMDP/singlenode/spmspv.h:my_coospmspv", "include/GMDP/singlenode/spmspv3.h:my_coospmspv3", "include/GMDP/matrices/DCSCTile.h:DCSCTile", "include/GMDP/singlenode/apply.h:apply_dense_segment", "include/GMDP/singlenode/intersectreduce.h:intersect_dense_segment"]}
{"id": "C68", "title": "Messages between ranks arrive complete whatever their size", "statement": "Whatever one rank hands to MPI for another (the values, indices or bit vector of a segment, serialized bytes, edges on their way to the owner of a vertex or tile) arrives complete: sender and receiver pass a count that stands for all of it, so that afterwards the receiver holds exactly the ids and values of the sender.", "quantifier": "all numbers of elements, sizes of element types, fill ratios, numbers of threads, and previous contents of the receiver", "why_tests_cant": "The counts are ints but are computed from products with sizeof; they go wrong only for messages of 2 GB and more, which no test sends, and may go wrong without any error message.", "anchors": ["include/GMDP/vectors/DenseSegment.h:send_segment", "include/GMDP/vectors/DenseSegment.h:recv_buffer", "include/GMDP/vectors/SpVec.h:ingestEdgelist", "include/GMDP/matrices/SpMat.h:ingestEdgelist", "include/GMDP/utils/edgelist_transformation.h:shuffle_edges"]}
{"id": "C69", "title": "The int arithmetic of layouts and divisions of work does not overflow", "statement": "For every graph whose numbers of vertices and edges are ints, the computations that place vertices in segments and tiles (widths, boundaries, sizes) and divide work among threads (words of compress, entries of decompress and union_compressed, bits of a word, rows and columns of a tile) stay within int and give the exact boundaries.", "quantifier": "all numbers of vertices, edges, ranks and threads", "why_tests_cant": "Overflow needs graphs with about two billion vertices or edges, which tests cannot hold in memory, and with common compilers it wraps silently.", "anchors": ["include/GMDP/vectors/SpVec.h:SpVec", "include/GMDP/matrices/SpMat.h:Allocate2DPartitioned", "include/GMDP/vectors/DenseSegment.h:compress", "include/GMDP/vectors/DenseSegment.h:decompress", "include/GMDP/singlenode/unionreduce.h:union_compressed", "include/GMDP/singlenode/apply.h:apply_dense_segment", "include/GMDP/matrices/DCSCTile.h:static_partition", "include/GMDP/matrices/DCSCTile.h:DCSCTile", "include/GMDP/matrices/CSRTile.h:CSRTile", "include/GMDP/matrices/COOTile.h:COOTile", "include/GMDP/matrices/COOSIMD32Tile.h:COOSIMD32Tile", "include/GMDP/matrices/DCSRTile.h:DCSRTile"]}
{"id": "C70", "title": "Command lines mean what the help text says, and nothing else is accepted", "statement": "The converter reads every command line made of the documented options with decimal numbers (--name number, --name=number, -c number, -cnumber, flags), in any order and mixed with the names of the two files, as exactly these settings (a later one replaces an earlier one) and these files; --help or a wrong number of names prints the help. A misspelt option, a missing or malformed number, or an unknown letter is refused without converting anything. The example programs take the numbers given to them.", "quantifier": "all lists of words on the command line", "why_tests_cant": "There are unlimited ways to write and mis-write a command line; the mistakes that are ignored or read behind a table usually seem to work.", "anchors": ["src/graph_converter.cpp:main", "src/graph_converter.cpp:printHelp", "src/BFS.cpp:main", "src/SSSP.cpp:main", "src/DeltaStepping.cpp:main", "src/LDA.cpp:main"]}
{"id": "C71", "title": "A converted graph gives the programs the results of the original graph", "statement": "If the converter is run with the output format the programs read (the default) on files holding a graph with unsigned int weights, and a program is then run on the files it writes, with any numbers of ranks and threads for each, the results are those of the graph in the converter's input: breadth-first search reports its hop distances, SSSP and delta-stepping (with buckets wide enough that their numbers fit) its distances (with --bidirectional those of the undirected graph), whether self loops and duplicates are removed or not (for distances: duplicates of equal weight); topological sort reports the levels of the graph without its self loops (with them if they are kept) and which vertices are on or behind a cycle; after --uppertriangular triangle counting reports the number of triangles of the undirected graph and topological sort always succeeds, with connected vertices in the order of their numbers in the input, with ids renumbered or not.", "quantifier": "all graphs, input formats, command lines of the converter, numbers of ranks and threads of both programs, sources", "why_tests_cant": "It composes parsing, loading, transformation, writing, loading and the algorithm; a disagreement between the two programs about headers, ids, weights or the distribution over files shows only for particular combinations of options and numbers of ranks.", "anchors": ["src/graph_converter.cpp:main", "src/graph_converter.cpp:process_graph", "include/GMDP/utils/edgelist.h:write_edgelist", "include/GMDP/utils/edgelist.h:load_edgelist", "include/Graph.h:ReadMTX", "src/BFS.cpp:main", "src/SSSP.cpp:main", "src/DeltaStepping.cpp:run_deltastepping", "src/TopologicalSort.cpp:run_topsort", "src/TriangleCounting.cpp:main"]}
{"id": "C72", "title": "Apply from one vector to another changes exactly the entries of the input", "statement": "Apply(v_in, v_out, f) on vectors of the same length and distribution gives v_out, at every position where v_in has an entry, an entry computed by f from that entry and the previous entry of v_out (if any); all other positions of v_out keep what they had, v_in is unchanged, and the number of entries remembered for v_out is the number it has.", "quantifier": "all lengths, numbers of segments and ranks, contents of both vectors including cleared and never written ones, functions f, previous contents of memory", "why_tests_cant": "The library itself calls it only with the same vector as input and output; clearing a vector keeps its bits and values, so that an omitted test of the flag is seen only with vectors that were used before.", "anchors": ["include/GMDP/multinode/apply.h:Apply", "include/GMDP/singlenode/apply.h:apply_segment", "include/GMDP/singlenode/apply.h:apply_dense_segment"]}
{"id": "C73", "title": "The example programs give back all memory and use none that was released", "statement": "On every rank, each of the nine example programs (BFS, SSSP, PageRank, incremental PageRank, triangle counting, topological sort, SGD, LDA, delta-stepping), from reading the file to the end of its function, follows and releases only blocks of the library (edge lists, matrices, vectors, temporary structures) that are allocated at that time, and has released all of them at the end; in delta-stepping the vertex properties shared by two graphs are released exactly once.", "quantifier": "all numbers of ranks and threads, distributions of edges and vertices, weights, sources, and sequences of supersteps", "why_tests_cant": "Leaks and double releases do not change results; the cases are ranks without edges and ranks all of whose edges are on one side of delta, which small tests on one rank do not have.", "anchors": ["src/BFS.cpp:run_bfs", "src/SSSP.cpp:run_sssp", "src/PageRank.cpp:run_pagerank", "src/IncrementalPageRank.cpp:run_pagerank", "src/TriangleCounting.cpp:run_triangle_counting", "src/TopologicalSort.cpp:run_topsort", "src/SGD.cpp:run_sgd", "src/LDA.cpp:run_lda", "src/DeltaStepping.cpp:run_deltastepping", "include/Graph.h:shareVertexProperty", "include/Graph.h:~Graph", "include/GMDP/multinode/reduce.h:MapReduce", "include/GMDP/singlenode/reduce.h:mapreduce_dense_segment"]}
{"id": "C74", "title": "PageRank in single precision stays near the exact ranks and ends", "statement": "With the rounding of IEEE 754 arithmetic (float ranks, double literals), PageRank on a graph with n vertices and in-degrees at most D, 11(D+6) <= 2^24, never produces an infinity or NaN; no rank ever decreases; after every iteration the ranks differ from those in exact arithmetic by at most 5(D+6)n/2^24 in total and each by at most 1+(D+6)k factors 1 +- 2^-24 after k iterations; the loop until convergence ends after at most 102+(D+6)n/16 iterations, the last of which raised no rank by more than 0.0000100001. The ranks may depend on the number of threads, but two machines differ by at most 10(D+6)n/2^24 in total.", "quantifier": "all graphs with in-degrees at most 1.5 million, numbers of ranks and threads, orders of summation that these give, numbers of iterations", "why_tests_cant": "Tests compare a few ranks with a tolerance on one machine; a loop that does not end because rounding makes ranks oscillate around the threshold, or an error that accumulates over the iterations, would need particular graphs, and the order of summation changes with the number of threads.", "anchors": ["src/PageRank.cpp:run_pagerank", "src/PageRank.cpp:PR", "src/PageRank.cpp:PageRank", "src/PageRank.cpp:Degree", "include/GraphMatRuntime.h:run_graph_program"]}
{"id": "C75", "title": "Every layout gives every rank its share of the tiles", "statement": "For every positive number of ranks, get_fn_and_tiles succeeds for the layouts 1, 2 and 3: layouts 1 and 3 (the one graphs use) give every rank exactly as many tiles as there are ranks; layout 2 gives every rank at least one tile, the numbers of two ranks differ by at most one, and fewer tiles per dimension would leave a rank without any. factorize_int returns the two factors nearest to a square, the smaller first.", "quantifier": "all numbers of ranks", "why_tests_cant": "Tests run on a few numbers of ranks, mostly powers of two; the search downwards from a rounded square root behaves differently for primes, squares and numbers next to squares.", "anchors": ["include/GMDP/matrices/layouts.h:get_fn_and_tiles", "include/GMDP/matrices/layouts.h:factorize_int", "include/GMDP/matrices/layouts.h:partition_fn_2d", "include/GMDP/matrices/layouts.h:partition_fn_1d"]}
{"id": "C76", "title": "Floating-point weights survive text files", "statement": "An edge list whose weights are float or double, written as text by write_edgelist on some ranks and loaded by load_edgelist on the same number of ranks with the same flags, comes back edge for edge with the same weights, and a weight in decimal notation in any text file is read as the nearest number of the type.", "quantifier": "all edge lists, all finite and infinite weights, with and without header, all numbers of ranks", "why_tests_cant": "Tests use a few round weights; the digits that %.8f and %.15lf drop matter only for particular bit patterns, of which there are 2^32 and 2^64.", "anchors": ["include/GMDP/utils/edgelist.h:writeLine", "include/GMDP/utils/edgelist.h:readLine", "include/GMDP/utils/edgelist.h:write_edgelist", "include/GMDP/utils/edgelist.h:load_edgelist"]}
{"id": "C77", "title": "Incremental PageRank with rounding", "statement": "IncrementalPageRank in double arithmetic stops, in a number of supersteps bounded in the number of vertices, with finite deltas and ranks and exact out-degrees; its ranks then miss the PageRank equation, and the solution of the equation, by at most a couple of millionths per vertex on average, so that runs on different numbers of ranks and threads agree up to twice that.", "quantifier": "all graphs of n vertices with in-degrees up to D where (n+1)(D+6) is at most 2^43, all numbers of ranks and threads, all orders of summation the tiles give", "why_tests_cant": "Rounding can drop deltas that the exact program would send on and differs with the order of additions; that the errors cannot pile up over thousands of supersteps on some graph is a statement about all graphs.", "anchors": ["src/IncrementalPageRank.cpp:apply", "src/IncrementalPageRank.cpp:send_message", "src/IncrementalPageRank.cpp:run_pagerank"]}
{"id": "C78", "title": "Stored element count of a segment", "statement": "The element count that a DenseSegment stores, which getNNZ returns and which decides between the wire formats, is the number of its elements after any history of set, unset, setAll, set_uninitialized, ingestEdges and compress.", "quantifier": "all capacities, all histories, all contents of newly allocated memory", "why_tests_cant": "A wrong count shows only when a segment is sent, and only near half the capacity; what an uninitialised member holds differs from run to run.", "anchors": ["include/GMDP/vectors/DenseSegment.h:getNNZ", "include/GMDP/vectors/DenseSegment.h:set", "include/GMDP/vectors/DenseSegment.h:unset", "include/GMDP/vectors/DenseSegment.h:setAll", "include/GMDP/vectors/DenseSegment.h:ingestEdges", "include/GMDP/vectors/DenseSegment.h:compress"]}
{"id": "C79", "title": "Copies of a graph object", "statement": "A Graph object can be copied (copy constructor, assignment, passing by value): the copy and the original can be used and destroyed independently, without following or releasing memory that is gone.", "quantifier": "all histories of a graph before the copy, all later uses", "why_tests_cant": "The tests never copy a graph; a double free happens only when both objects are destroyed and may go unnoticed.", "anchors": ["include/Graph.h:~Graph"]}
{"id": "C80", "title": "Parallel loops on processors that reorder memory accesses", "statement": "On a processor whose threads keep stores in a buffer, from which they reach memory later and for different locations in any order, and on one that also lets loads return old values, the parallel loops leave the same memory and the same private results as when every store is visible at once; every run can be completed. This holds for any tasks that are free of data races and have one outcome.", "quantifier": "all tasks, memories, assignments of iterations to threads, orders of steps, times at which stores leave the buffers, and choices of the values that loads return", "why_tests_cant": "The reorderings depend on timing and on the processor; no test can force them.", "anchors": ["include/GMDP/singlenode/spmspv.h:my_spmspv", "include/GMDP/singlenode/spmspv3.h:my_spmspv3", "include/GraphMatRuntime.h:run_graph_program", "include/GMDP/singlenode/unionreduce.h:union_compressed", "include/GMDP/vectors/DenseSegment.h:decompress", "include/GMDP/utils/edgelist_transformation.h:shuffle_edges"]}
{"id": "C81", "title": "What the tests check holds at other sizes", "statement": "The checks of the repository's tests of breadth-first search, neighbour lists, graph sizes and edge list functions succeed for every size of the generated graphs, not only for the sizes in the tests, on any number of ranks and threads; the generators make the graphs they are named after.", "quantifier": "all sizes, numbers of ranks and threads, edge types, random numbers, and contents of fresh memory", "why_tests_cant": "The tests run a handful of sizes (5, 100, 500, 1000) on the ranks and threads of one machine.", "anchors": ["test/test_bfs.cpp:test_chain_bfs", "test/test_bfs.cpp:test_ut_bfs", "test/test_bfs.cpp:test_dense_bfs", "test/test_get_neighbors.cpp:test_get_neighbors", "test/test_graph_basics.cpp:test_graph_size", "test/test_edgelist_utils.cpp:test_remove_duplicate_edges", "test/generator.h:generate_random_edgelist", "test/test_utils.h:distribute_edges", "test/test_utils.h:collect_edges"]}
{"id": "C82", "title": "What the tests of files, matrices and edge functions check holds for other inputs", "statement": "The checks of the repository's tests of edge list files, graph files, graphs read and given back, vertex properties, matrices and functions on edges succeed for every size of the generated lists and every list of edges, not only for the lists in the tests, on any number of ranks and threads.", "quantifier": "all sizes, lists of edges, numbers of ranks and threads, random weights, and contents of fresh memory", "why_tests_cant": "The tests run a few sizes and two kinds of graphs; the test of graph files uses the complete graph only, which looks the same under every numbering of the vertices.", "anchors": ["test/test_io.cpp:test_read_mtx", "test/test_io.cpp:test_read_gm_bin", "test/test_graph_basics.cpp:test_graph_getset", "test/test_graph_basics.cpp:test_graph_io", "test/test_apply_edges.cpp:apply_edges", "test/test_matrix_basics.cpp:matrix_test", "include/Graph.h:ReadEdgelist", "include/Graph.h:applyToAllEdges", "include/GMDP/matrices/SpMat.h:get_edges"]}
{"id": "C83", "title": "Programs that multiply a matrix with vectors compute the products of what the vectors hold", "statement": "A program that builds a matrix and two vectors x and y and then makes any sequence of set, unset, setAll and Clear on the vectors and of SpMSpV (y += A x) does not fail, and y reads as the old entry and all products of the entries of A with the entries that x holds at the time, each exactly once.", "quantifier": "all matrices, tilings, placements of tiles on ranks, numbers of ranks and threads, sequences of calls, multiplications and additions, and contents of fresh memory", "why_tests_cant": "The test multiplies one freshly filled vector with the identity once; it never multiplies with a vector that was cleared, is new, or has an empty segment, which is where the buffer holds old values or is missing.", "anchors": ["include/GMDP/multinode/spmspv.h:SpMSpV", "include/GMDP/singlenode/spmspv.h:mult_segment", "include/GMDP/vectors/DenseSegment.h:compress", "include/GMDP/vectors/DenseSegment.h:set_uninitialized", "include/GMDP/multinode/clear.h:Clear", "include/GMDP/vectors/SpVec.h:set"]}
{"id": "C84", "title": "What the tests of vectors, reductions, products and archives check holds for other inputs", "statement": "The tests of the repository that set entries of vectors and segments, send segments between ranks, reduce vectors, save and load vectors and matrices and multiply the identity with a random vector pass for every size, every choice of distinct indices and every value, not only those written in the tests.", "quantifier": "all sizes, numbers of ranks and threads, lists of distinct indices, values, random numbers, fresh memory", "why_tests_cant": "Each test runs with one or two sizes (5, 10, 500, 1000 or 5000) and four indices; it says nothing about vectors with empty segments, ranks with different numbers of threads, or sums near the largest int.", "anchors": ["test/test_vector.cpp:TEST_CASE", "test/test_reduce.cpp:TEST_CASE", "test/test_vector_serialization.cpp:TEST_CASE", "test/test_matrix_serialization.cpp:matrix_serialization_test", "test/test_spmv.cpp:create_spmv_identity_test", "test/generator.h:generate_random_vector_edgelist"]}
{"id": "C85", "title": "A distributed matrix gives its edges back, transposes and multiplies correctly whatever its tile format", "statement": "A distributed matrix of CSR, COO, COO-SIMD, DCSR, hybrid or DCSC tiles, of any size, cut into any grid of tiles placed on any ranks, returns its edges and their number, so does its transpose (cut and placed in another way), and every program that fills vectors and multiplies them with either gets the products of the matrix with these edges.", "quantifier": "all sizes, grids, partition functions, numbers of ranks and threads, distributions of the edges over the ranks, element types, programs (sequences of calls on two vectors), fresh memory", "why_tests_cant": "The tests run two sizes per format with the identity and one random matrix, mostly on one rank; the rows and columns of tiles are 512 wide, so that the sizes of the tests do not give empty tiles or tiles with one edge where formats differ; DCSR and hybrid tiles are never multiplied in a test.", "anchors": ["include/GMDP/matrices/SpMat.h:ingestEdgelist", "include/GMDP/matrices/SpMat.h:get_edges", "include/GMDP/multinode/spmspv.h:SpMSpV_tile", "include/GMDP/singlenode/spmspv.h:mult_segment", "include/GMDP/matrices/COOTile.h:COOTile", "include/GMDP/matrices/HybridTile.h:HybridTile", "test/test_matrix_basics.cpp:matrix_test", "test/test_spmv.cpp:create_spmv_identity_test"]}
{"id": "C86", "title": "A distributed matrix saved to archives and loaded is the same matrix, whatever its tile format", "statement": "If every rank saves its part of a matrix of CSR, COO, COO-SIMD, DCSR, hybrid or DCSC tiles to an archive and loads it again, what is loaded returns the edges of the matrix and their number, so does its transpose, and every program that fills vectors and multiplies them with it gets the products of the matrix with these edges.", "quantifier": "all sizes, grids, partition functions, numbers of ranks and threads, distributions of the edges over the ranks, element types, programs, fresh memory of built and of loaded tiles", "why_tests_cant": "test_matrix_serialization compares the edges of two sizes per format and never multiplies or transposes what it loaded; loaded tiles live in memory that usually happens to be zero, and reads behind arrays usually succeed.", "anchors": ["include/GMDP/matrices/SpMat.h:serialize", "include/GMDP/matrices/CSRTile.h:save", "include/GMDP/matrices/COOTile.h:save", "include/GMDP/matrices/COOSIMD32Tile.h:load", "include/GMDP/matrices/DCSRTile.h:save", "include/GMDP/matrices/HybridTile.h:serialize", "include/GMDP/matrices/DCSCTile.h:load", "test/test_matrix_serialization.cpp:matrix_serialization_test"]}
{"id": "C87", "title": "Programs that multiply a matrix with three vectors, whatever was done to the vectors before", "statement": "A program that builds a matrix and three vectors x, v, y and then calls set, unset, setAll, Clear, SpMSpV and SpMSpV3 on them in any order sees three partial maps: each SpMSpV3 adds to y the products of the entries of the matrix with the values of x and of v, leaves x and v alone, and stops with an assertion if a value of v that a product needs is missing.", "quantifier": "all sizes, grids, partition functions, numbers of ranks and threads, edges, element types, functions, programs, contents of fresh memory", "why_tests_cant": "There is no test of SpMSpV3; the runtime calls it only after setAll on v and after filling x, so buffers that are missing or were cleared never occur.", "anchors": ["include/GMDP/multinode/spmspv3.h:SpMSpV3", "include/GMDP/singlenode/spmspv3.h:my_spmspv3", "include/GMDP/singlenode/spmspv3.h:mult_segment3", "include/GMDP/vectors/DenseSegment.h:set_uninitialized", "include/GMDP/vectors/DenseSegment.h:compress"]}
{"id": "C88", "title": "Programs that use all operations on vectors", "statement": "A program that builds a square matrix and any number of vectors and then calls set, unset, setAll, Clear, Apply, IntersectReduce, SpMSpV and SpMSpV3 on them in any order sees partial maps: Apply changes the output where the input has values, IntersectReduce makes the output exactly the combination where both inputs have values, products add to their output, and no call changes another vector.", "quantifier": "all sizes, numbers of segments, partition functions, numbers of ranks and threads, edges, element types, functions, programs, contents of fresh memory", "why_tests_cant": "The tests call each operation on freshly filled vectors; the results depend on flags, buffers and copies on other ranks left by earlier calls, and on memory that was never written.", "anchors": ["include/GMDP/multinode/apply.h:Apply", "include/GMDP/singlenode/apply.h:apply_segment", "include/GMDP/multinode/intersectreduce.h:IntersectReduce", "include/GMDP/singlenode/intersectreduce.h:intersect_segment", "include/GMDP/multinode/clear.h:Clear", "include/GMDP/multinode/spmspv.h:SpMSpV", "include/GMDP/multinode/spmspv3.h:SpMSpV3", "include/GMDP/vectors/DenseSegment.h:set_uninitialized"]}
{"id": "C89", "title": "Programs that reduce and count vectors", "statement": "In a program as in C88 that may also call MapReduce and getNNZ on any vector at any time, every MapReduce returns the combination of the given initial value and of the mapped values of the vector, each taken exactly once, and replaces the values by what the mapping function leaves; every getNNZ returns the number of values; and neither depends on what was done to the vector before except through its values.", "quantifier": "all sizes, numbers of segments, partition functions, numbers of ranks and threads, edges, element types, functions, initial values, programs, contents of fresh memory", "why_tests_cant": "The tests reduce a vector once, right after filling it, with initial value 0; vectors that were never written, cleared, or received from other ranks, and initial values that are not neutral, are not reduced.", "anchors": ["include/GMDP/multinode/reduce.h:MapReduce", "include/GMDP/singlenode/reduce.h:mapreduce_segment", "include/GMDP/singlenode/reduce.h:mapreduce_dense_segment", "include/GMDP/vectors/SpVec.h:getNNZ", "include/GMDP/vectors/DenseSegment.h:initialize"]}
{"id": "C90", "title": "Reducing and counting one segment", "statement": "reduce_segment combines the given initial value with all values of the segment, each once, in the order of their indices, and compute_nnz(start, finish) counts the values of a range, whatever calls were made on the segment before.", "quantifier": "all capacities, values, operators, ranges, histories of the segment", "why_tests_cant": "No test and no program calls them; a fresh full segment would not show what happens after Clear.", "anchors": ["include/GMDP/singlenode/reduce.h:reduce_segment", "include/GMDP/singlenode/reduce.h:reduce_dense_segment", "include/GMDP/vectors/DenseSegment.h:compute_nnz"]}
{"id": "C91", "title": "Any program on vectors, operands in any state", "statement": "What a program that builds a matrix and new vectors and calls set, unset, setAll, Clear, Apply, IntersectReduce, SpMSpV and SpMSpV3 on them does is determined by its calls, also when operands were cleared or never written: every vector remembers values, and every part of it is never written, cleared or in use; Clear hides values without removing them; writing into a part, or sending it to another rank, brings the part into use without its hidden values; Apply and products use remembered values and fail if a part of an input was never written (and, in a product, is not sent); IntersectReduce changes nothing in parts where an input is cleared; SpMSpV3 also fails if a value it needs is missing. Contents of fresh memory and the number of threads influence neither failure nor which elements have values.", "quantifier": "all sizes, tilings, placements of tiles, numbers of ranks and threads, sequences of calls, functions, contents of memory", "why_tests_cant": "The space of call sequences is infinite and the hidden values only matter in combinations of calls that no test makes.", "anchors": ["include/GMDP/multinode/apply.h:Apply", "include/GMDP/singlenode/apply.h:apply_dense_segment", "include/GMDP/multinode/intersectreduce.h:IntersectReduce", "include/GMDP/multinode/spmspv.h:SpMSpV", "include/GMDP/multinode/spmspv3.h:SpMSpV3", "include/GMDP/multinode/clear.h:Clear", "include/GMDP/vectors/DenseSegment.h:set_uninitialized"]}
{"id": "C92", "title": "Reductions and counts in any program, operands in any state", "statement": "In every program of set, unset, setAll, Clear, Apply, IntersectReduce, SpMSpV, SpMSpV3, MapReduce and getNNZ on new vectors, also with operands that were cleared or never written, the answers are determined by the calls: MapReduce and getNNZ never fail, MapReduce combines the mapped visible values, each exactly once, and its initial value once for every rank, and brings all parts of the vector into use without hidden values; getNNZ counts visible values.", "quantifier": "all sizes with n + threads at most INT_MAX, tilings, placements of tiles, numbers of ranks and threads, sequences of calls, functions, operators, initial values, contents of memory", "why_tests_cant": "Whether a reduction between Clear and Apply changes the later result only shows in combinations of calls that no test makes.", "anchors": ["include/GMDP/multinode/reduce.h:MapReduce", "include/GMDP/singlenode/reduce.h:mapreduce_segment", "include/GMDP/vectors/SpVec.h:getNNZ", "include/GMDP/multinode/apply.h:Apply", "include/GMDP/multinode/clear.h:Clear"]}
{"id": "C93", "title": "Programs with order-free operators have one result on a given layout", "statement": "If the operators with which a program adds up products and reduces vectors are associative and commutative, then two runs of the program on the same numbers of ranks and parts either both fail or both succeed with the same answers and the same values in all vectors, although the entries of the matrix come in another order and from other ranks, and the numbers of threads, the sorting functions, the contents of uninitialised memory and the options of transfers differ. Operands may be in any state (cleared, never written).", "quantifier": "all sizes with n + threads at most INT_MAX, tilings, placements of tiles, numbers of ranks and threads, orders and distributions of the entries, sequences of calls, functions, associative and commutative operators, contents of memory", "why_tests_cant": "A test makes one run with one order of entries and one content of memory; a difference shows only between runs.", "anchors": ["include/GMDP/multinode/spmspv.h:SpMSpV", "include/GMDP/multinode/spmspv3.h:SpMSpV3", "include/GMDP/multinode/reduce.h:MapReduce", "include/GMDP/matrices/SpMat.h:ingestEdgelist", "include/GMDP/singlenode/spmspv.h:mult_segment"]}
{"id": "C94", "title": "Programs with order-free operators have the same result on every layout", "statement": "The results of a program whose operators are associative and commutative and whose reductions begin with an identity do not depend on the number of ranks, the number of parts of the vectors, or the placement of the tiles.", "quantifier": "all sizes with n + threads at most INT_MAX, pairs of tilings, placements of tiles and numbers of ranks and threads, orders and distributions of the entries, sequences of calls, functions, contents of memory", "why_tests_cant": "Needs the comparison of runs on different numbers of ranks for all sequences of calls.", "anchors": ["include/GMDP/multinode/spmspv.h:SpMSpV", "include/GMDP/multinode/spmspv3.h:SpMSpV3", "include/GMDP/multinode/reduce.h:MapReduce", "include/GMDP/multinode/clear.h:Clear", "include/GMDP/singlenode/spmspv.h:mult_segment"]}
{"id": "C95", "title": "User programs: any sequence of calls on a loaded graph", "statement": "After loading a graph and fixing which vertices are active, any sequence of calls (functions on vertices, graph_program_init, run_graph_program of any vertex programs with new or kept vectors, applyToAllEdges, applyReduceAllVertices, getVertexproperty, getEdgelist) does what it says on a plain list of edges, map of properties and set of active vertices, and returns the results defined there. No call fails; the only way not to return is a run until nothing changes all of whose supersteps change something.", "quantifier": "all numbers of vertices with n + threads at most INT_MAX, ranks, threads, edge lists in any division, sequences of calls, vertex programs that do not read uninitialised outputs, functions, contents of memory", "why_tests_cant": "Tests run one algorithm on a new graph. Whether values left by one run (vectors kept, activity, changed edges) disturb the next call depends on the sequence, of which there are infinitely many.", "anchors": ["include/GraphMatRuntime.h:run_graph_program", "include/GraphMatRuntime.h:graph_program_init", "include/Graph.h:applyToAllEdges", "include/Graph.h:applyReduceAllVertices", "include/Graph.h:getVertexproperty", "include/Graph.h:getEdgelist", "include/Graph.h:setAllActive"]}
{"id": "C96", "title": "User programs return the same on every number of ranks and threads", "statement": "Two executions of the same user program (any sequence of the calls of C95), on different numbers of ranks and threads, with the edges divided and ordered differently, other sorting functions and other memory contents: if the reduce functions of its vertex programs are associative and commutative, and those of applyReduceAllVertices too and begin with an identity, then both return from all calls with the same results (numbers of supersteps, program objects, values, properties, edges of all ranks together up to order), or both stay in the same run after the same results.", "quantifier": "all pairs of configurations, all sequences of calls, vertex programs, functions, contents of memory", "why_tests_cant": "Needs every pair of configurations and every program; differences would show only for rare combinations of layout and calls.", "anchors": ["include/GraphMatRuntime.h:run_graph_program", "include/Graph.h:ReadEdgelist", "include/Graph.h:vertexToNative", "include/Graph.h:applyReduceAllVertices", "include/Graph.h:applyToAllEdges", "include/SPMV.h:SpMSpV"]}
{"id": "C97", "title": "A run in two parts", "statement": "Running a program for N supersteps and then, with the same program object, for M more leaves the graph and the object exactly as one run of N + M supersteps, with new or kept vectors, whatever memory contains, also with reductions that depend on the order; the program's do_every_iteration must not depend on the number of the superstep and its kind of activity must not change.", "quantifier": "all graphs, programs, N and M with N + M at most INT_MAX, ranks, threads, contents of memory and of kept vectors", "why_tests_cant": "What a run leaves behind (activity, vectors) could influence the next only in some state; tests run programs once.", "anchors": ["include/GraphMatRuntime.h:run_graph_program", "include/GraphMatRuntime.h:graph_program_init", "include/Graph.h:setAllActive"]}
{"id": "C98", "title": "A run after convergence changes nothing", "statement": "After a run until nothing changes of a program that works on active vertices, no vertex is active, and a further run of any program that works on active vertices changes no property and no activity; it makes one superstep if it runs until nothing changes and N if asked for N. For a program that works on all vertices the same holds of running it again, if its object does not change, its reduction is associative and commutative and its comparison does not hide differences.", "quantifier": "all graphs, programs, ranks, threads, contents of memory", "why_tests_cant": "Needs the state at the end of every run that converges.", "anchors": ["include/GraphMatRuntime.h:run_graph_program"]}
{"id": "C99", "title": "A run changes only what is near active vertices", "statement": "A run of a program that works on active vertices, after k supersteps, has changed only properties of vertices at the end of a walk of 1 to k edges (in the program's direction) from a vertex that was active at the start; the vertices active afterwards are at the end of a walk of exactly k edges. This holds for every reduction, and also before the run ends.", "quantifier": "all graphs, programs, k, ranks, threads, contents of memory", "why_tests_cant": "Tests compare results of complete algorithms on small graphs, where nearly every vertex is near every other.", "anchors": ["include/GraphMatRuntime.h:run_graph_program", "include/SPMV.h:SpMTSpV", "include/SPMV.h:SpMSpV", "include/GraphMatRuntime.h:send_message"]}
{"id": "C100", "title": "The names of vertices do not matter", "statement": "Take two graphs that differ by a permutation of the vertices (with corresponding edges in any order, properties and activity), on any numbers of ranks and threads, and run the same program with an associative and commutative reduction: both runs make the same number of supersteps and end (or have not ended) together with the same program object, and every vertex has under its new name the property and activity it has under the old one.", "quantifier": "all permutations, graphs, programs, numbers of supersteps or until nothing changes, ranks, threads, contents of memory", "why_tests_cant": "A permutation moves vertices to other tiles, segments, words and ranks; no test covers all of them.", "anchors": ["include/GraphMatRuntime.h:run_graph_program", "include/Graph.h:vertexToNative", "include/Graph.h:ReadEdgelist", "include/SPMV.h:SpMTSpV"]}
{"id": "C101", "title": "Components do not influence each other", "statement": "Take a set of vertices that no edge enters or leaves, and two graphs that agree on it (the same edges inside in any order, the same properties and activity) but may differ everywhere else, on any numbers of ranks and threads. After N supersteps of a program with an associative and commutative reduction, the two graphs have the same properties and activity on the set, and the program objects are equal.", "quantifier": "all closed sets, graphs, programs, N, ranks, threads, contents of memory", "why_tests_cant": "Vertices of different components share tiles, words of bit vectors, segments and messages between ranks; tests run single graphs and do not vary the other components.", "anchors": ["include/GraphMatRuntime.h:run_graph_program", "include/SPMV.h:SpMTSpV", "include/SPMV.h:SpMSpV", "include/GraphMatRuntime.h:send_message"]}

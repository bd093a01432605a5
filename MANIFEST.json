{
 "claims": [
  {
   "property": "C01",
   "status": "proved",
   "theorems": [
    "GraphMat.vertexToNative_roundtrip",
    "GraphMat.nativeToVertex_roundtrip",
    "GraphMat.vertexToNative_injective"
   ],
   "note": "Round trips in both directions, with no intermediate int overflow, for all thread/rank counts and lengths whose products fit an int."
  },
  {
   "property": "C02",
   "status": "proved",
   "theorems": [
    "GraphMat.getPartition_exact",
    "GraphMat.nodeOwner_unique",
    "GraphMat.vertexNodeOwner_unique",
    "GraphMat.startIds_cover",
    "GraphMat.factorizeInt_correct"
   ],
   "note": "Every vertex lies in exactly one segment and has exactly one owning rank."
  },
  {
   "property": "C06",
   "status": "proved",
   "theorems": [
    "GraphMat.edgelist_survives_loading"
   ],
   "note": "Renumbering, exchange between ranks, sorting by tile, tile construction and reading back; any behaviour of the sorting library."
  },
  {
   "property": "C07",
   "status": "proved",
   "theorems": [
    "GraphMat.edge_stored_once",
    "GraphMat.edge_stored_once_any_layout",
    "GraphMat.matPartition_exact"
   ],
   "note": "Both orientations, any rank count and any valid placement. The reported count is proved for fewer than 2^32 edges (the code sums only the low 32 bits)."
  },
  {
   "property": "C08",
   "status": "proved",
   "theorems": [
    "GraphMat.apply_to_all_edges"
   ],
   "note": "Every loaded graph, rank and thread count, any function. Both matrices updated; observed through getEdgelist. The per-vertex values handed to the function are those of the two endpoints."
  },
  {
   "property": "C46",
   "status": "partial",
   "theorems": [
    "GraphMat.caller_edges_modified",
    "GraphMat.caller_edges_after_load_partial"
   ],
   "note": "False of the code: the caller's array is renumbered in place (and permuted when there are several ranks). Exact contents afterwards proved."
  },
  {
   "property": "C03",
   "status": "proved",
   "theorems": [
    "GraphMat.vertex_properties_are_a_map",
    "GraphMat.vertex_lists_are_complete"
   ],
   "note": "Every history of set/setAll/apply/reset and activity calls on all ranks refines a plain map from user ids; the lists of all ranks together are a permutation of all pairs."
  },
  {
   "property": "C04",
   "status": "proved",
   "theorems": [
    "GraphMat.messages_come_from_active_set",
    "GraphMat.active_count"
   ],
   "note": "Histories that contain a call fixing the activity of all vertices; messages of the next superstep come exactly from the active set."
  },
  {
   "property": "C05",
   "status": "proved",
   "theorems": [
    "GraphMat.getNNZ_exact"
   ],
   "note": "Every history of set/unset/setAll/Clear on a distributed vector."
  },
  {
   "property": "C21",
   "status": "partial",
   "theorems": [
    "GraphMat.fresh_graph_everyone_sends",
    "GraphMat.fresh_graph_partial"
   ],
   "note": "False of the code: a freshly loaded graph has all presence bits set, so every vertex sends (stale data). True after setAllInactive."
  },
  {
   "property": "C23",
   "status": "proved",
   "theorems": [
    "GraphMat.applyToAllVertices_once"
   ],
   "note": "Value x becomes f(x,&x) exactly once, activity unchanged."
  },
  {
   "property": "C45",
   "status": "partial",
   "theorems": [
    "GraphMat.out_of_range_id_aliases",
    "GraphMat.set_vertex_zero_changes_vertex_one",
    "GraphMat.out_of_range_id_partial"
   ],
   "note": "False of the code when there are fewer vertices than threads*16*ranks: id 0 aliases vertex 1. Proved refused otherwise."
  },
  {
   "property": "C24",
   "status": "partial",
   "theorems": [
    "GraphMat.compressed_segment_round_trip",
    "GraphMat.serialized_segment_round_trip_partial",
    "GraphMat.serialized_segment_overflow",
    "GraphMat.both_encodings"
   ],
   "note": "Plain element types: proved for all contents, stale counters, densities and thread counts. Serializable types: proved when the sender has at most as many threads as the receiver; refuted otherwise (the receiver's scan arrays overflow)."
  },
  {
   "property": "C25",
   "status": "proved",
   "theorems": [
    "GraphMat.merge_is_exact",
    "GraphMat.merge_is_exact_serialized_partial"
   ],
   "note": "For each id: reduction of exactly the present values in message order, all encodings and thread counts. Serializable types carry the thread count condition of C24."
  },
  {
   "property": "C42",
   "status": "partial",
   "theorems": [
    "GraphMat.leftBorder_spec",
    "GraphMat.rightBorder_spec",
    "GraphMat.leftBorder_full",
    "GraphMat.rightBorder_full",
    "GraphMat.lLinearSearch_spec",
    "GraphMat.lLinearSearch_empty_out_of_bounds",
    "GraphMat.lBinarySearch_spec_partial",
    "GraphMat.lBinarySearch_out_of_bounds",
    "GraphMat.lBinarySearch_garbage_decides",
    "GraphMat.leftBorder_subrange_misses",
    "GraphMat.lBinarySearch_reads_behind",
    "GraphMat.lBinarySearch_sound",
    "GraphMat.lBinarySearch_inside",
    "GraphMat.lBinarySearch_last_fails",
    "GraphMat.test_searches",
    "GraphMat.requireResults_iff",
    "GraphMat.test_binary_search_hides"
   ],
   "note": "Border searches and the linear search on non-empty arrays: proved exact and in bounds. l_binary_search as called (end = number of elements) reads one element past the array whenever the key is above all elements, sometimes also when it is above the last but one: refuted; proved exact whenever it does not, and when end is a readable element."
  },
  {
   "property": "C09",
   "status": "proved",
   "theorems": [
    "GraphMat.out_edges_superstep"
   ],
   "note": "Any graph, active set, configuration, garbage in fresh memory. The program's send/process functions must fully write their output (Pure). Ranks run as one deterministic exchange; thread interleavings are C12."
  },
  {
   "property": "C10",
   "status": "proved",
   "theorems": [
    "GraphMat.in_edges_superstep"
   ],
   "note": "As C09 with the untransposed matrix."
  },
  {
   "property": "C11",
   "status": "proved",
   "theorems": [
    "GraphMat.all_edges_superstep"
   ],
   "note": "The second product accumulates into the result of the first."
  },
  {
   "property": "C12",
   "status": "partial",
   "theorems": [
    "GraphMat.product_loop_any_schedule_partial",
    "GraphMat.product3_loop_any_schedule_partial",
    "GraphMat.apply_loop_any_schedule_partial",
    "GraphMat.message_loops_any_schedule_partial",
    "GraphMat.race_free_loop_has_one_outcome",
    "GraphMat.thread_count_changes_result"
   ],
   "note": "Every interleaving: proved access by access (single loads and stores of elements and 32-bit words, sequentially consistent) for each parallel loop of a superstep, any reduce function. The same loops with loop bounds and inputs also read from memory, and the reductions, are in C67. Processors with store buffers and processors that reorder loads are in C80. The thread count part is false of the code for non-commutative reductions: ids are renumbered with the thread count, so messages are visited in another order (witness)."
  },
  {
   "property": "C13",
   "status": "proved",
   "theorems": [
    "GraphMat.superstep_same_on_all_configurations",
    "GraphMat.run_same_on_all_configurations"
   ],
   "note": "Both for one superstep and end to end: load, any calls, N supersteps, read back; different rank and thread counts, different division of the edges."
  },
  {
   "property": "C14",
   "status": "proved",
   "theorems": [
    "GraphMat.process_sees_receiver_property",
    "GraphMat.process_without_property"
   ],
   "note": "Recorded arguments of all process_message calls; without property the library's default object is passed."
  },
  {
   "property": "C15",
   "status": "proved",
   "theorems": [
    "GraphMat.run_executes_exactly_N"
   ],
   "note": "Any N from 1 to INT_MAX; the sequence of do_every_iteration arguments is 0..N-1."
  },
  {
   "property": "C16",
   "status": "proved",
   "theorems": [
    "GraphMat.run_until_convergence",
    "GraphMat.run_stops_at_first_quiet_superstep"
   ],
   "note": "Both directions: stops exactly at the first superstep without change; otherwise still running after any number of rounds (up to INT_MAX, where the counter would overflow)."
  },
  {
   "property": "C17",
   "status": "proved",
   "theorems": [
    "GraphMat.activity_after_superstep"
   ],
   "note": "!= only needs to be irreflexive; also characterises the convergence flag."
  },
  {
   "property": "C18",
   "status": "proved",
   "theorems": [
    "GraphMat.untouched_vertices"
   ],
   "note": ""
  },
  {
   "property": "C19",
   "status": "proved",
   "theorems": [
    "GraphMat.scratch_reuse_has_no_effect"
   ],
   "note": "Any two scratch spaces of the right length and any fresh memory give the same outcome, with no assumption on the reduction; scratch left by earlier runs qualifies."
  },
  {
   "property": "C20",
   "status": "partial",
   "theorems": [
    "GraphMat.send_message_flag_ignored",
    "GraphMat.send_message_cannot_veto",
    "GraphMat.send_message_veto_partial"
   ],
   "note": "False of the code: the returned boolean is dropped by the wrapper; programs differing only in it behave identically."
  },
  {
   "property": "C22",
   "status": "partial",
   "theorems": [
    "GraphMat.applyReduce_reduces_everything",
    "GraphMat.applyReduce_is_reduction_partial",
    "GraphMat.applyReduce_one_rank",
    "GraphMat.applyReduce_initial_value_counted_per_rank"
   ],
   "note": "False of the code for a general initial value: it is combined once per rank (init 5 on 1/2/3 ranks gives 825/830/835). Exact bracketing proved; equals the reduction of all mapped values when the initial value is an identity, or on one rank."
  },
  {
   "property": "C27",
   "status": "proved",
   "theorems": [
    "GraphMat.bfs_computes_hop_distances"
   ],
   "note": "The whole of run_bfs after loading, with 32-bit depths, any ranks/threads: terminates within n supersteps, exact hop distances, parents one hop closer, reported count of reachable vertices."
  },
  {
   "property": "C28",
   "status": "proved",
   "theorems": [
    "GraphMat.sssp_computes_distances",
    "GraphMat.sssp_wraps_around",
    "GraphMat.NoOverflow.of_bound"
   ],
   "note": "The whole of run_sssp<int> after loading with 32-bit wrapping distances, any ranks/threads. The no-overflow hypothesis (walks of at most n edges shorter than 2^32-1) is shown to be necessary by a wrapping example."
  },
  {
   "property": "C29",
   "status": "proved",
   "theorems": [
    "GraphMat.topsort_computes_levels",
    "GraphMat.topsort_sorts_dag"
   ],
   "note": "The whole of run_topsort after loading (degree pass, marking, sort, report), any ranks/threads; positions are exactly longest-incoming-walk lengths, none of the assertions fails. The omp loop that marks sources is executed sequentially in the model (see C50 for the race)."
  },
  {
   "property": "C31",
   "status": "proved",
   "theorems": [
    "GraphMat.pagerank_iterations",
    "GraphMat.pagerank_converges"
   ],
   "note": "Exact rational arithmetic as the property says (float rounding is not modelled). Any alpha for the iterations; the bundled program (alpha 0.3) is also shown to stop, at the first iteration changing no rank by more than 1e-5 and at the latest after 92 iterations whatever the graph."
  },
  {
   "property": "C30",
   "status": "proved",
   "theorems": [
    "GraphMat.triangles_are_counted"
   ],
   "note": "Whole program (id loop, neighbour pass, counting pass, total), every duplicate-free directed graph (DAG not needed), any ranks and threads; the per-vertex counts (int in the code) are assumed to fit, parallel edges are excluded and a sample shows they are counted twice."
  },
  {
   "property": "C33",
   "status": "proved",
   "theorems": [
    "GraphMat.remove_selfedges_keeps_the_rest"
   ],
   "note": ""
  },
  {
   "property": "C34",
   "status": "proved",
   "theorems": [
    "GraphMat.duplicates_are_removed_across_ranks"
   ],
   "note": "Any number of ranks and threads, any distribution, any sorting algorithm per rank; ids one-based and the total count an int."
  },
  {
   "property": "C35",
   "status": "proved",
   "theorems": [
    "GraphMat.shuffle_moves_every_edge_once"
   ],
   "note": "Counting sort with per-thread histograms, message exchange and reassembly; also gives the receiving rank and the order. Threads are run one after the other (they use disjoint rows of the tables)."
  },
  {
   "property": "C36",
   "status": "proved",
   "theorems": [
    "GraphMat.both_directions_are_created",
    "GraphMat.both_directions_overflow",
    "GraphMat.directions_become_acyclic"
   ],
   "note": "Doubling needs 2*nnz to fit an int; beyond that the code overflows (both_directions_overflow)."
  },
  {
   "property": "C37",
   "status": "proved",
   "theorems": [
    "GraphMat.filter_edges_keeps_the_chosen",
    "GraphMat.filter_edges_by_row_selects_the_rows"
   ],
   "note": ""
  },
  {
   "property": "C38",
   "status": "proved",
   "theorems": [
    "GraphMat.empty_columns_are_removed"
   ],
   "note": ""
  },
  {
   "property": "C51",
   "status": "partial",
   "theorems": [
    "GraphMat.random_renumbering_is_a_permutation_partial",
    "GraphMat.random_renumbering_needs_square"
   ],
   "note": "Proved for lists whose ids are all within 1..m, with one permutation for the lists of all ranks; refuted for valid non-square lists, where a destination above m indexes outside the mapping."
  },
  {
   "property": "C52",
   "status": "proved",
   "theorems": [
    "GraphMat.random_direction_keeps_the_pairs"
   ],
   "note": "The random numbers are an arbitrary sequence of coin tosses."
  },
  {
   "property": "C32",
   "status": "partial",
   "theorems": [
    "GraphMat.delta_stepping_computes_distances_partial",
    "GraphMat.delta_stepping_buckets_fit",
    "GraphMat.delta_stepping_loses_far_vertices"
   ],
   "note": "Proved for every graph, delta >= 1, rank and thread count under the hypotheses that no walk of at most n edges is as long as MAX_DIST and that bucket numbers stay below INT_MAX; for delta >= 3 the second follows from the first. The unrestricted claim is false: with delta = 1 a vertex at distance INT_MAX gets the bucket number of unreached vertices (delta_stepping_loses_far_vertices)."
  },
  {
   "property": "C50",
   "status": "partial",
   "theorems": [
    "GraphMat.marking_one_at_a_time_partial",
    "GraphMat.marking_can_lose_a_source"
   ],
   "note": "False of the code: setActive reads and writes a shared 32-bit word without synchronisation, so an interleaving of two iterations loses a source (proved for any two sources in one word). What holds: if the iterations run one at a time, in any order, exactly the sources are marked."
  },
  {
   "property": "C49",
   "status": "partial",
   "theorems": [
    "GraphMat.kernel_accesses_in_bounds_partial",
    "GraphMat.kernel_defined_iff",
    "GraphMat.kernel3_defined_iff",
    "GraphMat.kernel_prefetch_out_of_bounds",
    "GraphMat.kernel_dead_store_overflows"
   ],
   "note": "False as stated. All accesses contributing to the product are in bounds for every loaded tile, any functions and vectors. The load for the prefetch leaves col_indices (exact condition proved), and the dead store m*n overflows on every tile of a graph with more than 46340 vertices on one rank."
  },
  {
   "property": "C41",
   "status": "proved",
   "theorems": [
    "GraphMat.snapshot_round_trip",
    "GraphMat.snapshot_mismatch_refused",
    "GraphMat.snapshot_checks"
   ],
   "note": "Every graph, rank and thread count, any fresh memory. The archive is modelled as the list of values written to it (boost's own class and object ids left out). The reader's activity is that of a newly loaded graph. num_cols of an empty tile is written without ever having been set."
  },
  {
   "property": "C26",
   "status": "proved",
   "theorems": [
    "GraphMat.exchanges_complete",
    "GraphMat.exchanges_can_finish",
    "GraphMat.graph_exchanges_complete"
   ],
   "note": "Per-rank sequences of MPI calls of supersteps, applyToAllEdges, applyReduceAllVertices, ReadEdgelist, reading and writing of binary graphs, saveVertexproperty, getNNZ, load_edgelist, shuffle_edges, remove_duplicate_edges and randomize_edgelist_square, with tags, including the metadata queues that decide how many receives are posted; arbitrary tile owners, arbitrary sequences of operations. The behaviour of MPI itself (matching, blocking, buffering) is the small semantics of Spec/Mpi.lean; message sizes and the library's internal progress engine are not part of it."
  },
  {
   "property": "C47",
   "status": "partial",
   "theorems": [
    "GraphMat.sharing_safe_partial",
    "GraphMat.share_again_breaks_lender",
    "GraphMat.sharing_twice_double_free",
    "GraphMat.sharing_other_failures"
   ],
   "note": "False of the code: shareVertexProperty deletes the old vector without looking at vertexpropertyowner, so sharing twice frees the lender's vector (use after free, double free); a sharer that outlives the lender and a second load are wrong as well. Proved for histories that avoid these."
  },
  {
   "property": "C39",
   "status": "proved",
   "theorems": [
    "GraphMat.binary_round_trip",
    "GraphMat.binary_round_trip_all",
    "GraphMat.binary_files_load"
   ],
   "note": "Files are lists of bytes; fread, feof and the int encoding are modelled. binary_files_load covers a number of readers different from the number of writers. The bytes of T are a parameter that must round-trip for the values in the list (shown for 32-bit patterns, and as signedBin for ints in range). The files are assumed numbered without holes, with no stale files of an earlier run."
  },
  {
   "property": "C40",
   "status": "partial",
   "theorems": [
    "GraphMat.text_files_load_partial",
    "GraphMat.text_unterminated_overflow",
    "GraphMat.text_unterminated_sample",
    "GraphMat.text_header_edge_lost"
   ],
   "note": "False of the code: readLine returns false at end of file although the last line was converted. Without header every directory whose reader's last file lacks the final newline makes load_edgelist store outside its array (text_unterminated_overflow, for all such inputs); with header and several files per reader an edge is lost and an uninitialised one delivered (text_header_edge_lost). Proved complete for terminated files and, with header, for the last file of each reader unterminated. Weight conversions %f and %lf are a parameter."
  },
  {
   "property": "C53",
   "status": "proved",
   "theorems": [
    "GraphMat.text_round_trip"
   ],
   "note": "Characters of the files modelled, including printing and scanning of %d. float and double weights (rounded by %.8f and %.15lf) are not covered."
  },
  {
   "property": "C43",
   "status": "partial",
   "theorems": [
    "GraphMat.save_vertexproperty_partial",
    "GraphMat.saved_ids_are_shifted"
   ],
   "note": "False of the code as stated: DenseSegment::save writes the zero-based position, so the line of vertex v carries v-1 (refuted for every graph with a vertex, every history and rank count by saved_ids_are_shifted). Proved: after every history the files hold exactly one line per vertex, in the order of the user's ids, with the assigned value, file r on rank r, with the right header. Includes the redistribution by SpVec::ingestEdgelist on all ranks. MPI messages are assumed to be delivered."
  },
  {
   "property": "C48",
   "status": "partial",
   "theorems": [
    "GraphMat.options_last_wins",
    "GraphMat.converter_rejects",
    "GraphMat.converter_correct_partial",
    "GraphMat.converter_main_partial",
    "GraphMat.converter_types_partial",
    "GraphMat.convTypes_cast",
    "GraphMat.float_conversion_changes",
    "GraphMat.unit_weights_not_created",
    "GraphMat.unlisted_output_writes_nothing",
    "GraphMat.unlisted_input_reads_nothing",
    "GraphMat.random_weight_can_be_r"
   ],
   "note": "Rejection: proved exactly (contradicting options, or selfloops not 0/1; unknown edge type separately). Conversion: proved for all inputs in the three formats, any numbers of ranks and threads, and all three output formats, from bytes/characters to bytes/characters. False in general: --outputedgeweights 2 keeps the input weights (so covered only if they are 1), values not listed in the help are accepted (unknown output format writes nothing, unknown input format reads nothing), a random weight can be r although [1,r) is promised. The parsing of the command line is the subject of C70. converter_types_partial is for the program with its three edge types as they are; float and double weights in text output are rounded as C76 says (float_conversion_changes)."
  },
  {
   "property": "C44",
   "status": "partial",
   "theorems": [
    "GraphMat.csr_tile_correct",
    "GraphMat.coosimd_tile_correct",
    "GraphMat.dcsc_tile_correct",
    "GraphMat.dcsr_tile_correct_partial",
    "GraphMat.dcsr_reads_behind",
    "GraphMat.coo_tile_correct_partial",
    "GraphMat.coo_reads_behind",
    "GraphMat.coo_single_edge_lost",
    "GraphMat.coo_loses_edge",
    "GraphMat.hybrid_tile_correct_partial",
    "GraphMat.hybrid_empty_fails",
    "GraphMat.formats_interchangeable_partial",
    "GraphMat.dcsc_mult3_correct",
    "GraphMat.coo_mult3_correct_partial",
    "GraphMat.coo_mult3_empty_fails"
   ],
   "note": "False as stated. CSR, COO-SIMD and DCSC: proved for all edges, vectors, thread counts and fresh memory. The COO constructor reads one int behind ia for every non-empty tile and, if the tile has one edge and that int is not positive, loses the edge in every product (proved for all such tiles; with more edges the product is right whatever the int is). The DCSR constructor (also used inside hybrid tiles) can read one int behind row_ids. Multiplying a hybrid tile without edges follows uninitialised pointers. Proved for these formats when the int behind the array is readable (COO: and positive if there is only one edge; hybrid: or no row has 16 edges) and, for hybrid, the tile is not empty. The three-operand product (mult_segment3) exists for DCSC and COO: same conditions, but COO without edges fails because num_partitions is never set. Partitions of one tile are processed one after the other; schedules of the threads are not modelled here."
  },
  {
   "property": "C54",
   "status": "proved",
   "theorems": [
    "GraphMat.incremental_pagerank"
   ],
   "note": "In exact arithmetic (rounding of double not modelled). Existence of the exact solution is part of the theorem. The bound on the supersteps has to fit an int."
  },
  {
   "property": "C55",
   "status": "proved",
   "theorems": [
    "GraphMat.gradient_descent_with",
    "GraphMat.gradient_descent",
    "GraphMat.step_follows_gradient"
   ],
   "note": "In exact arithmetic (rounding of double not modelled); the numbers delivered by rand_r are arbitrary. Regularisation is not applied to vertices without ratings, as stated."
  },
  {
   "property": "C56",
   "status": "proved",
   "theorems": [
    "GraphMat.topic_model_with",
    "GraphMat.topic_model",
    "GraphMat.topic_model_until",
    "GraphMat.topic_counts",
    "GraphMat.topic_probabilities",
    "GraphMat.unused_word_adds_garbage"
   ],
   "note": "In exact arithmetic (rounding of double not modelled); log is any function, and its arguments are proved positive. The hypothesis that every word occurs is needed: unused_word_adds_garbage shows that the uninitialised counts of an unused word enter global_N and from there all counts. niterations <= 0: topic_model_until, whether some update is small enough is not claimed."
  },
  {
   "property": "C57",
   "status": "proved",
   "theorems": [
    "GraphMat.intersect_exact",
    "GraphMat.intersectReduce_exact"
   ],
   "note": "Per segment and per rank; the loop over the words of a segment is executed in order (disjoint words, no order dependence)."
  },
  {
   "property": "C58",
   "status": "proved",
   "theorems": [
    "GraphMat.files_to_graph",
    "GraphMat.readMTX_is_readEdgelist",
    "GraphMat.bfs_on_files"
   ],
   "note": "readMTX_is_readEdgelist reduces loading files to ReadEdgelist of some distribution of their edges, so that every theorem about loaded graphs applies; bfs_on_files does this for breadth-first search on files with int values (signedBin, every value within int). Files are what write_edgelist produces (headers may differ between files)."
  },
  {
   "property": "C59",
   "status": "proved",
   "theorems": [
    "GraphMat.vector_archive_roundtrip"
   ],
   "note": "Archives are lists of the values written; the bytes of serialized_data are modelled as the records they encode; name, received_md and queued_md are left out."
  },
  {
   "property": "C60",
   "status": "partial",
   "theorems": [
    "GraphMat.csr_archive_roundtrip",
    "GraphMat.coosimd_archive_roundtrip",
    "GraphMat.dcsc_archive_roundtrip",
    "GraphMat.coo_archive_roundtrip_partial",
    "GraphMat.dcsr_archive_edges_partial",
    "GraphMat.dcsr_archive_reads_behind",
    "GraphMat.dcsr_restored_cannot_multiply",
    "GraphMat.hybrid_archive_roundtrip_partial",
    "GraphMat.hybrid_archive_edges_partial",
    "GraphMat.hybrid_restored_cannot_multiply",
    "GraphMat.hybrid_archive_reads_behind"
   ],
   "note": "False as stated. CSR, COO-SIMD, DCSC: proved. COO: proved where the constructor is correct (C44). DCSR: save reads behind the end of ia if the tile has edges but less than rows, and a loaded tile with edges can never be multiplied because partition_ptrs is not restored; only get_edges survives (and only if the memory behind ia is readable). Hybrid: the same if a row has 16 edges; full round trip if no row has. Bytes of the archive and boost's object tracking are not modelled."
  },
  {
   "property": "C61",
   "status": "partial",
   "theorems": [
    "GraphMat.csr_memory",
    "GraphMat.dcsc_memory",
    "GraphMat.csr_matrix_memory",
    "GraphMat.dcsc_matrix_memory",
    "GraphMat.coo_memory_partial",
    "GraphMat.coosimd_memory_partial",
    "GraphMat.dcsr_memory_partial",
    "GraphMat.coo_matrix_memory_partial",
    "GraphMat.coosimd_matrix_memory_partial",
    "GraphMat.dcsr_matrix_memory_partial",
    "GraphMat.hybrid_memory_partial",
    "GraphMat.coo_restored",
    "GraphMat.coosimd_restored",
    "GraphMat.dcsr_restored",
    "GraphMat.hybrid_leaks",
    "GraphMat.hybrid_matrix_leaks",
    "GraphMat.hybrid_make_zero",
    "GraphMat.csr_assign",
    "GraphMat.coo_assign",
    "GraphMat.coosimd_assign",
    "GraphMat.dcsr_assign",
    "GraphMat.dcsc_assign",
    "GraphMat.csr_reload_leaks"
   ],
   "note": "False as stated. CSR and DCSC (the library's own format): proved, except for assignment and for loading into a tile that already has edges. COO, COO-SIMD, DCSR: proved as long as no archive of a tile with edges is loaded; such a tile cannot be destroyed (refuted). Hybrid: no release of anything; exact number of lost blocks proved. Assignment: refuted for all formats (hybrid: leaks). The order in which the tiles of a matrix are allocated and allocation failure are not modelled."
  },
  {
   "property": "C62",
   "status": "partial",
   "theorems": [
    "GraphMat.vector_memory_partial",
    "GraphMat.segment_pool",
    "GraphMat.supersteps_bounded",
    "GraphMat.message_overrun",
    "GraphMat.ingest_leak"
   ],
   "note": "False as stated. Proved for all histories in which no message was made with more partitions (16 per thread of the sender) than the receiving buffer was made for; a serialized message with more overruns nnz_scan and nbytes_scan (message_overrun). Boundedness: the exact number of blocks. ingestEdgelist leaks one block per call, three on a rank that gets no edges (exact). Copies of vectors and loading an archive into a vector in use are not covered (the code never does either)."
  },
  {
   "property": "C63",
   "status": "partial",
   "theorems": [
    "GraphMat.graph_memory_partial",
    "GraphMat.graph_leak",
    "GraphMat.unfilled_graph",
    "GraphMat.save_empty_segment"
   ],
   "note": "False as stated. Proved for every history in which the graph is filled once and first, no vertex properties are saved and ReadMTX finds edges on the rank. Otherwise memory is forgotten: filling again forgets all blocks of the graph (lower bound from the tiles and segments), saveVertexproperty one block or three, ReadMTX one on a rank without edges (exact if the graph is filled once). Using a graph before it is filled follows a null pointer. Messages made with more partitions than the receiver has: C62. Sharing of vertex properties: C47; copies of graph objects are C79."
  },
  {
   "property": "C64",
   "status": "partial",
   "theorems": [
    "GraphMat.edgelist_memory_partial",
    "GraphMat.edgelist_leak",
    "GraphMat.converter_memory"
   ],
   "note": "False as stated. Nothing dead, null or unset is followed or released in any history; memory comes back exactly if no list is loaded a second time, none is loaded without edges on a rank, and no transformation leaves a list with an array but no edges. The number of arrays forgotten is exact, for any history and for the converter with any options. The pointer of a list created without edges is never set; copying it is not counted as an error."
  },
  {
   "property": "C65",
   "status": "proved",
   "theorems": [
    "GraphMat.transfers_left_alone",
    "GraphMat.transfers_end_with_operation",
    "GraphMat.transfers_threads_false"
   ],
   "note": "One rank at a time, with arbitrary numbers announced by the others; that matching messages arrive is C26. Local work is in program order; reads and writes count for whole arrays. Without the hypothesis on threads the claim fails (transfers_threads_false, see C62). The byte counts nnz*sizeof(T) passed to MPI are ints; their overflow for huge segments is C68. The arrays of MPI_Status are left out."
  },
  {
   "property": "C66",
   "status": "partial",
   "theorems": [
    "GraphMat.dimensions_are_the_largest_ids",
    "GraphMat.written_edges_are_read",
    "GraphMat.written_text_edges_are_read",
    "GraphMat.written_edges_are_read_renumbered_partial",
    "GraphMat.random_read_fails_without_header"
   ],
   "note": "get_dimensions: proved for any number of ranks and threads and any assignment of iterations. WriteEdges/ReadEdges without randomize: proved for binary files and for text files with int weights. With randomize: proved for binary files and any number of readers if the ids are within the number of rows found; refuted for square lists written without header, whose number of rows is taken from the sources only (random_read_fails_without_header)."
  },
  {
   "property": "C67",
   "status": "proved",
   "theorems": [
    "GraphMat.unionCompressed_tasks",
    "GraphMat.decompress_tasks",
    "GraphMat.compressCount_tasks",
    "GraphMat.compressCopy_tasks",
    "GraphMat.mapReduce_tasks",
    "GraphMat.applyEdges_tasks",
    "GraphMat.csr_tasks",
    "GraphMat.dcsr_tasks",
    "GraphMat.coo_tasks",
    "GraphMat.coosimd_tasks",
    "GraphMat.dcsc_build_tasks",
    "GraphMat.shuffle_tasks",
    "GraphMat.setAll_tasks",
    "GraphMat.computeNnz_tasks",
    "GraphMat.unionDense_tasks",
    "GraphMat.apply_tasks",
    "GraphMat.applySelf_tasks",
    "GraphMat.intersect_tasks",
    "GraphMat.renumber_tasks",
    "GraphMat.transpose_tasks",
    "GraphMat.randomize_tasks",
    "GraphMat.columns_tasks",
    "GraphMat.shuffleOut_tasks",
    "GraphMat.ingestLocal_tasks",
    "GraphMat.segTag_tasks",
    "GraphMat.coo_build_tasks",
    "GraphMat.csr_build_tasks",
    "GraphMat.simd_build_tasks",
    "GraphMat.coo_out_tasks",
    "GraphMat.csr_out_tasks",
    "GraphMat.dcsr_out_tasks",
    "GraphMat.dcsc_tasks",
    "GraphMat.dcsc3_tasks",
    "GraphMat.update_tasks",
    "GraphMat.pack_tasks",
    "GraphMat.flush_tasks",
    "GraphMat.unpack_tasks",
    "GraphMat.dimensions_tasks"
   ],
   "note": "Proved for the loops of union_compressed, compress, decompress (plain and serialized), mapreduce_dense_segment, applyToAllEdges, the loop that applies messages (with reduction(&)) and the products of DCSC (two and three operands), CSR, DCSR, COO-SIMD and COO tiles. Also for the constructors of DCSC, CSR, COO and COO-SIMD tiles, get_edges of CSR, DCSR, COO and COO-SIMD tiles, shuffle_edges, setAll, compute_nnz, union_dense, apply, intersect, ReadEdgelist, Transpose, randomize_edgelist_square, remove_empty_columns, get_dimensions and both ingestEdgelist. One thing is not a loop of this kind: the marking in TopologicalSort.cpp, which does race (C50). Sequentially consistent interleavings (store buffers and reordering: C80); loops compiled only for debugging and the loop of assertions in DCSCTile are left out."
  },
  {
   "property": "C68",
   "status": "partial",
   "theorems": [
    "GraphMat.segment_transfer_partial",
    "GraphMat.vector_transfers_partial",
    "GraphMat.transfer_complete_iff",
    "GraphMat.bytes_complete_iff",
    "GraphMat.matrix_edges_complete",
    "GraphMat.vector_edges_partial",
    "GraphMat.dense_transfer_incomplete",
    "GraphMat.index_transfer_fails",
    "GraphMat.segment_transfer_silent",
    "GraphMat.stale_values_received",
    "GraphMat.vector_edges_fail"
   ],
   "note": "False as stated: bytes are counted in an int. Exact condition for one call of MPI: less than 2^31 bytes (transfer_complete_iff, bytes_complete_iff). Proved: segments with less than 2^31 bytes and 2^30 elements (and what this means for the number of vertices and ranks), edges of matrices and of shuffle_edges for all numbers of edges. Refuted: dense segments of 2^31 bytes or more never arrive completely; compressed segments of 2^29 elements or more abort the program; with 2^30 four-byte values the receiver keeps its old values without any error; saveVertexproperty with 178956971 to 357913941 int properties on one rank aborts. Not covered: the arrays of partition sizes (16 bytes per thread)."
  },
  {
   "property": "C69",
   "status": "partial",
   "theorems": [
    "GraphMat.boundaries_exact",
    "GraphMat.boundaries_partial",
    "GraphMat.boundaries_overflow",
    "GraphMat.sizes_exact",
    "GraphMat.partitions_exact",
    "GraphMat.compress_partitions_exact",
    "GraphMat.words_exact",
    "GraphMat.decompress_exact",
    "GraphMat.rows_exact",
    "GraphMat.columns_exact",
    "GraphMat.columns_partial",
    "GraphMat.coo_rows_exact",
    "GraphMat.coo_rows_partial",
    "GraphMat.simd_blocks_exact",
    "GraphMat.csr_product_rows_exact",
    "GraphMat.csr_numbers_exact",
    "GraphMat.dcsr_rows_partial"
   ],
   "note": "False as stated, for graphs with almost 2^31 vertices or edges. Exact conditions for boundaries, bits of words and columns; sufficient: vertices + 257 * ranks and edges + 16 * threads within int. decompress, compress and the division of rows never overflow (up to 2^20 threads). Renumbering is C01, the dead store m * n of the product is C49, counts of MPI are C68. The other tile formats: exact conditions for COO, COO-SIMD and CSR (a CSR tile cannot have 2^31 - 1 edges, since nnz + 1 is stored), a sufficient one for DCSR; hybrid tiles are made of these."
  },
  {
   "property": "C70",
   "status": "partial",
   "theorems": [
    "GraphMat.commands_understood_partial",
    "GraphMat.converter_command",
    "GraphMat.help_understood",
    "GraphMat.unknown_name_undefined",
    "GraphMat.split_letter_undefined",
    "GraphMat.large_number_undefined",
    "GraphMat.bad_number_ignored",
    "GraphMat.missing_number_ignored",
    "GraphMat.unknown_letter_ignored",
    "GraphMat.help_letter_ignored",
    "GraphMat.leading_zero_octal",
    "GraphMat.numbers_in_other_bases",
    "GraphMat.example_arguments",
    "GraphMat.example_usage",
    "GraphMat.example_word_is_zero"
   ],
   "note": "First half proved: correct command lines of any length are understood, for five ways of writing. Second half false: a name not in the table (also an abbreviation) makes getopt_long read behind the table, which has no final null entry; -p passes a null pointer to sscanf; numbers that do not fit are undefined; words that are no numbers, missing numbers, unknown letters and a final -h are ignored and the conversion is done; 010 is read as 8. The example programs take a word that is no number as 0. getopt_long, sscanf with %i and atoi are modelled from their documentation (GNU, no POSIXLY_CORRECT)."
  },
  {
   "property": "C71",
   "status": "proved",
   "theorems": [
    "GraphMat.convert_then_load",
    "GraphMat.convert_then_bfs",
    "GraphMat.convert_then_sssp",
    "GraphMat.convert_then_delta",
    "GraphMat.convert_then_sort",
    "GraphMat.convert_then_count",
    "GraphMat.convert_then_sort_oriented"
   ],
   "note": "Composition of C70, C48, C39, C58 and C27, C28, C29, C31, C32, from the words of both command lines and the bytes or characters of the input files to the vertex properties. Conditions: those of C48 (Convertible), unsigned int weights, binary output with header and weights; for SSSP those of C28 on the input graph (weights below 2^31, no overflow of sums) and, if duplicates are removed, that parallel edges have equal weights (one of them is kept, whichever the sort leaves first); for delta-stepping in addition that the bucket numbers of walks are below a bound B <= 2^31-1 (see C32; implied by widths of at least 3); for triangles at most 2^31-1 per middle vertex. With --randomizeID the per-vertex counts are found at the new numbers. The output directory holds no other files, as in C39."
  },
  {
   "property": "C72",
   "status": "partial",
   "theorems": [
    "GraphMat.apply_exact_partial",
    "GraphMat.apply_count_wrong",
    "GraphMat.apply_revives_cleared",
    "GraphMat.apply_needs_buffer"
   ],
   "note": "False as stated: Apply does not test the flag of a cleared input, so erased entries come back (apply_revives_cleared); an input segment that was never written has no buffer (apply_needs_buffer, undefined); the count remembered for the output is that of the input (apply_count_wrong). Proved: entries and values if the input is initialised on the rank. The loops are run in order here; that their iterations do not interfere is C67."
  },
  {
   "property": "C73",
   "status": "partial",
   "theorems": [
    "GraphMat.app_memory_partial",
    "GraphMat.app_leak",
    "GraphMat.delta_memory_partial",
    "GraphMat.delta_leak",
    "GraphMat.app_memory_false"
   ],
   "note": "False as stated. Nothing that is not live is ever followed or released (any supersteps whose messages fit, C62). Memory comes back exactly if the files of the rank have edges; without, one array is left. Delta-stepping: exactly if the rank has light and heavy edges; otherwise one array is left (exact in all cases). Memory inside vertex properties (neighbour vectors of triangle counting), the exit(1) of LDA for wrong numbers, and other implementations of the supersteps than those of C62/C63 are not covered."
  },
  {
   "property": "C74",
   "status": "proved",
   "theorems": [
    "GraphMat.float_round_nearest",
    "GraphMat.pagerank_float_iterations",
    "GraphMat.pagerank_float_agree",
    "GraphMat.pagerank_float_converges",
    "GraphMat.pagerank_float_depends_on_threads"
   ],
   "note": "For compilations that round every operation of the source once, to its type (round to nearest, ties to even; no reassociation or wider intermediate results). float_round_nearest ties the rounding function of the model to the definition of IEEE 754. The order of additions is the one the tiles give, it differs between machines (pagerank_float_depends_on_threads is a graph on which 1 and 2 threads give different ranks). The bound on the iterations needs that many to fit an int."
  },
  {
   "property": "C75",
   "status": "proved",
   "theorems": [
    "GraphMat.layouts_balanced",
    "GraphMat.factorize_most_square",
    "GraphMat.layouts_undefined"
   ],
   "note": "The square root of a double is the exact one rounded (see the trusted base). The numbers of ranks of the grid are named by existence; factorize_most_square determines them."
  },
  {
   "property": "C76",
   "status": "partial",
   "theorems": [
    "GraphMat.float_text_round_trip_partial",
    "GraphMat.float_text_changes",
    "GraphMat.double_text_changes",
    "GraphMat.float_text_read_nearest"
   ],
   "note": "False as stated: %.8f and %.15lf keep too few digits, so some weights below 1/8 (float) and 8 (double) come back different (witnesses), and all up to half of the last decimal become 0. Proved: ids, order, signs, infinities, NaNs; weights change by at most one unit of the last decimal; weights of at least 1/8 (float) or 8 (double) and weights with at most 8 (15) decimals are exact. Reading: nearest number, ties to even, for all decimal notations. The C library is taken to round correctly, as glibc does."
  },
  {
   "property": "C77",
   "status": "proved",
   "theorems": [
    "GraphMat.incremental_pagerank_float",
    "GraphMat.incremental_pagerank_float_agree",
    "GraphMat.incremental_pagerank_float_misses"
   ],
   "note": "For compilations that round every operation of the source once, to double. The bounds are on sums over all vertices: a vertex may lose a delta above the threshold when the rounded rank grows by less than the delta, and incremental_pagerank_float_misses is a graph on which the per-vertex bound of C54 fails. At most 51 + 7n supersteps, which must fit an int."
  },
  {
   "property": "C78",
   "status": "partial",
   "theorems": [
    "GraphMat.stored_nnz_partial",
    "GraphMat.stored_nnz_ingest_partial",
    "GraphMat.stored_nnz_after_compress",
    "GraphMat.stored_nnz_indeterminate",
    "GraphMat.stored_nnz_ingest_duplicates",
    "GraphMat.stored_nnz_ingest_forgets"
   ],
   "note": "False as stated: setAll on a segment of capacity 0 leaves the member uninitialised; ingestEdges stores the length of the list, which counts repeated indices twice and forgets elements already there. Proved: set, unset, setAll, set_uninitialized keep the count exact for capacities of at least 1; ingestEdges does for distinct indices into an empty segment; after compress the count is exact or above half the capacity."
  },
  {
   "property": "C79",
   "status": "partial",
   "theorems": [
    "GraphMat.graph_copy_dangles",
    "GraphMat.graph_copy_partial",
    "GraphMat.graph_copy_before_fill"
   ],
   "note": "False for every graph that was ever filled: the class has a destructor but no copy constructor or assignment, so the copy shares all pointers; once one of the two is destroyed the other can neither be destroyed nor used. Proved for graphs that are copied before they are filled."
  },
  {
   "property": "C80",
   "status": "proved",
   "theorems": [
    "GraphMat.store_buffers_race_free",
    "GraphMat.store_buffers_dcsc",
    "GraphMat.store_buffers_dcsc3",
    "GraphMat.store_buffers_update",
    "GraphMat.store_buffers_unionCompressed",
    "GraphMat.store_buffers_decompress",
    "GraphMat.store_buffers_shuffle",
    "GraphMat.store_buffers_matter",
    "GraphMat.reordering_race_free",
    "GraphMat.reordering_products",
    "GraphMat.reordering_matters"
   ],
   "note": "General theorem: tasks with one outcome and no race among sequentially consistent schedules have that outcome with store buffers, for every assignment of tasks to threads. It applies to each loop of C67; six are spelled out. Covers x86 (buffers emptied in order) and buffers emptied out of order. The same for processors on which loads may return overwritten values and nothing orders accesses to different locations (as for relaxed atomics); not covered: stores seen by others before an earlier load of their thread. store_buffers_matter, reordering_matters: racing tasks for which it does make a difference."
  },
  {
   "property": "C81",
   "status": "partial",
   "theorems": [
    "GraphMat.test_generators",
    "GraphMat.test_random_generator",
    "GraphMat.test_dense_overflows",
    "GraphMat.test_sizes_partial",
    "GraphMat.test_bfs_passes_partial",
    "GraphMat.test_bfs_chain_partial",
    "GraphMat.test_neighbors_passes_partial",
    "GraphMat.test_collect",
    "GraphMat.test_edge_rewrites_pass_partial",
    "GraphMat.test_edge_sets_pass_partial"
   ],
   "note": "True whenever the numbers of edges (and of ints in a message) fit in an int, with two exceptions proved exactly. test_chain_bfs, section node n/2: passes for even sizes and 3 only, because the expected depth n/2 + i is wrong for odd sizes from 5 on (the search itself is right). test_graph_size, random graph: passes from 16 vertices on only, because the generator makes at most n edges per vertex. test_dense_overflows: from 46341 vertices on n*n overflows. The random generator is covered for random numbers in which every id comes up again within a bounded number of draws. Not covered: the printing done by Catch; files, matrices and edge functions are C82."
  },
  {
   "property": "C82",
   "status": "partial",
   "theorems": [
    "GraphMat.test_graph_io_passes_partial",
    "GraphMat.test_getset_partial",
    "GraphMat.test_gm_bin_on",
    "GraphMat.test_gm_bin_passes_partial",
    "GraphMat.test_gm_bin_chain_fails",
    "GraphMat.test_read_mtx_passes_partial",
    "GraphMat.float_compare",
    "GraphMat.test_apply_edges_on",
    "GraphMat.test_apply_edges_passes_partial",
    "GraphMat.test_matrix_on",
    "GraphMat.test_matrix_passes_partial"
   ],
   "note": "True whenever the counts (numbers of ints in a message, 3n for the function on edges) fit in an int, with two exceptions. test_graph_getset passes from 16 vertices on only (the generator makes at most n edges per vertex). test_read_gm_bin compares a list that ReadEdgelist has renumbered in place, so its checks succeed exactly for lists that the internal numbering maps to themselves (test_gm_bin_on): the complete graph does (test_gm_bin_passes_partial), the cycle of 32 vertices does not (test_gm_bin_chain_fails). matrix_test is covered for the tiles the library uses (DCSCTile), not for the other tile formats. Not modelled: temporary file names and the removal of the files; Catch."
  },
  {
   "property": "C83",
   "status": "partial",
   "theorems": [
    "GraphMat.multiply_program_partial",
    "GraphMat.multiply_program_1d",
    "GraphMat.multiply_program_false"
   ],
   "note": "False on one rank: mult_segment reads the buffer of a segment of x without looking whether there is one or whether it was cleared. A product with a new vector dereferences a null pointer and a product with a cleared vector uses the values it had before (multiply_program_false). multiply_program_partial proves the claim for every program in which, at each multiplication, each segment of x holds an entry or is needed by a rank that does not own it (then compress() initialises it); with partition_fn_1d, two or more ranks and two or more rows of tiles this is every program (multiply_program_1d). Tiles are DCSCTile; the multiplication must not read its output argument."
  },
  {
   "property": "C84",
   "status": "partial",
   "theorems": [
    "GraphMat.test_spvec",
    "GraphMat.test_segment",
    "GraphMat.test_send_partial",
    "GraphMat.test_send_overflow",
    "GraphMat.test_reduce_all_partial",
    "GraphMat.test_reduce_some_partial",
    "GraphMat.test_vec_archive",
    "GraphMat.test_mat_archive_partial",
    "GraphMat.archive_comparison_exact",
    "GraphMat.test_vec_generator_dense",
    "GraphMat.test_spmv_identity_partial",
    "GraphMat.test_spmv_identity_small"
   ],
   "note": "False in two places. With fewer than 10 rows on one rank the random vector of the spmv test has no entries, its segment has no buffer and the product dereferences a null pointer (test_spmv_identity_small); from 10 rows on or with two ranks the test passes (test_spmv_identity_partial). Sending segments of serializable values writes outside an array if the sender has more threads than the receiver (test_send_overflow); otherwise the tests of sending pass (test_send_partial). The tests of reductions and of matrices in archives pass as long as the sums and the numbers of edges fit in int. The tests of vectors, segments and vectors in archives pass at all sizes, and fail if an index is repeated (test_spvec, test_segment). The comparison of two matrices passes exactly if dimensions and edges agree (archive_comparison_exact). Matrices are of DCSCTile; boost archives are lists of values; the ranks of a send/recv pair are run one after the other."
  },
  {
   "property": "C85",
   "status": "partial",
   "theorems": [
    "GraphMat.csr_matrix_correct",
    "GraphMat.coosimd_matrix_correct",
    "GraphMat.dcsc_matrix_correct",
    "GraphMat.coo_matrix_correct_partial",
    "GraphMat.dcsr_matrix_correct_partial",
    "GraphMat.hybrid_matrix_correct_partial",
    "GraphMat.hybrid_matrix_empty_tile",
    "GraphMat.coo_matrix_reads_behind",
    "GraphMat.coo_spmv_test_fails",
    "GraphMat.fmt_matrix_tests_pass_partial",
    "GraphMat.fmt_spmv_tests_pass_partial"
   ],
   "note": "Proved in full for CSR, COO-SIMD and DCSC tiles. False for the others: a matrix of hybrid tiles with one empty tile cannot be multiplied, whatever the vectors (hybrid_matrix_empty_tile); constructors of COO and DCSR tiles read one int behind an array (coo_matrix_reads_behind), and if it is not positive a COO tile with one edge is not multiplied, so the test of test_spmv fails with 513 vertices on two ranks (coo_spmv_test_fails). The partial theorems need exactly that these do not occur; there is no mult_segment for DCSR tiles. The tests of matrices pass at all sizes for all six formats, those of products for the four formats tested, under the same conditions. Programs multiply under the condition of C83 (Warm). Parallel loops in index order, MPI as exchange of lists."
  },
  {
   "property": "C86",
   "status": "partial",
   "theorems": [
    "GraphMat.csr_matrix_archive",
    "GraphMat.coosimd_matrix_archive",
    "GraphMat.dcsc_matrix_archive",
    "GraphMat.coo_matrix_archive_partial",
    "GraphMat.dcsr_matrix_archive_partial",
    "GraphMat.hybrid_matrix_archive_partial",
    "GraphMat.hybrid_restored_matrix_fails",
    "GraphMat.dcsr_archive_fails",
    "GraphMat.fmt_archive_tests_pass_partial"
   ],
   "note": "Proved in full for CSR, COO-SIMD and DCSC tiles. COO tiles: where the matrix can be built and multiplied at all (C85). False for DCSR tiles, whose save reads behind an array (dcsr_archive_fails), and for hybrid tiles: if a row of some tile has at least 16 edges, no multiplication with the loaded matrix succeeds, whatever the vectors (hybrid_restored_matrix_fails); without such rows hybrid matrices survive (hybrid_matrix_archive_partial). test_matrix_serialization passes at all sizes for the five formats tested, for COO and hybrid tiles under the conditions named in the theorem. Archives are lists of tokens (not Boost's bytes); programs multiply under the condition of C83 (Warm)."
  },
  {
   "property": "C87",
   "status": "partial",
   "theorems": [
    "GraphMat.multiply3_program_partial",
    "GraphMat.multiply3_uncovered",
    "GraphMat.multiply3_program_1d",
    "GraphMat.multiply3_program_false"
   ],
   "note": "False on one rank: as SpMSpV, SpMSpV3 reads the buffers of x and of v without looking whether they exist or were cleared, so a product with a new vector dereferences a null pointer, and after Clear(&v) the assertion on v passes and the old values are used (multiply3_program_false). multiply3_program_partial proves the claim for every program in which, at each product, each segment of x and v was written since it was last cleared or is sent to another rank; multiply3_uncovered proves that a missing value of v then stops the program. With partition_fn_1d, two or more ranks and rows of tiles, and a v that has values everywhere (as the runtime uses it), no condition remains (multiply3_program_1d). For programs with SpMSpV only this is stronger than C83: a segment in use need not have entries. Tiles are DCSCTile; the multiplications must not read their output argument; threads and MPI are modelled as in C09 to C12."
  },
  {
   "property": "C88",
   "status": "partial",
   "theorems": [
    "GraphMat.vector_program_partial",
    "GraphMat.vector_program_null",
    "GraphMat.vector_program_false"
   ],
   "note": "False of the code: Apply reads the buffer of its input without looking whether it was cleared, so values come back after Clear; IntersectReduce does nothing where an input was cleared, so the output keeps its old values there; both dereference a null pointer when a part of an input was never written (vector_program_false with witnesses; vector_program_null for every program that is fine up to such a call). vector_program_partial proves the claim for every program in which the operands are usable at each call (AllSafe: a condition on the calls made so far and, for SpMSpV3, on the values in the maps). The functions of the program must not read their output argument; one element type; tiles are DCSCTile; threads and MPI are modelled as in C09 to C12."
  },
  {
   "property": "C89",
   "status": "partial",
   "theorems": [
    "GraphMat.ask_program_partial",
    "GraphMat.ask_program_per_rank",
    "GraphMat.ask_program_false"
   ],
   "note": "False on several ranks: every rank begins with the initial value, so it takes part in the result once for every rank (ask_program_false: the sum of a vector without values, beginning with 1, is 2 on two ranks). ask_program_per_rank proves for every program, operator and initial value exactly that: the mapped values once each, the initial value once for every rank. ask_program_partial proves the claim on one rank and, on any number of ranks, if operators are associative and commutative and initial values are their identities. MapReduce and getNNZ need no condition on the history of the vector (unlike Apply, C88); the other calls need the condition of C88. n + threads must fit in int; the mapping function does not read its output argument; the results of reductions may have another type than the elements, one for each program."
  },
  {
   "property": "C90",
   "status": "partial",
   "theorems": [
    "GraphMat.segment_count_words",
    "GraphMat.segment_count_all",
    "GraphMat.segment_count_split",
    "GraphMat.reduce_segment_partial",
    "GraphMat.reduce_segment_cleared",
    "GraphMat.reduce_segment_null"
   ],
   "note": "compute_nnz(start, finish) counts the values of words start to finish - 1 of the bitvector (32 elements each, not elements) in all states of a segment, and the counts of adjacent ranges add up. reduce_segment is correct on segments in use (reduce_segment_partial); after Clear it still combines the old values (reduce_segment_cleared, for all segments), and on a segment that was never written it dereferences a null pointer (reduce_segment_null). Nothing in the repository calls either function."
  },
  {
   "property": "C91",
   "status": "proved",
   "theorems": [
    "GraphMat.vector_program_exact",
    "GraphMat.vector_program_determined"
   ],
   "note": "No condition on the programs other than that indices exist and that the output of a call is another vector than its inputs. The functions of the program do not look at the old contents of their output argument; all vectors have one element type; the order of additions in a row of a product is left open."
  },
  {
   "property": "C92",
   "status": "proved",
   "theorems": [
    "GraphMat.ask_program_exact"
   ],
   "note": "No condition on the programs other than that indices exist and that the output of a call is another vector than its inputs. The mapping function does not look at the old contents of its output argument; all reductions of a program have results of one type; the order in which values are combined is left open. Threads are modelled by the split of the elements that the code computes, not by their interleaving."
  },
  {
   "property": "C93",
   "status": "proved",
   "theorems": [
    "GraphMat.program_has_one_result",
    "GraphMat.order_matters"
   ],
   "note": "Every program of C92, no condition on the state of operands. order_matters: without the condition on the operators the claim fails (a repeated entry in two orders, the operator that keeps the later value). Same numbers of ranks and parts and the same placement of tiles in both runs; different ones are C94."
  },
  {
   "property": "C94",
   "status": "partial",
   "theorems": [
    "GraphMat.program_layout_free_partial",
    "GraphMat.layout_matters"
   ],
   "note": "False of the code: a product with a cleared operand uses its old values on one rank, while on two ranks sending the operand removes them (layout_matters: 90 against 0). Proved for every program that respects the history of its operands in both layouts (the condition of C89): same answers and values for any two numbers of ranks, parts, threads and placements of tiles."
  },
  {
   "property": "C95",
   "status": "proved",
   "theorems": [
    "GraphMat.graph_program_correct"
   ],
   "note": "All vertex programs of one user program have the same message, reduction result and state types; the mapping function of a reduction does not look at the old contents of its output argument; graph_program_clear is not called. A run is followed for at most INT_MAX supersteps. Threads and MPI are modelled by the split of the work and the data exchanged, not by their interleaving."
  },
  {
   "property": "C96",
   "status": "proved",
   "theorems": [
    "GraphMat.graph_program_same_everywhere",
    "GraphMat.initial_value_counts_ranks"
   ],
   "note": "For any two executions of the programs of C95. Both conditions on operators are needed: thread_count_changes_result (C12) for the order, initial_value_counts_ranks for the identity (1 on one rank, 2 on two)."
  },
  {
   "property": "C97",
   "status": "proved",
   "theorems": [
    "GraphMat.run_in_two_parts",
    "GraphMat.parts_begin_at_zero"
   ],
   "note": "No condition on the reduction: the resulting properties, activity and object are equal. parts_begin_at_zero: the condition on do_every_iteration is needed, since every run counts its supersteps from 0."
  },
  {
   "property": "C98",
   "status": "proved",
   "theorems": [
    "GraphMat.run_after_convergence",
    "GraphMat.run_after_convergence_all"
   ],
   "note": "The second program may have other types and other functions if both work on active vertices; it is the same program if it works on all vertices."
  },
  {
   "property": "C99",
   "status": "proved",
   "theorems": [
    "GraphMat.run_is_local"
   ],
   "note": "The direction of the edges must not depend on the state of the program object. No condition on the reduction."
  },
  {
   "property": "C100",
   "status": "proved",
   "theorems": [
    "GraphMat.names_do_not_matter",
    "GraphMat.names_matter"
   ],
   "note": "The number of vertices is the same in both graphs; other configurations may differ. names_matter: without the condition on the reduction the claim fails (a reduction that keeps the later value gives 200 or 100)."
  },
  {
   "property": "C101",
   "status": "proved",
   "theorems": [
    "GraphMat.components_do_not_interact"
   ],
   "note": "For runs of a given number of supersteps: a run until nothing changes makes as many supersteps as the slowest component needs. Both graphs have the same number of vertices."
  }
 ]
}
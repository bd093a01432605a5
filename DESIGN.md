# Design: a Lean 4 model of GraphMat and what is proved about it

Source under study: `/repo` (GraphMat, C++ headers in `include/`, programs in `src/`).
The source is read as text only.  Nothing here builds, runs or links the C++.

## Layout

* `lean/Verif/Model/*.lean`  - the model: total computable functions that follow the C++ function
  by function.  Every definition carries a comment with the file and lines it models and says
  what was simplified.
* `lean/Verif/Spec/*.lean`   - small specifications, stated independently of the model's helpers
  (plain maps, walks in a graph, shortest distances, what a well-formed text file is, what MPI
  does, what interleavings are, ...).
* `lean/Verif/Lemmas/*.lean` - helper lemmas, invariants, refinement relations.
* `lean/Verif/Props/*.lean`  - the property theorems.  Beside each theorem an `example` gives
  a concrete non-trivial input that satisfies its hypotheses.
* `MANIFEST.json` maps property ids to theorem names.  `seeded/LOG.jsonl` records the mutation
  tests: a wrong edit of the model, and the theorems that stopped proving.

## How undefined behaviour and memory appear

* Every C++ operation that can be undefined returns an `Option`; `none` stands for undefined
  behaviour, a failed assertion, `exit` or (where noted) a loop that does not end.  So a theorem
  of the form "∃ result, f x = some result ∧ ..." also says that nothing of that kind happens.
* An array is a size together with contents (`Model/Mem`); access outside the size is `none`.
* Freshly allocated memory has arbitrary contents: models of allocation take the garbage as a
  parameter, and theorems quantify over it.
* `int` arithmetic that could overflow is either computed by operations that return `none` on
  overflow (`Model/CInt`), or on natural numbers with a separate theorem that bounds the values.
  Distances in BFS and SSSP are 32-bit words that wrap around.
* The result of `__gnu_parallel::sort` is any sorted permutation (a parameter with hypothesis
  `SortsBy`).  `rand()` is an arbitrary sequence.
* All ranks are modelled together (one entry per rank); thread counts and rank counts are
  parameters.

## Trusted base

* Lean's kernel (4.33.0) and the correctness of the elaborated statements.
* Axioms: `propext`, `Classical.choice`, `Quot.sound`; no own axioms, no `sorry`, no
  `native_decide`, no `bv_decide`.  See the last section for which theorem uses which.
* Mathlib is used for order, list and sum lemmas and for the tactics `ring`, `linarith`,
  `norm_num`, `positivity`, `tauto`.
* The hand translation from C++ to Lean.  This is the largest trusted part.  The comments
  with line numbers are there so that a reader can compare the two texts.

### What is modelled

| C++ (under /repo) | Lean (`Verif/Model`) | simplifications |
|---|---|---|
| `include/Graph.h:111-150` vertexToNative, nativeToVertex | `IdMap` | none; overflow and division by zero are `none` |
| `matrices/layouts.h`, boundaries in `SpVec.h`, `SpMat.h` | `Layout` | `sqrt` on doubles is the rounded integer square root; sizes are natural numbers |
| `utils/bitvector.h` | `Bits` | words are `BitVec 32` |
| `vectors/DenseSegment.h` | `Segment`, `Compress` | memory management is `SegMem`; raw MPI calls are `Comm` |
| `main` of the programs in `src/`: option loop and arguments | `CmdLine` | library functions by their documentation |
| `int` arithmetic of `SpVec.h`, `SpMat.h`, `DenseSegment.h`, `unionreduce.h` and the tile formats | `IntLayout`, `IntFormats` | the other models compute with natural numbers |
| `vectors/SpVec.h` | `SpVec`, `World`, `SaveVec` | messages of ingestEdgelist are delivered |
| `singlenode/{apply,clear,intersectreduce,reduce,unionreduce}.h`, `multinode/` counterparts | `Apply`, `Compress`, `MapReduce` | parallel loops in index order (schedules: `Tasks`) |
| `matrices/DCSCTile.h` | `Tile` | parallel loops in index order |
| `matrices/SpMat.h`, matrix part of `Graph.h` | `SpMat` | the exchange delivers what was sent |
| `singlenode/{spmspv,spmspv3}.h` (DCSC), `multinode/` counterparts, `SPMV.h` | `SpMSpV`, `Kernel`, `MulHistory`, `Mult3`, `VecProg`, `AskProg`, `SegRead`, `MemoProg`, `MemoAsk`, `AskSame`, `Script`, `ScriptSame`, `RunAgain`, `Local`, `Rename`, `Component` | the prefetch and a dead store are separate functions in `Kernel` |
| `matrices/{CSR,DCSR,COO,COOSIMD32,Hybrid}Tile.h` and their kernels | `Formats` | constructors, getters, products |
| constructors, destructors, `operator=`, `load` of all tiles and `SpMat`: allocation | `TileMem` | only which blocks are allocated, followed and released; contents are in the other models |
| serialisation of these tiles | `FmtSnapshot` | `num_partitions`, `num_rows` of tiles without edges are zero (really: never written) |
| `singlenode/applyedges.h`, `multinode/applyedges.h`, `applyToAllEdges` | `ApplyEdges` | as `SpMSpV` |
| `GraphProgram.h`, `GraphMatRuntime.h` | `Program`, `Runtime` | timing left out; a graph program is a record of functions |
| vertex interface of `Graph.h` | `World`, `History`, `MapReduce` | |
| `WriteGraphMatBin`, `ReadGraphMatBin`, serialisation of `SpMat` and `DCSCTile` | `Snapshot` | a boost archive is the list of values written to it |
| `ReadMTX` | `ReadMTX` | |
| serialisation of `SpVec`, `DenseSegment`, `buffer` | `VecSnapshot` | `name`, `received_md`, `queued_md` left out; `serialized_data` is the list of its records |
| `vectors/DenseSegment.h`, `vectors/SpVec.h`: allocation | `SegMem` | only which blocks are allocated, followed and released, and for how many partitions; contents are in the other models |
| `Graph.h`, `GraphMatRuntime.h`: allocation | `GraphMem` | only which blocks are allocated, followed and released; what supersteps do is an arbitrary list of uses of segments and matrices (`Spec/GraphLife`) |
| implicit copies of `Graph` | `CopyMem` | |
| `test/generator.h`, `test_utils.h`, `test_bfs.cpp`, `test_get_neighbors.cpp`, `test_graph_basics.cpp` (sizes), `test_edgelist_utils.cpp` | `TestGen`, `TestRuns`, `TestEdges` | random numbers are a parameter |
| `test_io.cpp`, `test_graph_basics.cpp` (the rest), `test_apply_edges.cpp`, `test_matrix_basics.cpp` | `TestIO` | `DCSCTile` only |
| `test_vector.cpp`, `test_reduce.cpp`, `test_vector_serialization.cpp`, `test_matrix_serialization.cpp`, `test_spmv.cpp` | `TestVec` | `DCSCTile` only |
| `matrices/SpMat.h`, `multinode/spmspv.h`, `test_matrix_basics.cpp`, `test_spmv.cpp` for all tile types | `FmtMat` | as `SpMat`, `Engine`, `TestIO`, `TestVec` |
| `SpMat::serialize`, `test_matrix_serialization.cpp` for all tile types | `FmtArchive` | as `Snapshot`, `FmtSnapshot` |
| `utils/edgelist.h`, `utils/edgelist_transformation.h`, `process_graph`: allocation | `ElMem` | only pointer and number of edges of a list; which edges are kept is arbitrary |
| the functions `run_*` in `src/`: allocation | `AppMem` | as `GraphMem`; memory inside vertex properties left out |
| `shareVertexProperty`, destructor | `Share` | only the property vectors, in a heap |
| MPI calls of superstep, applyToAllEdges, applyReduceAllVertices, loading, saving, shuffling | `Comm` | everything between the calls left out |
| non-blocking calls of the same functions and the arrays they use | `Flight` | contents left out; numbers that depend on contents are parameters; `MPI_Status` arrays left out |
| counts of the same calls | `MpiCount` | the conversion of `size_t` to `int` wraps; a negative count ends the program |
| the `omp parallel for` loops of a superstep | `Tasks` | each iteration is its list of loads and stores of shared elements |
| other `omp parallel for` loops | `Loops`, `LoopKernels`, `LoopBuild`, `LoopVec`, `LoopEdges`, `LoopFmt`, `LoopStep`, `LoopSer` | bodies as programs over elements of arrays; bounds of inner loops loaded once |
| `utils/binary_search.h` | `BinSearch` | |
| `test/test_binary_search.cpp` | `TestSearch` | |
| `utils/edgelist.h`, `utils/edgelist_transformation.h` | `EdgeList`, `EdgeFile`, `EdgeIO` | a file is the list of its bytes or characters; `FILE*` state with end-of-file flag |
| `utils/edgelist.h:109-114, 191-194`: `%f`, `%lf` | `FloatText` | the library rounds correctly; no hexadecimal numbers; NaNs without payload |
| `float`, `double` in memory (`edgelist.h:101, 185`) | `FloatBits` | IEEE 754 binary32 and binary64, little-endian |
| `src/BFS.cpp`, `SSSP.cpp`, `TopologicalSort.cpp`, `PageRank.cpp`, `IncrementalPageRank.cpp`, `TriangleCounting.cpp`, `DeltaStepping.cpp`, `SGD.cpp`, `LDA.cpp` | `Bfs`, `Sssp`, `TopSort`, `PageRank`, `IncPageRank`, `Triangles`, `DeltaStepping`, `Sgd`, `Lda`, `App` | output left out; PageRank, SGD and LDA in exact rationals |
| `src/PageRank.cpp` in floating point | `FloatPr` | infinity and NaN are one value; every operation is rounded once |
| `src/IncrementalPageRank.cpp` in floating point | `FloatDpr` | as `FloatPr` |
| `DenseSegment::getNNZ` | `SegCount` | |
| `src/graph_converter.cpp` | `Converter` | starts from the parsed options |

### What is not modelled

* Catch; the names and the removal of the temporary files in `test/test_io.cpp`.
* Memory models in which a store is seen before an earlier load of the same thread (others: C80); cache effects.
* Floating point rounding, except in PageRank (C74, C77) and text files (C76).  In PageRank, compilations that reorder additions or keep wider
  intermediate results (`-ffast-math`, the default of `icpc`) are not covered.
* Encodings: boost's own bookkeeping inside archives; hexadecimal numbers, `infinity` and `nan(...)` as weights in text.
* MPI beyond the small semantics of `Spec/Mpi.lean` (reliable, non-overtaking per sender,
  receiver and tag; sends may be synchronous); the file system; allocation failure.
* Printing and timing; the inside of `getopt_long` beyond its documented behaviour.

## Property by property

"Proved" means the theorem says what the property says, for all inputs the code allows.
"False" means a theorem refutes the property for the code as it is; the strongest true part is
proved in a theorem with the suffix `_partial`.

### Vertices, vectors, loading

* **C01 proved** (`Props/IdMap`). div/mod arithmetic on the checked `int` expressions gives both
  round trips and injectivity.
* **C02 proved** (`Props/Layout`). The boundaries are monotone from 0 to n; owner = segment mod
  ranks.
* **C75 proved** (`Props/Tiles`). The search of `factorize_int` starts at the rounded square root, which is at least every divisor up to
  the square root and never above the other factor; the tiles of a rank are counted as pairs of remainders.
* **C03, C04, C05, C23 proved** (`Props/Vertex`). Refinement: the distributed vectors of all
  ranks abstract to a plain map; every operation commutes with the abstraction; induction over
  the history of calls.
* **C06, C07 proved** (`Props/Load`). Renumbering, bucketing by owner, exchange, sorting, column
  compression and reading back are each shown to be permutations.  The reported count is exact
  below 2^32 edges (`getNNZ` reduces a 64-bit count with `MPI_INT`).
* **C58 proved** (`Props/ReadMTX`): composition of C39 with C06, C07 and, for breadth-first search,
  C27: from the bytes of the files to the distances.
* **C59 proved** (`Props/VecSnapshot`): what `save` writes is computed explicitly, `load` of it
  followed by anything gives a vector all of whose arrays agree with the original within their
  sizes; the reading functions only depend on that, and the refinement of C03-C05 carries on.
  Boost itself refuses to save a `bool` element that has not been initialised; the model writes it.
* **C08 proved** (`Props/ApplyEdges`).
* **C21 false** (`fresh_graph_everyone_sends`): `setAll(false)` sets all presence bits, so every
  vertex of a newly loaded graph sends a message.  True after `setAllInactive`.
* **C45 false** (`set_vertex_zero_changes_vertex_one`): with fewer vertices than
  threads*16*ranks id 0 is renumbered to a valid id.  Otherwise refused.
* **C46 false** (`caller_edges_modified`): the caller's array is renumbered in place, and
  reordered when there are several ranks.  Exact contents proved.
* **C47 false** (`sharing_twice_double_free`): `shareVertexProperty` deletes the old vector
  without looking at `vertexpropertyowner`.  Safe histories proved safe, with reads and writes
  seen by both graphs.
* **C43 false** (`saved_ids_are_shifted`): the file has the zero-based position.  Exact contents
  of the files proved, including the redistribution.

* **C83 partial** (`Props/Mult`).  `Spec/Mult` says what calls on two vectors and `y += A x` mean for two partial maps and a list of
  matrix entries; `Model/MulHistory` runs the calls on the distributed vectors.  `multiply_program_partial` is proved by induction on the
  program; the invariant is that the vectors hold the maps and that copies of `y` on ranks that do not own them have no values
  (`Lemmas/AnyVec`).  The products are those of `SpMSpV` (`DMat.spmspv_shared`).  The condition `Warm` is needed because `mult_segment`
  neither checks `properties` nor `uninitialized`: on one rank a new `x` is a null dereference, and after `Clear(&x)` the old
  values are multiplied again (`multiply_program_false`).  `run_graph_program` never gets there: it fills `x` with
  `IntersectReduce`, which initialises all segments.

* **C87 partial** (`Props/Mult3`).  As C83, with a third vector.  `Spec/Mult3` has the products with `v` (`matProducts3`), when all values of
  `v` are there (`Covered`), and which parts of the vectors are in use: written since the last `Clear` (`inUse`; this is about the calls of the
  program, not about the state of the implementation).  The invariant (`Mul3Rel`) is that of C83 and that parts in use have an initialised buffer.
  `multiply3_uncovered` shows that the assertion in `my_spmspv3` stops every program that needs a missing value; `multiply3_program_false` that
  it does not after `Clear(&v)` on one rank, since `Clear` only sets a flag that `mult_segment3` ignores.

* **C88 partial** (`Props/VecProg`).  Programs with vectors `0, 1, 2, …` and all operations on them.  `Spec/VecProg` has what each call may do to
  the partial maps (`VarOp.Step`), the history of each part of each vector (`PartUse`: never written, cleared, in use; this is about the calls of
  the program), and which calls have usable operands (`VarOp.Safe`).  `AllSafe` asks this for all outcomes that the specification allows, since
  the order of additions in a product is open.  The invariant (`VecRel`) links histories to segments (`PartOk`: no buffer; a buffer without
  values; an initialised buffer) and says that copies on other ranks have no values; that the products keep the latter for their operands
  (`broadcast_quiet`) is what lets a vector be operand of one product and result of the next.  `vector_program_null`: every call
  with a part of an operand that was never written fails (in a product: unless the part is sent to another rank, which initialises it).  What
  calls with cleared operands do (old values come back) is C91.

* **C89 partial** (`Props/AskProg`).  The programs of C88 with `MapReduce` and `getNNZ` at any place, and the list of their answers.  `AskOp.Step` has
  the number of times the initial value takes part as a parameter: the claim has 1, the code the number of ranks; for identities of associative and
  commutative operators both allow the same answers (`AskSteps.neutral`).  Composes the tree of C22 (threads, segments, ranks) with the invariant of
  C88; `mapreduce_segment` allocates and initialises first, so a vector that was never written or was cleared may be reduced, and afterwards `Apply` can
  read it (an example beside the theorem).

* **C90 partial** (`Props/SegRead`).  Two functions that nothing calls: `reduce_segment` looks neither at the null pointer nor at the flag
  `uninitialized`, unlike `mapreduce_segment`; the range of `compute_nnz` is in words of the bitvector.

* **C91 proved** (`Spec/MemoProg`, `Props/MemoProg`).  The programs of C88 without any condition on the state of operands.  The specification has
  vectors that remember (`Memo`: values, and the history of each part); `MemoStep` says what a call does or that it fails.  The refinement
  relation `MemoRel` describes a segment by its view without the flag `uninitialized` (`Segment.wake`): `apply_segment`, `mult_segment` and
  `mult_segment3` do not look at the flag (`applySegment_wake`, `multSegment_wake`, `multSegment3_wake`), sending a part does.  So on
  one rank a product with a cleared vector uses the old values, on two ranks with tiles by row it does not (an example beside the theorem).
  `vector_program_determined`: two runs with other memory, threads and sorting fail both or neither and have the same number of values.

* **C92 proved** (`Spec/MemoAsk`, `Props/MemoAsk`).  C91 with `MapReduce` and `getNNZ`.  The initial value takes part once for every rank; C89 is the claim
  that it takes part once.  A reduction is not a pure question: between `Clear` and `Apply` it removes the hidden values (an example beside the theorem).

* **C93 proved** (`Spec/AskSame`, `Props/AskSame`).  The specification of C92 leaves open in which order values are combined; with associative and commutative
  operators it has only one outcome, also if the entries of the matrix are permuted.  The theorem compares two runs of the model directly; the
  specification does not occur in it.
* **C94 partial** (same files).  Different layouts.  False in general, because what `Clear` hides is used again or not depending on which parts are sent
  (`layout_matters`).  What holds follows from C89, whose specification does not mention the layout.

* **C95 proved** (`Spec/Script`, `Model/Script`, `Props/Script`).  Whole user programs on a graph.  The specification (`GSteps`) knows a list of edges, a
  property for every vertex and the set of active ones; a run is `Steps`, the specification of supersteps of the run theorems.  The theorem joins C01, the
  theorems on runs, `apply_to_all_edges`, `applyReduce_reduces_everything` and the reading functions: each keeps `Graph.Represents`, so no call
  leaves something behind that disturbs a later one.  `Endless` is the one way not to return.
* **C96 proved** (`Spec/ScriptSame`, `Props/ScriptSame`).  The results of C95 are determined by the calls, up to the order of edges and the rank that has
  a property, if operators are order-free and reductions begin with an identity.  A run ends after the same number of supersteps in both executions, since
  the first quiet superstep is the same.  `initial_value_counts_ranks` shows that the condition on the initial value is needed.

* **C97 proved** (`Props/RunAgain`).  A run in two parts.  The exact state after `k` supersteps is a function of the state before them (`RunCtx.iter`), for every
  reduction; the activity with which the second call begins is that with which the first ended.  `parts_begin_at_zero`: `do_every_iteration` gets 0 again.
* **C98 proved** (same file).  After convergence.  With no active vertex every inbox is empty (`Steps.idle`); with all vertices active the quiet superstep
  repeats itself (`StepRel.stable`, `StepRel.unique`).

* **C99 proved** (`Spec/Local`, `Props/Local`).  Locality of runs, by induction over supersteps: who receives something has an active neighbour (`inbox_hop`).
* **C100 proved** (`Spec/Rename`, `Props/Rename`).  A superstep commutes with renaming (`StepRel.rename`); the rest is uniqueness of the result for order-free
  reductions.  `names_matter` is the counterexample without that condition.
* **C101 proved** (`Spec/Component`, `Props/Component`).  What arrives at a vertex of a closed set comes from edges inside (`inbox_component`); induction over
  supersteps.

### Supersteps and runs

* **C09, C10, C11, C14, C17, C18 proved** (`Props/Superstep`). One theorem relates a superstep of
  the implementation on all ranks to an abstract superstep on the user's graph: `StepRel`.
* **C12 partial** (`Props/Schedule`). Interleavings: a generic theorem (`race_free_loop_has_one_outcome`)
  says that iterations whose accesses do not conflict have the same outcome in every
  interleaving; it is instantiated for each parallel loop of a superstep, because row boundaries
  of partitions are multiples of 32 so that not even words of bit vectors are shared.  The thread
  count claim is false for non-commutative reductions: ids are renumbered with the thread count
  (`thread_count_changes_result`).
* **C67 proved** (`Props/Loops`, `Props/LoopKernels`, `Props/LoopBuild`, `Props/LoopVec`, `Props/LoopEdges`, `Props/LoopFmt`,
  `Props/LoopStep`, `Props/LoopSer`).  `Spec/Conc` describes tasks that load and store
  single elements; where they access memory may depend on what they have read, and all arrays, also
  those that are only read, are part of the memory.  `OneOutcome` says that no schedule leads to two
  conflicting accesses, that every run can be completed, and that all complete runs end in the same
  memory and private results.  `Model/Loops`, `LoopKernels`, `LoopBuild`, `LoopVec`, `LoopEdges`, `LoopFmt`, `LoopStep` and `LoopSer` have the
  bodies of the loops as such programs.  For `reduction(+)` the sum of the private results is the same
  for every division of the iterations among threads (`IsSplit`, `redSum`).  Each theorem says that the outcome is the one of the sequential model.  Proof: each
  task only accesses locations that it owns or that nobody writes (`Does`, `parFor_outcome`).  That
  partitions own whole words of bit vectors comes from the constructors (`DCSR.build_words`,
  `COO.build_any`, `COO.buildSimd_words`) or from arithmetic (CSR, compress), and for decompress and
  union_compressed from the indices being sorted.  When `shuffle_edges` scatters edges, the places of the
  threads are disjoint because the offsets are the running sums of the counts (`scatOwn`).  In the COO-SIMD
  constructor a partition stays within its range of `a`, `ja` and `ia` because the counts only grow and the check
  at the end (COOSIMD32Tile.h:313) holds.  Serialized messages are bytes here (`ByteArchive`: what boost writes for a pair may
  depend on what the archive contains; only `unpack_tasks` needs that reading gives back what was written), concatenated at
  the prefix sums; `decompress` touches only the words of its partition because that is where `compress` found the pairs.
* **C13 proved**, one superstep and end to end.
* **C15, C16, C19 proved** (`Props/Run`). The loop as a function with fuel; theorems say when it
  stops and with which state, and that otherwise it is still running after any number of rounds.
* **C20 false** (`send_message_flag_ignored`): the wrapper drops the returned boolean.
* **C22 false** (`applyReduce_initial_value_counted_per_rank`): the initial value is combined
  once per rank.  Exact bracketing proved; equals the reduction for an identity or on one rank.
* **C24 partial, C25 proved** (`Props/Compress`). For serialisable types the receiver's arrays
  overflow if the sender has more threads (`serialized_segment_overflow`).
* **C26 proved** (`Props/Comm`). Each rank's sequence of MPI calls is computed from what that rank
  knows; the programs of all ranks are views of one list of events, and the unfinished rank that is
  furthest behind can always proceed, with synchronous sends and with tags.  Covers loading,
  saving and shuffling too.
* **C49 false** (`Props/Kernel`): the load for the prefetch leaves `col_indices`; the dead store
  `*nnz = m * n` overflows for more than 46340 vertices on one rank.  All accesses that matter
  are in bounds.
* **C42 partial** (`Props/BinSearch`, `Props/TestSearch`): `l_binary_search` as called reads one element past the
  array.  `lBinarySearch_reads_behind`: it does so for every non-empty array and every key above all elements.
  `lBinarySearch_sound`: otherwise the result is right; `lBinarySearch_inside`: keys up to the last but one element are always found.  The last call of
  `test/test_binary_search.cpp`'s section on it is such a call (`test_searches`).  The section succeeds for every value of the element
  read (`test_binary_search_hides`), so the test does not show the error.  The other sections of the test succeed.

* **C57 proved** (`Props/Intersect`): also for operands that were cleared, which a run never passes.

### Programs

* **C27 proved** (`Props/Bfs`): invariant "after k supersteps exactly the vertices at distance ≤ k
  have their depth".
* **C28 proved** (`Props/Sssp`): Bellman-Ford invariant with wrapping 32-bit distances; the
  no-overflow hypothesis is necessary (`sssp_wraps_around`).
* **C29 proved, C50 false** (`Props/TopSort`, `Props/Schedule`): levels are lengths of longest
  incoming walks.  The loop that marks the sources has a data race on words of the bit vector
  (`marking_can_lose_a_source`).
* **C30 proved** (`Props/Triangles`).
* **C31 proved** (`Props/PageRank`), in exact arithmetic, with a bound on the iterations.
* **C74 proved** (`Props/FloatPr`): PageRank once more, with rounding.  `Model/FloatPr` has the rounding of IEEE 754 on rationals;
  `float_round_nearest` says that it is rounding to the nearest number of the format (`Spec/Float`), ties to even, and when it overflows.
  One iteration is the exact formula up to `D + 6` factors `1 ± 2^-24`; the formula shrinks errors in total by 0.7, so they do
  not accumulate.  That the loop ends does not follow from this (the errors could exceed the threshold 1e-5); it ends because rounding
  is monotone and the order of summation is the same in every iteration: the ranks never decrease and are bounded in total.
* **C77 proved** (`Props/FloatDpr`): incremental PageRank in doubles.  The invariant of C54 holds up to a relative error of
  `(D + 6) / 2^52` in every message and `2^-53` in every addition to a rank.  A vertex is active if its rank
  changed by more than 1e-8, and the change of the rounded rank can be smaller than the delta that was added: a delta just above the
  threshold can be added to the rank and never be sent on.  Such losses count as
  errors; they take part in the balance of the deltas in flight and held back, which shrinks by 0.71 in every superstep down to the
  threshold, so that balance bounds their total.  `incremental_pagerank_float_misses`
  is a graph of 6 vertices on which the bound of C54 for single vertices fails for this reason (found by search).
* **C54 proved** (`Props/IncPageRank`), in exact arithmetic: invariant "rank + delta held back = 0.3 +
  0.7 * (what the ranks without the deltas still to be sent would bring)"; the deltas in flight and
  held back bound the number of supersteps.  The exact solution exists by finite-dimensional linear
  algebra.
* **C55 proved** (`Props/Sgd`), in exact arithmetic, for any vector length, step size and number of
  steps; that a step follows the gradient is a polynomial identity along lines.
* **C56 proved** (`Props/Lda`), in exact arithmetic, for any number of topics, `alpha >= 1`, `eta > 1`
  and any number of iterations; with a number that is not positive the loop is shown to stop exactly at
  the first state no count of which moves by more than the tolerance (`topic_model_until`).  The loop of
  `run_graph_program` is modelled again for a program
  whose `do_every_iteration` reads the graph (`runLoopOn`).  Conservation follows from one invariant:
  the counts come from a distribution of each edge's occurrences over the topics.  The claim needs every
  word to occur: the constructor leaves `N` uninitialised, a word without edges keeps it, and
  `calcGlobalN` adds it up (`unused_word_adds_garbage`).  The likelihood smooths the topics of a document
  with `eta` although the model uses `alpha`; modelled as written.
* **C32 partial** (`Props/DeltaStepping`): proved when distances stay below MAX_DIST and bucket
  numbers below INT_MAX; otherwise false (`delta_stepping_loses_far_vertices`).
* **C48 partial** (`Props/Converter`): from the bytes or characters of the input to those of the
  output.  `--outputedgeweights 2` does not create unit weights; unlisted values are accepted; a
  random weight can be r.  `Props/ConvFloat` has the program with its three edge types: floats and doubles are bit patterns
  (`Model/FloatBits`), exact in binary files and snapshots, rounded in text as C76 says (`float_conversion_changes`); random and unit weights are converted from `int` with one rounding
  (`convTypes_cast`).
* **C70 partial, false as stated** (`Props/CmdLine`).  `Model/CmdLine` has the table of long options, the string of letters and
  the option loop as written, with `getopt_long`, `sscanf("%i")` and `atoi` as library functions.  Induction over the parts of a
  command line: each part is reported as one option and leaves the rest of the line alone; hence all documented lines are
  understood (`commands_understood_partial`), and with C48 from the words to the files (`converter_command`).  The second half is
  false: the table has no terminating zero entry, so that every name not in it makes `getopt_long` read behind it
  (`unknown_name_undefined`); the letter `p` has no argument although its case reads one (`split_letter_undefined`); other mistakes
  are ignored and the conversion is done with other options than the user meant (`bad_number_ignored`,
  `missing_number_ignored`, `unknown_letter_ignored`, `help_letter_ignored`, `leading_zero_octal`).  Numbers behind `0x` and `0` are read in
  base 16 and 8 (`numbers_in_other_bases`).
* **C71 proved** (`Props/Pipeline`, `Props/PipelineMore`): the theorems about the command line, the converter, the files and the programs compose. The
  converter's `unsigned int` weights are read as `int`s with the same bytes (`ReadsAs`). What the options do to the edges is
  reduced to which pairs of vertices have edges (breadth-first search; topological sort, with self loops), which edges there are
  apart from self loops (SSSP, delta-stepping) and an orientation along the original ids, renumbered by a permutation (triangles;
  topological sort, which then cannot meet a cycle).  Delta-stepping reads the files with `load_edgelist` directly (`written_lists`).
* **C72 partial** (`Props/ApplyVec`): `Apply` with two different vectors (singlenode/apply.h:36-72, multinode/apply.h:39-49), which no
  program of the repository calls with different vectors (`applyToAllVertices` passes the same vector twice; that case is C23). `apply_exact_partial` needs an initialised input. Without: `apply_segment` does not test
  `uninitialized` as `intersect_segment` does, so a cleared input acts like before it was cleared; a segment never written has a null
  `properties`. `nnz` of the output is set to the count of the input.

* **C81 partial** (`Props/TestRuns`, `Props/TestEdges`).  `Model/TestGen` has the generators and the spreading and collecting of edge lists,
  `Model/TestRuns` and `Model/TestEdges` the test functions with their checks.  The checks follow from the general theorems (loading,
  supersteps, C33 to C36) and the distances in the generated graphs, which are given independently in `Spec/TestGraphs` (complete graph, upper
  triangle, cycle, loops).  Two tests are wrong at sizes they are not run with: the section "node n/2" of `test_chain_bfs` expects
  `n/2 + i` where the distance is `n - n/2 + i`, which differs for odd `n` (`test_bfs_chain_partial`: it passes exactly for even sizes and 3);
  `test_graph_size` expects `16 n` edges of a generator that makes `min(16, n)` per vertex (`test_sizes_partial`).

* **C82 partial** (`Props/TestIO`).  `Model/TestIO` has these test functions with their checks.  The comparison of two collected and
  sorted lists is shown to succeed exactly if the lists hold the same edges (`compareCollected_iff`), for any weights that compare like numbers
  (`int`, and the `float`s that are not NaN); the rest follows from loading, snapshots (C41), file round trips (C39, C40, C76), functions on
  edges (C08) and transposition.  `test_read_gm_bin` keeps the list `E`, calls `ReadEdgelist(E)`, which gives the vertices in the caller's array
  their internal ids, and then compares the array with what comes back from the files.  `test_gm_bin_on` says exactly when this succeeds: if the
  renumbering maps the list to itself.  For the complete graph of the test it does, for a cycle it does not (`test_gm_bin_chain_fails`), though
  the files are right.

* **C84 partial** (`Props/TestVec`).  `Model/TestVec` has the tests with sizes, indices and values as parameters; a test gives `some true`,
  `some false` or `none` (undefined behaviour).  The entries set one after the other are a map (`entryMap`), its number of entries is the
  number of different indices, so the tests pass exactly if no index is repeated.  The rest is C03 and C05 (operations), C22 (sums as trees), C24
  (sending), C41 and C59 (archives) and `DMat.spmspv_shared` (products).  `create_spmv_identity_test` takes `n / 10` entries: 10 rows, the smaller size of the test, is the least that works; for `n < 10` on one rank the
  product reads a segment without buffer (`test_spmv_identity_small`), the same cause as in C83.
  That the test of archives passes says little if it compares nothing: `archive_comparison_exact` shows that its comparison passes exactly if
  dimensions and edges (with weights) agree.

### Edge lists and files

* **C33-C38, C51, C52** (`Props/EdgeList`): array programs with loop invariants; C34 and C35 on
  all ranks with per-thread histograms and the exchange.  C51 is false for non-square lists
  (`random_renumbering_needs_square`).
* **C76 false** (`Props/FloatText`: `float_text_changes`, `double_text_changes`): `%.8f` and `%.15lf` drop digits; doubles below 8 and
  floats below 1/8 may change, weights up to half a unit of the last decimal become 0.  Proved for all weights: what changes by how
  much and what does not.  The printed decimal is within half a unit of the weight, the number read is the nearest one to it, so no
  farther than the weight itself; from 1/8 (8) on two different numbers are more than a unit apart.
* **C78 false** (`Props/SegCount`): `setAll` returns before it stores a count when the segment has no elements
  (`stored_nnz_indeterminate`), `ingestEdges` stores the length of its list (`stored_nnz_ingest_duplicates`,
  `stored_nnz_ingest_forgets`).  Invariant for the other calls: the count is that of the map of C03.  A wrong count costs nothing but
  the shorter wire format: `compress` recounts unless the stored count is above half the capacity, and then whole arrays are sent.
* **C79 false** (`Props/CopyMem`: `graph_copy_dangles`): `Graph` declares a destructor only.  For every history that fills the graph:
  the copy can be destroyed, after which destroying or using the original follows released blocks.  `graph_copy_partial` and
  `graph_copy_before_fill`: copies of a graph that was not filled yet are harmless.
* **C80 proved** (`Props/Weak`).  `Spec/Weak` has tasks executed by threads with store buffers: a store enters the buffer
  of the thread and reaches the memory in a later step, in order for one location and in any order for different ones.
  `store_buffers_race_free`: whatever has `OneOutcome` (C67) has the same outcome with buffers.  Proof: tasks that never race
  access, each run alone, no location in common to which one of them stores (`Conc.Safe.apart`); for such tasks what a
  thread sees of its own and of the read-only locations is never stale (`WeakInv`).  `store_buffers_matter`
  is the well-known pair of racing tasks that can both miss the other's store, which shows that the buffers are not
  idle.  `Spec/Views` is weaker: all stores to a location are kept with points in time, threads only
  remember how far they have come at each location, and loads may return anything not older than that
  (`reordering_race_free`, proved by simulation: the newest values behave like a memory in which every store is seen at once;
  `reordering_matters`).  Not covered: stores that others see before an earlier load of their thread is made.
* **C39, C53 proved, C40 false** (`Props/EdgeFile`): the reader is shown to consume a file line by
  line; values must be representable in the file (`BinType.Ok`).  `readLine` returns false at end of file although a line was converted, so an
  unterminated last line makes `load_edgelist` write outside its array (without header) or lose
  an edge and deliver an uninitialised one (with header, several files per reader).
* **C41 proved** (`Props/Snapshot`).
* **C66 false** (`Props/EdgeIO`): the dimensions and the plain round trip are proved.  With
  `randomize` and without header the number of rows is the largest source, so that a square list
  whose largest id is only a destination makes `randomize_edgelist_square` read outside its table
  (`random_read_fails_without_header`); proved if the ids are within the number of rows found.

### Tile formats

* **C44 false** (`Props/Formats`): COO reads one `int` behind `ia`, which decides about the product if the tile has exactly one edge (`coo_single_edge_lost`: lost if it is not positive; `coo_tile_correct_partial`: otherwise right); DCSR can
  read behind `row_ids`; an empty hybrid tile is multiplied through uninitialised pointers.  CSR,
  COO-SIMD and DCSC are proved correct, the others under the stated conditions.  `Props/Formats3` has
  the product with a third operand for DCSC and COO; unlike `mult_segment`, the one for COO does not
  look whether there are edges and uses the number of partitions that is only set if there are
  (`coo_mult3_empty_fails`).
* **C85 partial** (`Props/FmtMat`, `Props/FmtMatFail`).  `Model/FmtMat` has `SpMat<SpTile<T>>` with the tile type as a parameter: a `TileFmt` is what `SpMat`
  uses of a tile (empty and filling constructors, `nnz`, `get_edges`), and a family of functions stands for `mult_segment`.  `TileFmt.Laws` says
  what a format must do; the lemmas about `SpMat` need nothing else, and C44 gives the laws of the six formats, with a condition on the tile where
  C44 is false.  `Spec/FmtMat` speaks only about edges, their number and `MulSteps` of C83, not about tiles.  Refuted for COO, DCSR and hybrid tiles as in
  C44, but one bad tile is enough to spoil a whole matrix: with hybrid tiles no matrix with an empty tile can be multiplied (`hybrid_matrix_empty_tile`; the
  identity on two ranks with more than 512 rows has two of them).
* **C86 partial** (`Props/FmtArchive`).  `Model/FmtArchive` has `SpMat::serialize` with the tile type as a parameter (`TileIO`: how a tile is saved and
  loaded).  `TileIO.Laws` says that what is loaded behaves as what was saved; `FMat.Rep.reload` needs nothing else, and C60 gives the laws of the six
  formats.  For the loaded matrix only the behaviour of its tiles is known (`TileReads`, `TileWorks`), not their arrays; that is enough for the lemmas of C85.
  Refuted for DCSR and hybrid tiles, as C60; one tile with a row of 16 edges spoils a whole matrix (`hybrid_restored_matrix_fails`).
* **C60 false** (`Props/FmtSnapshot`): `DCSRTile::save` reads `m+1` elements of `ia`, which has
  `num_rows+1` (`dcsr_archive_reads_behind`), and `load` leaves `partition_ptrs` uninitialised, so
  that no loaded tile with edges can be multiplied (`dcsr_restored_cannot_multiply`); hybrid tiles
  inherit both if some row has 16 edges.  The repository's own serialisation tests only compare
  edges, which do survive (`dcsr_archive_edges_partial`, `hybrid_archive_edges_partial`).  CSR,
  COO-SIMD, DCSC (and COO, as far as its constructor is correct) survive with all operations.
* **C61 false** (`Props/TileMem`).  A small heap (`Spec/Heap`): blocks remember how they were
  allocated; releasing a dead block, a block of another kind or an unset pointer is undefined.  For
  CSR and DCSC every history of tiles and matrices is balanced (`csr_memory`, `dcsc_memory`,
  `*_matrix_memory`), by separation of the blocks of different tiles and induction over the history.
  Refuted: restored COO and COO-SIMD tiles release `_mm_malloc` memory with `delete []`, restored DCSR
  tiles release a pointer that was never set (`*_restored`); hybrid tiles release nothing
  (`hybrid_leaks`; how much is lost is exact in `hybrid_memory_partial`) and their constructor for
  edges cannot be called without edges (`hybrid_make_zero`); every `operator=` leaves two owners or
  none (`*_assign`); loading into a tile with edges loses its arrays (`csr_reload_leaks`).
* **C62 false** (`Props/SegMem`), with the heap of C61.  Every history of vectors in which messages
  fit is balanced (`vector_memory_partial`); invariant: each buffer has its seven arrays, with room for the
  partitions of every message.  `segment_pool` gives the exact number of blocks of a segment, so
  `supersteps_bounded`.  Refuted: `recv_buffer` takes the number of partitions from the message but
  not the size of its arrays, so a sender with more threads overruns them (`message_overrun`);
  `ingestEdgelist` never releases `assignment`, and `final_edge_list` and `partitions` only if it got
  edges (`ingest_leak`).
* **C63 false** (`Props/GraphMem`), on top of C61 and C62.  A graph that is filled first and once, with
  any further operations and graph programs, is balanced (`graph_memory_partial`).  What is forgotten
  otherwise is counted in `graph_leak`: `ReadEdgelist`, `ReadMTX` and `ReadGraphMatBin` overwrite the
  pointers of a graph that has been filled; `saveVertexproperty` has the leak of `ingestEdgelist`;
  `load_edgelist` allocates for zero edges and `clear` does not release that.  The number of blocks of a
  filled graph is stated from the numbers of edges of the tiles (`matCost`, `vecCost`).  Null pointers:
  `unfilled_graph`; `SpVec::save` on a vector with an own segment that has a capacity but never had an
  entry (`save_empty_segment`; `saveVertexproperty` cannot reach this, all vertices have properties).
* **C64 false** (`Props/ElMem`), with the heap of C61.  Every program with edge lists is free of
  undefined behaviour, and `edgelist_leak` gives exactly how many arrays it forgets, computed from
  numbers of edges only; so memory comes back if and only if this number is 0
  (`edgelist_memory_partial`).  Arrays are forgotten because `clear` releases only if `nnz > 0`
  while `remove_selfedges`, `filter_edges` and `filter_edges_by_row` can leave an array with no edges
  and `load_edgelist` allocates one for no edges, and because `load_edgelist` overwrites the pointer of
  a list that has an array.  `converter_memory` is the same for `process_graph` with all options.
  The constructor of a list with no edges leaves `edges` unset and transformations copy this unset
  pointer, which C++ does not allow either; the model only forbids following or releasing it.
* **C73 false** (`Props/AppMem`), on top of C63 and C64.  `Model/AppMem` lists what each program in `src/` does with its graph;
  the supersteps are arbitrary.  `app_leak`: exactly one block is left on a rank whose files have no edges (`load_edgelist` allocates,
  `clear` does not release), none otherwise.  Delta-stepping (`delta_leak`) has two graphs and three lists: besides, one array is left if
  the rank has edges but none light, or none heavy (`filter_edges` allocates for all edges of the input).  The second graph holds the
  pointer of the first to the vertex properties; in the model the vector is handed back and forth (`GraphMem.sees`), its blocks are
  counted once, and destroying both graphs releases them once because of `vertexpropertyowner`.
* **C65** (`Props/Flight`).  `Spec/Flight` states MPI's rules for buffers of non-blocking calls as a
  small machine with arrays and transfers under way, in which a broken rule is undefined behaviour;
  reading and writing count for whole arrays, transfers for the elements they cover.  `Model/Flight`
  follows the code on one rank; numbers that depend on contents (entries, bytes, what other ranks
  announce) are arbitrary.  `transfers_left_alone`: no sequence of operations breaks a rule.  The proof
  keeps, for every transfer under way, the segment and buffer it belongs to; that a segment is not
  received twice in one exchange comes from the partner lists being duplicate free.  With different
  numbers of threads on the ranks the scans of a serialized segment do not fit
  (`transfers_threads_false`, the overrun of C62).
* **C68 partial, false as stated** (`Props/MpiCount`).  The models of transfers used elsewhere (C13, C24, C25)
  deliver everything.  `Model/MpiCount` computes the counts as MPI sees them: products with `sizeof`, of type
  `size_t`, converted to `int`.  A negative count ends the program; otherwise as many bytes arrive as the count says, and
  the rest keeps what the receiver had.  `transfer_complete_iff`: a call moves everything, whatever was there before, if and
  only if there are less than 2^31 bytes.  Below that the segment transfer is the one of C24 (`Segment.pass_small`), so that
  its round trip carries over (`segment_transfer_partial`, `vector_transfers_partial` in terms of vertices and ranks).
  Above, `dense_transfer_incomplete` shows that the last element never arrives.  `segment_transfer_silent` is the worst case:
  for 2^30 values of four bytes the count is 0, the bit vector arrives, the values do not, and nothing reports it
  (`stale_values_received` is the concrete case).  `SpVec::ingestEdgelist` also counts bytes and sends to itself through MPI,
  so that `saveVertexproperty` aborts from 178956971 vertices per rank on (`vector_edges_fail`).  `SpMat::ingestEdgelist` and
  `shuffle_edges` count edges with an MPI datatype and are right for all lists (`matrix_edges_complete`).
* **C69 partial, false as stated** (`Props/IntLayout`, `Props/IntFormats`).  `Model/IntLayout` repeats the computations of sizes and bounds with
  `int` operations that fail on overflow; the theorems say when the result is the one of the models with natural numbers,
  which all other theorems use.  `boundaries_exact`, `words_exact` and `columns_exact` give exact conditions.  On one rank
  the constructors overflow from 2147483392 vertices on (`boundaries_overflow`), and a loop over the bits of the last word
  of a segment from 2147483617 elements on.  The bounds of `decompress` cannot overflow because a segment is compressed only if
  at most half of it is present; those of `static_partition` because the steps add up to the number of rows.

## Other findings while reading

* `load_edgelist` trusts the number of edges in the header but reads to the end of the file; a
  text file with a weight type other than the four supported ones makes `readLine` return true
  for ever; files left over from an earlier run with more ranks are read as well.
* Some `operator=` have no return statement.
* `1 << 31` in the loops over bit words is a signed overflow.
* `num_cols` of an empty DCSC tile is written to snapshots without having been set.

## Axioms by theorem

Of the theorems in `MANIFEST.json`:

* no axiom:
  `out_of_range_id_aliases`
* `propext` only:
  `lBinarySearch_garbage_decides`, `leftBorder_subrange_misses`, `lBinarySearch_last_fails`,
  `random_renumbering_needs_square`, `sharing_twice_double_free`, `sharing_other_failures`,
  `text_header_edge_lost`, `options_last_wins`, `random_read_fails_without_header`,
  `example_usage`, `example_word_is_zero`, `coo_matrix_reads_behind`, `dcsr_archive_fails`,
  `segment_count_all`
* `propext` and `Quot.sound`:
  `nodeOwner_unique`, `caller_edges_modified`, `both_encodings`,
  `lLinearSearch_empty_out_of_bounds`, `lBinarySearch_out_of_bounds`,
  `lBinarySearch_reads_behind`, `test_searches`, `requireResults_iff`,
  `test_binary_search_hides`, `thread_count_changes_result`, `send_message_flag_ignored`,
  `send_message_cannot_veto`, `applyReduce_initial_value_counted_per_rank`, `sssp_wraps_around`,
  `NoOverflow.of_bound`, `remove_selfedges_keeps_the_rest`, `both_directions_are_created`,
  `both_directions_overflow`, `filter_edges_keeps_the_chosen`, `delta_stepping_buckets_fit`,
  `delta_stepping_loses_far_vertices`, `share_again_breaks_lender`, `unit_weights_not_created`,
  `unlisted_output_writes_nothing`, `unlisted_input_reads_nothing`, `coo_loses_edge`,
  `hybrid_empty_fails`, `coo_mult3_empty_fails`, `hybrid_matrix_leaks`, `hybrid_make_zero`,
  `unfilled_graph`, `save_empty_segment`, `transfers_threads_false`,
  `dimensions_are_the_largest_ids`, `matrix_edges_complete`, `vector_edges_partial`,
  `index_transfer_fails`, `segment_transfer_silent`, `vector_edges_fail`, `boundaries_exact`,
  `boundaries_partial`, `boundaries_overflow`, `partitions_exact`, `compress_partitions_exact`,
  `words_exact`, `decompress_exact`, `columns_exact`, `columns_partial`, `simd_blocks_exact`,
  `csr_product_rows_exact`, `csr_numbers_exact`, `dcsr_rows_partial`, `example_arguments`,
  `apply_count_wrong`, `apply_revives_cleared`, `apply_needs_buffer`,
  `stored_nnz_indeterminate`, `stored_nnz_ingest_duplicates`, `stored_nnz_ingest_forgets`,
  `graph_copy_partial`, `store_buffers_matter`, `reordering_matters`, `test_dense_overflows`,
  `multiply_program_false`, `test_vec_generator_dense`, `test_spmv_identity_small`,
  `coo_spmv_test_fails`, `multiply3_program_false`, `vector_program_false`, `ask_program_false`,
  `reduce_segment_cleared`, `reduce_segment_null`, `order_matters`, `layout_matters`,
  `initial_value_counts_ranks`, `parts_begin_at_zero`, `names_matter`
* all other theorems: `propext`, `Classical.choice` and `Quot.sound`.

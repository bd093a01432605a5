import Verif.Model.World

/-!
# Reducing over all vertices

Models `MapReduce` (/repo/include/GMDP/multinode/reduce.h:39-74,
/repo/include/GMDP/singlenode/reduce.h:51-114) and `Graph::applyReduceAllVertices`
(/repo/include/Graph.h:377-381).  The threads of the `omp parallel for` work on disjoint parts of the
segment; here they run one after the other.

`void (*op_map)(V*, T*, void*)` becomes `V → T → T × V`: it gets the property and the previous contents of
the output variable and returns the new contents of both.  `void (*op_fp)(const T&, const T&, T*, void*)`
becomes `T → T → T` (all calls have an output that is the first argument itself, or that is not read).
-/
namespace GraphMat

variable {V T : Type}

/-- The loop of one thread, /repo/include/GMDP/singlenode/reduce.h:59-86.  The state is the property array
and `local_reduced[p*16]` (`none` = `firstSet[p*16]` is false).  `tmp i` is the content of the
uninitialised `temp_result2`. -/
def mapReducePart (map : V → T → T × V) (op : T → T → T) (tmp : Nat → T) (bits : Arr Word) (start finish : Nat)
    (value : Arr V) : Option (Arr V × Option T) :=
  forLoop start finish (value, none) (fun i st => do
    let bit ← getBitvector i bits
    if bit then
      let v ← st.1.read i
      let r := map v (tmp i)
      let value ← st.1.write i r.2
      match st.2 with
      | some a => some (value, some (op a r.1))
      | none => some (value, some r.1)
    else some st)

/-- The final loop over the threads' results, /repo/include/GMDP/singlenode/reduce.h:89-96. -/
def addLocal (op : T → T → T) (res : T) : Option T → T
  | some x => op res x
  | none => res

/-- `mapreduce_dense_segment`, /repo/include/GMDP/singlenode/reduce.h:51-99; `nnz` is the segment's
capacity.  All quantities are bounded by `nnz + nthreads`, which must fit into `int`. -/
def mapReduceDense (threads : Nat) (map : V → T → T × V) (op : T → T → T) (tmp : Nat → T) (value : Arr V)
    (bits : Arr Word) (nnz : Nat) (res : T) : Option (Arr V × T) := do
  let _ ← ck ((nnz : Int) + (threads : Int))
  let per := (nnz + threads - 1) / threads
  let st ← forLoop 0 threads (value, ([] : List (Option T))) (fun p st => do
    let r ← mapReducePart map op tmp bits (min (per * p) nnz) (min (per * (p + 1)) nnz) st.1
    some (r.1, st.2 ++ [r.2]))
  some (st.1, st.2.foldl (addLocal op) res)

/-- `mapreduce_segment`, /repo/include/GMDP/singlenode/reduce.h:108-114. -/
def mapReduceSegment (threads : Nat) (g : Fresh V) (map : V → T → T × V) (op : T → T → T) (tmp : Nat → T)
    (s : Segment V) (res : T) : Option (Segment V × T) := do
  let s ← (s.alloc g).initialize
  let b ← s.props
  let r ← mapReduceDense threads map op tmp b.value b.bits s.capacity res
  some ({ s with props := some { b with value := r.1 } }, r.2)

/-- The loop over the segments on one rank, /repo/include/GMDP/multinode/reduce.h:46-52. -/
def SpVec.mapReduce (threads : Nat) (g : Nat → Fresh V) (map : V → T → T × V) (op : T → T → T)
    (tmp : Nat → Nat → T) (v : SpVec V) (res : T) : Option (SpVec V × T) :=
  forLoop 0 v.nseg (v, res) (fun j st => do
    let own ← st.1.owns j
    if own then
      let s ← st.1.segs.read j
      let r ← mapReduceSegment threads (g j) map op (tmp j) s st.2
      let segs ← st.1.segs.write j r.1
      some ({ st.1 with segs := segs }, r.2)
    else some st)

/-- `MapReduce` on all ranks, /repo/include/GMDP/multinode/reduce.h:39-74: every rank reduces its own
segments into its own `*res` (initially `init r`), rank 0 receives the results of ranks 1, 2, ... and
combines them with its own, and broadcasts the outcome. -/
def DVec.mapReduce (threads : Nat) (g : Nat → Nat → Fresh V) (map : V → T → T × V) (op : T → T → T)
    (tmp : Nat → Nat → Nat → T) (d : DVec V) (init : Nat → T) : Option (DVec V × T) := do
  let st ← forLoop 0 d.size (d, ([] : List T)) (fun r st => do
    let v ← st.1.read r
    let x ← v.mapReduce threads (g r) map op (tmp r) (init r)
    let d ← st.1.write r x.1
    some (d, st.2 ++ [x.2]))
  match st.2 with
  | [] => none
  | r0 :: rest => some (st.1, rest.foldl op r0)

/-- `applyReduceAllVertices(val, ApplyFn, ReduceFn, param)`, /repo/include/Graph.h:377-381; `init r` is
`*val` on rank `r` before the call, the second result is `*val` on every rank after it. -/
def VGraph.applyReduceAllVertices (g : Nat → Nat → Fresh V) (map : V → T → T × V) (op : T → T → T)
    (tmp : Nat → Nat → Nat → T) (init : Nat → T) (G : VGraph V) : Option (VGraph V × T) := do
  let r ← DVec.mapReduce G.threads g map op tmp G.vp init
  some ({ G with vp := r.1 }, r.2)

end GraphMat

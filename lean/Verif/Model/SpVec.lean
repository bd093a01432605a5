import Verif.Model.Segment
import Verif.Model.Layout

/-!
# Distributed vectors

Models /repo/include/GMDP/vectors/SpVec.h: the part of the vector that lives on one rank.  The
vector as a whole is one `SpVec` per rank (see `Model/World.lean`).
-/
namespace GraphMat

variable {α : Type}

/-- `SpVec<DenseSegment<T>>` on one rank, /repo/include/GMDP/vectors/SpVec.h:42-52.  `nodeIds` and
`start_id` are functions of `n`, `nseg`, `nrank` (`segOwner`, `startIds`), as the constructor
computes them once (lines 83-89) and nothing changes them. -/
structure SpVec (α : Type) where
  /-- `n` -/
  n : Nat
  /-- `nsegments` (= `num_tiles_x`) -/
  nseg : Nat
  /-- `global_nrank` -/
  nrank : Nat
  /-- `global_myrank` -/
  myrank : Nat
  /-- `segments` -/
  segs : Arr (Segment α)

/-- `start_id[j]`, /repo/include/GMDP/vectors/SpVec.h:87-90. -/
def SpVec.startId (v : SpVec α) (j : Nat) : Option Nat := (startIds v.n v.nseg)[j]?

/-- `nodeIds[j] == global_myrank`, e.g. /repo/include/GMDP/vectors/SpVec.h:314. -/
def SpVec.owns (v : SpVec α) (j : Nat) : Option Bool := do
  let o ← segOwner v.nrank j
  some (o == v.myrank)

/-- The constructor `SpVec(int _n, int _num_tiles_x, pfn)` with `pfn = vector_partition_fn`,
/repo/include/GMDP/vectors/SpVec.h:70-99, on rank `myrank` of `nrank`.  The segments are
unallocated (`DenseSegment(int n)`); `none` = assertion `nsegments > 0` fails (the division by
`nsegments` at line 80 happens before it). -/
def SpVec.new (n nseg nrank myrank : Nat) : Option (SpVec α) := do
  if nseg = 0 then none else
  let segs ← forLoop 0 nseg (⟨nseg, fun _ => Segment.new 0⟩ : Arr (Segment α)) (fun j segs => do
    let hi ← (startIds n nseg)[j + 1]?
    let lo ← (startIds n nseg)[j]?
    segs.write j (Segment.new (hi - lo)))
  some { n := n, nseg := nseg, nrank := nrank, myrank := myrank, segs := segs }

/-- Apply a segment operation to `segments[p]`, e.g. /repo/include/GMDP/vectors/SpVec.h:316. -/
def SpVec.modifySeg (v : SpVec α) (p : Nat) (f : Segment α → Option (Segment α)) :
    Option (SpVec α) := do
  let s ← v.segs.read p
  let s' ← f s
  let segs ← v.segs.write p s'
  some { v with segs := segs }

/-- The loop `for (i = 0; i < nsegments; i++) if (nodeIds[i] == global_myrank) f(segments[i])`
(/repo/include/GMDP/vectors/SpVec.h:331-337, /repo/include/GMDP/multinode/apply.h:41-47,
/repo/include/GMDP/multinode/clear.h:42-48). -/
def SpVec.forOwned (v : SpVec α) (f : Nat → Segment α → Option (Segment α)) : Option (SpVec α) :=
  forLoop 0 v.nseg v (fun j v => do
    let own ← v.owns j
    if own then v.modifySeg j (f j) else some v)

/-- `set(int idx, T val)`, /repo/include/GMDP/vectors/SpVec.h:310-318.  `g` supplies the contents
of the buffer that may have to be allocated. -/
def SpVec.set (g : Fresh α) (idx : Int) (val : α) (v : SpVec α) : Option (SpVec α) := do
  let p ← getPartition v.n v.nseg idx
  let own ← v.owns p
  if own then
    let s ← v.segs.read p
    if s.capacity = 0 then none else
    let start ← v.startId p
    v.modifySeg p (fun s => s.set g (idx - start) val)
  else some v

/-- `unset(int idx)`, /repo/include/GMDP/vectors/SpVec.h:320-327. -/
def SpVec.unset (g : Fresh α) (idx : Int) (v : SpVec α) : Option (SpVec α) := do
  let p ← getPartition v.n v.nseg idx
  let own ← v.owns p
  if own then
    let s ← v.segs.read p
    if s.capacity = 0 then none else
    let start ← v.startId p
    v.modifySeg p (fun s => s.unset g (idx - start))
  else some v

/-- `setAll(T val)`, /repo/include/GMDP/vectors/SpVec.h:329-338. -/
def SpVec.setAll (g : Nat → Fresh α) (val : α) (v : SpVec α) : Option (SpVec α) :=
  v.forOwned (fun j s => s.setAll (g j) val)

/-- `get(const int idx, T * myres)`, /repo/include/GMDP/vectors/SpVec.h:340-348.  The result is
`some none` when this rank does not own the element (`*myres` is left as it was). -/
def SpVec.get (idx : Int) (v : SpVec α) : Option (Option α) := do
  let p ← getPartition v.n v.nseg idx
  let own ← v.owns p
  if own then
    let s ← v.segs.read p
    let start ← v.startId p
    let x ← s.get (idx - start)
    some (some x)
  else some none

/-- The rank's contribution to `getNNZ()` before the `MPI_Allreduce(SUM)`,
/repo/include/GMDP/vectors/SpVec.h:350-361. -/
def SpVec.localNNZ (v : SpVec α) : Option Nat :=
  forLoop 0 v.nseg 0 (fun s total => do
    let own ← v.owns s
    if own then
      let seg ← v.segs.read s
      let k ← seg.computeNnz
      some (total + k)
    else some total)

/-- `get_edges(edgelist_t<T> * blob)`, /repo/include/GMDP/vectors/SpVec.h:119-146: the entries of
the segments this rank owns.  The output array has exactly `nnz` elements; writing more is out of
bounds.  Writing fewer would leave indeterminate entries, also `none` here. -/
def SpVec.getEdges (v : SpVec α) : Option (List (Edge α)) := do
  let nnz ← v.localNNZ
  if nnz > 0 then
    let es ← forLoop 0 v.nseg [] (fun j acc => do
      let own ← v.owns j
      if own then
        let seg ← v.segs.read j
        let start ← v.startId j
        let e ← seg.getEdges start
        some (acc ++ e)
      else some acc)
    if es.length = nnz then some es else none
  else some []

/-- `save(fname, includeHeader)`, /repo/include/GMDP/vectors/SpVec.h:378-386: one file per owned
segment; the result lists (segment number, header, lines). -/
def SpVec.save (includeHeader : Bool) (v : SpVec α) :
    Option (List (Nat × Option (Nat × Nat) × List (Nat × α))) :=
  forLoop 0 v.nseg [] (fun j acc => do
    let own ← v.owns j
    if own then
      let seg ← v.segs.read j
      let start ← v.startId j
      let f ← seg.save start v.n includeHeader
      some (acc ++ [(j, f)])
    else some acc)

end GraphMat

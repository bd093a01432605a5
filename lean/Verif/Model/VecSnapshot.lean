import Verif.Model.Snapshot
import Verif.Model.History

/-!
# Archives of a vector

Models the serialization of `SpVec` (/repo/include/GMDP/vectors/SpVec.h:55-67), `DenseSegment`
(/repo/include/GMDP/vectors/DenseSegment.h:436-474) and `buffer` (/repo/include/GMDP/vectors/DenseSegment.h:89-179), used as
in /repo/test/test_vector_serialization.cpp:55-66.

Archives are as in `Model/Snapshot`.  The constant strings `name` are left out, and so are `received_md` and `queued_md`,
which are not part of the model of a segment (they describe messages under way).
-/
namespace GraphMat

variable {α : Type}

/-- `ar & nnz` of an input archive for an `int` of any sign, /repo/include/GMDP/vectors/DenseSegment.h:131. -/
def getSigned : Archive α → Option (Int × Archive α)
  | .signed k :: ar => some (k, ar)
  | _ => none

/-- `ar & bit_vector[i]` of an input archive, /repo/include/GMDP/vectors/DenseSegment.h:156. -/
def getWord : Archive α → Option (Word × Archive α)
  | .word w :: ar => some (w, ar)
  | _ => none

/-- `ar & uninitialized` of an input archive for a `bool`, /repo/include/GMDP/vectors/DenseSegment.h:130, 457. -/
def getFlag : Archive α → Option (Bool × Archive α)
  | .flag b :: ar => some (b, ar)
  | _ => none

/-- One record of `serialized_data`, /repo/include/GMDP/vectors/DenseSegment.h:115-118. -/
def putRec (r : Nat × α) (ar : Archive α) : Option (Archive α) := some (ar ++ [.int r.1, .val r.2])

/-- One record of `serialized_data` read back, /repo/include/GMDP/vectors/DenseSegment.h:166-169. -/
def takeRec (ar : Archive α) : Option ((Nat × α) × Archive α) := do
  let (i, ar) ← getInt ar
  let (x, ar) ← getVal ar
  some ((i, x), ar)

/-- `buffer::save`, /repo/include/GMDP/vectors/DenseSegment.h:91-127.  `capacity` and `num_ints` are the sizes of `value`
and `bits`.  The bytes of `serialized_data` and the two scan arrays (lines 115-126) are written as the list of partitions
they encode. -/
def Buffer.save (b : Buffer α) (ar : Archive α) : Option (Archive α) := do
  let ar := ar ++ [.flag b.uninit, .signed b.nnz, .int b.value.size, .int b.bits.size]
  let ar ← putArr .val b.value b.value.size ar
  let ar ← putArr .word b.bits b.bits.size ar
  let ar ← putArr .val b.cdata b.value.size ar
  let ar ← putArr .int b.cidx b.value.size ar
  putList (putList putRec) b.sdata ar

/-- `buffer::load` into a default-constructed buffer, /repo/include/GMDP/vectors/DenseSegment.h:128-178, 199: new arrays
(contents `g`) of the sizes read from the archive, then filled. -/
def Buffer.load (g : Fresh α) (ar : Archive α) : Option (Buffer α × Archive α) := do
  let (uninit, ar) ← getFlag ar
  let (nnz, ar) ← getSigned ar
  let (capacity, ar) ← getInt ar
  let (numInts, ar) ← getInt ar
  let (value, ar) ← takeArr getVal ⟨capacity, g.value⟩ capacity ar
  let (bits, ar) ← takeArr getWord ⟨numInts, g.bits⟩ numInts ar
  let (cdata, ar) ← takeArr getVal ⟨capacity, g.cdata⟩ capacity ar
  let (cidx, ar) ← takeArr getInt ⟨capacity, g.cidx⟩ capacity ar
  let (sdata, ar) ← takeList (fun _ => takeList (fun _ => takeRec)) ar
  some ({ uninit := uninit, nnz := nnz, value := value, bits := bits, cdata := cdata, cidx := cidx, sdata := sdata }, ar)

/-- Saving a pointer to a buffer that is not null, /repo/include/GMDP/vectors/DenseSegment.h:446, 450-451. -/
def putBuffer (b : Buffer α) (ar : Archive α) : Option (Archive α) := b.save (ar ++ [.object])

/-- Loading a pointer to a buffer, /repo/include/GMDP/vectors/DenseSegment.h:463, 471-472.  A null pointer is never
written; the model does not go on if it reads one. -/
def takeBuffer (g : Fresh α) : Archive α → Option (Buffer α × Archive α)
  | .object :: ar => Buffer.load g ar
  | _ => none

/-- `DenseSegment::save`, /repo/include/GMDP/vectors/DenseSegment.h:437-452. -/
def Segment.archive (s : Segment α) (ar : Archive α) : Option (Archive α) := do
  let ar := ar ++ [.flag s.props.isNone, .int s.capacity, .int s.numInts]
  let ar ← match s.props with
    | some b => putBuffer b ar
    | none => some ar
  let ar ← putList putBuffer s.received ar
  putList putBuffer s.pool ar

/-- `DenseSegment::load`, /repo/include/GMDP/vectors/DenseSegment.h:454-473; `g 0 0`, `g 1 i`, `g 2 i`: the memory found for
`properties`, `received[i]`, `uninitialized[i]`. -/
def Segment.restore (g : Nat → Nat → Fresh α) (ar : Archive α) : Option (Segment α × Archive α) := do
  let (isNull, ar) ← getFlag ar
  let (capacity, ar) ← getInt ar
  let (numInts, ar) ← getInt ar
  let (props, ar) ← if isNull then some (none, ar) else (takeBuffer (g 0 0) ar).map (fun r => (some r.1, r.2))
  let (received, ar) ← takeList (fun i => takeBuffer (g 1 i)) ar
  let (pool, ar) ← takeList (fun i => takeBuffer (g 2 i)) ar
  some ({ capacity := capacity, numInts := numInts, props := props, received := received, pool := pool }, ar)

/-- Saving a pointer to a segment, /repo/include/GMDP/vectors/SpVec.h:66. -/
def putSegment (s : Segment α) (ar : Archive α) : Option (Archive α) := s.archive (ar ++ [.object])

/-- Loading a pointer to a segment, /repo/include/GMDP/vectors/SpVec.h:66. -/
def takeSegment (g : Nat → Nat → Fresh α) : Archive α → Option (Segment α × Archive α)
  | .object :: ar => Segment.restore g ar
  | _ => none

/-- `SpVec::serialize` of an output archive on one rank, /repo/include/GMDP/vectors/SpVec.h:56-67.  `nodeIds` and `start_id`
are as the constructor made them (lines 83-89). -/
def SpVec.archive (v : SpVec α) (ar : Archive α) : Option (Archive α) := do
  let ar := ar ++ [.int v.nseg, .int v.n, .int v.nseg, .int v.nrank, .int v.myrank]
  let ids ← (List.range v.nseg).mapM (segOwner v.nrank)
  let ar ← putList putInt ids ar
  let ar ← putList putInt (startIds v.n v.nseg) ar
  let segs ← (List.range v.nseg).mapM v.segs.read
  putList putSegment segs ar

/-- `SpVec::serialize` of an input archive into a default-constructed vector, /repo/include/GMDP/vectors/SpVec.h:56-69.
`SpVec` has no components for `num_tiles_x`, `nodeIds`, `start_id`: the model only goes on when they are those that follow
from the others. -/
def SpVec.restore (g : Nat → Nat → Nat → Fresh α) (ar : Archive α) : Option (SpVec α × Archive α) := do
  let (nseg, ar) ← getInt ar
  let (n, ar) ← getInt ar
  let (tiles, ar) ← getInt ar
  let (nrank, ar) ← getInt ar
  let (myrank, ar) ← getInt ar
  let (ids, ar) ← takeList (fun _ => getInt) ar
  let (starts, ar) ← takeList (fun _ => getInt) ar
  let (segs, ar) ← takeList (fun j => takeSegment (g j)) ar
  if tiles ≠ nseg ∨ (List.range nseg).mapM (segOwner nrank) ≠ some ids ∨ starts ≠ startIds n nseg then none else
  some ({ n := n, nseg := nseg, nrank := nrank, myrank := myrank,
          segs := ⟨segs.length, fun j => (segs[j]?).getD (Segment.new 0)⟩ }, ar)

/-- Every rank saves its part of the vector to an archive of its own and loads it into a new vector,
/repo/test/test_vector_serialization.cpp:55-66.  The loaded vector must be the whole archive's content. -/
def DVec.throughArchive (g : Nat → Nat → Nat → Nat → Fresh α) (d : DVec α) : Option (DVec α) :=
  eachRank d (fun r v => do
    let ar ← v.archive []
    let (v', rest) ← SpVec.restore (g r) ar
    if rest.isEmpty then some v' else none)

end GraphMat

import Verif.Model.Compress
import Verif.Model.CInt
import Verif.Model.Tile

/-!
# The counts of MPI transfers

The second parameter of `MPI_Isend` and `MPI_Irecv` is an `int`.  The code passes numbers of bytes or elements of type
`size_t`, `uint64_t` or `unsigned long`, which are converted.  The other models of transfers (`Model/Compress.lean`,
`Model/SpMat.lean`, `Model/SaveVec.lean`) move everything; here it is as much as the converted count says.
-/
namespace GraphMat

variable {α : Type}

/-- The conversion of a `size_t` to the `int` parameter `count`, e.g. /repo/include/GMDP/vectors/DenseSegment.h:670: modulo
2^32 (implementation-defined until C++20, all compilers of the Makefile do this). -/
def mpiCount (n : Nat) : Int := (BitVec.ofNat 32 n).toInt

/-- Sender and receiver pass `n * size` as count for an array of `n` elements of `size` units
(/repo/include/GMDP/vectors/DenseSegment.h:670 with 714, /repo/include/GMDP/vectors/SpVec.h:207 with 222: bytes;
/repo/include/GMDP/matrices/SpMat.h:199 with 205, /repo/include/GMDP/utils/edgelist_transformation.h:202 with 208: whole
edges, `size = 1`).  A negative count is an error, and the default error handler of MPI ends the program (`none`).  Otherwise
the first `count` units replace those of the receiver; `mix k new old` is an element of which only the first `k` units are
replaced.  `none` also if the count exceeds one of the arrays. -/
def mpiMove (size n : Nat) (mix : Nat → α → α → α) (src dst : Arr α) : Option (Arr α) :=
  let c := mpiCount (n * size)
  if c < 0 then none
  else if c.toNat ≤ src.size * size ∧ c.toNat ≤ dst.size * size then
    some ⟨dst.size, fun i =>
      if (i + 1) * size ≤ c.toNat then src.get i
      else if i * size < c.toNat then mix (c.toNat - i * size) (src.get i) (dst.get i)
      else dst.get i⟩
  else none

/-- How the units of half transferred elements combine (/repo/include/GMDP/vectors/DenseSegment.h:670-695: elements of type
`T`, of `compressed_indices` and of `bit_vector`). -/
structure Mixes (α : Type) where
  /-- `T` -/
  val : Nat → α → α → α
  /-- `int` -/
  idx : Nat → Nat → Nat → Nat
  /-- words of the bit vector -/
  word : Nat → Word → Word → Word

/-- `recv_nnz`, `send_segment` and `recv_segment` for plain types of `size` bytes,
/repo/include/GMDP/vectors/DenseSegment.h:659-696, 702-746, 768-772, with the counts that MPI sees.  Sender and receiver make
the same decision because the receiver has got `nnz` before; `sizeof(int)` is 4. -/
def Segment.pass (size : Nat) (mix : Mixes α) (g : Fresh α) (s r : Segment α) : Option (Segment α) := do
  let b ← s.props
  let r := r.alloc g
  let p ← r.props
  match shouldCompress false s.capacity b.nnz with
  | .compressed => do
    let n ← natIdx b.nnz
    let cd ← mpiMove size n mix.val b.cdata p.cdata
    let ci ← mpiMove 4 n mix.idx b.cidx p.cidx
    some { r with props := some { p with nnz := b.nnz, cdata := cd, cidx := ci, uninit := false } }
  | .none => do
    let v ← mpiMove size s.capacity mix.val b.value p.value
    let w ← mpiMove 4 s.numInts mix.word b.bits p.bits
    some { r with props := some { p with nnz := b.nnz, value := v, bits := w, uninit := false } }
  | .serialized => none

/-- One transfer of a segment, /repo/include/GMDP/multinode/spmspv.h:60-116: `compress`, sending and receiving, `decompress`;
`ts`, `tr` are the threads of sender and receiver. -/
def Segment.passAll (size : Nat) (mix : Mixes α) (ts tr : Nat) (gs gr : Fresh α) (s r : Segment α) : Option (Segment α) := do
  let s ← s.compress false ts gs
  let r ← s.pass size mix gr r
  r.decompress false tr

/-- The bytes of serialized segments (`serialized_data`), /repo/include/GMDP/vectors/DenseSegment.h:682 with 727: `size` is 1. -/
def passBytes (src dst : Arr (BitVec 8)) : Option (Arr (BitVec 8)) := mpiMove 1 src.size (fun _ x _ => x) src dst

/-- The edges that one rank sends to another in `SpVec::ingestEdgelist`, /repo/include/GMDP/vectors/SpVec.h:207-208 with
222-225; `size` is `sizeof(edge_t<T>)`, `dst` the part of `final_edge_list`. -/
def passVecEdges {E : Type} (size : Nat) (mix : Nat → Edge E → Edge E → Edge E) (src dst : Arr (Edge E)) : Option (Arr (Edge E)) :=
  mpiMove size src.size mix src dst

/-- The edges that one rank sends to another in `SpMat::ingestEdgelist` and `shuffle_edges`,
/repo/include/GMDP/matrices/SpMat.h:199-207, /repo/include/GMDP/utils/edgelist_transformation.h:202-210: the units are
elements of an MPI datatype for `edge_t<T>`. -/
def passMatEdges {E : Type} (src dst : Arr (Edge E)) : Option (Arr (Edge E)) := mpiMove 1 src.size (fun _ x _ => x) src dst

end GraphMat

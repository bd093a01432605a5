import Verif.Model.Bits

/-!
# Vector segments

Models /repo/include/GMDP/vectors/DenseSegment.h: the class `buffer<T>` (lines 70-421) and the
class `DenseSegment<T>` (lines 423-831), except for the raw `MPI_*` calls (see `Model/Dist`) and
the destructor (memory management).  Failed assertions, null dereferences and out-of-bounds
accesses are `none`.
-/
namespace GraphMat

variable {α : Type}

/-- `buffer<T>`, /repo/include/GMDP/vectors/DenseSegment.h:70-87.  Simplifications: the members
`capacity` and `num_ints` are the sizes of `value` and `bits` (they are set once, lines 182-188);
`serialized_data` with its two scan arrays (lines 83-86) is the list of partitions, each a list of
decoded (index, value) records in archive order (boost's binary archives are trusted to be
invertible on single values).  `compressed_indices` only ever holds indices that `compress` wrote,
so its element type is `Nat`. -/
structure Buffer (α : Type) where
  /-- `uninitialized` -/
  uninit : Bool
  /-- `nnz` -/
  nnz : Int
  /-- `value` -/
  value : Arr α
  /-- `bit_vector` -/
  bits : Arr Word
  /-- `compressed_data` -/
  cdata : Arr α
  /-- `compressed_indices` -/
  cidx : Arr Nat
  /-- `serialized_data`, decoded per partition -/
  sdata : List (List (Nat × α))

/-- Indeterminate contents of a newly allocated `buffer<T>`: `new T[..]`, `new int[..]` and the
never initialised `nnz`, /repo/include/GMDP/vectors/DenseSegment.h:181-197. -/
structure Fresh (α : Type) where
  /-- contents of the uninitialised `nnz` -/
  nnz : Int
  /-- contents of `new T[capacity]` -/
  value : Nat → α
  /-- contents of `new int[num_ints]` -/
  bits : Nat → Word
  /-- contents of `compressed_data` -/
  cdata : Nat → α
  /-- contents of `compressed_indices` -/
  cidx : Nat → Nat

/-- `buffer(int _capacity, int _num_ints)`,
/repo/include/GMDP/vectors/DenseSegment.h:181-197. -/
def Buffer.new (g : Fresh α) (capacity numInts : Nat) : Buffer α :=
  { uninit := true
    nnz := g.nnz
    value := ⟨capacity, g.value⟩
    bits := ⟨numInts, g.bits⟩
    cdata := ⟨capacity, g.cdata⟩
    cidx := ⟨capacity, g.cidx⟩
    sdata := [] }

/-- `compute_nnz(int start, int finish)`,
/repo/include/GMDP/vectors/DenseSegment.h:219-228.  The OpenMP `reduction(+)` over `int` is the
sum (addition of counts is order independent and bounded by the capacity). -/
def Buffer.computeNnzRange (b : Buffer α) (start finish : Nat) : Option Nat :=
  forLoop start finish 0 (fun ii len => do
    let w ← b.bits.read ii
    some (len + popcnt w))

/-- `compute_nnz()`, /repo/include/GMDP/vectors/DenseSegment.h:208-217. -/
def Buffer.computeNnz (b : Buffer α) : Option Nat := b.computeNnzRange 0 b.bits.size

/-- `DenseSegment<T>`, /repo/include/GMDP/vectors/DenseSegment.h:423-434.  `received` and `pool`
(the member `uninitialized`) are the buffer lists, last element = `back()`.  The metadata members
`received_md`/`queued_md` are the messages of `Model/Dist`. -/
structure Segment (α : Type) where
  /-- `capacity` -/
  capacity : Nat
  /-- `num_ints` -/
  numInts : Nat
  /-- `properties` (`none` = NULL) -/
  props : Option (Buffer α)
  /-- `received` -/
  received : List (Buffer α)
  /-- `uninitialized` -/
  pool : List (Buffer α)

/-- `DenseSegment(int n)`, /repo/include/GMDP/vectors/DenseSegment.h:476-480
(`sizeof(int) * 8 = 32`). -/
def Segment.new (n : Nat) : Segment α :=
  { capacity := n, numInts := (n + 32 - 1) / 32, props := none, received := [], pool := [] }

/-- `idx - 1` (or any `int`) used as an array index; negative = out of bounds.
/repo/include/GMDP/vectors/DenseSegment.h:604. -/
def natIdx (i : Int) : Option Nat := if 0 ≤ i then some i.toNat else none

/-- `alloc()`, /repo/include/GMDP/vectors/DenseSegment.h:578-583. -/
def Segment.alloc (g : Fresh α) (s : Segment α) : Segment α :=
  match s.props with
  | none => { s with props := some (Buffer.new g s.capacity s.numInts) }
  | some _ => s

/-- `initialize()`, /repo/include/GMDP/vectors/DenseSegment.h:585-593. -/
def Segment.initialize (s : Segment α) : Option (Segment α) := do
  let b ← s.props
  if b.uninit then
    let bits ← memsetZero s.numInts b.bits
    some { s with props := some { b with bits := bits, nnz := 0, uninit := false } }
  else
    some { s with props := some { b with uninit := false } }

/-- `set(int idx, T val)` (one-based), /repo/include/GMDP/vectors/DenseSegment.h:600-607. -/
def Segment.set (g : Fresh α) (idx : Int) (val : α) (s : Segment α) : Option (Segment α) := do
  let s ← (s.alloc g).initialize
  let b ← s.props
  let i ← natIdx (idx - 1)
  let bit ← getBitvector i b.bits
  let nnz := if !bit then b.nnz + 1 else b.nnz
  let value ← b.value.write i val
  let bits ← setBitvector i b.bits
  some { s with props := some { b with nnz := nnz, value := value, bits := bits, uninit := false } }

/-- `unset(int idx)` (one-based), /repo/include/GMDP/vectors/DenseSegment.h:609-615. -/
def Segment.unset (g : Fresh α) (idx : Int) (s : Segment α) : Option (Segment α) := do
  let s ← (s.alloc g).initialize
  let b ← s.props
  let i ← natIdx (idx - 1)
  let bit ← getBitvector i b.bits
  let nnz := if bit then b.nnz - 1 else b.nnz
  let bits ← clearBitvector i b.bits
  some { s with props := some { b with nnz := nnz, bits := bits, uninit := false } }

/-- `setAll(T val)`, /repo/include/GMDP/vectors/DenseSegment.h:617-640.  The two OpenMP loops
write disjoint elements and are run in index order. -/
def Segment.setAll (g : Fresh α) (val : α) (s : Segment α) : Option (Segment α) := do
  let s := s.alloc g
  let b ← s.props
  let b := { b with uninit := false }
  if s.numInts = 0 then
    some { s with props := some b }
  else
    let bits ← b.bits.write (s.numInts - 1) 0#32
    let bits ← forLoop 0 (s.numInts - 1) bits (fun i bv => bv.write i 0xFFFFFFFF#32)
    let bits ← forLoop (max 0 (s.capacity - 32)) s.capacity bits (fun idx bv => setBitvector idx bv)
    let value ← forLoop 0 s.capacity b.value (fun i a => a.write i val)
    some { s with props := some { b with bits := bits, nnz := (s.capacity : Int), value := value } }

/-- `get(const int idx)` (one-based), /repo/include/GMDP/vectors/DenseSegment.h:642-646.  Both
assertions are active in the default build. -/
def Segment.get (idx : Int) (s : Segment α) : Option α := do
  let b ← s.props
  if b.uninit then none else
  let i ← natIdx (idx - 1)
  b.value.read i

/-- `compute_nnz()`, /repo/include/GMDP/vectors/DenseSegment.h:518-523. -/
def Segment.computeNnz (s : Segment α) : Option Nat :=
  match s.props with
  | none => some 0
  | some b => if b.uninit then some 0 else b.computeNnz

/-- `set_uninitialized_received()`,
/repo/include/GMDP/vectors/DenseSegment.h:559-567. -/
def Segment.setUninitializedReceived (s : Segment α) : Segment α :=
  { s with
    pool := s.pool ++ s.received.map (fun b => { b with uninit := true })
    received := [] }

/-- `set_uninitialized()`, /repo/include/GMDP/vectors/DenseSegment.h:569-576. -/
def Segment.setUninitialized (s : Segment α) : Segment α :=
  let s := s.setUninitializedReceived
  { s with props := s.props.map (fun b => { b with uninit := true, nnz := 0 }) }

/-- An edge `edge_t<T>` of an edge list, /repo/include/GMDP/utils/edgelist.h:38-50.  Ids are
`int`s. -/
structure Edge (α : Type) where
  /-- `src` (one-based) -/
  src : Int
  /-- `dst` (one-based) -/
  dst : Int
  /-- `val` -/
  val : α
deriving DecidableEq

/-- `ingestEdges(edges, _m, _nnz, row_start)`,
/repo/include/GMDP/vectors/DenseSegment.h:484-496; `edges` holds exactly `_nnz` elements. -/
def Segment.ingestEdges (g : Fresh α) (edges : List (Edge α)) (rowStart : Int) (s : Segment α) :
    Option (Segment α) := do
  let s ← (s.alloc g).initialize
  let b ← s.props
  let (value, bits) ← edges.foldlM (fun (st : Arr α × Arr Word) e => do
    let src ← natIdx (e.src - rowStart - 1)
    let bits ← setBitvector src st.2
    let value ← st.1.write src e.val
    some (value, bits)) (b.value, b.bits)
  let b := { b with value := value, bits := bits, nnz := (edges.length : Int), uninit := false }
  some { s with props := some b }

/-- `get_edges(edges, start_nz)`, /repo/include/GMDP/vectors/DenseSegment.h:793-806.  The entries
written to the output array, in order.  `properties` is dereferenced in the loop only. -/
def Segment.getEdges (startNz : Nat) (s : Segment α) : Option (List (Edge α)) :=
  forLoop 0 s.capacity [] (fun i acc => do
    let b ← s.props
    let bit ← getBitvector i b.bits
    if bit then
      let v ← b.value.read i
      some (acc ++ [⟨(startNz : Int) + i + 1, 1, v⟩])
    else
      some acc)

/-- `save(fname, start_id, _m, includeHeader)`,
/repo/include/GMDP/vectors/DenseSegment.h:774-791.  Result: the optional header
(`_m`, `nnz`) and the lines `i + start_id`, `value`. -/
def Segment.save (startId m : Nat) (includeHeader : Bool) (s : Segment α) :
    Option (Option (Nat × Nat) × List (Nat × α)) := do
  let nnz ← s.computeNnz
  let lines ← forLoop 0 s.capacity [] (fun i acc => do
    let b ← s.props
    let bit ← getBitvector i b.bits
    if bit then
      let v ← b.value.read i
      some (acc ++ [(i + startId, v)])
    else
      some acc)
  some (if includeHeader then some (m, nnz) else none, lines)

end GraphMat

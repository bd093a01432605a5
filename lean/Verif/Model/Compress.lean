import Verif.Model.Segment

/-!
# Compression, transfer and merging of segments

Models `compress`/`decompress` of /repo/include/GMDP/vectors/DenseSegment.h:232-409, 532-557, the
data moved by `send_segment`/`recv_buffer` (lines 648-766), `union_received` (lines 808-830) and
/repo/include/GMDP/singlenode/unionreduce.h.  The parallel loops over partitions are run in order of
the partition number (see `Props/Schedule.lean` for the independence of the schedule).
`threads` is `omp_get_max_threads()`.
-/
namespace GraphMat

variable {α : Type}

/-- `compression_decision`, /repo/include/GMDP/vectors/DenseSegment.h:47-52. -/
inductive Decision where
  | none
  | compressed
  | serialized
deriving DecidableEq

/-- `should_compress(int test_nnz)`, /repo/include/GMDP/vectors/DenseSegment.h:532-538, with
`get_compression_threshold() = 0.5` (/repo/include/GMDP/gmdp.h:76): `test_nnz > 0.5 * capacity` is
exact in `double` and equivalent to `2 * test_nnz > capacity`.  `ser` says that `T` derives from
`Serializable`. -/
def shouldCompress (ser : Bool) (capacity : Nat) (nnz : Int) : Decision :=
  if ser then .serialized
  else if 2 * nnz > (capacity : Int) then .none
  else .compressed

/-- `start_i` of a partition: `i_per_partition * p` with
`i_per_partition = (num_ints + npartitions - 1) / npartitions`,
/repo/include/GMDP/vectors/DenseSegment.h:370-371. -/
def partLo (numInts np p : Nat) : Nat := (numInts + np - 1) / np * p

/-- `end_i` of a partition, /repo/include/GMDP/vectors/DenseSegment.h:372-373. -/
def partHi (numInts np p : Nat) : Nat :=
  let e := (numInts + np - 1) / np * (p + 1)
  if e > numInts then numInts else e

/-- The exclusive prefix sums `partition_nnz_scan`, /repo/include/GMDP/vectors/DenseSegment.h:376-382
(`[0, a0, a0+a1, ...]`). -/
def scanSums (l : List Nat) : List Nat := l.foldl (fun acc a => acc ++ [acc.getLastD 0 + a]) [0]

/-- `buffer<T>::compress()` for plain types, /repo/include/GMDP/vectors/DenseSegment.h:362-409.
The array `partition_nnz` is a list (it is filled completely before it is read). -/
def Buffer.compress (threads : Nat) (b : Buffer α) : Option (Buffer α) := do
  let np := threads * 16
  if np = 0 then none else
  let pnnz : List Nat ← (List.range np).mapM (fun p =>
    b.computeNnzRange (partLo b.bits.size np p) (partHi b.bits.size np p))
  let scan := scanSums pnnz
  let nnz : Nat := pnnz.foldl (· + ·) 0
  let (cdata, cidx) ← forLoop 0 np (b.cdata, b.cidx) (fun p (st : Arr α × Arr Nat) => do
    let nzcnt ← scan[p]?
    let r ← forBits b.bits (partLo b.bits.size np p) (partHi b.bits.size np p) (st.1, st.2, nzcnt)
      (fun i (st : Arr α × Arr Nat × Nat) => do
        let v ← b.value.read i
        let cd ← st.1.write st.2.2 v
        let ci ← st.2.1.write st.2.2 i
        some (cd, ci, st.2.2 + 1))
    some (r.1, r.2.1))
  some { b with nnz := (nnz : Int), cdata := cdata, cidx := cidx }

/-- `buffer<T>::compress()` for `Serializable` types,
/repo/include/GMDP/vectors/DenseSegment.h:301-358: one archive per partition.  `nnz` is not
touched. -/
def Buffer.compressSer (threads : Nat) (b : Buffer α) : Option (Buffer α) := do
  let np := threads * 16
  if np = 0 then none else
  let parts ← (List.range np).mapM (fun p =>
    forBits b.bits (partLo b.bits.size np p) (partHi b.bits.size np p) ([] : List (Nat × α))
      (fun i acc => do
        let v ← b.value.read i
        some (acc ++ [(i, v)])))
  some { b with sdata := parts }

/-- `while ((mystart < nnz) && compressed_indices[mystart] / 32 == start32) mystart++;`
(/repo/include/GMDP/vectors/DenseSegment.h:278); `fuel = nnz - mystart` iterations are enough. -/
def skipWord (cidx : Arr Nat) (w : Nat) : Nat → Nat → Option Nat
  | 0, pos => some pos
  | fuel + 1, pos => do
    let c ← cidx.read pos
    if c / 32 = w then skipWord cidx w fuel (pos + 1) else some pos

/-- One iteration of the boundary loop of `decompress`: the new value of `mystart`,
/repo/include/GMDP/vectors/DenseSegment.h:273-279. -/
def nextBound (cidx : Arr Nat) (nnz per mystart : Nat) : Option Nat :=
  let m := mystart + per
  let m := if m > nnz then nnz else m
  if m < nnz then do
    let c ← cidx.read m
    skipWord cidx (c / 32) (nnz - m) m
  else some m

/-- The partition boundaries of `decompress`: the intervals (`start_nnzs`, `end_nnzs`),
/repo/include/GMDP/vectors/DenseSegment.h:264-281. -/
def decompressBounds (cidx : Arr Nat) (nnz per : Nat) : Nat → Nat → Option (List (Nat × Nat))
  | 0, _ => some []
  | k + 1, mystart => do
    let m ← nextBound cidx nnz per mystart
    let rest ← decompressBounds cidx nnz per k m
    some ((mystart, m) :: rest)

/-- One element of the scatter loop: `set_bitvector(idx, bit_vector); value[idx] = x`,
/repo/include/GMDP/vectors/DenseSegment.h:290-292. -/
def scatter (idx : Nat) (x : α) (st : Arr α × Arr Word) : Option (Arr α × Arr Word) := do
  let bits ← setBitvector idx st.2
  let value ← st.1.write idx x
  some (value, bits)

/-- `buffer<T>::decompress()` for plain types,
/repo/include/GMDP/vectors/DenseSegment.h:260-297. -/
def Buffer.decompress (threads : Nat) (b : Buffer α) : Option (Buffer α) := do
  let np := threads
  if np = 0 then none else
  let nnz ← natIdx b.nnz
  let bits ← memsetZero b.bits.size b.bits
  let per := (nnz + np - 1) / np
  let per := (per + 31) / 32 * 32
  let bounds ← decompressBounds b.cidx nnz per np 0
  let (value, bits) ← bounds.foldlM (fun st (se : Nat × Nat) =>
    forLoop se.1 se.2 st (fun i st => do
      let idx ← b.cidx.read i
      let x ← b.cdata.read i
      scatter idx x st)) (b.value, bits)
  some { b with bits := bits, value := value }

/-- `buffer<T>::decompress()` for `Serializable` types,
/repo/include/GMDP/vectors/DenseSegment.h:232-256. -/
def Buffer.decompressSer (b : Buffer α) : Option (Buffer α) := do
  let bits ← memsetZero b.bits.size b.bits
  let (value, bits) ← b.sdata.foldlM (fun st (part : List (Nat × α)) =>
    part.foldlM (fun st (e : Nat × α) => scatter e.1 e.2 st) st) (b.value, bits)
  some { b with bits := bits, value := value }

/-- `DenseSegment<T>::compress()`, /repo/include/GMDP/vectors/DenseSegment.h:539-548. -/
def Segment.compress (ser : Bool) (threads : Nat) (g : Fresh α) (s : Segment α) :
    Option (Segment α) := do
  let s ← (s.alloc g).initialize
  let b ← s.props
  match shouldCompress ser s.capacity b.nnz with
  | .compressed => do
    let b ← b.compress threads
    some { s with props := some b }
  | .serialized => do
    let b ← b.compressSer threads
    some { s with props := some b }
  | .none => some s

/-- `DenseSegment<T>::decompress()`, /repo/include/GMDP/vectors/DenseSegment.h:549-557. -/
def Segment.decompress (ser : Bool) (threads : Nat) (s : Segment α) : Option (Segment α) := do
  let b ← s.props
  match shouldCompress ser s.capacity b.nnz with
  | .compressed => do
    let b ← b.decompress threads
    some { s with props := some b }
  | .serialized => do
    let b ← b.decompressSer
    some { s with props := some b }
  | .none => some s

/-- What travels between two ranks for one segment: the metadata of `send_nnz`
(/repo/include/GMDP/vectors/DenseSegment.h:648-651) and the data of `send_segment` (lines 665-700). -/
inductive Payload (α : Type) where
  /-- `compressed_data`, `compressed_indices` -/
  | compressed (data : List α) (idx : List Nat)
  /-- `serialized_data` with its two scan arrays -/
  | serialized (parts : List (List (Nat × α)))
  /-- `value`, `bit_vector` -/
  | raw (value : List α) (bits : List Word)

/-- A transferred segment, /repo/include/GMDP/vectors/DenseSegment.h:648-700. -/
structure Msg (α : Type) where
  /-- `md.nnz` -/
  nnz : Int
  /-- the data -/
  payload : Payload α

/-- The first `k` elements of an array handed to `MPI_Isend`
(/repo/include/GMDP/vectors/DenseSegment.h:670); `none` = the send reads beyond the array. -/
def Arr.prefix (a : Arr α) (k : Nat) : Option (List α) := (List.range k).mapM a.read

/-- A received message of known length stored at the beginning of an array by `MPI_Irecv`
(/repo/include/GMDP/vectors/DenseSegment.h:714); `none` = it does not fit. -/
def Arr.store (a : Arr α) (l : List α) : Option (Arr α) :=
  (l.zipIdx).foldlM (fun a (x : α × Nat) => a.write x.2 x.1) a

/-- `send_nnz` and `send_segment`, /repo/include/GMDP/vectors/DenseSegment.h:648-700. -/
def Segment.send (ser : Bool) (s : Segment α) : Option (Msg α) := do
  let b ← s.props
  match shouldCompress ser s.capacity b.nnz with
  | .compressed => do
    let n ← natIdx b.nnz
    let d ← b.cdata.prefix n
    let i ← b.cidx.prefix n
    some ⟨b.nnz, .compressed d i⟩
  | .serialized => some ⟨b.nnz, .serialized b.sdata⟩
  | .none => do
    let v ← b.value.prefix s.capacity
    let w ← b.bits.prefix s.numInts
    some ⟨b.nnz, .raw v w⟩

/-- `recv_buffer(md, p, ...)`, /repo/include/GMDP/vectors/DenseSegment.h:702-746.  The receiver
decides from `md.nnz` which arrays it receives into; a message of another kind or length is `none`
(it would be truncated or leave the arrays partly filled).  `threads` is the thread count with which
`p` was allocated: its two scan arrays have `threads * 16 + 1` elements (lines 192-197). -/
def Buffer.recv (ser : Bool) (capacity numInts threads : Nat) (m : Msg α) (p : Buffer α) :
    Option (Buffer α) :=
  match shouldCompress ser capacity m.nnz, m.payload with
  | .compressed, .compressed d i =>
    if (d.length : Int) = m.nnz ∧ (i.length : Int) = m.nnz then do
      let cd ← p.cdata.store d
      let ci ← p.cidx.store i
      some { p with nnz := m.nnz, cdata := cd, cidx := ci, uninit := false }
    else none
  | .serialized, .serialized parts =>
    if parts.length ≤ threads * 16 then
      some { p with nnz := m.nnz, sdata := parts, uninit := false }
    else none
  | .none, .raw v w =>
    if v.length = capacity ∧ w.length = numInts then do
      let v ← p.value.store v
      let w ← p.bits.store w
      some { p with nnz := m.nnz, value := v, bits := w, uninit := false }
    else none
  | _, _ => none

/-- `recv_nnz` (which allocates) followed by `recv_segment`,
/repo/include/GMDP/vectors/DenseSegment.h:659-664, 768-772. -/
def Segment.recv (ser : Bool) (threads : Nat) (g : Fresh α) (m : Msg α) (s : Segment α) :
    Option (Segment α) := do
  let s := s.alloc g
  let b ← s.props
  let b ← b.recv ser s.capacity s.numInts threads m
  some { s with props := some b }

/-- `recv_nnz_queue` followed by `recv_segment_queue`: the message goes into a recycled or new
buffer appended to `received`, /repo/include/GMDP/vectors/DenseSegment.h:652-658, 752-766. -/
def Segment.recvQueue (ser : Bool) (threads : Nat) (g : Fresh α) (m : Msg α) (s : Segment α) :
    Option (Segment α) := do
  let (b, pool) := match s.pool.getLast? with
    | some b => (b, s.pool.dropLast)
    | none => (Buffer.new g s.capacity s.numInts, s.pool)
  let b ← b.recv ser s.capacity s.numInts threads m
  some { s with received := s.received ++ [b], pool := pool }

/-- `union_dense(v1, bv1, nnz, num_ints, v2, bv2, v3 = v1, bv3 = bv1, op_fp, vsp)`,
/repo/include/GMDP/singlenode/unionreduce.h:38-66, as called with output = first input.  `add a b`
is the result of `op_fp(a, b, &c)`. -/
def unionDense (add : α → α → α) (capacity numInts : Nat) (v1 : Arr α) (bv1 : Arr Word) (v2 : Arr α)
    (bv2 : Arr Word) : Option (Arr α × Arr Word) := do
  let v1 ← forLoop 0 capacity v1 (fun ii v1 => do
    let set1 ← getBitvector ii bv1
    let set2 ← getBitvector ii bv2
    if set1 && !set2 then do
      let x ← v1.read ii
      v1.write ii x
    else if !set1 && set2 then do
      let x ← v2.read ii
      v1.write ii x
    else if set1 && set2 then do
      let x ← v1.read ii
      let y ← v2.read ii
      v1.write ii (add x y)
    else some v1)
  let bits ← forLoop 0 numInts bv1 (fun i bv => do
    let x ← bv.read i
    let y ← bv2.read i
    bv.write i (x ||| y))
  some (v1, bits)

/-- `while((k < nnz) && (indices[k]/32 == indices[k-1]/32)) k++;`
(/repo/include/GMDP/singlenode/unionreduce.h:85, 87); `fuel = nnz - k`. -/
def adjustIdx (cidx : Arr Nat) : Nat → Nat → Option Nat
  | 0, k => some k
  | fuel + 1, k => do
    if k = 0 then none else
    let a ← cidx.read k
    let b ← cidx.read (k - 1)
    if a / 32 = b / 32 then adjustIdx cidx fuel (k + 1) else some k

/-- One element of the merge loop, /repo/include/GMDP/singlenode/unionreduce.h:89-104. -/
def mergeOne (add : α → α → α) (idx : Nat) (x : α) (st : Arr α × Arr Word) :
    Option (Arr α × Arr Word) := do
  let bit ← getBitvector idx st.2
  if bit then do
    let y ← st.1.read idx
    let v ← st.1.write idx (add y x)
    some (v, st.2)
  else do
    let bits ← setBitvector idx st.2
    let v ← st.1.write idx x
    some (v, bits)

/-- `union_compressed(v1, indices, nnz, capacity, num_ints, v2, bv2, op_fp, vsp)`,
/repo/include/GMDP/singlenode/unionreduce.h:68-106. -/
def unionCompressed (add : α → α → α) (threads : Nat) (cdata : Arr α) (cidx : Arr Nat) (nnz : Nat)
    (v2 : Arr α) (bv2 : Arr Word) : Option (Arr α × Arr Word) := do
  let np := threads * 16
  if np = 0 then none else
  forLoop 0 np (v2, bv2) (fun p st => do
    let per := (nnz + np - 1) / np
    let s := p * per
    let e := (p + 1) * per
    let e := if e > nnz then nnz else e
    let s ← if s > 0 then adjustIdx cidx (nnz - s) s else some s
    let e ← adjustIdx cidx (nnz - e) e
    forLoop s e st (fun i st => do
      let idx ← cidx.read i
      let x ← cdata.read i
      mergeOne add idx x st))

/-- The merge of one received buffer, the loop body of `union_received`,
/repo/include/GMDP/vectors/DenseSegment.h:812-828. -/
def unionOne (ser : Bool) (threads : Nat) (add : α → α → α) (capacity numInts : Nat)
    (r : Buffer α) (st : Arr α × Arr Word) : Option (Arr α × Arr Word) :=
  match shouldCompress ser capacity r.nnz with
  | .compressed => do
    let n ← natIdx r.nnz
    unionCompressed add threads r.cdata r.cidx n st.1 st.2
  | .serialized => do
    let r ← r.decompressSer
    unionDense add capacity numInts st.1 st.2 r.value r.bits
  | .none => unionDense add capacity numInts st.1 st.2 r.value r.bits

/-- `union_received(op_fp, vsp)`, /repo/include/GMDP/vectors/DenseSegment.h:808-830.  (The
`decompress` of serialized buffers also changes the received buffer itself, which nobody reads
afterwards; dropped.)  `nnz` is not updated. -/
def Segment.unionReceived (ser : Bool) (threads : Nat) (add : α → α → α) (g : Fresh α)
    (s : Segment α) : Option (Segment α) := do
  let s ← (s.alloc g).initialize
  let b ← s.props
  let st ← s.received.foldlM (fun st r => unionOne ser threads add s.capacity s.numInts r st)
    (b.value, b.bits)
  some { s with props := some { b with value := st.1, bits := st.2 } }

end GraphMat

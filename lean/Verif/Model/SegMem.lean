import Verif.Model.TileMem

/-!
# Memory of vectors

Which blocks the functions of `buffer`, `DenseSegment` and `SpVec` allocate, follow and release
(/repo/include/GMDP/vectors).  Contents are in `Model/Segment`, `Model/Compress`, `Model/SpVec`; here only pointers are kept, and
the sizes of the two arrays that are indexed by partition, because their size on the receiving side comes from elsewhere.
-/
namespace GraphMat

/-- `compression_decision`, /repo/include/GMDP/vectors/DenseSegment.h:47-52. -/
inductive MsgKind where
  /-- `COMPRESSED` -/
  | compressed
  /-- `SERIALIZED` -/
  | serialized
  /-- `NONE` -/
  | dense
deriving DecidableEq

/-- The pointers of a `buffer`, /repo/include/GMDP/vectors/DenseSegment.h:70-87. -/
structure BufMem where
  /-- `value` -/
  value : Ptr
  /-- `bit_vector` -/
  bits : Ptr
  /-- `compressed_data` -/
  cdata : Ptr
  /-- `compressed_indices` -/
  cidx : Ptr
  /-- `serialized_data` -/
  sdata : Ptr
  /-- `serialized_partition_nbytes_scan` -/
  nbytes : Ptr
  /-- `serialized_partition_nnz_scan` -/
  nnzs : Ptr
  /-- `serialized_npartitions` -/
  parts : Nat
  /-- the last index of the two arrays with one element per partition and one more -/
  room : Nat
  /-- what `should_compress` says for the received `nnz` -/
  kind : MsgKind

/-- `new buffer(capacity, num_ints)`, /repo/include/GMDP/vectors/DenseSegment.h:181-197; also `buffer()`, line 199. -/
def newBuf (threads : Nat) : HeapM (Ptr × BufMem) := do
  let p ← allocate .newObj
  let value ← allocate .newArr
  let bits ← allocate .newArr
  let cdata ← allocate .newArr
  let cidx ← allocate .newArr
  let sdata ← allocate .newArr
  let nbytes ← allocate .newArr
  let nnzs ← allocate .newArr
  pure (p, ⟨value, bits, cdata, cidx, sdata, nbytes, nnzs, threads * 16, threads * 16, .dense⟩)

/-- `delete` of a buffer with `~buffer`, /repo/include/GMDP/vectors/DenseSegment.h:411-420. -/
def deleteBuf (b : Ptr × BufMem) : HeapM Unit := do
  touch b.1
  release .newArr b.2.value
  release .newArr b.2.bits
  release .newArr b.2.cdata
  release .newArr b.2.cidx
  release .newArr b.2.nbytes
  release .newArr b.2.nnzs
  release .newArr b.2.sdata
  release .newObj b.1

/-- `buffer::load`, /repo/include/GMDP/vectors/DenseSegment.h:128-178: all arrays are released and allocated again, the arrays with
one element per partition with the number of partitions in the archive. -/
def BufMem.load (parts : Nat) (b : BufMem) : HeapM BufMem := do
  release .newArr b.value
  release .newArr b.bits
  release .newArr b.cdata
  release .newArr b.cidx
  release .newArr b.sdata
  release .newArr b.nbytes
  release .newArr b.nnzs
  let value ← allocate .newArr
  let bits ← allocate .newArr
  let cdata ← allocate .newArr
  let cidx ← allocate .newArr
  let sdata ← allocate .newArr
  let nbytes ← allocate .newArr
  let nnzs ← allocate .newArr
  pure ⟨value, bits, cdata, cidx, sdata, nbytes, nnzs, parts, parts, b.kind⟩

/-- A buffer pointer read from an archive (/repo/include/GMDP/vectors/DenseSegment.h:463, 471-472): boost makes a new buffer with the
constructor without arguments and loads it. -/
def loadBuf (threads parts : Nat) : HeapM (Ptr × BufMem) := do
  let b ← newBuf threads
  let c ← b.2.load parts
  pure (b.1, c)

/-- `alloc_serialized`, /repo/include/GMDP/vectors/DenseSegment.h:201-206. -/
def BufMem.allocSerialized (b : BufMem) : HeapM BufMem := do
  release .newArr b.sdata
  let sdata ← allocate .newArr
  pure { b with sdata := sdata }

/-- Access to the elements `0 ... parts` of the arrays with one element per partition and one more,
/repo/include/GMDP/vectors/DenseSegment.h:337-344. -/
def BufMem.scans (b : BufMem) : HeapM Unit := do
  touch b.nnzs
  touch b.nbytes
  if b.parts ≤ b.room then pure () else failure

/-- `buffer::compress` for types that extend `Serializable`, /repo/include/GMDP/vectors/DenseSegment.h:299-358. -/
def BufMem.compressSer (b : BufMem) : HeapM BufMem := do
  let pbytes ← allocate .newArr
  let pnnz ← allocate .newArr
  let sss ← allocate .newArr
  touch b.bits
  touch b.value
  b.scans
  let b ← b.allocSerialized
  touch b.sdata
  release .newArr pnnz
  release .newArr pbytes
  release .newArr sss
  pure b

/-- `buffer::compress` for other types, /repo/include/GMDP/vectors/DenseSegment.h:360-409. -/
def BufMem.compressPlain (b : BufMem) : HeapM Unit := do
  let pnnz ← allocate .newArr
  let scan ← allocate .newArr
  touch b.bits
  touch b.value
  touch b.cdata
  touch b.cidx
  release .newArr pnnz
  release .newArr scan

/-- `buffer::decompress` for types that extend `Serializable`, /repo/include/GMDP/vectors/DenseSegment.h:230-256. -/
def BufMem.decompressSer (b : BufMem) : HeapM Unit := do
  touch b.bits
  let sss ← allocate .newArr
  touch b.sdata
  b.scans
  touch b.value
  release .newArr sss

/-- `buffer::decompress` for other types, /repo/include/GMDP/vectors/DenseSegment.h:258-297. -/
def BufMem.decompressPlain (b : BufMem) : HeapM Unit := do
  touch b.bits
  let starts ← allocate .newArr
  let ends ← allocate .newArr
  touch b.cidx
  touch b.cdata
  touch b.value
  release .newArr starts
  release .newArr ends

/-- `recv_buffer`, /repo/include/GMDP/vectors/DenseSegment.h:702-746, for a message with `parts` partitions. -/
def BufMem.recv (kind : MsgKind) (parts : Nat) (b : BufMem) : HeapM BufMem := do
  let b := { b with parts := parts, kind := kind }
  match kind with
  | .compressed => do
    touch b.cdata
    touch b.cidx
    pure b
  | .serialized => do
    let b ← b.allocSerialized
    touch b.sdata
    b.scans
    pure b
  | .dense => do
    touch b.value
    touch b.bits
    pure b

/-- The pointers of a `DenseSegment`, /repo/include/GMDP/vectors/DenseSegment.h:423-434; of `queued_md` the numbers of partitions and
the kinds are kept. -/
structure SegMem where
  /-- `properties` -/
  props : Option (Ptr × BufMem)
  /-- `queued_md` -/
  queued : List (MsgKind × Nat)
  /-- `received` -/
  received : List (Ptr × BufMem)
  /-- `uninitialized` -/
  pool : List (Ptr × BufMem)

/-- `new DenseSegment(n)` and `new DenseSegment()`, /repo/include/GMDP/vectors/DenseSegment.h:476-482. -/
def newSeg : HeapM (Ptr × SegMem) := do
  let p ← allocate .newObj
  pure (p, ⟨none, [], [], []⟩)

/-- `delete` of a segment with `~DenseSegment`, /repo/include/GMDP/vectors/DenseSegment.h:498-516. -/
def deleteSeg (s : Ptr × SegMem) : HeapM Unit := do
  touch s.1
  match s.2.props with
  | none => pure ()
  | some b => deleteBuf b
  let _ ← s.2.received.mapM deleteBuf
  let _ ← s.2.pool.mapM deleteBuf
  release .newObj s.1

/-- `alloc`, /repo/include/GMDP/vectors/DenseSegment.h:578-583. -/
def SegMem.alloc (threads : Nat) (s : SegMem) : HeapM (SegMem × Ptr × BufMem) :=
  match s.props with
  | some b => pure (s, b)
  | none => do
    let b ← newBuf threads
    pure ({ s with props := some b }, b)

/-- `set`, `unset`, `setAll`, `ingestEdges`, /repo/include/GMDP/vectors/DenseSegment.h:484-496, 600-640: `alloc` and access to value and
bits. -/
def SegMem.write (threads : Nat) (s : SegMem) : HeapM SegMem := do
  let (s, b) ← s.alloc threads
  touch b.1
  touch b.2.bits
  touch b.2.value
  pure s

/-- `compute_nnz` and what is done only after it said that there are entries (`get_edges`),
/repo/include/GMDP/vectors/DenseSegment.h:518-523, 793-806. -/
def SegMem.read (s : SegMem) : HeapM Unit :=
  match s.props with
  | none => pure ()
  | some b => do
    touch b.1
    touch b.2.bits
    touch b.2.value

/-- `DenseSegment::compress`, /repo/include/GMDP/vectors/DenseSegment.h:539-548. -/
def SegMem.compress (threads : Nat) (kind : MsgKind) (s : SegMem) : HeapM SegMem := do
  let (s, b) ← s.alloc threads
  touch b.1
  match kind with
  | .compressed => do
    b.2.compressPlain
    pure s
  | .serialized => do
    let c ← b.2.compressSer
    pure { s with props := some (b.1, c) }
  | .dense => pure s

/-- `DenseSegment::decompress`, /repo/include/GMDP/vectors/DenseSegment.h:549-557. -/
def SegMem.decompress (kind : MsgKind) (s : SegMem) : HeapM Unit :=
  match s.props with
  | none => failure
  | some b => do
    touch b.1
    match kind with
    | .compressed => b.2.decompressPlain
    | .serialized => b.2.decompressSer
    | .dense => pure ()

/-- `send_nnz` and `send_segment`, /repo/include/GMDP/vectors/DenseSegment.h:648-651, 665-700: `properties` is followed without a
test. -/
def SegMem.send (kind : MsgKind) (s : SegMem) : HeapM Unit :=
  match s.props with
  | none => failure
  | some b => do
    touch b.1
    match kind with
    | .compressed => do
      touch b.2.cdata
      touch b.2.cidx
    | .serialized => do
      touch b.2.sdata
      b.2.scans
    | .dense => do
      touch b.2.value
      touch b.2.bits

/-- `recv_nnz`, /repo/include/GMDP/vectors/DenseSegment.h:659-664. -/
def SegMem.recvNnz (threads : Nat) (s : SegMem) : HeapM SegMem := do
  let (s, _) ← s.alloc threads
  pure s

/-- `recv_segment`, /repo/include/GMDP/vectors/DenseSegment.h:768-772. -/
def SegMem.recvSegment (kind : MsgKind) (parts : Nat) (s : SegMem) : HeapM SegMem :=
  match s.props with
  | none => failure
  | some b => do
    touch b.1
    let c ← b.2.recv kind parts
    pure { s with props := some (b.1, c) }

/-- `recv_nnz_queue`, /repo/include/GMDP/vectors/DenseSegment.h:652-658: the newest entry is in front. -/
def SegMem.recvNnzQueue (kind : MsgKind) (parts : Nat) (s : SegMem) : SegMem := { s with queued := (kind, parts) :: s.queued }

/-- `recv_segment_queue`, /repo/include/GMDP/vectors/DenseSegment.h:748-766: a buffer from the end of the pool, or a new one; the oldest
entry of the queue (`back` of an empty vector is undefined). -/
def SegMem.recvSegmentQueue (threads : Nat) (s : SegMem) : HeapM SegMem := do
  let (b, pool) ← (match s.pool.getLast? with
    | some b => pure (b, s.pool.dropLast)
    | none => do
      let b ← newBuf threads
      pure (b, []))
  match s.queued.getLast? with
  | none => failure
  | some md => do
    touch b.1
    let c ← b.2.recv md.1 md.2
    pure ⟨s.props, s.queued.dropLast, s.received ++ [(b.1, c)], pool⟩

/-- One round of the loop of `union_received`, /repo/include/GMDP/vectors/DenseSegment.h:812-829. -/
def unionBuf (mine : BufMem) (b : Ptr × BufMem) : HeapM Unit := do
  touch b.1
  match b.2.kind with
  | .compressed => do
    touch b.2.cdata
    touch b.2.cidx
    touch mine.value
    touch mine.bits
  | .serialized => do
    b.2.decompressSer
    touch b.2.value
    touch b.2.bits
    touch mine.value
    touch mine.bits
  | .dense => do
    touch b.2.value
    touch b.2.bits
    touch mine.value
    touch mine.bits

/-- `union_received`, /repo/include/GMDP/vectors/DenseSegment.h:808-830. -/
def SegMem.unionReceived (threads : Nat) (s : SegMem) : HeapM SegMem := do
  let (s, b) ← s.alloc threads
  touch b.1
  touch b.2.bits
  let _ ← s.received.mapM (unionBuf b.2)
  pure s

/-- `set_uninitialized_received`, /repo/include/GMDP/vectors/DenseSegment.h:559-567. -/
def SegMem.setUninitReceived (s : SegMem) : HeapM SegMem := do
  let _ ← s.received.mapM (fun b => touch b.1)
  pure { s with received := [], pool := s.pool ++ s.received }

/-- `set_uninitialized`, /repo/include/GMDP/vectors/DenseSegment.h:569-576. -/
def SegMem.setUninit (s : SegMem) : HeapM SegMem := do
  let s ← s.setUninitReceived
  match s.props with
  | none => pure s
  | some b => do
    touch b.1
    pure s

/-- A segment pointer read from an archive, /repo/include/GMDP/vectors/DenseSegment.h:454-473 and
/repo/include/GMDP/vectors/SpVec.h:66: boost makes a new segment with the constructor without arguments and loads it. `md` is
what the archive has: the number of partitions of each buffer, and the queue. -/
def loadSeg (threads : Nat) (props : Option Nat) (queued : List (MsgKind × Nat)) (received pool : List Nat) :
    HeapM (Ptr × SegMem) := do
  let s ← newSeg
  let p ← (match props with
    | none => pure none
    | some k => do
      let b ← loadBuf threads k
      pure (some b))
  let r ← received.mapM (loadBuf threads)
  let u ← pool.mapM (loadBuf threads)
  pure (s.1, ⟨p, queued, r, u⟩)

/-! ### Vectors -/

/-- `segments` of an `SpVec` on one rank and whether the segment belongs to the rank, /repo/include/GMDP/vectors/SpVec.h:46-53. -/
abbrev VecMem := List (Bool × Ptr × SegMem)

/-- `new SpVec(n, tiles, fn)`, /repo/include/GMDP/vectors/SpVec.h:69-99: every rank makes all segments. -/
def newVec (mine : List Bool) : HeapM (Ptr × VecMem) := do
  let p ← allocate .newObj
  let ss ← mine.mapM (fun m => do
    let s ← newSeg
    pure (m, s))
  pure (p, ss)

/-- A vector pointer read from an archive (/repo/include/GMDP/vectors/SpVec.h:56-67), between supersteps: nothing is queued, received or
in the pool; every segment with or without a buffer. -/
def loadVec (threads parts : Nat) (mine : List (Bool × Bool)) : HeapM (Ptr × VecMem) := do
  let p ← allocate .newObj
  let ss ← mine.mapM (fun m => do
    let s ← loadSeg threads (if m.2 then some parts else none) [] [] []
    pure (m.1, s))
  pure (p, ss)

/-- `delete` of a vector with `~SpVec`, /repo/include/GMDP/vectors/SpVec.h:101-108. -/
def deleteVec (v : Ptr × VecMem) : HeapM Unit := do
  touch v.1
  let _ ← v.2.mapM (fun s => deleteSeg s.2)
  release .newObj v.1

/-- `SpVec::setAll`, /repo/include/GMDP/vectors/SpVec.h:329-338. -/
def vecSetAll (threads : Nat) (v : Ptr × VecMem) : HeapM (Ptr × VecMem) := do
  touch v.1
  let ss ← v.2.mapM (fun s => do
    if s.1 then do
      let t ← s.2.2.write threads
      pure (s.1, s.2.1, t)
    else pure s)
  pure (v.1, ss)

/-- `SpVec::get_edges`, /repo/include/GMDP/vectors/SpVec.h:119-146, for `k` entries on this rank: `edges` is allocated only if there
are any. -/
def vecEdges (k : Nat) (v : Ptr × VecMem) : HeapM Ptr := do
  touch v.1
  let _ ← v.2.mapM (fun s => if s.1 then s.2.2.read else pure ())
  if 0 < k then allocate .mm else pure .garbage

/-- `SpVec::ingestEdgelist`, /repo/include/GMDP/vectors/SpVec.h:148-307, on one of `nrank` ranks that receives `k` edges; `hit` says for
every segment whether it gets edges.  `assignment` is never released, `final_edge_list` and `partitions` only if `k > 0`. -/
def vecIngest (threads nrank k : Nat) (hit : Nat → Bool) (v : Ptr × VecMem) : HeapM (Ptr × VecMem) := do
  touch v.1
  let _assignment ← allocate .newArr
  let count ← allocate .newArr
  let recvCount ← allocate .newArr
  let req ← allocate .newArr
  let status ← allocate .newArr
  let msg ← allocate .newArr
  let offsets ← allocate .newArr
  let msgs ← (List.replicate nrank ()).mapM (fun _ => allocate .newArr)
  let hist ← allocate .newArr
  let final ← allocate .mm
  let _ ← msgs.mapM (release .newArr)
  release .newArr msg
  release .newArr hist
  release .newArr offsets
  release .newArr count
  release .newArr recvCount
  release .newArr req
  release .newArr status
  let edges ← allocate .mm
  let partitions ← allocate .mm
  let counts ← allocate .mm
  let startNzs ← allocate .mm
  if 0 < k then do
    release .mm final
    release .mm partitions
  else pure ()
  let ss ← v.2.zipIdx.mapM (fun s => do
    if s.1.1 && hit s.2 then do
      let t ← s.1.2.2.write threads
      pure (s.1.1, s.1.2.1, t)
    else pure s.1)
  release .mm counts
  release .mm startNzs
  release .mm edges
  pure (v.1, ss)

end GraphMat

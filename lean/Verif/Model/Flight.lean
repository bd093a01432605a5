import Verif.Spec.Flight
import Verif.Model.ApplyEdges
import Verif.Model.EdgeList

/-!
# Arrays and transfers

Which arrays the communicating functions of the library read, write, release and hand to `MPI_Isend` and `MPI_Irecv`, on one rank,
in the order of the code (/repo/include/GMDP/multinode, /repo/include/GMDP/vectors, /repo/include/GMDP/matrices/SpMat.h,
/repo/include/GMDP/utils/edgelist_transformation.h).  Contents are in other modules; the numbers that depend on them (entries
found, bytes after serialization, what other ranks announce) are parameters.  A loop over the elements of an array counts as one
access to the whole array.  Blocking calls are complete when they return and leave no trace here.
-/
namespace GraphMat

variable {E : Type}

/-- A value computed without access to the arrays; the `none` of another model is undefined behaviour here too
(e.g. /repo/include/GMDP/multinode/spmspv.h:52). -/
def given {α : Type} (x : Option α) : FlightM α := fun f => x.map (fun a => (a, f))

/-- `send_metadata`, /repo/include/GMDP/vectors/DenseSegment.h:54-68. -/
structure Md where
  /-- `nnz` -/
  nnz : Nat
  /-- `serialized_nbytes` -/
  nbytes : Nat
  /-- `serialized_npartitions` -/
  parts : Nat

/-- The arrays of a `buffer` and the numbers that decide about messages, /repo/include/GMDP/vectors/DenseSegment.h:70-87. -/
structure FBuf where
  /-- `value` -/
  value : Nat
  /-- `bit_vector` -/
  bits : Nat
  /-- `compressed_data` -/
  cdata : Nat
  /-- `compressed_indices` -/
  cidx : Nat
  /-- `serialized_data` -/
  sdata : Nat
  /-- `serialized_partition_nbytes_scan` -/
  nbytesScan : Nat
  /-- `serialized_partition_nnz_scan` -/
  nnzScan : Nat
  /-- `nnz` -/
  nnz : Nat
  /-- `serialized_nbytes` -/
  sbytes : Nat
  /-- `serialized_npartitions` -/
  parts : Nat

/-- `num_ints`, /repo/include/GMDP/vectors/DenseSegment.h:478. -/
def fWords (cap : Nat) : Nat := (cap + 31) / 32

/-- `new buffer(capacity, num_ints)`, /repo/include/GMDP/vectors/DenseSegment.h:181-197.  `nnz` is not set there; every use sets it
first, so its start value does not matter. -/
def newFBuf (threads cap : Nat) : FlightM FBuf := do
  let value ← newArray cap
  let bits ← newArray (fWords cap)
  let cdata ← newArray cap
  let cidx ← newArray cap
  let sdata ← newArray 0
  let nbytesScan ← newArray (threads * 16 + 1)
  let nnzScan ← newArray (threads * 16 + 1)
  pure ⟨value, bits, cdata, cidx, sdata, nbytesScan, nnzScan, 0, 0, threads * 16⟩

/-- `alloc_serialized`, /repo/include/GMDP/vectors/DenseSegment.h:201-206. -/
def FBuf.allocSerialized (b : FBuf) (sz : Nat) : FlightM FBuf := do
  deleteArray b.sdata
  let sdata ← newArray sz
  pure { b with sdata := sdata, sbytes := sz }

/-- `buffer::compress` for types that extend `Serializable`, /repo/include/GMDP/vectors/DenseSegment.h:299-358; `sz` is the number of
bytes written by boost. -/
def FBuf.compressSer (b : FBuf) (sz : Nat) : FlightM FBuf := do
  readArray b.bits
  readArray b.value
  writeArray b.nnzScan
  writeArray b.nbytesScan
  let b ← b.allocSerialized sz
  writeArray b.sdata
  pure b

/-- `buffer::compress` for other types, /repo/include/GMDP/vectors/DenseSegment.h:360-409; `found` is the number of entries. -/
def FBuf.compressPlain (b : FBuf) (found : Nat) : FlightM FBuf := do
  readArray b.bits
  readArray b.value
  writeArray b.cdata
  writeArray b.cidx
  pure { b with nnz := found }

/-- `buffer::decompress` for types that extend `Serializable`, /repo/include/GMDP/vectors/DenseSegment.h:228-256. -/
def FBuf.decompressSer (b : FBuf) : FlightM Unit := do
  writeArray b.bits
  readArray b.nbytesScan
  readArray b.sdata
  readArray b.nnzScan
  writeArray b.value

/-- `buffer::decompress` for other types, /repo/include/GMDP/vectors/DenseSegment.h:258-297. -/
def FBuf.decompressPlain (b : FBuf) : FlightM Unit := do
  writeArray b.bits
  readArray b.cidx
  readArray b.cdata
  writeArray b.value

/-- A `DenseSegment`, /repo/include/GMDP/vectors/DenseSegment.h:423-434. -/
structure FSeg where
  /-- `capacity` -/
  cap : Nat
  /-- `properties` -/
  props : Option FBuf
  /-- `received_md`; `none` = not set -/
  md : Option Md
  /-- `queued_md` -/
  queued : List Md
  /-- `received` -/
  received : List FBuf
  /-- `uninitialized` -/
  pool : List FBuf

/-- `alloc`, /repo/include/GMDP/vectors/DenseSegment.h:578-583. -/
def FSeg.alloc (threads : Nat) (s : FSeg) : FlightM (FSeg × FBuf) :=
  match s.props with
  | some b => pure (s, b)
  | none => do
    let b ← newFBuf threads s.cap
    pure ({ s with props := some b }, b)

/-- Functions that fill a segment on its own rank: `set`, `unset`, `setAll`, `ingestEdges`
(/repo/include/GMDP/vectors/DenseSegment.h:484-496, 600-640), the result of `mult_segment`
(/repo/include/GMDP/singlenode/spmspv.h:160-176); `nnz` is the number of entries afterwards. -/
def FSeg.fill (threads nnz : Nat) (s : FSeg) : FlightM FSeg := do
  let (s, b) ← s.alloc threads
  readArray b.bits
  writeArray b.bits
  readArray b.value
  writeArray b.value
  pure { s with props := some { b with nnz := nnz } }

/-- Functions that only read a segment (`get`, `get_edges`, the operands of `mult_segment`,
/repo/include/GMDP/vectors/DenseSegment.h:642-646, 793-806); that a segment without buffer is not read is not checked here. -/
def FSeg.look (s : FSeg) : FlightM Unit :=
  match s.props with
  | none => pure ()
  | some b => do
    readArray b.bits
    readArray b.value

/-- `DenseSegment::compress`, /repo/include/GMDP/vectors/DenseSegment.h:539-548, with `initialize`, lines 585-593; `stale` is `nnz`
before, `found` the number of entries, `sz` the number of bytes written. -/
def FSeg.compress (threads : Nat) (ser : Bool) (stale found sz : Nat) (s : FSeg) : FlightM FSeg := do
  let (s, b) ← s.alloc threads
  writeArray b.bits
  match shouldCompress ser s.cap stale with
  | .compressed => do
    let c ← b.compressPlain found
    pure { s with props := some c }
  | .serialized => do
    let c ← b.compressSer sz
    pure { s with props := some c }
  | .none => pure { s with props := some { b with nnz := stale } }

/-- `DenseSegment::decompress`, /repo/include/GMDP/vectors/DenseSegment.h:549-557. -/
def FSeg.decompress (ser : Bool) (s : FSeg) : FlightM Unit :=
  match s.props with
  | none => failure
  | some b =>
    match shouldCompress ser s.cap b.nnz with
    | .compressed => b.decompressPlain
    | .serialized => b.decompressSer
    | .none => pure ()

/-- `send_segment`, /repo/include/GMDP/vectors/DenseSegment.h:665-700; gives the requests that are pushed. -/
def FSeg.sendSegment (ser : Bool) (s : FSeg) : FlightM (List Nat) :=
  match s.props with
  | none => failure
  | some b =>
    match shouldCompress ser s.cap b.nnz with
    | .compressed => do
      let r1 ← isend ⟨b.cdata, 0, b.nnz⟩
      let r2 ← isend ⟨b.cidx, 0, b.nnz⟩
      pure [r1, r2]
    | .serialized => do
      let r1 ← isend ⟨b.sdata, 0, b.sbytes⟩
      let r2 ← isend ⟨b.nnzScan, 0, b.parts + 1⟩
      let r3 ← isend ⟨b.nbytesScan, 0, b.parts + 1⟩
      pure [r1, r2, r3]
    | .none => do
      let r1 ← isend ⟨b.value, 0, s.cap⟩
      let r2 ← isend ⟨b.bits, 0, fWords s.cap⟩
      pure [r1, r2]

/-- `recv_nnz`, /repo/include/GMDP/vectors/DenseSegment.h:659-664. -/
def FSeg.recvNnz (threads : Nat) (md : Md) (s : FSeg) : FlightM FSeg := do
  let (s, _) ← s.alloc threads
  pure { s with md := some md }

/-- `send_nnz`, /repo/include/GMDP/vectors/DenseSegment.h:648-651: `properties` is followed. -/
def FSeg.sendNnz (s : FSeg) : FlightM Unit :=
  match s.props with
  | none => failure
  | some _ => pure ()

/-- `recv_buffer`, /repo/include/GMDP/vectors/DenseSegment.h:702-746; gives the buffer and the requests that are pushed. -/
def FBuf.recv (ser : Bool) (cap : Nat) (md : Md) (b : FBuf) : FlightM (FBuf × List Nat) := do
  let b : FBuf := { b with nnz := md.nnz, sbytes := md.nbytes, parts := md.parts }
  match shouldCompress ser cap b.nnz with
  | .compressed => do
    let r1 ← irecv ⟨b.cdata, 0, b.nnz⟩
    let r2 ← irecv ⟨b.cidx, 0, b.nnz⟩
    pure (b, [r1, r2])
  | .serialized => do
    let b ← b.allocSerialized b.sbytes
    let r1 ← irecv ⟨b.sdata, 0, b.sbytes⟩
    let r2 ← irecv ⟨b.nnzScan, 0, b.parts + 1⟩
    let r3 ← irecv ⟨b.nbytesScan, 0, b.parts + 1⟩
    pure (b, [r1, r2, r3])
  | .none => do
    let r1 ← irecv ⟨b.value, 0, cap⟩
    let r2 ← irecv ⟨b.bits, 0, fWords cap⟩
    pure (b, [r1, r2])

/-- `recv_segment`, /repo/include/GMDP/vectors/DenseSegment.h:768-772. -/
def FSeg.recvSegment (ser : Bool) (s : FSeg) : FlightM (FSeg × List Nat) :=
  match s.props, s.md with
  | some b, some md => do
    let (c, q) ← b.recv ser s.cap md
    pure ({ s with props := some c }, q)
  | _, _ => failure

/-- `recv_segment_queue`, /repo/include/GMDP/vectors/DenseSegment.h:748-766. -/
def FSeg.recvSegmentQueue (threads : Nat) (ser : Bool) (s : FSeg) : FlightM (FSeg × List Nat) := do
  let (b, pool) ← (match s.pool.getLast? with
    | some b => pure (b, s.pool.dropLast)
    | none => do
      let b ← newFBuf threads s.cap
      pure (b, s.pool))
  match s.queued.getLast? with
  | none => failure
  | some md => do
    let (c, q) ← b.recv ser s.cap md
    pure ({ s with queued := s.queued.dropLast, received := s.received ++ [c], pool := pool }, q)

/-- One round of the loop of `union_received`, /repo/include/GMDP/vectors/DenseSegment.h:812-829. -/
def FBuf.unionInto (ser : Bool) (cap : Nat) (mine b : FBuf) : FlightM Unit :=
  match shouldCompress ser cap b.nnz with
  | .compressed => do
    readArray b.cidx
    readArray b.cdata
    readArray mine.bits
    writeArray mine.bits
    writeArray mine.value
  | .serialized => do
    b.decompressSer
    readArray b.bits
    readArray b.value
    writeArray mine.value
    writeArray mine.bits
  | .none => do
    readArray b.bits
    readArray b.value
    writeArray mine.value
    writeArray mine.bits

/-- `union_received` and `set_uninitialized_received`, /repo/include/GMDP/vectors/DenseSegment.h:808-830, 559-567. -/
def FSeg.unionReceived (threads : Nat) (ser : Bool) (s : FSeg) : FlightM FSeg := do
  let (s, b) ← s.alloc threads
  writeArray b.bits
  let _ ← s.received.mapM (FBuf.unionInto ser s.cap b)
  pure { s with received := [], pool := s.pool ++ s.received }

/-- `set_uninitialized`, /repo/include/GMDP/vectors/DenseSegment.h:569-576. -/
def FSeg.clear (s : FSeg) : FSeg :=
  { s with received := [], pool := s.pool ++ s.received, props := s.props.map (fun b => { b with nnz := 0 }) }

/-! ### The operations of several ranks -/

/-- The segments of all vectors of a rank: `(vector, segment)`; `segments` of /repo/include/GMDP/vectors/SpVec.h:53. -/
abbrev FSegs := Nat × Nat → FSeg

/-- A function of a segment (e.g. /repo/include/GMDP/multinode/spmspv.h:67). -/
def FSegs.mod (S : FSegs) (κ : Nat × Nat) (p : FSeg → FlightM FSeg) : FlightM FSegs := do
  let s ← p (S κ)
  pure (Function.update S κ s)

/-- The same for functions that push requests (e.g. /repo/include/GMDP/multinode/spmspv.h:94-99). -/
def FSegs.modReq (S : FSegs) (reqs : List Nat) (κ : Nat × Nat) (p : FSeg → FlightM (FSeg × List Nat)) :
    FlightM (FSegs × List Nat) := do
  let (s, q) ← p (S κ)
  pure (Function.update S κ s, reqs ++ q)

/-- What does not change: `omp_get_max_threads()`, which vectors have elements that extend `Serializable`
(/repo/include/GMDP/vectors/DenseSegment.h:533), `global_nrank` and `global_myrank` (/repo/include/GMDP/multinode/spmspv.h:55-56). -/
structure FCfg where
  /-- threads -/
  threads : Nat
  /-- is `T` of a vector derived from `Serializable`? -/
  ser : Nat → Bool
  /-- number of ranks -/
  nrank : Nat
  /-- this rank -/
  me : Nat

/-- The numbers that depend on contents, for every segment: `nnz` before and the entries found by `compress`, the bytes written by
it (/repo/include/GMDP/vectors/DenseSegment.h:299-409), the entries of a product (/repo/include/GMDP/singlenode/spmspv.h:175), and
what the other ranks announce (line 650). -/
structure Say where
  /-- `nnz` before `compress` -/
  stale : Nat × Nat → Nat
  /-- entries found by `compress` -/
  found : Nat × Nat → Nat
  /-- bytes after serialization -/
  bytes : Nat × Nat → Nat
  /-- entries of the product -/
  product : Nat × Nat → Nat
  /-- metadata announced by a rank -/
  heard : Nat × Nat → Nat → Md

/-- `compress` on the owner, once for every receiver, /repo/include/GMDP/multinode/spmspv.h:61-70 (also
/repo/include/GMDP/multinode/spmspv3.h:63-82, /repo/include/GMDP/multinode/applyedges.h:80-88). -/
def bcastCompress (c : FCfg) (v : Nat) (say : Say) (pairs : List (Nat × Nat)) (S : FSegs) : FlightM FSegs :=
  pairs.foldlM (fun S jr => do
    let o ← given (segOwner c.nrank jr.1)
    if c.me = o ∧ c.me ≠ jr.2 then
      S.mod (v, jr.1) (FSeg.compress c.threads (c.ser v) (say.stale (v, jr.1)) (say.found (v, jr.1)) (say.bytes (v, jr.1)))
    else pure S) S

/-- `send_nnz` and `recv_nnz`, /repo/include/GMDP/multinode/spmspv.h:74-86 (also /repo/include/GMDP/multinode/spmspv3.h:84-112,
/repo/include/GMDP/multinode/applyedges.h:90-102). -/
def bcastMd (c : FCfg) (v : Nat) (say : Say) (pairs : List (Nat × Nat)) (S : FSegs) : FlightM FSegs :=
  pairs.foldlM (fun S jr => do
    let o ← given (segOwner c.nrank jr.1)
    (if c.me = o ∧ c.me ≠ jr.2 then (S (v, jr.1)).sendNnz else pure ())
    if c.me = jr.2 ∧ c.me ≠ o then S.mod (v, jr.1) (FSeg.recvNnz c.threads (say.heard (v, jr.1) o)) else pure S) S

/-- `send_segment` and `recv_segment`, /repo/include/GMDP/multinode/spmspv.h:89-101 (also
/repo/include/GMDP/multinode/spmspv3.h:115-143, /repo/include/GMDP/multinode/applyedges.h:104-116). -/
def bcastData (c : FCfg) (v : Nat) (pairs : List (Nat × Nat)) (st : FSegs × List Nat) : FlightM (FSegs × List Nat) :=
  pairs.foldlM (fun st jr => do
    let o ← given (segOwner c.nrank jr.1)
    let st ← (if c.me = o ∧ c.me ≠ jr.2 then do
        let q ← (st.1 (v, jr.1)).sendSegment (c.ser v)
        pure (st.1, st.2 ++ q)
      else pure st)
    if c.me = jr.2 ∧ c.me ≠ o then st.1.modReq st.2 (v, jr.1) (FSeg.recvSegment (c.ser v)) else pure st) st

/-- `decompress` on the receivers, /repo/include/GMDP/multinode/spmspv.h:107-116 (also
/repo/include/GMDP/multinode/spmspv3.h:150-170, /repo/include/GMDP/multinode/applyedges.h:123-131). -/
def bcastDecompress (c : FCfg) (v : Nat) (pairs : List (Nat × Nat)) (S : FSegs) : FlightM Unit :=
  pairs.forM (fun jr => do
    let o ← given (segOwner c.nrank jr.1)
    if c.me = jr.2 ∧ c.me ≠ o then (S (v, jr.1)).decompress (c.ser v) else pure ())

/-- The loops over the tiles, /repo/include/GMDP/multinode/spmspv.h:122-129 (also /repo/include/GMDP/multinode/spmspv3.h:176-183,
/repo/include/GMDP/multinode/applyedges.h:137-144): `p i j` for the tiles of this rank. -/
def RMat.flightTiles (M : RMat E) (c : FCfg) (p : Nat → Nat → FSegs → FlightM FSegs) (S : FSegs) : FlightM FSegs :=
  (List.range M.nty).foldlM (fun S i => (List.range M.ntx).foldlM (fun S j => do
    let o ← given (M.node i j)
    if c.me = o then p i j S else pure S) S) S

/-- `set_uninitialized` of the segments of other ranks, /repo/include/GMDP/multinode/spmspv.h:135-139, 191-195 (also
/repo/include/GMDP/multinode/spmspv3.h:189-200, 252-256, /repo/include/GMDP/multinode/applyedges.h:150-154). -/
def freeOthers (c : FCfg) (v k : Nat) (S : FSegs) : FlightM FSegs :=
  (List.range k).foldlM (fun S j => do
    let o ← given (segOwner c.nrank j)
    if c.me ≠ o then pure (Function.update S (v, j) (S (v, j)).clear) else pure S) S

/-- `compress` of the partial results, /repo/include/GMDP/multinode/spmspv.h:142-151 (also
/repo/include/GMDP/multinode/spmspv3.h:203-212). -/
def reduceCompress (c : FCfg) (v : Nat) (say : Say) (pairs : List (Nat × Nat)) (S : FSegs) : FlightM FSegs :=
  pairs.foldlM (fun S ir => do
    let o ← given (segOwner c.nrank ir.1)
    if c.me ≠ o ∧ c.me = ir.2 then
      S.mod (v, ir.1) (FSeg.compress c.threads (c.ser v) (say.stale (v, ir.1)) (say.found (v, ir.1)) (say.bytes (v, ir.1)))
    else pure S) S

/-- `recv_nnz_queue` and `send_nnz`, /repo/include/GMDP/multinode/spmspv.h:155-167 and
/repo/include/GMDP/vectors/DenseSegment.h:652-658 (also /repo/include/GMDP/multinode/spmspv3.h:216-228). -/
def reduceMd (c : FCfg) (v : Nat) (say : Say) (pairs : List (Nat × Nat)) (S : FSegs) : FlightM FSegs :=
  pairs.foldlM (fun S ir => do
    let o ← given (segOwner c.nrank ir.1)
    let S : FSegs := if c.me = o ∧ c.me ≠ ir.2 then
      Function.update S (v, ir.1) { S (v, ir.1) with queued := say.heard (v, ir.1) ir.2 :: (S (v, ir.1)).queued } else S
    (if c.me ≠ o ∧ c.me = ir.2 then (S (v, ir.1)).sendNnz else pure ())
    pure S) S

/-- `recv_segment_queue` and `send_segment`, /repo/include/GMDP/multinode/spmspv.h:170-182 (also
/repo/include/GMDP/multinode/spmspv3.h:231-243). -/
def reduceData (c : FCfg) (v : Nat) (pairs : List (Nat × Nat)) (st : FSegs × List Nat) : FlightM (FSegs × List Nat) :=
  pairs.foldlM (fun st ir => do
    let o ← given (segOwner c.nrank ir.1)
    let st ← (if c.me = o ∧ c.me ≠ ir.2 then
        st.1.modReq st.2 (v, ir.1) (FSeg.recvSegmentQueue c.threads (c.ser v))
      else pure st)
    if c.me ≠ o ∧ c.me = ir.2 then do
      let q ← (st.1 (v, ir.1)).sendSegment (c.ser v)
      pure (st.1, st.2 ++ q)
    else pure st) st

/-- `union_received` and `set_uninitialized_received` of the own segments, /repo/include/GMDP/multinode/spmspv.h:198-203 (also
/repo/include/GMDP/multinode/spmspv3.h:259-264). -/
def unionOwn (c : FCfg) (v k : Nat) (S : FSegs) : FlightM FSegs :=
  (List.range k).foldlM (fun S i => do
    let o ← given (segOwner c.nrank i)
    if c.me = o then S.mod (v, i) (FSeg.unionReceived c.threads (c.ser v)) else pure S) S

/-- The second half of both multiplications, /repo/include/GMDP/multinode/spmspv.h:141-203,
/repo/include/GMDP/multinode/spmspv3.h:202-264. -/
def flightReduce (c : FCfg) (y nty : Nat) (say : Say) (rows : List (Nat × Nat)) (S : FSegs) : FlightM FSegs := do
  let S ← reduceCompress c y say rows S
  let S ← reduceMd c y say rows S
  let (S, reqs) ← reduceData c y rows (S, [])
  waitall reqs
  let S ← freeOthers c y nty S
  unionOwn c y nty S

/-- `SpMSpV`, /repo/include/GMDP/multinode/spmspv.h:41-206, with vectors `x` and `y`. -/
def RMat.flightSpmspv (M : RMat E) (c : FCfg) (x y : Nat) (say : Say) (S : FSegs) : FlightM FSegs := do
  let cols ← given (rankPairs M.ntx M.colRanks)
  let rows ← given (rankPairs M.nty M.rowRanks)
  let S ← bcastCompress c x say cols S
  let S ← bcastMd c x say cols S
  let (S, reqs) ← bcastData c x cols (S, [])
  waitall reqs
  bcastDecompress c x cols S
  let S ← M.flightTiles c (fun i j S => do
    (S (x, j)).look
    S.mod (y, i) (FSeg.fill c.threads (say.product (y, i)))) S
  let S ← freeOthers c x M.ntx S
  flightReduce c y M.nty say rows S

/-- `SpMSpV3`, /repo/include/GMDP/multinode/spmspv3.h:41-267, with vectors `x`, `vp` and `y`. -/
def RMat.flightSpmspv3 (M : RMat E) (c : FCfg) (x vp y : Nat) (say : Say) (S : FSegs) : FlightM FSegs := do
  let cols ← given (rankPairs M.ntx M.colRanks)
  let rows ← given (rankPairs M.nty M.rowRanks)
  let S ← bcastCompress c x say cols S
  let S ← bcastCompress c vp say rows S
  let S ← bcastMd c x say cols S
  let S ← bcastMd c vp say rows S
  let (S, reqs) ← bcastData c x cols (S, [])
  let (S, reqs) ← bcastData c vp rows (S, reqs)
  waitall reqs
  bcastDecompress c x cols S
  bcastDecompress c vp rows S
  let S ← M.flightTiles c (fun i j S => do
    (S (x, j)).look
    (S (vp, i)).look
    S.mod (y, i) (FSeg.fill c.threads (say.product (y, i)))) S
  let S ← freeOthers c x M.ntx S
  let S ← freeOthers c vp M.nty S
  flightReduce c y M.nty say rows S

/-- `ApplyEdges`, /repo/include/GMDP/multinode/applyedges.h:45-161, with the vector `vp`. -/
def RMat.flightApplyEdges (M : RMat E) (c : FCfg) (vp : Nat) (say : Say) (S : FSegs) : FlightM FSegs := do
  let pairs ← given (rankPairs M.ntx M.rowcolRanks)
  let S ← bcastCompress c vp say pairs S
  let S ← bcastMd c vp say pairs S
  let (S, reqs) ← bcastData c vp pairs (S, [])
  waitall reqs
  bcastDecompress c vp pairs S
  let S ← M.flightTiles c (fun i j S => do
    (S (vp, j)).look
    (S (vp, i)).look
    pure S) S
  freeOthers c vp M.ntx S

/-! ### Exchange of edges -/

/-- The exchange of the numbers of edges, /repo/include/GMDP/matrices/SpMat.h:174-182, /repo/include/GMDP/vectors/SpVec.h:183-191,
/repo/include/GMDP/utils/edgelist_transformation.h:179-187. -/
def exchangeCounts (nrank counts recvCounts : Nat) : FlightM Unit := do
  let a ← (List.range nrank).mapM (fun i => isend ⟨counts, i, 1⟩)
  let b ← (List.range nrank).mapM (fun i => irecv ⟨recvCounts, i, 1⟩)
  waitall (a ++ b)

/-- `recv_positions[i]`, the sum of the numbers announced by the ranks before `i`: /repo/include/GMDP/matrices/SpMat.h:186-191,
/repo/include/GMDP/vectors/SpVec.h:213-217, /repo/include/GMDP/utils/edgelist_transformation.h:191-196. -/
def recvStart (heard : Nat → Nat) (i : Nat) : Nat := ((List.range i).map heard).sum

/-- `ingestEdgelist` of a matrix, /repo/include/GMDP/matrices/SpMat.h:98-278: `edges` is the caller's array, `assignment` the owners
of the edges after sorting; building the tiles reads `received_edges` and is not looked at further. -/
def ingestMatFlight (c : FCfg) (edges : Nat) (assignment : List Nat) (heard : Nat → Nat) : FlightM Unit := do
  let (received, total) ← (if c.nrank = 1 then do
      let received ← newArray assignment.length
      readArray edges
      writeArray received
      pure (received, assignment.length)
    else do
      let tedges ← newArray assignment.length
      readArray edges
      writeArray tedges
      let assign ← newArray assignment.length
      readArray tedges
      writeArray edges
      writeArray assign
      deleteArray tedges
      let positions ← newArray (c.nrank + 1)
      let counts ← newArray c.nrank
      let recvPositions ← newArray (c.nrank + 1)
      let recvCounts ← newArray c.nrank
      readArray assign
      writeArray counts
      writeArray positions
      let plan ← given (sendPlan assignment c.nrank)
      deleteArray assign
      exchangeCounts c.nrank counts recvCounts
      readArray recvCounts
      writeArray recvPositions
      readArray positions
      readArray counts
      let a ← plan.mapM (fun pc => isend ⟨edges, pc.1, pc.2⟩)
      let received ← newArray (recvStart heard c.nrank)
      readArray recvPositions
      readArray recvCounts
      let b ← (List.range c.nrank).mapM (fun i => irecv ⟨received, recvStart heard i, heard i⟩)
      waitall (a ++ b)
      deleteArray positions
      deleteArray counts
      deleteArray recvPositions
      deleteArray recvCounts
      pure (received, recvStart heard c.nrank))
  let tedges2 ← newArray total
  readArray received
  writeArray tedges2
  let assignment2 ← newArray total
  readArray tedges2
  writeArray received
  writeArray assignment2
  deleteArray tedges2
  readArray assignment2
  readArray received
  deleteArray assignment2
  deleteArray received

/-- `ingestEdgelist` of a vector, /repo/include/GMDP/vectors/SpVec.h:148-307, up to the point where all edges have arrived and the
buffers are released (line 238): `keys` are the owners of the edges of the caller's array `edges`; one array per message. -/
def ingestVecFlight (c : FCfg) (edges : Nat) (keys : List Nat) (heard : Nat → Nat) : FlightM Unit := do
  let assignment ← newArray keys.length
  readArray edges
  writeArray assignment
  let count ← newArray c.nrank
  let recvCount ← newArray c.nrank
  readArray assignment
  writeArray count
  exchangeCounts c.nrank count recvCount
  let offsets ← newArray c.nrank
  let msgs ← (List.range c.nrank).mapM (fun i => do
    let a ← newArray (keys.count i)
    pure (i, a))
  writeArray offsets
  readArray edges
  let _ ← msgs.mapM (fun m => writeArray m.2)
  readArray count
  let a ← msgs.mapM (fun m => isend ⟨m.2, 0, keys.count m.1⟩)
  let hist ← newArray (c.nrank + 1)
  readArray recvCount
  writeArray hist
  let final ← newArray (recvStart heard c.nrank)
  let b ← (List.range c.nrank).mapM (fun i => irecv ⟨final, recvStart heard i, heard i⟩)
  waitall (a ++ b)
  let _ ← msgs.mapM (fun m => deleteArray m.2)
  deleteArray hist
  deleteArray offsets
  deleteArray count
  deleteArray recvCount
  readArray final

/-- What `shuffle_edges` sends to every rank, as positions and numbers,
/repo/include/GMDP/utils/edgelist_transformation.h:115-141, 160-171. -/
def shufflePlan (nrank nthreads : Nat) (el : EdgeList E) : Option (List (Nat × Nat)) := do
  let hist ← shuffleHistogram nrank nthreads el
  let off ← shuffleOffsets nrank nthreads hist
  (List.range nrank).mapM (fun bin => do
    let pos ← off.read bin
    let cnt ← shuffleCount nrank nthreads hist bin
    some (pos, cnt))

/-- `shuffle_edges`, /repo/include/GMDP/utils/edgelist_transformation.h:95-235: `edges` is the array of the list; gives the array of
the new one. -/
def shuffleFlight (c : FCfg) (edges : Nat) (el : EdgeList E) (heard : Nat → Nat) : FlightM Nat := do
  let tedges ← newArray el.nnz
  let histogram ← newArray (c.threads * c.nrank)
  let offset ← newArray (c.threads * c.nrank)
  let woffset ← newArray (c.threads * c.nrank)
  readArray edges
  writeArray histogram
  writeArray offset
  writeArray woffset
  writeArray tedges
  let plan ← given (shufflePlan c.nrank c.threads el)
  let positions ← newArray (c.nrank + 1)
  let counts ← newArray c.nrank
  let recvPositions ← newArray (c.nrank + 1)
  let recvCounts ← newArray c.nrank
  readArray histogram
  readArray offset
  writeArray positions
  writeArray counts
  exchangeCounts c.nrank counts recvCounts
  readArray recvCounts
  writeArray recvPositions
  readArray positions
  readArray counts
  let a ← plan.mapM (fun pc => isend ⟨tedges, pc.1, pc.2⟩)
  let received ← newArray (recvStart heard c.nrank)
  readArray recvPositions
  readArray recvCounts
  let b ← (List.range c.nrank).mapM (fun i => irecv ⟨received, recvStart heard i, heard i⟩)
  waitall (a ++ b)
  deleteArray positions
  deleteArray counts
  deleteArray recvPositions
  deleteArray recvCounts
  deleteArray tedges
  deleteArray histogram
  deleteArray offset
  deleteArray woffset
  deleteArray edges
  pure received

/-! ### Histories -/

/-- What a program does with its vectors and edge lists: /repo/include/GraphMatRuntime.h:137-226 (a superstep is a sequence of such
operations), /repo/include/Graph.h:211-243, 337-402, /repo/include/GMDP/utils/edgelist_transformation.h:95-251. -/
inductive FlightOp (E : Type) where
  /-- `SpMSpV` on a matrix -/
  | spmspv (M : RMat E) (x y : Nat) (say : Say)
  /-- `SpMSpV3` -/
  | spmspv3 (M : RMat E) (x vp y : Nat) (say : Say)
  /-- `ApplyEdges` -/
  | applyEdges (M : RMat E) (vp : Nat) (say : Say)
  /-- a local function fills a segment -/
  | fill (v j nnz : Nat)
  /-- a local function reads a segment -/
  | look (v j : Nat)
  /-- `Clear` of a segment -/
  | clear (v j : Nat)
  /-- `SpMat::ingestEdgelist` of a list with owners `assignment` after sorting -/
  | ingestMat (assignment : List Nat) (heard : Nat → Nat)
  /-- `SpVec::ingestEdgelist` of a list with owners `keys` -/
  | ingestVec (keys : List Nat) (heard : Nat → Nat)
  /-- `shuffle_edges` -/
  | shuffle (el : EdgeList E) (heard : Nat → Nat)

/-- One operation (/repo/include/GraphMatRuntime.h:137-226, /repo/include/Graph.h:211-243, 337-402); the arrays of edge lists are made
before and released after it. -/
def FlightOp.run (c : FCfg) (S : FSegs) : FlightOp E → FlightM FSegs
  | .spmspv M x y say => M.flightSpmspv c x y say S
  | .spmspv3 M x vp y say => M.flightSpmspv3 c x vp y say S
  | .applyEdges M vp say => M.flightApplyEdges c vp say S
  | .fill v j nnz => S.mod (v, j) (FSeg.fill c.threads nnz)
  | .look v j => do
    (S (v, j)).look
    pure S
  | .clear v j => pure (Function.update S (v, j) (S (v, j)).clear)
  | .ingestMat assignment heard => do
    let edges ← newArray assignment.length
    writeArray edges
    ingestMatFlight c edges assignment heard
    deleteArray edges
    pure S
  | .ingestVec keys heard => do
    let edges ← newArray keys.length
    writeArray edges
    ingestVecFlight c edges keys heard
    deleteArray edges
    pure S
  | .shuffle el heard => do
    let edges ← newArray el.nnz
    writeArray edges
    let received ← shuffleFlight c edges el heard
    deleteArray received
    pure S

/-- The vectors before anything is stored in them, /repo/include/GMDP/vectors/DenseSegment.h:476-480; `cap` gives the capacities. -/
def FSegs.fresh (cap : Nat × Nat → Nat) : FSegs := fun κ => ⟨cap κ, none, none, [], [], []⟩

/-- A sequence of operations (/repo/include/GraphMatRuntime.h:134-261 and calls of the interface between the runs). -/
def flightRun (c : FCfg) (ops : List (FlightOp E)) (S : FSegs) : FlightM FSegs :=
  ops.foldlM (fun S op => op.run c S) S

end GraphMat

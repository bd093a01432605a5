import Verif.Model.ApplyEdges
import Verif.Spec.Mpi

/-!
# The MPI calls of every rank

The data-parallel models (`Model/SpMSpV.lean`, `Model/ApplyEdges.lean`, `Model/MapReduce.lean`) let all ranks
advance together.  Here is what each rank does by itself: the sequence of MPI calls it makes in a superstep, in
`applyToAllEdges`, in `applyReduceAllVertices` and when graphs are loaded, saved and edge lists are redistributed,
computed from its own rank number, its own copy of the tile owners and the numbers it has received.  Everything
between the calls is left out.
-/
namespace GraphMat

variable {E : Type}

/-- Which message is meant: number of the operation, vector, segment, and `none` for the metadata of
`send_nnz` or the number of the part in `send_segment` (/repo/include/GMDP/vectors/DenseSegment.h:648-700). -/
structure Label where
  /-- operation -/
  op : Nat
  /-- 0 = `x`, 1 = `vertexproperty`, 2 = `y`, 3 = results of `MapReduce`, 4 = numbers of edges, 5 = edges -/
  vec : Nat
  /-- segment (for `MapReduce`: rank; for edges and their numbers: the tag) -/
  seg : Nat
  /-- part (for edges: how many) -/
  part : Option Nat
deriving DecidableEq, Repr

/-- The tag of a message: 0 in /repo/include/GMDP/vectors/DenseSegment.h:648-740 and
/repo/include/GMDP/multinode/reduce.h:60, 65; the sixth argument of the calls when edges are exchanged
(/repo/include/GMDP/vectors/SpVec.h:183-225). -/
def Label.tag (l : Label) : Nat := if l.vec < 4 then 0 else l.seg

/-- How many messages `send_segment` and `recv_buffer` exchange for a segment with `nnz` entries: two for the
compressed and the plain form, three for the serialized form,
/repo/include/GMDP/vectors/DenseSegment.h:665-699, 702-746. -/
def numParts (ser : Bool) (cap : Nat) (nnz : Int) : Nat :=
  match shouldCompress ser cap nnz with
  | .serialized => 3
  | _ => 2

/-- What a vector contributes to the calls: the element type and `capacity` of
/repo/include/GMDP/vectors/DenseSegment.h:70-76 (`nnz` and `capacity` of the buffer). -/
structure CommVec where
  /-- the element type derives from `Serializable` -/
  ser : Bool
  /-- `capacity` of a segment -/
  cap : Nat → Nat
  /-- `properties->nnz` of a segment on a rank when it is sent -/
  nnz : Nat → Nat → Int

/-- A loop `for (j ...) for (it in ranks[j])` in which the owner sends the metadata to the ranks of the set
(e.g. /repo/include/GMDP/multinode/spmspv.h:74-86).  The state is `received_md` of every segment and the calls made
so far; what `recv_nnz` finds in the message is what the owner announces. -/
def bcastNnz (nrank op vec : Nat) (v : CommVec) (r : Nat) (pairs : List (Nat × Nat))
    (st : (Nat → Option Int) × List (Call Label)) : Option ((Nat → Option Int) × List (Call Label)) :=
  pairs.foldlM (fun st jr => do
    let o ← segOwner nrank jr.1
    let st : (Nat → Option Int) × List (Call Label) :=
      if r = o ∧ r ≠ jr.2 then (st.1, st.2 ++ [.send jr.2 ⟨op, vec, jr.1, none⟩]) else st
    some (if r = jr.2 ∧ r ≠ o then
      (fun k => if k = jr.1 then some (v.nnz jr.1 o) else st.1 k, st.2 ++ [.recv o ⟨op, vec, jr.1, none⟩])
      else st)) st

/-- The calls of `send_segment`, /repo/include/GMDP/vectors/DenseSegment.h:665-699. -/
def sendSegment (op vec : Nat) (v : CommVec) (r j dst : Nat) : List (Call Label) :=
  (List.range (numParts v.ser (v.cap j) (v.nnz j r))).map (fun k => .isend dst ⟨op, vec, j, some k⟩)

/-- The calls of `recv_buffer` for received metadata, /repo/include/GMDP/vectors/DenseSegment.h:702-746. -/
def recvBuffer (op vec : Nat) (v : CommVec) (j src : Nat) (md : Int) : List (Call Label) :=
  (List.range (numParts v.ser (v.cap j) md)).map (fun k => .irecv src ⟨op, vec, j, some k⟩)

/-- The loop that sends the segments themselves (e.g. /repo/include/GMDP/multinode/spmspv.h:89-101), with
`recv_segment` (/repo/include/GMDP/vectors/DenseSegment.h:768-772).  `none` = `received_md` was never set. -/
def bcastSeg (nrank op vec : Nat) (v : CommVec) (r : Nat) (md : Nat → Option Int) (pairs : List (Nat × Nat))
    (cs : List (Call Label)) : Option (List (Call Label)) :=
  pairs.foldlM (fun cs jr => do
    let o ← segOwner nrank jr.1
    let cs := if r = o ∧ r ≠ jr.2 then cs ++ sendSegment op vec v r jr.1 jr.2 else cs
    if r = jr.2 ∧ r ≠ o then do
      let m ← md jr.1
      some (cs ++ recvBuffer op vec v jr.1 o m)
    else some cs) cs

/-- The loop in which the ranks of the set send metadata to the owner
(/repo/include/GMDP/multinode/spmspv.h:155-167), with `recv_nnz_queue`
(/repo/include/GMDP/vectors/DenseSegment.h:652-658): new metadata goes to the front of `queued_md`. -/
def reduceNnz (nrank op vec : Nat) (v : CommVec) (r : Nat) (pairs : List (Nat × Nat))
    (st : (Nat → List Int) × List (Call Label)) : Option ((Nat → List Int) × List (Call Label)) :=
  pairs.foldlM (fun st ir => do
    let o ← segOwner nrank ir.1
    let st : (Nat → List Int) × List (Call Label) :=
      if r = o ∧ r ≠ ir.2 then
        (fun k => if k = ir.1 then v.nnz ir.1 ir.2 :: st.1 k else st.1 k, st.2 ++ [.recv ir.2 ⟨op, vec, ir.1, none⟩])
      else st
    some (if r ≠ o ∧ r = ir.2 then (st.1, st.2 ++ [.send o ⟨op, vec, ir.1, none⟩]) else st)) st

/-- The loop that sends the partial results (/repo/include/GMDP/multinode/spmspv.h:170-182), with
`recv_segment_queue` (/repo/include/GMDP/vectors/DenseSegment.h:748-766): metadata is taken from the back of
`queued_md`; `none` = it is empty. -/
def reduceSeg (nrank op vec : Nat) (v : CommVec) (r : Nat) (pairs : List (Nat × Nat))
    (st : (Nat → List Int) × List (Call Label)) : Option ((Nat → List Int) × List (Call Label)) :=
  pairs.foldlM (fun st ir => do
    let o ← segOwner nrank ir.1
    let st : (Nat → List Int) × List (Call Label) ←
      (if r = o ∧ r ≠ ir.2 then do
        let m ← (st.1 ir.1).getLast?
        some (fun k => if k = ir.1 then (st.1 k).dropLast else st.1 k, st.2 ++ recvBuffer op vec v ir.1 ir.2 m)
      else some st)
    some (if r ≠ o ∧ r = ir.2 then (st.1, st.2 ++ sendSegment op vec v r ir.1 o) else st)) st

/-- The vectors of one multiplication: the arguments of /repo/include/SPMV.h:62-95. -/
structure MulVecs where
  /-- `x` -/
  x : CommVec
  /-- `vertexproperty` -/
  vp : CommVec
  /-- `y` -/
  y : CommVec

/-- The calls of rank `r` in `SpMSpV`, /repo/include/GMDP/multinode/spmspv.h:41-206 (the loops of lines 74-87 and
89-101, `MPI_Waitall` of line 104, the loops of lines 155-168 and 170-182, `MPI_Waitall` of line 184).  `q` is
`queued_md` of the segments of `y`. -/
def RMat.spmspvCalls (M : RMat E) (nrank op : Nat) (v : MulVecs) (r : Nat) (q : Nat → List Int) :
    Option ((Nat → List Int) × List (Call Label)) := do
  let colPairs ← rankPairs M.ntx M.colRanks
  let rowPairs ← rankPairs M.nty M.rowRanks
  let a ← bcastNnz nrank op 0 v.x r colPairs (fun _ => none, [])
  let cs ← bcastSeg nrank op 0 v.x r a.1 colPairs a.2
  let b ← reduceNnz nrank op 2 v.y r rowPairs (q, cs ++ [.waitall])
  let b ← reduceSeg nrank op 2 v.y r rowPairs b
  some (b.1, b.2 ++ [.waitall])

/-- The calls of rank `r` in `SpMSpV3`, /repo/include/GMDP/multinode/spmspv3.h:41-267: metadata of `x` (lines
85-97) and of the vertex properties (lines 100-112), segments of both (lines 116-143), `MPI_Waitall` (line 147),
reduction (lines 216-243), `MPI_Waitall` (line 245). -/
def RMat.spmspv3Calls (M : RMat E) (nrank op : Nat) (v : MulVecs) (r : Nat) (q : Nat → List Int) :
    Option ((Nat → List Int) × List (Call Label)) := do
  let colPairs ← rankPairs M.ntx M.colRanks
  let rowPairs ← rankPairs M.nty M.rowRanks
  let a ← bcastNnz nrank op 0 v.x r colPairs (fun _ => none, [])
  let b ← bcastNnz nrank op 1 v.vp r rowPairs (fun _ => none, a.2)
  let cs ← bcastSeg nrank op 0 v.x r a.1 colPairs b.2
  let cs ← bcastSeg nrank op 1 v.vp r b.1 rowPairs cs
  let b ← reduceNnz nrank op 2 v.y r rowPairs (q, cs ++ [.waitall])
  let b ← reduceSeg nrank op 2 v.y r rowPairs b
  some (b.1, b.2 ++ [.waitall])

/-- The calls of rank `r` in `ApplyEdges`, /repo/include/GMDP/multinode/applyedges.h:45-161. -/
def RMat.applyEdgesCalls (M : RMat E) (nrank op : Nat) (vp : CommVec) (r : Nat) : Option (List (Call Label)) := do
  let pairs ← rankPairs M.ntx M.rowcolRanks
  let a ← bcastNnz nrank op 1 vp r pairs (fun _ => none, [])
  let cs ← bcastSeg nrank op 1 vp r a.1 pairs a.2
  some (cs ++ [.waitall])

/-- The calls of rank `r` in `MapReduce`, /repo/include/GMDP/multinode/reduce.h:58-72: the loop of the senders, the
loop of rank 0, `MPI_Bcast`. -/
def mapReduceCalls (nrank op r : Nat) : List (Call Label) :=
  (List.range' 1 (nrank - 1)).flatMap (fun i => if r = i then [.send 0 ⟨op, 3, i, none⟩] else []) ++
  (List.range' 1 (nrank - 1)).flatMap (fun i => if r = 0 then [.recv i ⟨op, 3, i, none⟩] else []) ++ [.coll]

/-- The calls of rank `r` between the barriers when edges are exchanged: it has `cnt r i` edges for rank `i`; the
numbers are exchanged first (`recv_count[i]` is what rank `i` announces), then the edges, each rank also sending to
itself: /repo/include/GMDP/matrices/SpMat.h:174-209, /repo/include/GMDP/vectors/SpVec.h:183-226,
/repo/include/GMDP/utils/edgelist_transformation.h:179-212. -/
def exchangeCalls (nrank op : Nat) (cnt : Nat → Nat → Nat) (r : Nat) : List (Call Label) :=
  (List.range nrank).map (fun i => .isend i ⟨op, 4, r, none⟩) ++
  (List.range nrank).map (fun i => .irecv i ⟨op, 4, i, none⟩) ++ [.waitall, .coll] ++
  (List.range nrank).map (fun i => .isend i ⟨op, 5, r, some (cnt r i)⟩) ++
  (List.range nrank).map (fun i => .irecv i ⟨op, 5, i, some (cnt i r)⟩) ++ [.waitall]

/-- The calls of `SpMat::ingestEdgelist`, /repo/include/GMDP/matrices/SpMat.h:98-278: nothing is exchanged on one
rank (lines 111-116), barriers in lines 167, 183 (within the exchange), 210 and 277. -/
def ingestMatCalls (nrank op : Nat) (cnt : Nat → Nat → Nat) (r : Nat) : List (Call Label) :=
  (if nrank = 1 then [] else [.coll] ++ exchangeCalls nrank op cnt r ++ [.coll]) ++ [.coll]

/-- The calls of `SpVec::ingestEdgelist`, /repo/include/GMDP/vectors/SpVec.h:148-307: barriers in lines 169, 192
(within the exchange), 248 and 306. -/
def ingestVecCalls (nrank op : Nat) (cnt : Nat → Nat → Nat) (r : Nat) : List (Call Label) :=
  [.coll] ++ exchangeCalls nrank op cnt r ++ [.coll, .coll]

/-- The calls of `shuffle_edges`, /repo/include/GMDP/utils/edgelist_transformation.h:95-233: barriers in lines 173,
188 (within the exchange) and 213. -/
def shuffleCalls (nrank op : Nat) (cnt : Nat → Nat → Nat) (r : Nat) : List (Call Label) :=
  [.coll] ++ exchangeCalls nrank op cnt r ++ [.coll]

/-- An operation of the library that communicates: /repo/include/GraphMatRuntime.h:137-254,
/repo/include/Graph.h:152-243, 337-402, /repo/include/GMDP/utils/edgelist.h:242-365,
/repo/include/GMDP/utils/edgelist_transformation.h:95-251. -/
inductive CommOp where
  /-- one iteration of the loop of `run_graph_program` with order `OUT_EDGES` (`out`) , `IN_EDGES` (`in`) or both;
  `vprop`: `process_message` needs the vertex property -/
  | superstep (out in_ vprop : Bool)
  /-- `applyToAllEdges` -/
  | applyEdges
  /-- `applyReduceAllVertices` -/
  | mapReduce
  /-- `ReadEdgelist`; the edges rank `a` has for rank `b` when `A` and when `AT` is built -/
  | readEdgelist (cnt cntT : Nat → Nat → Nat)
  /-- `ReadGraphMatBin` -/
  | readBin
  /-- `WriteGraphMatBin` -/
  | writeBin
  /-- `saveVertexproperty` -/
  | saveVertexproperty (cnt : Nat → Nat → Nat)
  /-- `SpVec::getNNZ` -/
  | getNNZ
  /-- `load_edgelist` -/
  | loadEdgelist
  /-- `shuffle_edges` -/
  | shuffle (cnt : Nat → Nat → Nat)
  /-- `remove_duplicate_edges` -/
  | removeDuplicates (cnt : Nat → Nat → Nat)
  /-- `randomize_edgelist_square` -/
  | randomize

/-- `SpMSpV(G, ...)` resp. `SpMTSpV(G, ...)`, /repo/include/SPMV.h:64-95. -/
def RMat.mulCalls (M : RMat E) (vprop : Bool) (nrank op : Nat) (v : MulVecs) (r : Nat) (q : Nat → List Int) :
    Option ((Nat → List Int) × List (Call Label)) :=
  if vprop then M.spmspv3Calls nrank op v r q else M.spmspvCalls nrank op v r q

/-- The calls of one operation on rank `r`, whose parts of the matrices are `A` and `AT`: superstep
/repo/include/GraphMatRuntime.h:134-226 (multiplications, `MPI_Allreduce`), `applyToAllEdges`
/repo/include/Graph.h:389-402, `applyReduceAllVertices` /repo/include/Graph.h:377-381; `ReadEdgelist`
/repo/include/Graph.h:211-243 (constructors of `A` and `AT`, /repo/include/GMDP/matrices/SpMat.h:325-330 and 423-443,
`MPI_Allreduce` of `getNNZ`, line 393 there); `ReadGraphMatBin` /repo/include/Graph.h:152-194 (`getNNZ`, barrier; a rank that finds a wrong
file exits);
`WriteGraphMatBin` lines 196-208; `saveVertexproperty` lines 337-350; `SpVec::getNNZ`
/repo/include/GMDP/vectors/SpVec.h:350-364; `load_edgelist` /repo/include/GMDP/utils/edgelist.h:279-280;
`remove_duplicate_edges` /repo/include/GMDP/utils/edgelist_transformation.h:237-251; `randomize_edgelist_square`
/repo/include/GMDP/utils/edgelist.h:358.  Two operation numbers `2 * t` and `2 * t + 1` are used.
The segments of `y` keep their `queued_md` `q` between operations. -/
def CommOp.calls (A AT : RMat E) (nrank r : Nat) (v : Nat → MulVecs) (t : Nat) (q : Nat → List Int) :
    CommOp → Option ((Nat → List Int) × List (Call Label))
  | .superstep out in_ vprop => do
    let a ← if out then AT.mulCalls vprop nrank (2 * t) (v (2 * t)) r q else some (q, [])
    let b ← if in_ then A.mulCalls vprop nrank (2 * t + 1) (v (2 * t + 1)) r a.1 else some (a.1, [])
    some (b.1, a.2 ++ b.2 ++ [.coll])
  | .applyEdges => do
    let a ← AT.applyEdgesCalls nrank (2 * t) (v (2 * t)).vp r
    let b ← A.applyEdgesCalls nrank (2 * t + 1) (v (2 * t + 1)).vp r
    some (q, a ++ b)
  | .mapReduce => some (q, mapReduceCalls nrank (2 * t) r)
  | .readEdgelist cnt cntT =>
    some (q, ingestMatCalls nrank (2 * t) cnt r ++ ingestMatCalls nrank (2 * t + 1) cntT r ++ [.coll])
  | .readBin => some (q, [.coll, .coll])
  | .writeBin => some (q, [.coll])
  | .saveVertexproperty cnt => some (q, ingestVecCalls nrank (2 * t) cnt r)
  | .getNNZ => some (q, [.coll])
  | .loadEdgelist => some (q, [.coll, .coll])
  | .shuffle cnt => some (q, shuffleCalls nrank (2 * t) cnt r)
  | .removeDuplicates cnt => some (q, if nrank = 1 then [] else shuffleCalls nrank (2 * t) cnt r)
  | .randomize => some (q, [.coll])

/-- A sequence of operations, the first one with number `t` (/repo/include/GraphMatRuntime.h:134-261 and calls of the
interface between the runs). -/
def commCalls (A AT : RMat E) (nrank r : Nat) (v : Nat → MulVecs) :
    List CommOp → Nat → (Nat → List Int) → Option (List (Call Label))
  | [], _, _ => some []
  | op :: ops, t, q => do
    let a ← op.calls A AT nrank r v t q
    let b ← commCalls A AT nrank r v ops (t + 1) a.1
    some (a.2 ++ b)

end GraphMat

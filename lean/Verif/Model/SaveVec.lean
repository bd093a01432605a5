import Verif.Model.World

/-!
# Redistributing a list of vector entries, and `saveVertexproperty`

Models `SpVec::ingestEdgelist`, /repo/include/GMDP/vectors/SpVec.h:148-307, on all ranks together, and
`Graph::saveVertexproperty`, /repo/include/Graph.h:337-350.  Lists stand for arrays that are only read; the arrays that
are filled by computed positions (message buffers, counting sort) are modelled as arrays with their allocated sizes.
The messages (one `MPI_Isend`/`MPI_Irecv` per pair of ranks, completed by `MPI_Waitall`) deliver what was sent.
-/
namespace GraphMat

variable {α V : Type}

/-- The counting loops `count[r]++` and `counts[partitions[i]]++`, /repo/include/GMDP/vectors/SpVec.h:177-182, 259-264, on
an array of `size` zeros. -/
def countKeys (size : Nat) (keys : List Nat) : Option (Arr Nat) :=
  keys.foldlM (fun (c : Arr Nat) k => do
    let x ← c.read k
    c.write k (x + 1)) ⟨size, fun _ => 0⟩

/-- Packing the messages, /repo/include/GMDP/vectors/SpVec.h:195-205: `msg[r]` has `count[r]` elements, `offsets[r]` is the
number of elements put there so far.  `g` is the contents of the new buffers. -/
def packMsgs (g : Nat → Nat → α) (count : Arr Nat) (items : List (α × Nat)) : Option (Arr (Arr α) × Arr Nat) :=
  items.foldlM (fun (st : Arr (Arr α) × Arr Nat) it => do
    let m ← st.1.read it.2
    let o ← st.2.read it.2
    let m' ← m.write o it.1
    let msgs ← st.1.write it.2 m'
    let offs ← st.2.write it.2 (o + 1)
    some (msgs, offs)) (⟨count.size, fun r => ⟨count.get r, g r⟩⟩, ⟨count.size, fun _ => 0⟩)

/-- Sending half of `ingestEdgelist` on one rank, /repo/include/GMDP/vectors/SpVec.h:161-205: the message for every rank.
The owner of an edge is the rank of the segment of its `src` (assertion `tile != -1`, line 166). -/
def SpVec.packEdges (v : SpVec α) (g : Nat → Nat → Edge α) (es : List (Edge α)) : Option (List (List (Edge α))) := do
  let assigned ← es.mapM (fun e => do
    let tile ← getPartition v.n v.nseg e.src
    let o ← segOwner v.nrank tile
    some (e, o))
  let count ← countKeys v.nrank (assigned.map (·.2))
  let packed ← packMsgs g count assigned
  (List.range v.nrank).mapM (fun r => do
    let m ← packed.1.read r
    some m.toList)

/-- `start_nzs`, /repo/include/GMDP/vectors/SpVec.h:265-270: running sums of the counts. -/
def startNzs (nseg : Nat) (counts : Arr Nat) (g : Nat → Nat) : Option (Arr Nat) := do
  let st ← forLoop 0 nseg ((⟨nseg + 1, g⟩ : Arr Nat), 0) (fun i st => do
    let a ← st.1.write i st.2
    let c ← counts.read i
    some (a, st.2 + c))
  st.1.write nseg st.2

/-- The counting sort by segment, /repo/include/GMDP/vectors/SpVec.h:271-280; state: `edges` (allocated with `new_nnz`
elements, contents `g`) and `counts`, which starts as zeros again (line 270). -/
def placeBySegment (nseg : Nat) (starts : Arr Nat) (g : Nat → Edge α) (items : List (Edge α × Nat)) :
    Option (Arr (Edge α) × Arr Nat) :=
  items.foldlM (fun (st : Arr (Edge α) × Arr Nat) it => do
    let s ← starts.read it.2
    let c ← st.2.read it.2
    let edges ← st.1.write (s + c) it.1
    let counts ← st.2.write it.2 (c + 1)
    some (edges, counts)) (⟨items.length, g⟩, ⟨nseg, fun _ => 0⟩)

/-- `edges + start_nz`, `nnz` elements (/repo/include/GMDP/vectors/SpVec.h:297). -/
def Arr.slice (a : Arr α) (start cnt : Nat) : Option (List α) :=
  (List.range cnt).mapM (fun i => a.read (start + i))

/-- Fresh memory used by the receiving half of `ingestEdgelist` on one rank
(/repo/include/GMDP/vectors/SpVec.h:251-260). -/
structure IngestFresh (α : Type) where
  /-- `edges` -/
  edges : Nat → Edge α
  /-- `start_nzs` -/
  starts : Nat → Nat
  /-- buffers of the segments -/
  seg : Nat → Fresh α

/-- Receiving half of `ingestEdgelist` on one rank, /repo/include/GMDP/vectors/SpVec.h:239-300: every received edge must
belong to a segment of this rank (assertions, 241-242); counting sort by segment; every owned segment that received
something is filled. -/
def SpVec.ingestReceived (g : IngestFresh α) (recv : List (Edge α)) (v : SpVec α) : Option (SpVec α) := do
  let parts ← recv.mapM (fun e => do
    let tile ← getPartition v.n v.nseg e.src
    let own ← v.owns tile
    if own then some (e, tile) else none)
  let counts ← countKeys v.nseg (parts.map (·.2))
  let starts ← startNzs v.nseg counts g.starts
  let placed ← placeBySegment v.nseg starts g.edges parts
  v.forOwned (fun j s => do
    let nnz ← placed.2.read j
    let start ← starts.read j
    if nnz > 0 then do
      let es ← placed.1.slice start nnz
      let row ← v.startId j
      s.ingestEdges (g.seg j) es row
    else some s)

/-- `ingestEdgelist` on all ranks, /repo/include/GMDP/vectors/SpVec.h:148-307.  `blobs` holds the edges every rank passes
(`blob.n == 1` holds for the result of `get_edges`, line 123).  The receive buffer is the concatenation of the messages
in the order of the senders (`local_hist`, lines 208-221). -/
def DVec.ingestEdgelist (gm : Nat → Nat → Nat → Edge α) (g : Nat → IngestFresh α) (blobs : List (List (Edge α)))
    (d : DVec α) : Option (DVec α) := do
  let msgs ← (List.range d.size).mapM (fun r => do
    let v ← d.read r
    let es ← blobs[r]?
    v.packEdges (gm r) es)
  eachRank d (fun r v => do
    let parts ← msgs.mapM (fun m => m[r]?)
    v.ingestReceived (g r) parts.flatten)

/-- `saveVertexproperty(fname, includeHeader)` on all ranks, /repo/include/Graph.h:337-350: for every rank the files it
writes (number of the segment, header, lines). -/
def VGraph.saveVertexproperty (gm : Nat → Nat → Nat → Edge V) (g : Nat → IngestFresh V) (includeHeader : Bool)
    (G : VGraph V) : Option (List (List (Nat × Option (Nat × Nat) × List (Nat × V)))) := do
  let blobs ← (List.range G.nrank).mapM (fun r => do
    let v ← G.vp.read r
    let es ← v.getEdges
    es.mapM (fun e => do
      let src ← nativeToVertex G.threads G.nrank G.n e.src
      some { e with src := src }))
  let d ← (DVec.new G.n G.nrank G.nrank : Option (DVec V))
  let d ← d.ingestEdgelist gm g blobs
  (List.range G.nrank).mapM (fun r => do
    let v ← d.read r
    v.save includeHeader)

end GraphMat

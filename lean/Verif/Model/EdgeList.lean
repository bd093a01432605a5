import Verif.Model.CInt
import Verif.Model.Segment

/-!
# Edge lists and their transformations

Models /repo/include/GMDP/utils/edgelist.h and /repo/include/GMDP/utils/edgelist_transformation.h.
-/
namespace GraphMat

variable {E : Type}

/-- `edgelist_t<T>`, /repo/include/GMDP/utils/edgelist.h:52-78.  `nnz` is an `int` there; it is never negative in the
code modelled here. -/
structure EdgeList (E : Type) where
  /-- `edges` -/
  edges : Arr (Edge E)
  /-- `m` -/
  m : Int
  /-- `n` -/
  n : Int
  /-- `nnz` -/
  nnz : Nat

/-- `edgelist_t(m, n, nnz)`, /repo/include/GMDP/utils/edgelist.h:59-67: uninitialised edges. -/
def EdgeList.alloc (g : Nat → Edge E) (m n : Int) (nnz : Nat) : EdgeList E := ⟨⟨nnz, g⟩, m, n, nnz⟩

/-- `edges[0..nnz)`, the edges a user of the list sees (/repo/include/GMDP/utils/edgelist.h:52-78). -/
def EdgeList.list (el : EdgeList E) : List (Edge E) := (List.range el.nnz).map el.edges.get

/-- `std::swap(e.src, e.dst)`, /repo/include/GMDP/utils/edgelist_transformation.h:390, 401, 415. -/
def Edge.swap (e : Edge E) : Edge E := { e with src := e.dst, dst := e.src }

/-- One round of the copying loops /repo/include/GMDP/utils/edgelist_transformation.h:40-45 and 434-439: append
`edges[i]` to the new list if it qualifies. -/
def copyEdge (p : Edge E → Bool) (edges : Arr (Edge E)) (i : Nat) (s : Arr (Edge E) × Nat) :
    Option (Arr (Edge E) × Nat) := do
  let e ← edges.read i
  if p e then do
    let d ← s.1.write s.2 e
    some (d, s.2 + 1)
  else some s

/-- `remove_selfedges`, /repo/include/GMDP/utils/edgelist_transformation.h:37-53. -/
def removeSelfedges (g : Nat → Edge E) (el : EdgeList E) : Option (EdgeList E) := do
  let new := EdgeList.alloc g el.m el.n el.nnz
  let r ← forLoop 0 el.nnz (new.edges, 0) (copyEdge (fun e => decide (e.src ≠ e.dst)) el.edges)
  some { edges := r.1, m := new.m, n := new.n, nnz := r.2 }

/-- `filter_edges`, /repo/include/GMDP/utils/edgelist_transformation.h:431-443. -/
def filterEdges (g : Nat → Edge E) (p : Edge E → Bool) (el : EdgeList E) : Option (EdgeList E) := do
  let new := EdgeList.alloc g el.m el.n el.nnz
  let r ← forLoop 0 el.nnz (new.edges, 0) (copyEdge p el.edges)
  some { new with edges := r.1, nnz := r.2 }

/-- `compare_for_duplicates`, /repo/include/GMDP/utils/edgelist_transformation.h:55-61. -/
def compareForDuplicates (a b : Edge E) : Bool :=
  if a.src < b.src then true
  else if a.src > b.src then false
  else if a.dst < b.dst then true
  else false

/-- One round of the loop /repo/include/GMDP/utils/edgelist_transformation.h:78-85. -/
def dedupEdge (edges : Arr (Edge E)) (i : Nat) (s : Arr (Edge E) × Nat) : Option (Arr (Edge E) × Nat) := do
  let e ← edges.read i
  let q ← edges.read (i - 1)
  if e.src = q.src ∧ e.dst = q.dst then some s
  else do
    let d ← s.1.write s.2 e
    some (d, s.2 + 1)

/-- `remove_duplicate_edges_local`, /repo/include/GMDP/utils/edgelist_transformation.h:69-93; `sort` stands for the
library's sorting of `edges[0..nnz)` (:63-66). -/
def removeDuplicatesLocal (sort : List (Edge E) → List (Edge E)) (g : Nat → Edge E) (el : EdgeList E) :
    Option (EdgeList E) :=
  if 0 < el.nnz then do
    let sorted : Arr (Edge E) := ⟨el.edges.size, fun i => (sort el.list).getD i (el.edges.get i)⟩
    let new := EdgeList.alloc g el.m el.n el.nnz
    let e0 ← sorted.read 0
    let d ← new.edges.write 0 e0
    let r ← forLoop 1 el.nnz (d, 1) (dedupEdge sorted)
    some { edges := r.1, m := new.m, n := new.n, nnz := r.2 }
  else some el

/-- The range of edges a thread works on, /repo/include/GMDP/utils/edgelist_transformation.h:119-124, 146-151. -/
def shuffleRange (nnz nthreads tid : Nat) : Nat × Nat :=
  let points := nnz / nthreads
  let start := tid * points
  let stop := start + points
  let start := if start > nnz then nnz else start
  let stop := if stop > nnz then nnz else stop
  let stop := if tid = nthreads - 1 then nnz else stop
  (start, stop)

/-- The rank an edge is sent to, with the assertion, /repo/include/GMDP/utils/edgelist_transformation.h:126-127,
153-154. -/
def shuffleBin (nrank : Nat) (e : Edge E) : Option Nat := do
  let a ← csub e.src 1
  let b ← cmod a nrank
  if 0 ≤ b ∧ b ≤ (nrank : Int) - 1 then some b.toNat else none

/-- Counting, /repo/include/GMDP/utils/edgelist_transformation.h:115-130; the threads work on different rows of
`histogram` and are executed one after the other here.  The counts are `int`s, at most `nnz`. -/
def shuffleHistogram (nrank nthreads : Nat) (el : EdgeList E) : Option (Arr Nat) :=
  forLoop 0 nthreads ⟨nthreads * nrank, fun _ => 0⟩ (fun tid h =>
    forLoop (shuffleRange el.nnz nthreads tid).1 (shuffleRange el.nnz nthreads tid).2 h (fun i h => do
      let e ← el.edges.read i
      let bin ← shuffleBin nrank e
      let c ← h.read (tid * nrank + bin)
      h.write (tid * nrank + bin) (c + 1)))

/-- One round of the loop below, /repo/include/GMDP/utils/edgelist_transformation.h:134-139. -/
def shuffleOffsetStep (nrank nthreads : Nat) (hist : Arr Nat) (bin tid : Nat) (off : Arr Nat) : Option (Arr Nat) :=
  if 0 < tid then do
    let o ← off.read ((tid - 1) * nrank + bin)
    let h ← hist.read ((tid - 1) * nrank + bin)
    off.write (tid * nrank + bin) (o + h)
  else if 0 < bin then do
    let o ← off.read ((nthreads - 1) * nrank + bin - 1)
    let h ← hist.read ((nthreads - 1) * nrank + bin - 1)
    off.write (tid * nrank + bin) (o + h)
  else some off

/-- Where each thread's edges for each rank start, /repo/include/GMDP/utils/edgelist_transformation.h:131-141. -/
def shuffleOffsets (nrank nthreads : Nat) (hist : Arr Nat) : Option (Arr Nat) := do
  let off ← (⟨nthreads * nrank, fun _ => 0⟩ : Arr Nat).write 0 0
  forLoop 0 nrank off (fun bin off =>
    forLoop 0 nthreads off (fun tid off => shuffleOffsetStep nrank nthreads hist bin tid off))

/-- One round of the loop below, /repo/include/GMDP/utils/edgelist_transformation.h:152-157. -/
def shuffleScatterStep (nrank : Nat) (off : Arr Nat) (edges : Arr (Edge E)) (tid i : Nat)
    (s : Arr (Edge E) × Arr Nat) : Option (Arr (Edge E) × Arr Nat) := do
  let e ← edges.read i
  let bin ← shuffleBin nrank e
  let o ← off.read (tid * nrank + bin)
  let w ← s.2.read (tid * nrank + bin)
  let t ← s.1.write (o + w) e
  let wo ← s.2.write (tid * nrank + bin) (w + 1)
  some (t, wo)

/-- Grouping the edges by destination rank, /repo/include/GMDP/utils/edgelist_transformation.h:142-158. -/
def shuffleScatter (g : Nat → Edge E) (nrank nthreads : Nat) (off : Arr Nat) (el : EdgeList E) : Option (Arr (Edge E)) := do
  let r ← forLoop 0 nthreads ((⟨el.nnz, g⟩ : Arr (Edge E)), (⟨nthreads * nrank, fun _ => 0⟩ : Arr Nat)) (fun tid s =>
    forLoop (shuffleRange el.nnz nthreads tid).1 (shuffleRange el.nnz nthreads tid).2 s
      (shuffleScatterStep nrank off el.edges tid))
  some r.1

/-- `counts[bin]`, /repo/include/GMDP/utils/edgelist_transformation.h:164-170. -/
def shuffleCount (nrank nthreads : Nat) (hist : Arr Nat) (bin : Nat) : Option Nat :=
  forLoop 0 nthreads 0 (fun tid c => do
    let h ← hist.read (tid * nrank + bin)
    some (c + h))

/-- What one rank sends to every rank, /repo/include/GMDP/utils/edgelist_transformation.h:96-171, 207-210: the message
to rank `bin` is `counts[bin]` edges from `tedges + positions[bin]`, and `positions[bin] = offset[bin]`. -/
def shuffleOutgoing (g : Nat → Edge E) (nrank nthreads : Nat) (el : EdgeList E) : Option (List (List (Edge E))) := do
  let hist ← shuffleHistogram nrank nthreads el
  let off ← shuffleOffsets nrank nthreads hist
  let tedges ← shuffleScatter g nrank nthreads off el
  (List.range nrank).mapM (fun bin => do
    let pos ← off.read bin
    let cnt ← shuffleCount nrank nthreads hist bin
    (List.range cnt).mapM (fun k => tedges.read (pos + k)))

/-- What a rank receives, sender by sender, and its new list, /repo/include/GMDP/utils/edgelist_transformation.h:191-235;
the count is passed to a constructor that takes an `int`. -/
def shuffleReceive (d : Edge E) (r : Nat) (out : List (List (List (Edge E)))) (el : EdgeList E) : Option (EdgeList E) := do
  let parts ← out.mapM (fun msgs => msgs[r]?)
  let all := parts.flatten
  let _ ← ck (all.length : Int)
  some { edges := Arr.ofList d all, m := el.m, n := el.n, nnz := all.length }

/-- `shuffle_edges`, /repo/include/GMDP/utils/edgelist_transformation.h:95-235, executed by all ranks; `els` holds
one list per rank. -/
def shuffleEdges (g : Nat → Nat → Edge E) (nthreads : Nat) (els : List (EdgeList E)) : Option (List (EdgeList E)) := do
  let out ← (List.range els.length).mapM (fun r => do
    let el ← els[r]?
    shuffleOutgoing (g r) els.length nthreads el)
  (List.range els.length).mapM (fun r => do
    let el ← els[r]?
    shuffleReceive (g r 0) r out el)

/-- `remove_duplicate_edges`, /repo/include/GMDP/utils/edgelist_transformation.h:237-251, executed by all ranks. -/
def removeDuplicates (sort : Nat → List (Edge E) → List (Edge E)) (g : Nat → Nat → Edge E) (nthreads : Nat)
    (els : List (EdgeList E)) : Option (List (EdgeList E)) :=
  (if els.length = 1 then some els else shuffleEdges g nthreads els).bind (fun els =>
    (List.range els.length).mapM (fun r => do
      let el ← els[r]?
      removeDuplicatesLocal (sort r) (g r) el))

/-- One round of the loop below, /repo/include/GMDP/utils/edgelist_transformation.h:399-401. -/
def bidirectionalStep (edges : Arr (Edge E)) (i : Nat) (new : Arr (Edge E)) : Option (Arr (Edge E)) := do
  let e ← edges.read i
  let new ← new.write (2 * i) e
  let e ← edges.read i
  let new ← new.write (2 * i + 1) e
  let x ← new.read (2 * i + 1)
  new.write (2 * i + 1) x.swap

/-- `create_bidirectional_edges`, /repo/include/GMDP/utils/edgelist_transformation.h:396-410. -/
def createBidirectional (g : Nat → Edge E) (el : EdgeList E) : Option (EdgeList E) := do
  let nnz2 ← cmul el.nnz 2
  let new := EdgeList.alloc g el.m el.n nnz2.toNat
  let d ← forLoop 0 el.nnz new.edges (bidirectionalStep el.edges)
  some { new with edges := d }

/-- `convert_to_dag`, /repo/include/GMDP/utils/edgelist_transformation.h:412-418. -/
def convertToDag (el : EdgeList E) : Option (EdgeList E) := do
  let d ← forLoop 0 el.nnz el.edges (fun i edges => do
    let e ← edges.read i
    if e.src > e.dst then edges.write i e.swap else some edges)
  some { el with edges := d }

/-- `randomize_edge_direction`, /repo/include/GMDP/utils/edgelist_transformation.h:387-393; `coin i` tells whether the
`i`-th random number is below one half. -/
def randomizeDirection (coin : Nat → Bool) (el : EdgeList E) : Option (EdgeList E) := do
  let d ← forLoop 0 el.nnz el.edges (fun i edges => do
    let e ← edges.read i
    if coin i then edges.write i e.swap else some edges)
  some { el with edges := d }

/-- One round of the loop below, /repo/include/GMDP/utils/edgelist.h:417-423. -/
def byRowStep (startRow endRow : Int) (i : Nat) (s : Arr (Edge E) × Nat) : Option (Arr (Edge E) × Nat) := do
  let e ← s.1.read i
  let a ← csub e.src 1
  if a < endRow ∧ a ≥ startRow then do
    let d ← s.1.write s.2 e
    let x ← d.read s.2
    let src ← csub x.src startRow
    let d ← d.write s.2 { x with src := src }
    some (d, s.2 + 1)
  else some s

/-- `filter_edges_by_row`, /repo/include/GMDP/utils/edgelist.h:411-428. -/
def filterEdgesByRow (startRow endRow : Int) (el : EdgeList E) : Option (EdgeList E) := do
  let r ← forLoop 0 el.nnz (el.edges, 0) (byRowStep startRow endRow)
  let m ← csub endRow startRow
  some { edges := r.1, m := m, n := el.n, nnz := r.2 }

/-- One round of the first loop of `remove_empty_columns`, /repo/include/GMDP/utils/edgelist.h:377-384. -/
def markColumn (edges : Arr (Edge E)) (i : Nat) (s : Arr Bool × Nat) : Option (Arr Bool × Nat) := do
  let e ← edges.read i
  let a ← csub e.dst 1
  let a ← natIdx a
  let b ← s.1.read a
  let c ← s.1.write a true
  some (c, if b then s.2 else s.2 + 1)

/-- One round of the second loop, /repo/include/GMDP/utils/edgelist.h:388-397; the state is `new_colids`,
`remaining_indices` and `new_colcnt`. -/
def numberColumn (exist : Arr Bool) (newNcols i : Nat) (s : Arr Nat × Arr Nat × Nat) : Option (Arr Nat × Arr Nat × Nat) := do
  let b ← exist.read i
  let c ← s.1.read i
  let ids ← s.1.write (i + 1) ((if b then 1 else 0) + c)
  if b then
    if s.2.2 < newNcols then do
      let rem ← s.2.1.write s.2.2 (i + 1)
      some (ids, rem, s.2.2 + 1)
    else none
  else some (ids, s.2.1, s.2.2)

/-- One round of the third loop, /repo/include/GMDP/utils/edgelist.h:400-405. -/
def renumberColumn (ids : Arr Nat) (newNcols i : Nat) (edges : Arr (Edge E)) : Option (Arr (Edge E)) := do
  let e ← edges.read i
  let a ← csub e.dst 1
  let a ← natIdx a
  let c ← ids.read a
  let x ← cadd c 1
  let edges ← edges.write i { e with dst := x }
  if 0 ≤ x - 1 ∧ x - 1 < (newNcols : Int) then some edges else none

/-- `remove_empty_columns`, /repo/include/GMDP/utils/edgelist.h:368-409; returns the list and `*remaining_indices`.
Column numbers are `int`s, at most `n`. -/
def removeEmptyColumns (g : Nat → Nat) (el : EdgeList E) : Option (EdgeList E × Arr Nat) := do
  let n1 ← cadd el.n 1
  let mark ← forLoop 0 el.nnz ((⟨el.n.toNat, fun _ => false⟩ : Arr Bool), 0) (markColumn el.edges)
  let num ← forLoop 0 el.n.toNat ((⟨n1.toNat, fun _ => 0⟩ : Arr Nat), (⟨mark.2, g⟩ : Arr Nat), 0)
    (numberColumn mark.1 mark.2)
  if num.2.2 = mark.2 then do
    let edges ← forLoop 0 el.nnz el.edges (renumberColumn num.1 mark.2)
    some ({ el with edges := edges, n := (mark.2 : Int) }, num.2.1)
  else none

/-- The permutation drawn by rank 0 in `randomize_edgelist_square`, /repo/include/GMDP/utils/edgelist.h:338-354; `rand i`
is the `i`-th random number, `g` what the fresh arrays hold. -/
def randomMapping (g rand : Nat → Nat) (m : Nat) : Option (Arr Nat) := do
  let s ← forLoop 0 m ((⟨m, g⟩ : Arr Nat), (⟨m, g⟩ : Arr Nat)) (fun i s => do
    let a ← s.1.write i i
    let b ← s.2.write i (rand i % m)
    some (a, b))
  forLoop 0 m s.1 (fun i a => do
    let tmp ← a.read i
    let r ← s.2.read i
    let x ← a.read r
    let a ← a.write i x
    a.write r tmp)

/-- `mapping[id - 1] + 1`, /repo/include/GMDP/utils/edgelist.h:362-363: an `unsigned` sum converted to `int`. -/
def mapId (mapping : Arr Nat) (id : Int) : Option Int := do
  let a ← csub id 1
  let a ← natIdx a
  let x ← mapping.read a
  some ((BitVec.ofNat 32 (x + 1)).toInt)

/-- `randomize_edgelist_square`, /repo/include/GMDP/utils/edgelist.h:336-366, on every rank with the broadcast
mapping. -/
def randomizeSquare (g rand : Nat → Nat) (el : EdgeList E) : Option (EdgeList E) := do
  let mapping ← randomMapping g rand el.m.toNat
  let d ← forLoop 0 el.nnz el.edges (fun i edges => do
    let e ← edges.read i
    let s ← mapId mapping e.src
    let t ← mapId mapping e.dst
    edges.write i { e with src := s, dst := t })
  some { el with edges := d }

end GraphMat

import Verif.Model.Tile
import Verif.Model.Layout
import Verif.Model.BinSearch
import Verif.Model.World

/-!
# Distributed sparse matrices

Models /repo/include/GMDP/matrices/SpMat.h for DCSC tiles and the matrix part of
/repo/include/Graph.h.  All ranks are modelled together (SPMD).  The two exchanges of
`ingestEdgelist` (one `MPI_Isend`/`MPI_Irecv` per pair of ranks, completed by `MPI_Waitall`) deliver
what was sent.
-/
namespace GraphMat

variable {E V : Type}

/-- `SpMat<DCSCTile<T>>` on one rank, /repo/include/GMDP/matrices/SpMat.h:50-59.  `start_idx`,
`start_idy` are functions of the dimensions (`startIds`); `nodeIds[i + j*ntiles_y]` is `node i j`
(computed once, line 295-299, and never changed); `none` in `tiles` is the NULL pointer.  The indices
of `tiles` always come from loops bounded by `ntiles_y`, `ntiles_x`. -/
structure RMat (E : Type) where
  /-- `m` -/
  m : Nat
  /-- `n` -/
  n : Nat
  /-- `ntiles_x` -/
  ntx : Nat
  /-- `ntiles_y` -/
  nty : Nat
  /-- `global_nrank` -/
  nrank : Nat
  /-- `global_myrank` -/
  myrank : Nat
  /-- `nodeIds` -/
  node : Nat → Nat → Option Nat
  /-- `tiles` -/
  tiles : Nat → Nat → Option (Tile E)

/-- `Allocate2DPartitioned(m, n, ntx, nty, pfn)`, /repo/include/GMDP/matrices/SpMat.h:280-321.  `none`
= assertion failure or division by zero in `pfn`. -/
def RMat.alloc (m n ntx nty nrank myrank : Nat) (pfn : Nat → Nat → Nat → Option Nat) :
    Option (RMat E) := do
  if ntx = 0 ∨ nty = 0 then none else
  let _ ← (List.range ntx).mapM (fun j => (List.range nty).mapM (fun i => pfn j i nrank))
  some { m := m, n := n, ntx := ntx, nty := nty, nrank := nrank, myrank := myrank,
         node := fun i j => pfn j i nrank, tiles := fun _ _ => none }

/-- `compare_tile_id`, /repo/include/GMDP/matrices/SpMat.h:42-45, on edges paired with their
`tile_id`. -/
def compareTileId (a b : Edge E × Nat) : Bool := decide (a.2 < b.2)

/-- The behaviour of the calls of `__gnu_parallel::sort` during one `ingestEdgelist`
(/repo/include/GMDP/matrices/SpMat.h:135, 238 and, per tile,
/repo/include/GMDP/matrices/DCSCTile.h:305). -/
structure Sorts (E : Type) where
  /-- by owning rank, on rank `r` -/
  owner : Nat → List (Edge E × Nat) → List (Edge E × Nat)
  /-- by tile, on rank `r` -/
  tile : Nat → List (Edge E × Nat) → List (Edge E × Nat)
  /-- inside tile `(i, j)` on rank `r` -/
  dcsc : Nat → Nat → Nat → List (TEdge E) → List (TEdge E)

/-- The loop computing `counts`, `positions`, /repo/include/GMDP/matrices/SpMat.h:151-167; state
`current_count` and the list of `(positions[i], counts[i])`.  `none` also if
`(point+1) - current_count` were negative (it would wrap to a huge count). -/
def sendPlan (assignment : List Nat) (nrank : Nat) : Option (List (Nat × Nat)) := do
  let a : Arr Int := Arr.ofList 0 (assignment.map Int.ofNat)
  let st ← forLoop 0 nrank ((0 : Nat), ([] : List (Nat × Nat))) (fun i st => do
    let point ← rightBorder a (i : Int) assignment.length (assignment.length + 2) 0 assignment.length
    if point = -1 then some (st.1, st.2 ++ [(st.1, 0)])
    else if point + 1 < (st.1 : Int) then none
    else some ((point + 1).toNat, st.2 ++ [(st.1, (point + 1).toNat - st.1)]))
  some st.2

/-- First half of `ingestEdgelist` on rank `r` when there are several ranks,
/repo/include/GMDP/matrices/SpMat.h:119-167: the edges sorted by owner (this overwrites the caller's
array, lines 140-145) and what to send to whom. -/
def shuffleOut (M : RMat E) (srt : Sorts E) (edges : List (Edge E)) :
    Option (List (Edge E) × List (Nat × Nat)) := do
  let ted ← edges.mapM (fun e => do
    let ij ← matPartition M.m M.n M.nty M.ntx e.src e.dst
    let o ← M.node ij.1 ij.2
    some (e, o))
  let ted := srt.owner M.myrank ted
  let plan ← sendPlan (ted.map (·.2)) M.nrank
  some (ted.map (·.1), plan)

/-- `edge_list + positions[i]`, `counts[i]` elements
(/repo/include/GMDP/matrices/SpMat.h:204-207); `none` = outside the array. -/
def sliceOf {α : Type} (l : List α) (pos cnt : Nat) : Option (List α) :=
  if pos + cnt ≤ l.length then some ((l.drop pos).take cnt) else none

/-- One tile of the second half, /repo/include/GMDP/matrices/SpMat.h:255-275. -/
def makeTile (M : RMat E) (srt : Sorts E) (g : Nat → Nat → TileFresh E) (threads : Nat)
    (received : List (Edge E)) (assignment : List Nat) (i j : Nat) : Option (Tile E) := do
  let y0 ← (startIds M.m M.nty)[i]?
  let y1 ← (startIds M.m M.nty)[i + 1]?
  let x0 ← (startIds M.n M.ntx)[j]?
  let x1 ← (startIds M.n M.ntx)[j + 1]?
  let a : Arr Int := Arr.ofList 0 (assignment.map Int.ofNat)
  let id : Int := ((i + j * M.nty : Nat) : Int)
  let s ← leftBorder a id assignment.length (assignment.length + 2) 0 assignment.length
  let e ← rightBorder a id assignment.length (assignment.length + 2) 0 assignment.length
  let nnz : Int := if s ≠ -1 ∧ e ≠ -1 then (e + 1) - s else 0
  if nnz ≤ 0 then some (Tile.empty (g i j) 0 (y1 - y0) (x1 - x0))
  else do
    let es ← sliceOf received s.toNat nnz.toNat
    Tile.build (g i j) threads (srt.dcsc M.myrank i j) es (y1 - y0) (x1 - x0) y0 x0

/-- Second half of `ingestEdgelist` on one rank, /repo/include/GMDP/matrices/SpMat.h:222-277. -/
def ingestLocal (M : RMat E) (srt : Sorts E) (g : Nat → Nat → TileFresh E) (threads : Nat)
    (received : List (Edge E)) : Option (RMat E) := do
  let ted ← received.mapM (fun e => do
    let ij ← matPartition M.m M.n M.nty M.ntx e.src e.dst
    some (e, ij.1 + ij.2 * M.nty))
  let ted := srt.tile M.myrank ted
  forLoop 0 M.ntx M (fun j M' => forLoop 0 M.nty M' (fun i M' => do
    let o ← M.node i j
    if o = M.myrank then
      let t ← makeTile M srt g threads (ted.map (·.1)) (ted.map (·.2)) i j
      some { M' with tiles := fun a b => if a = i ∧ b = j then some t else M'.tiles a b }
    else some M'))

/-- A distributed matrix: one `SpMat` per rank (/repo/include/GMDP/matrices/SpMat.h:50-59). -/
abbrev DMat (E : Type) := List (RMat E)

/-- The constructor `SpMat(edgelist, ntx, nty, pfn)` on all ranks,
/repo/include/GMDP/matrices/SpMat.h:325-330 with `ingestEdgelist`, lines 97-278.  `blobs` holds the
edges each rank passes; the first component of the result is the contents of these arrays
afterwards. -/
def DMat.ofEdges (m n ntx nty nrank : Nat) (pfn : Nat → Nat → Nat → Option Nat) (srt : Sorts E)
    (g : Nat → Nat → Nat → TileFresh E) (threads : Nat) (blobs : List (List (Edge E))) :
    Option (List (List (Edge E)) × DMat E) := do
  let Ms ← (List.range nrank).mapM (fun r => RMat.alloc m n ntx nty nrank r pfn)
  if nrank = 1 then
    let D ← (Ms.zip blobs).mapM (fun Mb => ingestLocal Mb.1 srt (g Mb.1.myrank) threads Mb.2)
    some (blobs, D)
  else
    let out ← (Ms.zip blobs).mapM (fun Mb => shuffleOut Mb.1 srt Mb.2)
    let D ← Ms.mapM (fun M => do
      let parts ← out.mapM (fun o => do
        let pc ← o.2[M.myrank]?
        sliceOf o.1 pc.1 pc.2)
      ingestLocal M srt (g M.myrank) threads parts.flatten)
    some (out.map (·.1), D)

/-- The loop over the tiles of this rank, row by row
(/repo/include/GMDP/matrices/SpMat.h:349-355, 366-374, 382-391). -/
def RMat.foldTiles {σ : Type} (M : RMat E) (s : σ) (f : Nat → Nat → Tile E → σ → Option σ) :
    Option σ :=
  forLoop 0 M.nty s (fun i s => forLoop 0 M.ntx s (fun j s => do
    let o ← M.node i j
    if o = M.myrank then
      let t ← M.tiles i j
      f i j t s
    else some s))

/-- `get_edges(edgelist)`, /repo/include/GMDP/matrices/SpMat.h:343-376.  The output array has exactly
`nnzs` elements: writing more is out of bounds, fewer would leave indeterminate ones (`none`). -/
def RMat.getEdges (M : RMat E) : Option (List (Edge E)) := do
  let nnzs ← M.foldTiles 0 (fun _ _ t k => some (k + t.nnz))
  if nnzs > 0 then
    let out ← M.foldTiles ([] : List (Edge E)) (fun i j t out => do
      let y0 ← (startIds M.m M.nty)[i]?
      let x0 ← (startIds M.n M.ntx)[j]?
      let es ← t.getEdges y0 x0
      some (out ++ es))
    if out.length = nnzs then some out else none
  else some []

/-- `getNNZ()` as seen by each rank, /repo/include/GMDP/matrices/SpMat.h:378-395: the 64-bit counter
is reduced with `MPI_INT`, so only its low 32 bits are summed (modulo 2^32, little endian). -/
def DMat.getNNZ (D : DMat E) : Option (List Nat) := do
  let ks ← D.mapM (fun M => M.foldTiles 0 (fun _ _ t k => some (k + t.nnz)))
  let low := (ks.map (· % 2 ^ 32)).sum % 2 ^ 32
  some (ks.map (fun k => k / 2 ^ 32 * 2 ^ 32 + low))

/-- `Transpose(mat, &matc, ntx, nty, pfn)` on all ranks, /repo/include/GMDP/matrices/SpMat.h:422-443. -/
def DMat.transpose (D : DMat E) (m n ntx nty nrank : Nat) (pfn : Nat → Nat → Nat → Option Nat)
    (srt : Sorts E) (g : Nat → Nat → Nat → TileFresh E) (threads : Nat) : Option (DMat E) := do
  let blobs ← D.mapM RMat.getEdges
  let swapped := blobs.map (fun es => es.map (fun e => ({ e with src := e.dst, dst := e.src } : Edge E)))
  let r ← DMat.ofEdges n m ntx nty nrank pfn srt g threads swapped
  some r.2

/-- `Graph<V,E>` on all ranks, /repo/include/Graph.h:58-71. -/
structure Graph (V E : Type) extends VGraph V where
  /-- `nnz` (one value per rank) -/
  nnz : List Nat
  /-- `A` -/
  A : DMat E
  /-- `AT` -/
  AT : DMat E

/-- Everything `ReadEdgelist` (/repo/include/Graph.h:210-246) finds in fresh memory, and the behaviour
of the sorting calls. -/
structure LoadEnv (V E : Type) where
  /-- sorting while `A` is built -/
  sA : Sorts E
  /-- sorting while `AT` is built -/
  sAT : Sorts E
  /-- fresh memory of the tiles of `A` -/
  gA : Nat → Nat → Nat → TileFresh E
  /-- fresh memory of the tiles of `AT` -/
  gAT : Nat → Nat → Nat → TileFresh E
  /-- fresh memory of `vertexproperty` -/
  gv : Nat → Nat → Fresh V
  /-- fresh memory of `active` -/
  ga : Nat → Nat → Fresh Bool
  /-- the default-constructed `*__v` on each rank -/
  d : Nat → V

/-- The renumbering loop of `ReadEdgelist`, /repo/include/Graph.h:219-224 (it overwrites the caller's
array). -/
def renumber (threads nrank m : Nat) (es : List (Edge E)) : Option (List (Edge E)) :=
  es.mapM (fun e => do
    let s ← vertexToNative threads nrank m e.src
    let d ← vertexToNative threads nrank m e.dst
    some { e with src := s, dst := d })

/-- `ReadEdgelist(A_edges)` on all ranks, /repo/include/Graph.h:210-246.  The first component of the
result is the contents of the callers' edge arrays afterwards. -/
def Graph.readEdgelist (env : LoadEnv V E) (threads nrank m n : Nat) (blobs : List (List (Edge E))) :
    Option (List (List (Edge E)) × Graph V E) := do
  let blobs ← blobs.mapM (renumber threads nrank m)
  let A ← DMat.ofEdges m n nrank nrank nrank partitionFn2d env.sA env.gA threads blobs
  let AT ← DMat.transpose A.2 m n nrank nrank nrank partitionFn2d env.sAT env.gAT threads
  if m ≠ n then none else
  let nnz ← DMat.getNNZ A.2
  let vg ← VGraph.create m nrank threads env.gv env.ga env.d
  some (A.1, { vg with nnz := nnz, A := A.2, AT := AT })

/-- `getEdgelist(myedges)` on rank `r`, /repo/include/Graph.h:327-335. -/
def Graph.getEdgelist (G : Graph V E) (r : Nat) : Option (List (Edge E)) := do
  let M ← G.A[r]?
  let es ← M.getEdges
  es.mapM (fun e => do
    let s ← nativeToVertex G.threads G.nrank G.n e.src
    let d ← nativeToVertex G.threads G.nrank G.n e.dst
    some { e with src := s, dst := d })

end GraphMat

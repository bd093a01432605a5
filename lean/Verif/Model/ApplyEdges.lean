import Verif.Model.SpMSpV

/-!
# Applying a function to the edges

Models /repo/include/GMDP/singlenode/applyedges.h, /repo/include/GMDP/multinode/applyedges.h and
`Graph::applyToAllEdges`.  The function `void (*op)(Ta*, const Tvp&, const Tvp&, void*)` becomes a function
from the old value of the edge and the two properties to the new value.  As in `Model/SpMSpV.lean` the
prefetch (/repo/include/GMDP/singlenode/applyedges.h:57) and the dead store `*nnz = m * n` (line 78) are
left out, and the `omp parallel for` over row partitions runs in partition order.
-/
namespace GraphMat

variable {V E : Type}

/-- The body of the innermost loop of `my_applyedges`, with its assertion,
/repo/include/GMDP/singlenode/applyedges.h:61-69.  `i` is the index of the entry in `vals`, `row` its row,
`col` its column. -/
def applyEdge (op : E → V → V → E) (vp1 vp2 : Arr V) (vb2 : Arr Word) (col row i : Nat) (vals : Arr E) :
    Option (Arr E) := do
  let bit ← getBitvector row vb2
  if !bit then none else
  let x ← vp1.read col
  let y ← vp2.read row
  let a ← vals.read i
  vals.write i (op a x y)

/-- One partition of `my_applyedges`, /repo/include/GMDP/singlenode/applyedges.h:48-72. -/
def Tile.applyPart (t : Tile E) (op : E → V → V → E) (vp1 vp2 : Arr V) (vb2 : Arr Word) (p : Nat)
    (vals : Arr E) : Option (Arr E) := do
  let c0 ← t.cs.read p
  let e0 ← t.ep.read p
  let c1 ← t.cs.read (p + 1)
  forLoop 0 (c1 - c0 - 1) vals (fun j vals => do
    let col ← t.colIdx.read (c0 + j)
    let a ← t.colPtrs.read (c0 + j)
    let b ← t.colPtrs.read (c0 + j + 1)
    forLoop a b vals (fun nz vals => do
      let row ← t.rowInds.read (e0 + nz)
      applyEdge op vp1 vp2 vb2 col row (e0 + nz) vals))

/-- `my_applyedges`, /repo/include/GMDP/singlenode/applyedges.h:38-78: the new contents of `vals`. -/
def Tile.applyVals (t : Tile E) (op : E → V → V → E) (vp1 vp2 : Arr V) (vb2 : Arr Word) : Option (Arr E) :=
  forLoop 0 t.np t.vals (t.applyPart op vp1 vp2 vb2)

/-- `apply_edges(tile, segmentvp1, segmentvp2, fp, vsp)`,
/repo/include/GMDP/singlenode/applyedges.h:82-95; `isEmpty()` is `nnz <= 0`
(/repo/include/GMDP/matrices/DCSCTile.h:401). -/
def Tile.applyEdges (t : Tile E) (op : E → V → V → E) (s1 s2 : Segment V) : Option (Tile E) :=
  if t.nnz = 0 then some t
  else do
    let b1 ← s1.props
    let b2 ← s2.props
    let vals ← t.applyVals op b1.value b2.value b2.bits
    some { t with vals := vals }

/-- The loop over the tiles of one rank, /repo/include/GMDP/multinode/applyedges.h:138-145. -/
def RMat.applyEdges (M : RMat E) (op : E → V → V → E) (vp : SpVec V) : Option (RMat E) :=
  forLoop 0 M.nty M (fun i M' => forLoop 0 M.ntx M' (fun j M' => do
    let o ← M.node i j
    if o = M.myrank then
      let t ← M'.tiles i j
      let s1 ← vp.segs.read j
      let s2 ← vp.segs.read i
      let t' ← t.applyEdges op s1 s2
      some { M' with tiles := fun a b => if a = i ∧ b = j then some t' else M'.tiles a b }
    else some M'))

/-- `rowcol_ranks[j]`, /repo/include/GMDP/multinode/applyedges.h:56-72: the ranks of row `j` and of column
`j` in one set. -/
def RMat.rowcolRanks (M : RMat E) (j : Nat) : Option (List Nat) := do
  let row ← M.rowRanks j
  let col ← M.colRanks j
  some (rankSet (row ++ col))

/-- `ApplyEdges(grida, vecvp, fp, vsp)` on all ranks, /repo/include/GMDP/multinode/applyedges.h:45-161:
exchange of the property segments, the loops over the tiles, release of the received copies. -/
def DMat.applyEdges (ser : Bool) (g : Nat → Nat → Fresh V) (threads nrank : Nat) (D : DMat E)
    (op : E → V → V → E) (vp : DVec V) : Option (DMat E × DVec V) := do
  let M ← D[0]?
  let pairs ← rankPairs M.ntx M.rowcolRanks
  let vp ← vp.broadcast ser threads nrank g pairs
  let D' ← (List.range nrank).mapM (fun r => do
    let v ← vp.read r
    let M ← D[r]?
    M.applyEdges op v)
  let vp ← vp.freeNonOwned M.ntx
  some (D', vp)

/-- `applyToAllEdges(ApplyFn, param)` on all ranks, /repo/include/Graph.h:389-402: first the stored
transpose, whose columns are the sources, then `A` with the two properties exchanged. -/
def Graph.applyToAllEdges (ser : Bool) (g1 g2 : Nat → Nat → Fresh V) (fn : E → V → V → E) (G : Graph V E) :
    Option (Graph V E) := do
  let r ← DMat.applyEdges ser g1 G.threads G.nrank G.AT fn G.vp
  let s ← DMat.applyEdges ser g2 G.threads G.nrank G.A (fun e src dst => fn e dst src) r.2
  some { G with AT := r.1, A := s.1, vp := s.2 }

end GraphMat

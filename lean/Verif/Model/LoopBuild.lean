import Verif.Model.Tile
import Verif.Model.EdgeList
import Verif.Spec.Conc

/-!
# The parallel loops of the DCSC constructor and of `shuffle_edges` as tasks

As in `Model/Loops.lean`.  An edge is one location: the loops access its fields one after the other, but always those of an
edge that no other task touches.  Bounds of inner loops are loaded once.  Assertions and whether an index is negative are
decided by the sequential models.
-/
namespace GraphMat

variable {E : Type}

/-- An array allocated with contents `g` (/repo/include/GMDP/matrices/DCSCTile.h:252, 312) whose elements then became those
of `l`; the sequential models use the list. -/
def arrFrom {α : Type} (g : Nat → α) (l : List α) : Arr α := ⟨l.length, fun i => (l[i]?).getD (g i)⟩

/-! ### DCSC tiles -/

/-- The arrays of the constructor (/repo/include/GMDP/matrices/DCSCTile.h:241-381). -/
inductive DcscArr where
  /-- `edges` -/
  | edges
  /-- `row_pointers` -/
  | rp
  /-- `p_edges` -/
  | ped
  /-- `edge_pointers` -/
  | ep
  /-- `ncols` -/
  | ncols
  /-- `col_starts` -/
  | cs
  /-- `vals` -/
  | vals
  /-- `row_inds` -/
  | rowInds
  /-- `col_indices` -/
  | colIdx
  /-- `col_ptrs` -/
  | colPtrs
deriving DecidableEq

/-- The types of the elements (/repo/include/GMDP/matrices/DCSCTile.h:60-79, 241-381). -/
abbrev DcscArr.Ty (E : Type) : DcscArr → Type
  | .edges => Edge E
  | .rp => Nat
  | .ped => TEdge E
  | .ep => Nat
  | .ncols => Nat
  | .cs => Nat
  | .vals => E
  | .rowInds => Nat
  | .colIdx => Nat
  | .colPtrs => Nat

/-- Programs over these arrays (/repo/include/GMDP/matrices/DCSCTile.h:241-381). -/
abbrev DcscCode (E β : Type) := Code (DcscArr × Nat) (fun l => DcscArr.Ty E l.1) β

/-- The arrays as a function of their names (/repo/include/GMDP/matrices/DCSCTile.h:241-381). -/
def dcscA (edges : Arr (Edge E)) (rp : Arr Nat) (ped : Arr (TEdge E)) (ep ncols cs : Arr Nat) (b : TileBuf E) :
    (k : DcscArr) → Arr (DcscArr.Ty E k)
  | .edges => edges
  | .rp => rp
  | .ped => ped
  | .ep => ep
  | .ncols => ncols
  | .cs => cs
  | .vals => b.vals
  | .rowInds => b.rowInds
  | .colIdx => b.colIdx
  | .colPtrs => b.colPtrs

/-- The search for the partition, /repo/include/GMDP/matrices/DCSCTile.h:264-278 (sequential model: `findPart`). -/
def findPartC (s : Int) : Nat → DcscCode E Nat
  | 0 => pure 0
  | p + 1 => do
    let lo : Nat ← aload DcscArr.rp p
    let hi : Nat ← aload DcscArr.rp (p + 1)
    if (lo : Int) ≤ s ∧ s < (hi : Int) then pure p else if s < (lo : Int) then findPartC s p else pure 0

/-- Iteration `i` of the loop that sets the partitions, /repo/include/GMDP/matrices/DCSCTile.h:257-290 (sequential model:
`placeEdge`).  The loop with the assertions (lines 296-303) only reads. -/
def placeC (np rowStart colStart i : Nat) : DcscCode E Unit := do
  let e : Edge E ← aload DcscArr.edges i
  let p ← findPartC (e.src - 1 - (rowStart : Int)) np
  astore DcscArr.ped i
    { src := (e.src - 1 - (rowStart : Int)).toNat, dst := (e.dst - 1 - (colStart : Int)).toNat, tile := p, val := e.val }

/-- Iteration `p` of the loop that counts columns, /repo/include/GMDP/matrices/DCSCTile.h:316-328 (sequential model:
`countCols`). -/
def countColsC (p : Nat) : DcscCode E Unit := do
  let lo : Nat ← aload DcscArr.ep p
  let hi : Nat ← aload DcscArr.ep (p + 1)
  let r : Int × Nat ← Code.for lo hi ((-1 : Int), 0) (fun eid r => do
    let e : TEdge E ← aload DcscArr.ped eid
    if r.1 < (e.dst : Int) then pure ((e.dst : Int), r.2 + 1) else pure r)
  astore DcscArr.ncols p r.2

/-- Iteration `p` of the loop that fills the arrays, /repo/include/GMDP/matrices/DCSCTile.h:349-371 (sequential model:
`buildPart`, `buildEdge`). -/
def buildC (n p : Nat) : DcscCode E Unit := do
  let lo : Nat ← aload DcscArr.ep p
  let hi : Nat ← aload DcscArr.ep (p + 1)
  let c0 : Nat ← aload DcscArr.cs p
  let c1 : Nat ← aload DcscArr.cs (p + 1)
  let _ ← Code.for lo hi ((-1 : Int), 0) (fun eid (r : Int × Nat) => do
    let e : TEdge E ← aload DcscArr.ped eid
    astore DcscArr.vals (lo + (eid - lo)) e.val
    astore DcscArr.rowInds (lo + (eid - lo)) e.src
    if r.1 < (e.dst : Int) then do
      astore DcscArr.colIdx (c0 + r.2) e.dst
      astore DcscArr.colPtrs (c0 + r.2) (eid - lo)
      pure ((e.dst : Int), r.2 + 1)
    else pure r)
  astore DcscArr.colPtrs (c0 + (c1 - c0 - 1)) (hi - lo)
  astore DcscArr.colIdx (c0 + (c1 - c0 - 1)) (n + 1)

/-! ### `shuffle_edges` -/

/-- The arrays of `shuffle_edges` (/repo/include/GMDP/utils/edgelist_transformation.h:105-113). -/
inductive ShufArr where
  /-- `edgelist->edges` -/
  | edges
  /-- `histogram` -/
  | hist
  /-- `offset` -/
  | off
  /-- `woffset` -/
  | woff
  /-- `tedges` -/
  | ted
deriving DecidableEq

/-- The types of the elements (/repo/include/GMDP/utils/edgelist_transformation.h:105-113). -/
abbrev ShufArr.Ty (E : Type) : ShufArr → Type
  | .edges => Edge E
  | .hist => Nat
  | .off => Nat
  | .woff => Nat
  | .ted => Edge E

/-- Programs over these arrays (/repo/include/GMDP/utils/edgelist_transformation.h:105-113). -/
abbrev ShufCode (E β : Type) := Code (ShufArr × Nat) (fun l => ShufArr.Ty E l.1) β

/-- The arrays as a function of their names (/repo/include/GMDP/utils/edgelist_transformation.h:105-113). -/
def shufA (edges : Arr (Edge E)) (hist off : Arr Nat) (st : Arr (Edge E) × Arr Nat) :
    (k : ShufArr) → Arr (ShufArr.Ty E k)
  | .edges => edges
  | .hist => hist
  | .off => off
  | .woff => st.2
  | .ted => st.1

/-- The bin of an edge, /repo/include/GMDP/utils/edgelist_transformation.h:126, 153 (the assertion is in the sequential
model, `shuffleBin`). -/
def binC (nrank : Nat) (e : Edge E) : Nat := ((e.src - 1).tmod (nrank : Int)).toNat

/-- What thread `tid` does in the first parallel region, /repo/include/GMDP/utils/edgelist_transformation.h:115-130
(sequential model: `shuffleHistogram`).  The region of lines 262-279 is the same code. -/
def histC (nrank nthreads nnz tid : Nat) : ShufCode E Unit :=
  Code.for (shuffleRange nnz nthreads tid).1 (shuffleRange nnz nthreads tid).2 () (fun i _ => do
    let e : Edge E ← aload ShufArr.edges i
    let c : Nat ← aload ShufArr.hist (tid * nrank + binC nrank e)
    astore ShufArr.hist (tid * nrank + binC nrank e) (c + 1))

/-- What thread `tid` does in the second parallel region, /repo/include/GMDP/utils/edgelist_transformation.h:142-158
(sequential model: `shuffleScatter`).  The region of lines 290-307 is the same code. -/
def scatterC (nrank nthreads nnz tid : Nat) : ShufCode E Unit :=
  Code.for (shuffleRange nnz nthreads tid).1 (shuffleRange nnz nthreads tid).2 () (fun i _ => do
    let e : Edge E ← aload ShufArr.edges i
    let o : Nat ← aload ShufArr.off (tid * nrank + binC nrank e)
    let w : Nat ← aload ShufArr.woff (tid * nrank + binC nrank e)
    astore ShufArr.ted (o + w) e
    astore ShufArr.woff (tid * nrank + binC nrank e) (w + 1))

end GraphMat

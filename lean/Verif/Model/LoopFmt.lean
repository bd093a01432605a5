import Verif.Model.Formats
import Verif.Model.Loops
import Verif.Model.LoopBuild

/-!
# The parallel loops that build and unpack CSR, DCSR, COO and COO-SIMD tiles, as tasks

As in `Model/Loops.lean`.  The sequential models are `CSR.build`, `COO.build`, `COO.buildSimd` and the `getEdges` of these
formats.  Arrays that an iteration allocates for itself (`borders`, `bins`) are part of its registers.  Indices outside the
arrays and failing checks (`none` in the sequential models) are not represented: the theorems assume that the sequential
constructor has a result.
-/
namespace GraphMat

variable {E : Type}

/-- The arrays of these constructors (/repo/include/GMDP/matrices/COOSIMD32Tile.h:66-78, 159-170,
/repo/include/GMDP/matrices/CSRTile.h:126-138, /repo/include/GMDP/matrices/DCSRTile.h:228). -/
inductive FmtArr where
  /-- the argument `edges` -/
  | edges
  /-- `tmpedges` -/
  | tmp
  /-- `a` -/
  | a
  /-- `ja` -/
  | ja
  /-- `ia` of COO tiles, `jia` of the CSR constructor -/
  | ia
  /-- `partition_start` -/
  | ps
  /-- `simd_nnz` -/
  | simd
  /-- `ia` of CSR and DCSR tiles -/
  | ptr
  /-- `row_ids` -/
  | rows
deriving DecidableEq

/-- The types of the elements (/repo/include/GMDP/matrices/COOSIMD32Tile.h:66-78). -/
abbrev FmtArr.Ty (E : Type) : FmtArr → Type
  | .edges => Edge E
  | .tmp => TEdge E
  | .a => E
  | .ja => Int
  | .ia => Int
  | .ps => Nat
  | .simd => Nat
  | .ptr => Nat
  | .rows => Int

/-- Programs over these arrays (/repo/include/GMDP/matrices/COOSIMD32Tile.h:159-320). -/
abbrev FmtCode (E δ : Type) := Code (FmtArr × Nat) (fun l => FmtArr.Ty E l.1) δ

/-- The contents of the arrays (/repo/include/GMDP/matrices/COOSIMD32Tile.h:66-78). -/
structure FmtMem (E : Type) where
  /-- `edges` -/
  edges : Arr (Edge E)
  /-- `tmpedges` -/
  tmp : Arr (TEdge E)
  /-- `a` -/
  a : Arr E
  /-- `ja` -/
  ja : Arr Int
  /-- `ia`, `jia` -/
  ia : Arr Int
  /-- `partition_start` -/
  ps : Arr Nat
  /-- `simd_nnz` -/
  simd : Arr Nat
  /-- `ia` of CSR and DCSR tiles -/
  ptr : Arr Nat
  /-- `row_ids` -/
  rows : Arr Int

/-- The arrays as a function of their names (/repo/include/GMDP/matrices/COOSIMD32Tile.h:66-78). -/
def FmtMem.arrs (M : FmtMem E) : (k : FmtArr) → Arr (FmtArr.Ty E k)
  | .edges => M.edges
  | .tmp => M.tmp
  | .a => M.a
  | .ja => M.ja
  | .ia => M.ia
  | .ps => M.ps
  | .simd => M.simd
  | .ptr => M.ptr
  | .rows => M.rows

/-- The loops that copy the edges, /repo/include/GMDP/matrices/COOTile.h:153-164,
/repo/include/GMDP/matrices/CSRTile.h:141-146. -/
def fillC (rowStart colStart : Nat) (i : Nat) : FmtCode E Unit := do
  let e : Edge E ← aload FmtArr.edges i
  astore FmtArr.a i (e.val : E)
  let e : Edge E ← aload FmtArr.edges i
  astore FmtArr.ja i (e.dst - (colStart : Int))
  let e : Edge E ← aload FmtArr.edges i
  astore FmtArr.ia i (e.src - (rowStart : Int))

/-- First loop of the COO-SIMD constructor, /repo/include/GMDP/matrices/COOSIMD32Tile.h:174-181. -/
def simdEdgeC (rowStart colStart : Nat) (i : Nat) : FmtCode E Unit := do
  let e : Edge E ← aload FmtArr.edges i
  let s := (e.src - (rowStart : Int)).toNat
  astore FmtArr.tmp i ({ src := s, dst := (e.dst - (colStart : Int)).toNat, tile := (s - 1) / 32, val := e.val } : TEdge E)

/-- Second loop of the COO-SIMD constructor, /repo/include/GMDP/matrices/COOSIMD32Tile.h:186-190. -/
def simdIaC (i : Nat) : FmtCode E Unit := do
  let t : TEdge E ← aload FmtArr.tmp i
  astore FmtArr.ia i (t.src : Int)

/-- The loop of `l_binary_search`, /repo/include/GMDP/utils/binary_search.h:177-190; `eh` is the variable of that name. -/
def lBinaryLoopC (item : Int) : Nat → Int → Int → Int → FmtCode E Int
  | 0, _, _, eh => pure eh
  | fuel + 1, e1, e2, eh =>
    if e2 ≥ e1 then do
      let eh := e2 - (e2 - e1).tdiv 2
      if eh = 0 then pure eh else do
      let a : Int ← aload FmtArr.ia (eh - 1).toNat
      if a < item then do
        let b : Int ← aload FmtArr.ia eh.toNat
        if b ≥ item then pure eh else lBinaryLoopC item fuel (eh + 1) e2 eh
      else do
        let b : Int ← aload FmtArr.ia eh.toNat
        if b ≥ item then lBinaryLoopC item fuel e1 (eh - 1) eh else lBinaryLoopC item fuel (eh + 1) e2 eh
    else pure eh

/-- The loop of `l_linear_search`, /repo/include/GMDP/utils/binary_search.h:209-213. -/
def lLinearLoopC (item fin : Int) : Nat → Int → FmtCode E Int
  | 0, _ => pure fin
  | fuel + 1, i =>
    if i < fin - 1 then do
      let a : Int ← aload FmtArr.ia i.toNat
      if a < item then do
        let b : Int ← aload FmtArr.ia (i + 1).toNat
        if b ≥ item then pure (i + 1) else lLinearLoopC item fin fuel (i + 1)
      else lLinearLoopC item fin fuel (i + 1)
    else pure fin

/-- `l_linear_search(start, end, ia, item)`, /repo/include/GMDP/utils/binary_search.h:207-214. -/
def lLinearSearchC (fuel : Nat) (start fin item : Int) : FmtCode E Int := do
  let a : Int ← aload FmtArr.ia 0
  if a ≥ item then pure 0 else lLinearLoopC item fin fuel start

/-- The loops that compute `partition_start`, /repo/include/GMDP/matrices/COOTile.h:172-187,
/repo/include/GMDP/matrices/COOSIMD32Tile.h:200-219. -/
def partsC (search : Int → FmtCode E Int) (m rpp p : Nat) : FmtCode E Unit := do
  let startRow := min (p * rpp) m
  let endRow := min ((p + 1) * rpp) m
  let s ← search ((startRow : Int) + 1)
  let _ ← search ((endRow : Int) + 1)
  astore FmtArr.ps p s.toNat

/-- Copy edge `eid` of `tmpedges` to position `pos`, /repo/include/GMDP/matrices/COOSIMD32Tile.h:283-285, 303-305. -/
def putC (pos eid : Nat) : FmtCode E Unit := do
  let e : TEdge E ← aload FmtArr.tmp eid
  astore FmtArr.ja pos (e.dst : Int)
  let e : TEdge E ← aload FmtArr.tmp eid
  astore FmtArr.ia pos (e.src : Int)
  let e : TEdge E ← aload FmtArr.tmp eid
  astore FmtArr.a pos (e.val : E)

/-- `borders`, /repo/include/GMDP/matrices/COOSIMD32Tile.h:237-252. -/
def bordersC (g : Nat → Nat) (startRow npart s e : Nat) : FmtCode E (Arr Nat) := do
  let st ← Code.for s e ((⟨npart + 1, g⟩ : Arr Nat), (0 : Nat)) (fun eid st => do
    let x : Int ← aload FmtArr.ia eid
    let newp := (x - (startRow : Int) - 1).tdiv 32
    pure ((simdBorderWhile eid (newp + 1 - (st.2 : Int)).toNat st.1 st.2).getD st))
  pure ((forLoop st.2 (npart + 1) st.1 (fun cur bs => bs.write cur e)).getD st.1)

/-- One round of the round-robin assignment, /repo/include/GMDP/matrices/COOSIMD32Tile.h:272-291; the result is the bins,
`nnzsimd` and `n_full32`. -/
def roundC (bs : Arr Nat) (s : Nat) : List SimdBin → Nat → Nat × Nat → FmtCode E (List SimdBin × Nat × Nat)
  | [], _, st => pure ([], st)
  | b :: rest, rot, st =>
    if b.left > 0 then do
      putC (st.1 + s) (bs.get b.p32 + b.taken)
      let b' := { b with taken := b.taken + 1, left := b.left - 1 }
      let full := if b.left - 1 = 0 then st.2 - 1 else st.2
      if rot + 1 = 32 then pure (b' :: rest, st.1 + 1, full)
      else do
        let r ← roundC bs s rest (rot + 1) (st.1 + 1, full)
        pure (b' :: r.1, r.2)
    else if rot = 32 then pure (b :: rest, st)
    else do
      let r ← roundC bs s rest rot st
      pure (b :: r.1, r.2)

/-- `while(n_full32 >= 32)`, /repo/include/GMDP/matrices/COOSIMD32Tile.h:270-292. -/
def roundsC (bs : Arr Nat) (s : Nat) : Nat → List SimdBin × Nat × Nat → FmtCode E (List SimdBin × Nat × Nat)
  | 0, st => pure st
  | fuel + 1, st =>
    if st.2.2 ≥ 32 then do
      let r ← roundC bs s st.1 0 st.2
      roundsC bs s fuel r
    else pure st

/-- The leftover edges, /repo/include/GMDP/matrices/COOSIMD32Tile.h:295-308; the result is `nnzincrement`. -/
def restC (bs : Arr Nat) (s : Nat) : List SimdBin → Nat → FmtCode E Nat
  | [], k => pure k
  | b :: bins, k => do
    let k ← Code.for b.taken b.total k (fun c k => do
      putC (k + s) (bs.get b.p32 + c)
      pure (k + 1))
    restC bs s bins k

/-- Fourth loop of the COO-SIMD constructor, /repo/include/GMDP/matrices/COOSIMD32Tile.h:224-318. -/
def simdPartC (g : Nat → Nat) (sortBins : List SimdBin → List SimdBin) (m rpp p : Nat) : FmtCode E Unit := do
  let startRow := min (p * rpp) m
  let endRow := min ((p + 1) * rpp) m
  let s : Nat ← aload FmtArr.ps p
  let e : Nat ← aload FmtArr.ps (p + 1)
  let npart := (endRow - startRow + 31) / 32
  let bs ← bordersC g startRow npart s e
  let bins := (simdBins npart bs).getD []
  let full := bins.countP (fun b => decide (b.total > 0))
  let r ← roundsC bs s (e - s + 1) (sortBins bins, 0, full)
  astore FmtArr.simd p (r.2.1 : Nat)
  let _ ← restC bs s r.1 r.2.1
  pure ()

/-- `get_edges` of COO and COO-SIMD tiles, /repo/include/GMDP/matrices/COOTile.h:196-201,
/repo/include/GMDP/matrices/COOSIMD32Tile.h:373-378 (the three fields of the edge are one location). -/
def cooOutC (rowStart colStart : Nat) (i : Nat) : FmtCode E Unit := do
  let v : E ← aload FmtArr.a i
  let j : Int ← aload FmtArr.ja i
  let r : Int ← aload FmtArr.ia i
  astore FmtArr.edges i ({ src := r + rowStart, dst := j + colStart, val := v } : Edge E)

/-- `get_edges` of CSR tiles, /repo/include/GMDP/matrices/CSRTile.h:207-214. -/
def csrOutC (rowStart colStart : Nat) (i : Nat) : FmtCode E Unit := do
  let lo : Nat ← aload FmtArr.ptr i
  let hi : Nat ← aload FmtArr.ptr (i + 1)
  Code.for lo hi () (fun nz _ => do
    let j : Int ← aload FmtArr.ja (nz - 1)
    let v : E ← aload FmtArr.a (nz - 1)
    astore FmtArr.edges (nz - 1) ({ src := (i : Int) + rowStart + 1, dst := j + colStart, val := v } : Edge E))

/-- `get_edges` of DCSR tiles, /repo/include/GMDP/matrices/DCSRTile.h:232-240; the result is the contribution to
`nnzcnt`. -/
def dcsrOutC (rowStart colStart : Nat) (i : Nat) : FmtCode E Nat := do
  let lo : Nat ← aload FmtArr.ptr i
  let hi : Nat ← aload FmtArr.ptr (i + 1)
  Code.for lo hi 0 (fun nz k => do
    let r : Int ← aload FmtArr.rows i
    let j : Int ← aload FmtArr.ja nz
    let v : E ← aload FmtArr.a nz
    astore FmtArr.edges nz ({ src := r + rowStart + 1, dst := j + colStart + 1, val := v } : Edge E)
    pure (k + 1))

end GraphMat

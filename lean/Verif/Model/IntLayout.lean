import Verif.Model.CInt
import Verif.Model.Compress
import Verif.Model.Layout
import Verif.Model.Tile

/-!
# The `int` arithmetic of layouts and of divisions of work

The models of vectors, tiles and loops compute sizes and bounds with natural numbers.  Here are the same computations with
`int`, where overflow is undefined (`none`).
-/
namespace GraphMat

/-- `vx`, /repo/include/GMDP/vectors/SpVec.h:79-80 and /repo/include/GMDP/matrices/SpMat.h:292-293, in the order in which C++
evaluates it: `((((n + nseg) - 1) / nseg + 256) - 1) / 256 * 256`. -/
def segWidthC (n nseg : Int) : Option Int := do
  let a ← cadd n nseg
  let a ← csub a 1
  let a ← cdiv a nseg
  let a ← cadd a 256
  let a ← csub a 1
  let a ← cdiv a 256
  cmul a 256

/-- `start_id`, /repo/include/GMDP/vectors/SpVec.h:79-90, and `start_idx`, `start_idy`,
/repo/include/GMDP/matrices/SpMat.h:292-309. -/
def startIdsC (n nseg : Nat) : Option (List Int) := do
  let vx ← segWidthC n nseg
  let l ← (List.range nseg).mapM (fun j : Nat => do
    let x ← cmul vx j
    some (min x n))
  some (l ++ [(n : Int)])

/-- The sizes `start_id[j + 1] - start_id[j]` of the segments, /repo/include/GMDP/vectors/SpVec.h:96-98 (tiles:
/repo/include/GMDP/matrices/SpMat.h:253-262). -/
def sizesC (l : List Int) : Option (List Int) := (l.zip l.tail).mapM (fun p => csub p.2 p.1)

/-- The bounds of the iterations of `compress`, /repo/include/GMDP/vectors/DenseSegment.h:310-313, 370-373, 387-390, and of
`union_compressed`, /repo/include/GMDP/singlenode/unionreduce.h:77-80: `k` elements, `np` partitions. -/
def partBoundsC (k np p : Int) : Option (Int × Int) := do
  let a ← cadd k np
  let a ← csub a 1
  let per ← cdiv a np
  let s ← cmul per p
  let q ← cadd p 1
  let e ← cmul per q
  some (s, if e > k then k else e)

/-- The bounds of the loop over the bits of word `ii`, /repo/include/GMDP/vectors/DenseSegment.h:320, 396,
/repo/include/GMDP/singlenode/apply.h:54. -/
def wordBoundsC (ii : Int) : Option (Int × Int) := do
  let s ← cmul ii 32
  let q ← cadd ii 1
  let e ← cmul q 32
  some (s, e)

/-- `my_nz_per` of `decompress`, /repo/include/GMDP/vectors/DenseSegment.h:268-269. -/
def nzPerC (nnz np : Int) : Option Int := do
  let a ← cadd nnz np
  let a ← csub a 1
  let a ← cdiv a np
  let a ← cadd a 31
  let a ← cdiv a 32
  cmul a 32

/-- The boundary loop of `decompress` with the addition `mystart += my_nz_per`,
/repo/include/GMDP/vectors/DenseSegment.h:264-281; otherwise as `decompressBounds`. -/
def decompressBoundsC (cidx : Arr Nat) (nnz per : Nat) : Nat → Nat → Option (List (Nat × Nat))
  | 0, _ => some []
  | k + 1, mystart => do
    let _ ← cadd mystart per
    let m ← nextBound cidx nnz per mystart
    let rest ← decompressBoundsC cidx nnz per k m
    some ((mystart, m) :: rest)

/-- `(n_round > 0) ? ((n512 + 1) * round) : (n512 * round)`, /repo/include/GMDP/matrices/DCSCTile.h:214. -/
def partStepC (n512 nround : Nat) : Option Int :=
  if nround > 0 then do
    let a ← cadd n512 1
    cmul a 32
  else cmul n512 32

/-- `static_partition(row_pointers, m, num_partitions, 32)` with all sums and products,
/repo/include/GMDP/matrices/DCSCTile.h:205-219; otherwise as `staticPartition`. -/
def staticPartitionC (g : Nat → Nat) (m np : Nat) : Option (Arr Nat) := do
  if np = 0 then none else
  let n512 := max (m / 32 / np) 1
  let t ← cmul n512 np
  let _ ← csub (m / 32 : Nat) t
  let nround := m / 32 - n512 * np
  if ¬ nround < np then none else
  let rp ← (⟨np + 1, g⟩ : Arr Nat).write 0 0
  let st ← forLoop 1 np (rp, nround) (fun p st => do
    let prev ← st.1.read (p - 1)
    let step ← partStepC n512 st.2
    let _ ← cadd prev step
    let rp ← st.1.write p (prev + (if st.2 > 0 then (n512 + 1) * 32 else n512 * 32))
    let x ← rp.read p
    let rp ← rp.write p (min x m)
    some (rp, st.2 - 1))
  st.1.write np m

/-- `total_cols`, /repo/include/GMDP/matrices/DCSCTile.h:327-333; `ncols` is the array of that name. -/
def totalColsC (ncols : List Nat) : Option Int :=
  ncols.foldlM (fun (t : Int) (c : Nat) => do
    let a ← cadd c 1
    cadd t a) 0

end GraphMat

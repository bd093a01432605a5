import Verif.Model.IntLayout
import Verif.Model.Formats

/-!
# The `int` arithmetic of the other tile formats

As in `Model/IntLayout`: what the constructors of CSR, COO, COO-SIMD and DCSR tiles compute from the numbers of rows, edges and
threads, with overflow undefined (`none`).
-/
namespace GraphMat

/-- `rows_per_partition`, /repo/include/GMDP/matrices/CSRTile.h:149, /repo/include/GMDP/matrices/DCSRTile.h:173,
/repo/include/GMDP/matrices/COOTile.h:168, /repo/include/GMDP/matrices/COOSIMD32Tile.h:194. -/
def rowsPerC (m np : Int) : Option Int := do
  let a ← cadd m np
  let a ← csub a 1
  cdiv a np

/-- `rows_per_partition` rounded to whole words, /repo/include/GMDP/matrices/COOTile.h:168-169,
/repo/include/GMDP/matrices/COOSIMD32Tile.h:194-195, /repo/include/GMDP/singlenode/spmspv.h:94-95. -/
def rowsPer32C (m np : Int) : Option Int := do
  let r ← rowsPerC m np
  let r ← cadd r 31
  let r ← cdiv r 32
  cmul r 32

/-- `start_row` and `end_row`, /repo/include/GMDP/matrices/CSRTile.h:153-156, /repo/include/GMDP/matrices/COOTile.h:175-178,
/repo/include/GMDP/matrices/COOSIMD32Tile.h:203-206, 227-230, /repo/include/GMDP/singlenode/spmspv.h:100-103. -/
def rowRangeC (m rpp p : Int) : Option (Int × Int) := do
  let s ← cmul p rpp
  let q ← cadd p 1
  let e ← cmul q rpp
  some (min s m, min e m)

/-- The ranges of rows of the product with a CSR tile, /repo/include/GMDP/singlenode/spmspv.h:93-103. -/
def rowRanges32C (m threads : Nat) : Option (List (Int × Int)) := do
  let np ← cmul threads 4
  let rpp ← rowsPer32C m np
  (List.range np.toNat).mapM (fun p : Nat => rowRangeC m rpp p)

/-- `partition_start` with all sums and products, /repo/include/GMDP/matrices/COOTile.h:166-188 and
/repo/include/GMDP/matrices/COOSIMD32Tile.h:192-220; otherwise as `cooParts`.  `threads` is `omp_get_max_threads()`. -/
def cooPartsC (search : Int → Option Int) (g : Nat → Nat) (m threads nnz : Nat) : Option (Arr Nat) := do
  let np ← cmul threads 4
  let rpp ← rowsPer32C m np
  let size ← cadd np 1
  let ps ← forLoop 0 np.toNat (⟨size.toNat, g⟩ : Arr Nat) (fun p ps => do
    let r ← rowRangeC m rpp p
    let x ← cadd r.1 1
    let s ← search x
    let y ← cadd r.2 1
    let _ ← search y
    let s ← natIdx s
    ps.write p s)
  ps.write np.toNat nnz

/-- `npartitions` of a partition of a COO-SIMD tile, /repo/include/GMDP/matrices/COOSIMD32Tile.h:227-236. -/
def simdBlocksC (m rpp p : Int) : Option Int := do
  let r ← rowRangeC m rpp p
  let d ← csub r.2 r.1
  let d ← cadd d 31
  cdiv d 32

/-- The numbers computed by the constructor of CSR tiles before and after the loop that fills `ia` and in each round of it: `m + 1`,
the ranges of rows, and `nnz + 1`, /repo/include/GMDP/matrices/CSRTile.h:138, 148-156, 196.  The others (`row + 1`, `i + 1`) are
at most these. -/
def csrNumbersC (m nnz threads : Nat) : Option (Int × List (Int × Int) × Int) := do
  let size ← cadd m 1
  let np ← cmul threads 4
  let rpp ← rowsPerC m np
  let l ← (List.range np.toNat).mapM (fun p : Nat => rowRangeC m rpp p)
  let last ← cadd nnz 1
  some (size, l, last)

/-- `partition_ptrs` with all sums, /repo/include/GMDP/matrices/DCSRTile.h:171-191; otherwise as `dcsrParts`. -/
def dcsrPartsC (behind : Option Int) (g : Nat → Nat) (numRows threads : Nat) (rowIds : Arr Int) : Option (Arr Nat) := do
  let np ← cmul threads 4
  let size ← cadd np 1
  let rpp ← rowsPerC numRows np
  let pp ← (⟨size.toNat, g⟩ : Arr Nat).write 0 0
  let pp ← forLoop 1 np.toNat pp (fun p pp => do
    let prev ← pp.read (p - 1)
    let x ← cadd prev rpp
    let r := (min x numRows).toNat
    let x ← (rowIds.seen behind).read r
    let r ← dcsrSkip rowIds (x.tdiv 32) (numRows - r) r
    pp.write p r)
  pp.write np.toNat numRows

end GraphMat

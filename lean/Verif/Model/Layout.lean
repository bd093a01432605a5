/-!
# Data layout: which rank and which segment / tile holds an id

Models /repo/include/GMDP/matrices/layouts.h and the boundary computations of
/repo/include/GMDP/vectors/SpVec.h:70-117 and /repo/include/GMDP/matrices/SpMat.h:75-95,
280-321.  Sizes are natural numbers; 32-bit overflow of the boundary computation is treated
separately (`Model/IntLayout.lean`).
-/
namespace GraphMat

/-- `static_cast<int>(sqrt(val) + 0.5)`, /repo/include/GMDP/matrices/layouts.h:41.
Simplification: the double square root is replaced by exact arithmetic,
`⌊√val + 1/2⌋ = (⌊√(4 val)⌋ + 1) / 2`, computed by searching upward. -/
def roundSqrt (val : Nat) : Nat :=
  (List.range (val + 1)).foldl (fun s k => if (2 * k - 1) * (2 * k - 1) ≤ 4 * val then k else s) 0

/-- The `while` loop of `factorize_int`, /repo/include/GMDP/matrices/layouts.h:44-48, started at
`*res1 = r`.  `none` = division by zero (`*res1` reached 0). -/
def factorizeLoop (val : Nat) : Nat → Option (Nat × Nat)
  | 0 => none
  | r + 1 => if (r + 1) * (val / (r + 1)) = val then some (r + 1, val / (r + 1))
             else factorizeLoop val r

/-- `factorize_int(val, &res1, &res2)`, /repo/include/GMDP/matrices/layouts.h:39-49.
Returns `(res1, res2)`; `none` = division by zero. -/
def factorizeInt (val : Nat) : Option (Nat × Nat) := factorizeLoop val (roundSqrt val)

/-- `partition_fn_2d`, /repo/include/GMDP/matrices/layouts.h:51-57.  Note that the call passes
`&nrank_y` first, so `nrank_y` is the smaller factor. -/
def partitionFn2d (tx ty nrank : Nat) : Option Nat := do
  let (ny, nx) ← factorizeInt nrank
  some (ty % ny + tx % nx * ny)

/-- `partition_fn_1d`, /repo/include/GMDP/matrices/layouts.h:59-61. -/
def partitionFn1d (_tx ty nrank : Nat) : Option Nat :=
  if nrank = 0 then none else some (ty % nrank)

/-- `vector_partition_fn`, /repo/include/GMDP/matrices/layouts.h:63-65. -/
def vectorPartitionFn (tile nrank : Nat) : Option Nat :=
  if nrank = 0 then none else some (tile % nrank)

/-- The segment width `vx`: `ceil(n / nseg)` rounded up to a multiple of 256,
/repo/include/GMDP/vectors/SpVec.h:77-80 (same formula for tile rows and columns,
/repo/include/GMDP/matrices/SpMat.h:291-293).  Callers guarantee `nseg > 0`. -/
def segWidth (n nseg : Nat) : Nat :=
  ((n + nseg - 1) / nseg + 256 - 1) / 256 * 256

/-- `start_id`: `min(vx*j, n)` for `j < nseg`, then `n`, /repo/include/GMDP/vectors/SpVec.h:87-90
(same for `start_idx`, `start_idy`, /repo/include/GMDP/matrices/SpMat.h:301-309). -/
def startIds (n nseg : Nat) : List Nat :=
  (List.range nseg).map (fun j => min (segWidth n nseg * j) n) ++ [n]

/-- The loop of `SpVec::getPartition`, /repo/include/GMDP/vectors/SpVec.h:110-117: first `i` with
`start[i] < src ≤ start[i+1]`.  `starts` is the remaining part of the array, `i` the index of
its head; `none` = the C++ result `-1`. -/
def getPartitionAux (src : Int) : List Nat → Nat → Option Nat
  | a :: b :: rest, i =>
      if src > a ∧ src ≤ b then some i else getPartitionAux src (b :: rest) (i + 1)
  | _, _ => none

/-- `SpVec::getPartition(src)`, /repo/include/GMDP/vectors/SpVec.h:110-117; `none` = `-1`. -/
def getPartition (n nseg : Nat) (src : Int) : Option Nat :=
  getPartitionAux src (startIds n nseg) 0

/-- `SpMat::getPartition(src, dst, &ival, &jval)`, /repo/include/GMDP/matrices/SpMat.h:75-95.
Returns `(ival, jval)`; the returned tile number is `ival + jval * ntiles_y`.
`none` = the C++ result `-1`. -/
def matPartition (m n nty ntx : Nat) (src dst : Int) : Option (Nat × Nat) := do
  let i ← getPartitionAux src (startIds m nty) 0
  let j ← getPartitionAux dst (startIds n ntx) 0
  some (i, j)

/-- `SpVec` owner of segment `j`: `nodeIds[j]`, /repo/include/GMDP/vectors/SpVec.h:83-85. -/
def segOwner (nrank j : Nat) : Option Nat := vectorPartitionFn j nrank

/-- `SpVec::node_owner(idx)` executed on rank `me`, /repo/include/GMDP/vectors/SpVec.h:366-376.
`none` = assertion failure (`partitionId >= 0`). -/
def nodeOwner (n nseg nrank : Nat) (me : Nat) (idx : Int) : Option Bool := do
  let p ← getPartition n nseg idx
  let o ← segOwner nrank p
  some (o == me)

/-- `get_fn_and_tiles`, /repo/include/GMDP/matrices/layouts.h:67-91: the number of tiles per
dimension for each layout; `none` = assertion failure or division by zero. -/
def tilesPerDim (layout nrank : Nat) : Option Nat :=
  if layout = 1 then some nrank
  else if layout = 2 then do
    let (ny, nx) ← factorizeInt nrank
    some (if nx > ny then nx else ny)
  else if layout = 3 then do
    let _ ← factorizeInt nrank
    some nrank
  else none

/-- The function that `get_fn_and_tiles` chooses for a layout, /repo/include/GMDP/matrices/layouts.h:67-91. -/
def layoutFn (layout : Nat) : Nat → Nat → Nat → Option Nat := if layout = 1 then partitionFn1d else partitionFn2d

end GraphMat

import Verif.Model.Formats
import Verif.Model.VecSnapshot

/-!
# Archives of tiles in the other formats

Models the serialization of `CSRTile`, `COOTile`, `COOSIMD32Tile`, `DCSRTile` and `HybridTile`.  Archives are as in
`Model/Snapshot` (the constant string `name` is left out); loading is into a default-constructed tile, `g` gives the contents
of the allocated arrays.  `num_partitions` and `num_rows` of a tile without edges have never been written, so that what is
saved for them is indeterminate; the model has zero there, and nothing depends on it.
-/
namespace GraphMat

variable {E : Type}

/-- `CSRTile::save`, /repo/include/GMDP/matrices/CSRTile.h:69-90. -/
def CSR.archive (t : CSR E) (ar : Archive E) : Option (Archive E) := do
  let ar := ar ++ [.int t.m, .int t.n, .int t.nnz]
  if t.nnz > 0 then
    let ar ← putArr .val t.a t.nnz ar
    let ar ← putArr .signed t.ja t.nnz ar
    putArr .int t.ia (t.m + 1) ar
  else some ar

/-- `CSRTile::load`, /repo/include/GMDP/matrices/CSRTile.h:92-119, 122. -/
def CSR.restore (g : FmtFresh E) (ar : Archive E) : Option (CSR E × Archive E) := do
  let (m, ar) ← getInt ar
  let (n, ar) ← getInt ar
  let (nnz, ar) ← getInt ar
  if nnz > 0 then
    let (a, ar) ← takeArr getVal ⟨nnz, g.vals⟩ nnz ar
    let (ja, ar) ← takeArr getSigned ⟨nnz, g.ints 0⟩ nnz ar
    let (ia, ar) ← takeArr getInt ⟨m + 1, g.nats 0⟩ (m + 1) ar
    some (⟨m, n, nnz, a, ja, ia⟩, ar)
  else some (⟨m, n, nnz, ⟨0, g.vals⟩, ⟨0, g.ints 0⟩, ⟨0, g.nats 0⟩⟩, ar)

/-- The last array of `COOSIMD32Tile::save`, /repo/include/GMDP/matrices/COOSIMD32Tile.h:107-110; `simd` is false for
`COOTile`, which has no such array. -/
def putSimd (simd : Bool) (t : COO E) (ar : Archive E) : Option (Archive E) :=
  if simd then putArr .int t.simd (t.np + 1) ar else some ar

/-- `COOTile::save`, /repo/include/GMDP/matrices/COOTile.h:71-97, and (`simd`) `COOSIMD32Tile::save`,
/repo/include/GMDP/matrices/COOSIMD32Tile.h:82-112. -/
def COO.archive (simd : Bool) (t : COO E) (ar : Archive E) : Option (Archive E) := do
  let ar := ar ++ [.int t.m, .int t.n, .int t.nnz, .int t.np]
  if t.nnz > 0 then
    let ar ← putArr .val t.a t.nnz ar
    let ar ← putArr .signed t.ja t.nnz ar
    let ar ← putArr .signed t.ia t.nnz ar
    let ar ← putArr .int t.ps (t.np + 1) ar
    putSimd simd t ar
  else some ar

/-- The last array of `COOSIMD32Tile::load`, /repo/include/GMDP/matrices/COOSIMD32Tile.h:129, 146-149. -/
def takeSimd (simd : Bool) (g : FmtFresh E) (np : Nat) (ar : Archive E) : Option (Arr Nat × Archive E) :=
  if simd then takeArr getInt ⟨np + 1, g.nats 5⟩ (np + 1) ar else some (⟨0, g.nats 5⟩, ar)

/-- `COOTile::load`, /repo/include/GMDP/matrices/COOTile.h:99-131, 135, and (`simd`) `COOSIMD32Tile::load`,
/repo/include/GMDP/matrices/COOSIMD32Tile.h:114-151, 155. -/
def COO.restore (simd : Bool) (g : FmtFresh E) (ar : Archive E) : Option (COO E × Archive E) := do
  let (m, ar) ← getInt ar
  let (n, ar) ← getInt ar
  let (nnz, ar) ← getInt ar
  let (np, ar) ← getInt ar
  if nnz > 0 then
    let (a, ar) ← takeArr getVal ⟨nnz, g.vals⟩ nnz ar
    let (ja, ar) ← takeArr getSigned ⟨nnz, g.ints 4⟩ nnz ar
    let (ia, ar) ← takeArr getSigned ⟨nnz, g.ints 5⟩ nnz ar
    let (ps, ar) ← takeArr getInt ⟨np + 1, g.nats 4⟩ (np + 1) ar
    let (sn, ar) ← takeSimd simd g np ar
    some (⟨m, n, nnz, np, a, ja, ia, ps, sn⟩, ar)
  else some (⟨m, n, nnz, np, ⟨0, g.vals⟩, ⟨0, g.ints 4⟩, ⟨0, g.ints 5⟩, ⟨0, g.nats 4⟩, ⟨0, g.nats 5⟩⟩, ar)

/-- An array of which `k` elements are read: `behind` says what is found behind its end, `none` = undefined
(/repo/include/GMDP/matrices/DCSRTile.h:77-80, where `ia` has `num_rows+1` elements and `m+1` are read). -/
def Arr.beyond (a : Arr Nat) (k : Nat) : Option (Nat → Nat) → Arr Nat
  | none => a
  | some f => ⟨max a.size k, fun i => if i < a.size then a.get i else f i⟩

/-- `DCSRTile::save`, /repo/include/GMDP/matrices/DCSRTile.h:59-86.  `partition_ptrs` is not saved. -/
def DCSR.archive (behind : Option (Nat → Nat)) (t : DCSR E) (ar : Archive E) : Option (Archive E) := do
  let ar := ar ++ [.int t.m, .int t.n, .int t.numRows, .int t.nnz, .int t.np]
  if t.nnz > 0 then
    let ar ← putArr .val t.a t.nnz ar
    let ar ← putArr .signed t.ja t.nnz ar
    let ar ← putArr .int (t.ia.beyond (t.m + 1) behind) (t.m + 1) ar
    putArr .signed t.rowIds t.numRows ar
  else some ar

/-- `DCSRTile::load`, /repo/include/GMDP/matrices/DCSRTile.h:88-122, 124.  The pointer `partition_ptrs` stays uninitialised:
an array without elements. -/
def DCSR.restore (g : FmtFresh E) (ar : Archive E) : Option (DCSR E × Archive E) := do
  let (m, ar) ← getInt ar
  let (n, ar) ← getInt ar
  let (numRows, ar) ← getInt ar
  let (nnz, ar) ← getInt ar
  let (np, ar) ← getInt ar
  if nnz > 0 then
    let (a, ar) ← takeArr getVal ⟨nnz, g.vals⟩ nnz ar
    let (ja, ar) ← takeArr getSigned ⟨nnz, g.ints 3⟩ nnz ar
    let (ia, ar) ← takeArr getInt ⟨m + 1, g.nats 1⟩ (m + 1) ar
    let (rowIds, ar) ← takeArr getSigned ⟨numRows, g.ints 2⟩ numRows ar
    some (⟨m, n, numRows, nnz, np, ⟨0, g.nats 2⟩, a, ja, ia, rowIds⟩, ar)
  else some (⟨m, n, numRows, nnz, np, ⟨0, g.nats 2⟩, ⟨0, g.vals⟩, ⟨0, g.ints 3⟩, ⟨0, g.nats 1⟩, ⟨0, g.ints 2⟩⟩, ar)

/-- `HybridTile::serialize` of an output archive, /repo/include/GMDP/matrices/HybridTile.h:59-72.  `nnz2` is `nnz - nnz1`
(both are counted row by row, lines 97-111). -/
def Hybrid.archive (behind : Option (Nat → Nat)) (t : Hybrid E) (ar : Archive E) : Option (Archive E) := do
  let ar := ar ++ [.int t.m, .int t.n, .int t.nnz, .int t.nnz1, .int (t.nnz - t.nnz1)]
  if t.nnz > 0 then
    let t1 ← t.t1
    let ar ← t1.archive behind (ar ++ [.object])
    let t2 ← t.t2
    t2.archive true (ar ++ [.object])
  else some ar

/-- Loading the pointer `t1`, /repo/include/GMDP/matrices/HybridTile.h:69. -/
def takeDcsr (g : FmtFresh E) : Archive E → Option (DCSR E × Archive E)
  | .object :: ar => DCSR.restore g ar
  | _ => none

/-- Loading the pointer `t2`, /repo/include/GMDP/matrices/HybridTile.h:70. -/
def takeCoo (g : FmtFresh E) : Archive E → Option (COO E × Archive E)
  | .object :: ar => COO.restore true g ar
  | _ => none

/-- `HybridTile::serialize` of an input archive, /repo/include/GMDP/matrices/HybridTile.h:59-74.  The model has no component
for `nnz2`. -/
def Hybrid.restore (g : FmtFresh E) (ar : Archive E) : Option (Hybrid E × Archive E) := do
  let (m, ar) ← getInt ar
  let (n, ar) ← getInt ar
  let (nnz, ar) ← getInt ar
  let (nnz1, ar) ← getInt ar
  let (_, ar) ← getInt ar
  if nnz > 0 then
    let (t1, ar) ← takeDcsr g ar
    let (t2, ar) ← takeCoo g ar
    some (⟨m, n, nnz, nnz1, some t1, some t2⟩, ar)
  else some (⟨m, n, nnz, nnz1, none, none⟩, ar)

end GraphMat

import Verif.Spec.Heap

/-!
# Memory of tiles and matrices

Which blocks the constructors, `load`, the destructors and the assignment operators of the six tile formats allocate and
release, and the same for matrices (/repo/include/GMDP/matrices).  Contents are left out here (they are in
`Model/Formats`, `Model/FmtSnapshot` and `Model/SpMat`); of an array only its pointer is kept.
-/
namespace GraphMat

/-- What a tile class offers (/repo/include/GMDP/matrices/CSRTile.h:57-237 and the other formats): the constructor without
edges, the constructor for a number of edges, `load` of an archive of a tile with a number of edges, everything that
follows the pointers (`save`, `get_edges`, multiplication), the destructor, and assignment (which gives the left hand
side afterwards). -/
structure TileClass (T : Type) where
  /-- `Tile()` and `Tile(m, n)` -/
  empty : T
  /-- `Tile(edges, m, n, nnz, row_start, col_start)` -/
  make : Nat → HeapM T
  /-- `load` -/
  load : Nat → T → HeapM T
  /-- access to the arrays -/
  use : T → HeapM Unit
  /-- the destructor -/
  destroy : T → HeapM Unit
  /-- `operator=` -/
  assign : T → T → HeapM T

/-! ### CSR -/

/-- The pointers of a `CSRTile`, /repo/include/GMDP/matrices/CSRTile.h:57-65. -/
structure CsrMem where
  /-- `nnz` -/
  nnz : Nat
  /-- `a` -/
  a : Ptr
  /-- `ja` -/
  ja : Ptr
  /-- `ia` -/
  ia : Ptr

/-- `CSRTile()` and `CSRTile(m, n)`, /repo/include/GMDP/matrices/CSRTile.h:122-124: the pointers are not set. -/
def CsrMem.empty : CsrMem := ⟨0, .garbage, .garbage, .garbage⟩

/-- `CSRTile(edges, ...)`, /repo/include/GMDP/matrices/CSRTile.h:126-199: `jia` is released at the end. -/
def CsrMem.make (nnz : Nat) : HeapM CsrMem :=
  if 0 < nnz then do
    let a ← allocate .mm
    let ja ← allocate .mm
    let jia ← allocate .mm
    let ia ← allocate .mm
    release .mm jia
    pure ⟨nnz, a, ja, ia⟩
  else pure ⟨nnz, .garbage, .garbage, .garbage⟩

/-- `load`, /repo/include/GMDP/matrices/CSRTile.h:92-119. -/
def CsrMem.load (nnz : Nat) (t : CsrMem) : HeapM CsrMem :=
  if 0 < nnz then do
    let a ← allocate .mm
    let ja ← allocate .mm
    let ia ← allocate .mm
    pure ⟨nnz, a, ja, ia⟩
  else pure { t with nnz := nnz }

/-- The arrays are only followed if there are edges, /repo/include/GMDP/matrices/CSRTile.h:75, 203-217 and
/repo/include/GMDP/singlenode/spmspv.h:266-279. -/
def CsrMem.use (t : CsrMem) : HeapM Unit :=
  if 0 < t.nnz then do
    touch t.a
    touch t.ja
    touch t.ia
  else pure ()

/-- `~CSRTile`, /repo/include/GMDP/matrices/CSRTile.h:229-236. -/
def CsrMem.destroy (t : CsrMem) : HeapM Unit :=
  if 0 < t.nnz then do
    release .mm t.a
    release .mm t.ja
    release .mm t.ia
  else pure ()

/-- `operator=`, /repo/include/GMDP/matrices/CSRTile.h:219-227: the parameter is a copy (there is no copy constructor, so
its pointers are the same), which is destroyed when the function ends; what the left hand side had is overwritten.  That
the function has no `return` is ignored here. -/
def CsrMem.assign (_lhs other : CsrMem) : HeapM CsrMem := do
  let copy := other
  let lhs : CsrMem := ⟨copy.nnz, copy.a, copy.ja, copy.ia⟩
  copy.destroy
  pure lhs

/-- `CSRTile`, /repo/include/GMDP/matrices/CSRTile.h:57-237. -/
def csrClass : TileClass CsrMem :=
  ⟨CsrMem.empty, CsrMem.make, CsrMem.load, CsrMem.use, CsrMem.destroy, CsrMem.assign⟩

/-! ### COO -/

/-- The pointers of a `COOTile`, /repo/include/GMDP/matrices/COOTile.h:57-67. -/
structure CooMem where
  /-- `nnz` -/
  nnz : Nat
  /-- `a` -/
  a : Ptr
  /-- `ja` -/
  ja : Ptr
  /-- `ia` -/
  ia : Ptr
  /-- `partition_start` -/
  start : Ptr

/-- `COOTile()` and `COOTile(m, n)`, /repo/include/GMDP/matrices/COOTile.h:135-137. -/
def CooMem.empty : CooMem := ⟨0, .garbage, .garbage, .garbage, .garbage⟩

/-- `COOTile(edges, ...)`, /repo/include/GMDP/matrices/COOTile.h:139-190: `partition_start` comes from `new []`. -/
def CooMem.make (nnz : Nat) : HeapM CooMem :=
  if 0 < nnz then do
    let a ← allocate .mm
    let ja ← allocate .mm
    let ia ← allocate .mm
    let start ← allocate .newArr
    pure ⟨nnz, a, ja, ia, start⟩
  else pure ⟨nnz, .garbage, .garbage, .garbage, .garbage⟩

/-- `load`, /repo/include/GMDP/matrices/COOTile.h:99-130: `partition_start` comes from `_mm_malloc`. -/
def CooMem.load (nnz : Nat) (t : CooMem) : HeapM CooMem :=
  if 0 < nnz then do
    let a ← allocate .mm
    let ja ← allocate .mm
    let ia ← allocate .mm
    let start ← allocate .mm
    pure ⟨nnz, a, ja, ia, start⟩
  else pure { t with nnz := nnz }

/-- Access to the arrays, /repo/include/GMDP/matrices/COOTile.h:78, 194-202 and
/repo/include/GMDP/singlenode/spmspv.h:283-297. -/
def CooMem.use (t : CooMem) : HeapM Unit :=
  if 0 < t.nnz then do
    touch t.a
    touch t.ja
    touch t.ia
    touch t.start
  else pure ()

/-- `~COOTile`, /repo/include/GMDP/matrices/COOTile.h:219-227: `partition_start` is released with `delete []`. -/
def CooMem.destroy (t : CooMem) : HeapM Unit :=
  if 0 < t.nnz then do
    release .mm t.a
    release .mm t.ja
    release .mm t.ia
    release .newArr t.start
  else pure ()

/-- `operator=`, /repo/include/GMDP/matrices/COOTile.h:204-214; see `CsrMem.assign`. -/
def CooMem.assign (_lhs other : CooMem) : HeapM CooMem := do
  let copy := other
  let lhs : CooMem := ⟨copy.nnz, copy.a, copy.ja, copy.ia, copy.start⟩
  copy.destroy
  pure lhs

/-- `COOTile`, /repo/include/GMDP/matrices/COOTile.h:57-229. -/
def cooClass : TileClass CooMem :=
  ⟨CooMem.empty, CooMem.make, CooMem.load, CooMem.use, CooMem.destroy, CooMem.assign⟩

/-! ### COO-SIMD -/

/-- The pointers of a `COOSIMD32Tile`, /repo/include/GMDP/matrices/COOSIMD32Tile.h:67-78. -/
structure SimdMem where
  /-- `nnz` -/
  nnz : Nat
  /-- `a` -/
  a : Ptr
  /-- `ja` -/
  ja : Ptr
  /-- `ia` -/
  ia : Ptr
  /-- `partition_start` -/
  start : Ptr
  /-- `simd_nnz` -/
  simd : Ptr

/-- `COOSIMD32Tile()` and `COOSIMD32Tile(m, n)`, /repo/include/GMDP/matrices/COOSIMD32Tile.h:155-157. -/
def SimdMem.empty : SimdMem := ⟨0, .garbage, .garbage, .garbage, .garbage, .garbage⟩

/-- The loop over the partitions, /repo/include/GMDP/matrices/COOSIMD32Tile.h:224-318: `borders` is allocated and released
in every round. -/
def bordersRounds : Nat → HeapM Unit
  | 0 => pure ()
  | k + 1 => do
    let borders ← allocate .newArr
    release .newArr borders
    bordersRounds k

/-- `COOSIMD32Tile(edges, ...)`, /repo/include/GMDP/matrices/COOSIMD32Tile.h:159-367, with `threads * 4` partitions. -/
def SimdMem.make (threads nnz : Nat) : HeapM SimdMem :=
  if 0 < nnz then do
    let a ← allocate .mm
    let ja ← allocate .mm
    let ia ← allocate .mm
    let tmpedges ← allocate .mm
    let start ← allocate .newArr
    let simd ← allocate .newArr
    bordersRounds (threads * 4)
    release .mm tmpedges
    pure ⟨nnz, a, ja, ia, start, simd⟩
  else pure ⟨nnz, .garbage, .garbage, .garbage, .garbage, .garbage⟩

/-- `load`, /repo/include/GMDP/matrices/COOSIMD32Tile.h:114-151: everything comes from `_mm_malloc`. -/
def SimdMem.load (nnz : Nat) (t : SimdMem) : HeapM SimdMem :=
  if 0 < nnz then do
    let a ← allocate .mm
    let ja ← allocate .mm
    let ia ← allocate .mm
    let start ← allocate .mm
    let simd ← allocate .mm
    pure ⟨nnz, a, ja, ia, start, simd⟩
  else pure { t with nnz := nnz }

/-- Access to the arrays, /repo/include/GMDP/matrices/COOSIMD32Tile.h:89, 371-379 and
/repo/include/GMDP/singlenode/spmspv.h:300-314. -/
def SimdMem.use (t : SimdMem) : HeapM Unit :=
  if 0 < t.nnz then do
    touch t.a
    touch t.ja
    touch t.ia
    touch t.start
    touch t.simd
  else pure ()

/-- `~COOSIMD32Tile`, /repo/include/GMDP/matrices/COOSIMD32Tile.h:394-403. -/
def SimdMem.destroy (t : SimdMem) : HeapM Unit :=
  if 0 < t.nnz then do
    release .mm t.a
    release .mm t.ja
    release .mm t.ia
    release .newArr t.start
    release .newArr t.simd
  else pure ()

/-- `operator=`, /repo/include/GMDP/matrices/COOSIMD32Tile.h:381-392; see `CsrMem.assign`. -/
def SimdMem.assign (_lhs other : SimdMem) : HeapM SimdMem := do
  let copy := other
  let lhs : SimdMem := ⟨copy.nnz, copy.a, copy.ja, copy.ia, copy.start, copy.simd⟩
  copy.destroy
  pure lhs

/-- `COOSIMD32Tile`, /repo/include/GMDP/matrices/COOSIMD32Tile.h:67-405. -/
def simdClass (threads : Nat) : TileClass SimdMem :=
  ⟨SimdMem.empty, SimdMem.make threads, SimdMem.load, SimdMem.use, SimdMem.destroy, SimdMem.assign⟩

/-! ### DCSR -/

/-- The pointers of a `DCSRTile`, /repo/include/GMDP/matrices/DCSRTile.h:43-54. -/
structure DcsrMem where
  /-- `nnz` -/
  nnz : Nat
  /-- `a` -/
  a : Ptr
  /-- `ja` -/
  ja : Ptr
  /-- `ia` -/
  ia : Ptr
  /-- `row_ids` -/
  rows : Ptr
  /-- `partition_ptrs` -/
  parts : Ptr

/-- `DCSRTile()` and `DCSRTile(m, n)`, /repo/include/GMDP/matrices/DCSRTile.h:124-126. -/
def DcsrMem.empty : DcsrMem := ⟨0, .garbage, .garbage, .garbage, .garbage, .garbage⟩

/-- `DCSRTile(edges, ...)`, /repo/include/GMDP/matrices/DCSRTile.h:128-224. -/
def DcsrMem.make (nnz : Nat) : HeapM DcsrMem :=
  if 0 < nnz then do
    let tmp ← allocate .newArr
    let rows ← allocate .mm
    let ia ← allocate .mm
    release .newArr tmp
    let parts ← allocate .newArr
    let ja ← allocate .mm
    let a ← allocate .mm
    pure ⟨nnz, a, ja, ia, rows, parts⟩
  else pure ⟨nnz, .garbage, .garbage, .garbage, .garbage, .garbage⟩

/-- `load`, /repo/include/GMDP/matrices/DCSRTile.h:88-121: `partition_ptrs` is not set. -/
def DcsrMem.load (nnz : Nat) (t : DcsrMem) : HeapM DcsrMem :=
  if 0 < nnz then do
    let a ← allocate .mm
    let ja ← allocate .mm
    let ia ← allocate .mm
    let rows ← allocate .mm
    pure ⟨nnz, a, ja, ia, rows, t.parts⟩
  else pure { t with nnz := nnz }

/-- Access to the arrays, /repo/include/GMDP/matrices/DCSRTile.h:67, 228-243 and
/repo/include/GMDP/singlenode/spmspv.h:242-262. -/
def DcsrMem.use (t : DcsrMem) : HeapM Unit :=
  if 0 < t.nnz then do
    touch t.a
    touch t.ja
    touch t.ia
    touch t.rows
    touch t.parts
  else pure ()

/-- `~DCSRTile`, /repo/include/GMDP/matrices/DCSRTile.h:263-271. -/
def DcsrMem.destroy (t : DcsrMem) : HeapM Unit :=
  if 0 < t.nnz then do
    release .mm t.a
    release .mm t.ja
    release .mm t.ia
    release .mm t.rows
    release .newArr t.parts
  else pure ()

/-- `operator=`, /repo/include/GMDP/matrices/DCSRTile.h:245-257; see `CsrMem.assign`. -/
def DcsrMem.assign (_lhs other : DcsrMem) : HeapM DcsrMem := do
  let copy := other
  let lhs : DcsrMem := ⟨copy.nnz, copy.a, copy.ja, copy.ia, copy.rows, copy.parts⟩
  copy.destroy
  pure lhs

/-- `DCSRTile`, /repo/include/GMDP/matrices/DCSRTile.h:43-273. -/
def dcsrClass : TileClass DcsrMem :=
  ⟨DcsrMem.empty, DcsrMem.make, DcsrMem.load, DcsrMem.use, DcsrMem.destroy, DcsrMem.assign⟩

/-! ### DCSC -/

/-- The pointers of a `DCSCTile`, /repo/include/GMDP/matrices/DCSCTile.h:61-76. -/
structure DcscMem where
  /-- `nnz` -/
  nnz : Nat
  /-- `vals` -/
  vals : Ptr
  /-- `row_inds` -/
  rowInds : Ptr
  /-- `col_ptrs` -/
  colPtrs : Ptr
  /-- `col_indices` -/
  colIndices : Ptr
  /-- `row_pointers` -/
  rowPointers : Ptr
  /-- `edge_pointers` -/
  edgePointers : Ptr
  /-- `col_starts` -/
  colStarts : Ptr

/-- `DCSCTile()` and `DCSCTile(m, n)`, /repo/include/GMDP/matrices/DCSCTile.h:181-183. -/
def DcscMem.empty : DcscMem := ⟨0, .garbage, .garbage, .garbage, .garbage, .garbage, .garbage, .garbage⟩

/-- `DCSCTile(edges, ...)`, /repo/include/GMDP/matrices/DCSCTile.h:241-381, with `static_partition` (185-189) and
`set_edge_pointers` (222-227); `p_edges` and `ncols` are released at the end. -/
def DcscMem.make (nnz : Nat) : HeapM DcscMem :=
  if 0 < nnz then do
    let rowPointers ← allocate .mm
    let pEdges ← allocate .mm
    let edgePointers ← allocate .mm
    let ncols ← allocate .mm
    let colStarts ← allocate .mm
    let vals ← allocate .mm
    let rowInds ← allocate .mm
    let colIndices ← allocate .mm
    let colPtrs ← allocate .mm
    release .mm pEdges
    release .mm ncols
    pure ⟨nnz, vals, rowInds, colPtrs, colIndices, rowPointers, edgePointers, colStarts⟩
  else pure ⟨nnz, .garbage, .garbage, .garbage, .garbage, .garbage, .garbage, .garbage⟩

/-- `load`, /repo/include/GMDP/matrices/DCSCTile.h:121-178. -/
def DcscMem.load (nnz : Nat) (t : DcscMem) : HeapM DcscMem :=
  if 0 < nnz then do
    let vals ← allocate .mm
    let rowInds ← allocate .mm
    let rowPointers ← allocate .mm
    let edgePointers ← allocate .mm
    let colStarts ← allocate .mm
    let colPtrs ← allocate .mm
    let colIndices ← allocate .mm
    pure ⟨nnz, vals, rowInds, colPtrs, colIndices, rowPointers, edgePointers, colStarts⟩
  else pure { t with nnz := nnz }

/-- Access to the arrays, /repo/include/GMDP/matrices/DCSCTile.h:88, 383-399 and
/repo/include/GMDP/singlenode/spmspv.h:227-238. -/
def DcscMem.use (t : DcscMem) : HeapM Unit :=
  if 0 < t.nnz then do
    touch t.vals
    touch t.rowInds
    touch t.colPtrs
    touch t.colIndices
    touch t.rowPointers
    touch t.edgePointers
    touch t.colStarts
  else pure ()

/-- `~DCSCTile`, /repo/include/GMDP/matrices/DCSCTile.h:403-416. -/
def DcscMem.destroy (t : DcscMem) : HeapM Unit :=
  if 0 < t.nnz then do
    release .mm t.rowInds
    release .mm t.colPtrs
    release .mm t.colIndices
    release .mm t.vals
    release .mm t.rowPointers
    release .mm t.edgePointers
    release .mm t.colStarts
  else pure ()

/-- The implicit `operator=` of `DCSCTile` (/repo/include/GMDP/matrices/DCSCTile.h:61-418 declares none): all members are
copied, nothing is released. -/
def DcscMem.assign (_lhs other : DcscMem) : HeapM DcscMem := pure other

/-- `DCSCTile`, /repo/include/GMDP/matrices/DCSCTile.h:61-418. -/
def dcscClass : TileClass DcscMem :=
  ⟨DcscMem.empty, DcscMem.make, DcscMem.load, DcscMem.use, DcscMem.destroy, DcscMem.assign⟩

/-! ### Hybrid -/

/-- The pointers of a `HybridTile`, /repo/include/GMDP/matrices/HybridTile.h:46-55; with a pointer to a tile goes what the
pointers of that tile are. -/
structure HybridMem where
  /-- `nnz` -/
  nnz : Nat
  /-- `t1` -/
  t1 : Ptr
  /-- `*t1` -/
  dcsr : DcsrMem
  /-- `t2` -/
  t2 : Ptr
  /-- `*t2` -/
  simd : SimdMem

/-- `HybridTile()` and `HybridTile(m, n)`, /repo/include/GMDP/matrices/HybridTile.h:74-76. -/
def HybridMem.empty : HybridMem := ⟨0, .garbage, DcsrMem.empty, .garbage, SimdMem.empty⟩

/-- `HybridTile(edges, ...)`, /repo/include/GMDP/matrices/HybridTile.h:78-139, for a tile with at least one row;
`large nnz` of the edges are in rows with at least 16 edges.  The temporary `CSRTile` is deleted (line 129). -/
def HybridMem.make (threads : Nat) (large : Nat → Nat) (nnz : Nat) : HeapM HybridMem := do
  let tmptile ← allocate .newObj
  let csr ← CsrMem.make nnz
  let gte ← allocate .newArr
  let lt ← allocate .newArr
  touch csr.ia
  let edgesGte ← allocate .mm
  let edgesLt ← allocate .mm
  csr.destroy
  release .newObj tmptile
  let t1 ← allocate .newObj
  let dcsr ← DcsrMem.make (large nnz)
  let t2 ← allocate .newObj
  let simd ← SimdMem.make threads (nnz - large nnz)
  release .mm edgesGte
  release .mm edgesLt
  release .newArr gte
  release .newArr lt
  pure ⟨nnz, t1, dcsr, t2, simd⟩

/-- `serialize` when loading, /repo/include/GMDP/matrices/HybridTile.h:60-72: boost makes new objects for `t1` and `t2` with
the constructors without arguments and loads them. -/
def HybridMem.load (large : Nat → Nat) (nnz : Nat) (t : HybridMem) : HeapM HybridMem :=
  if 0 < nnz then do
    let t1 ← allocate .newObj
    let dcsr ← DcsrMem.empty.load (large nnz)
    let t2 ← allocate .newObj
    let simd ← SimdMem.empty.load (nnz - large nnz)
    pure ⟨nnz, t1, dcsr, t2, simd⟩
  else pure { t with nnz := nnz }

/-- Access to both parts, /repo/include/GMDP/matrices/HybridTile.h:67-71, 143-149 and
/repo/include/GMDP/singlenode/spmspv.h:242-262. -/
def HybridMem.use (t : HybridMem) : HeapM Unit :=
  if 0 < t.nnz then do
    touch t.t1
    t.dcsr.use
    touch t.t2
    t.simd.use
  else pure ()

/-- `~HybridTile`, /repo/include/GMDP/matrices/HybridTile.h:162: nothing is released. -/
def HybridMem.destroy (_t : HybridMem) : HeapM Unit := pure ()

/-- `operator=`, /repo/include/GMDP/matrices/HybridTile.h:151-160; see `CsrMem.assign`. -/
def HybridMem.assign (_lhs other : HybridMem) : HeapM HybridMem := do
  let copy := other
  let lhs : HybridMem := ⟨copy.nnz, copy.t1, copy.dcsr, copy.t2, copy.simd⟩
  copy.destroy
  pure lhs

/-- `HybridTile`, /repo/include/GMDP/matrices/HybridTile.h:46-163. -/
def hybridClass (threads : Nat) (large : Nat → Nat) : TileClass HybridMem :=
  ⟨HybridMem.empty, HybridMem.make threads large, HybridMem.load large, HybridMem.use, HybridMem.destroy,
    HybridMem.assign⟩

/-! ### Matrices -/

/-- `tiles` of an `SpMat` on one rank, row by row (/repo/include/GMDP/matrices/SpMat.h:57, 311-318): `NULL`, or a pointer and the
tile it points to with its number of edges. -/
abbrev MatMem (T : Type) := List (Option (Ptr × T × Nat))

variable {T : Type}

/-- The buffers for the exchange with the other ranks, /repo/include/GMDP/matrices/SpMat.h:111-218; gives
`received_edges`. -/
def exchangeMem (nrank : Nat) : HeapM Ptr :=
  if nrank = 1 then allocate .newArr
  else do
    let tedges ← allocate .newArr
    let assignment ← allocate .newArr
    release .newArr tedges
    let positions ← allocate .newArr
    let counts ← allocate .newArr
    let recvPositions ← allocate .newArr
    let recvCounts ← allocate .newArr
    release .newArr assignment
    let req ← allocate .newArr
    let status ← allocate .newArr
    let received ← allocate .newArr
    release .newArr status
    release .newArr req
    release .newArr positions
    release .newArr counts
    release .newArr recvPositions
    release .newArr recvCounts
    pure received

/-- The tile at one place, /repo/include/GMDP/matrices/SpMat.h:250-269; `none` for a tile of another rank. -/
def newTile (C : TileClass T) : Option Nat → HeapM (Option (Ptr × T × Nat))
  | none => pure none
  | some 0 => do
    let p ← allocate .newObj
    pure (some (p, C.empty, 0))
  | some (k + 1) => do
    let p ← allocate .newObj
    let t ← C.make (k + 1)
    pure (some (p, t, k + 1))

/-- `new SpMat(edgelist, ...)` on one rank, /repo/include/GMDP/matrices/SpMat.h:100-278, 325-332; `cs` says for every place how
many edges the tile has if it belongs to this rank.  The places are taken in the order of the list; the loop of the code goes
column by column, which gives other block numbers only. -/
def makeMat (C : TileClass T) (nrank : Nat) (cs : List (Option Nat)) : HeapM (Ptr × MatMem T) := do
  let p ← allocate .newObj
  let received ← exchangeMem nrank
  let tedges2 ← allocate .newArr
  let assignment2 ← allocate .newArr
  release .newArr tedges2
  touch received
  let ts ← cs.mapM (newTile C)
  release .newArr assignment2
  release .newArr received
  pure (p, ts)

/-- A tile pointer read from an archive, /repo/include/GMDP/matrices/SpMat.h:69: boost makes a new tile with the constructor without
arguments and loads it; `NULL` stays `NULL`. -/
def loadTile (C : TileClass T) : Option Nat → HeapM (Option (Ptr × T × Nat))
  | none => pure none
  | some k => do
    let p ← allocate .newObj
    let t ← C.load k C.empty
    pure (some (p, t, k))

/-- A matrix pointer read from an archive, /repo/include/Graph.h:162-163 and /repo/include/GMDP/matrices/SpMat.h:62-73. -/
def loadMat (C : TileClass T) (cs : List (Option Nat)) : HeapM (Ptr × MatMem T) := do
  let p ← allocate .newObj
  let ts ← cs.mapM (loadTile C)
  pure (p, ts)

/-- `delete` of a tile pointer, /repo/include/GMDP/matrices/SpMat.h:338. -/
def deleteTile (C : TileClass T) : Option (Ptr × T × Nat) → HeapM Unit
  | none => release .newObj .null
  | some t => do
    touch t.1
    C.destroy t.2.1
    release .newObj t.1

/-- `delete` of a matrix pointer with `~SpMat`, /repo/include/GMDP/matrices/SpMat.h:332-341. -/
def deleteMat (C : TileClass T) (m : Ptr × MatMem T) : HeapM Unit := do
  touch m.1
  let _ ← m.2.mapM (deleteTile C)
  release .newObj m.1

/-- Access to the tile at one place, /repo/include/GMDP/matrices/SpMat.h:366-374. -/
def useTile (C : TileClass T) : Option (Ptr × T × Nat) → HeapM Unit
  | none => pure ()
  | some t => do
    touch t.1
    C.use t.2.1

/-- `get_edges`, /repo/include/GMDP/matrices/SpMat.h:343-376: `edges` is allocated only if there are edges. -/
def matEdges (C : TileClass T) (m : Ptr × MatMem T) : HeapM (Nat × Ptr) := do
  touch m.1
  let k := (m.2.map (fun t => match t with | none => 0 | some t => t.2.2)).sum
  if 0 < k then do
    let edges ← allocate .mm
    let _ ← m.2.mapM (useTile C)
    pure (k, edges)
  else pure (k, .garbage)

/-- `Transpose`, /repo/include/GMDP/matrices/SpMat.h:423-443; `cs` are the numbers of edges of the tiles of the new matrix. -/
def transposeMem (C : TileClass T) (nrank : Nat) (cs : List (Option Nat)) (m : Ptr × MatMem T) :
    HeapM (Ptr × MatMem T) := do
  let el ← matEdges C m
  let mt ← makeMat C nrank cs
  if 0 < el.1 then do
    release .mm el.2
    pure mt
  else pure mt

end GraphMat

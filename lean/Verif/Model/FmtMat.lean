import Verif.Model.Formats
import Verif.Model.TestVec
import Verif.Model.MulHistory

/-!
# Distributed matrices with tiles of any format

Models /repo/include/GMDP/matrices/SpMat.h and /repo/include/GMDP/multinode/spmspv.h for every tile type they are used with:
`SpMat<CSRTile<T>>`, `SpMat<COOTile<T>>`, `SpMat<COOSIMD32Tile<T>>`, `SpMat<DCSRTile<T>>`, `SpMat<HybridTile<T>>` and (again)
`SpMat<DCSCTile<T>>`; and with them the tests /repo/test/test_matrix_basics.cpp and /repo/test/test_spmv.cpp, which run through the
formats.  The members of the tile types are those of `Model/Formats` and `Model/Tile`.  As in `Model/SpMat` all ranks are modelled
together and the exchanges deliver what was sent.
-/
namespace GraphMat

variable {E Til T U V σ : Type}

/-- What `SpMat` calls of its template parameter `SpTile` (/repo/include/GMDP/matrices/SpMat.h:264, 266-268, 352, 371, 388).  The calls of
one run find different memory and may sort differently, so rank and position of the tile are arguments. -/
structure TileFmt (E Til : Type) where
  /-- `SpTile(m, n)` for tile `(i, j)` on rank `r` -/
  empty : Nat → Nat → Nat → Nat → Nat → Til
  /-- `SpTile(edges, m, n, nnz, row_start, col_start)` for tile `(i, j)` on rank `r` -/
  build : Nat → Nat → Nat → List (Edge E) → Nat → Nat → Nat → Nat → Option Til
  /-- `nnz` -/
  nnz : Til → Nat
  /-- `get_edges(edges, row_start, col_start)` of tile `(i, j)` on rank `r` -/
  getEdges : Nat → Nat → Nat → Til → Nat → Nat → Option (List (Edge E))

/-- The sorting calls of `ingestEdgelist` outside the tiles, /repo/include/GMDP/matrices/SpMat.h:135, 238. -/
structure MatSorts (E : Type) where
  /-- by owning rank, on rank `r` -/
  owner : Nat → List (Edge E × Nat) → List (Edge E × Nat)
  /-- by tile, on rank `r` -/
  tile : Nat → List (Edge E × Nat) → List (Edge E × Nat)

/-- `SpMat<SpTile<T>>` on one rank, /repo/include/GMDP/matrices/SpMat.h:50-59, as `RMat` for any tile type. -/
structure FMat (Til : Type) where
  /-- `m` -/
  m : Nat
  /-- `n` -/
  n : Nat
  /-- `ntiles_x` -/
  ntx : Nat
  /-- `ntiles_y` -/
  nty : Nat
  /-- `global_nrank` -/
  nrank : Nat
  /-- `global_myrank` -/
  myrank : Nat
  /-- `nodeIds` -/
  node : Nat → Nat → Option Nat
  /-- `tiles` -/
  tiles : Nat → Nat → Option Til

/-- `Allocate2DPartitioned(m, n, ntx, nty, pfn)`, /repo/include/GMDP/matrices/SpMat.h:280-321. -/
def FMat.alloc (m n ntx nty nrank myrank : Nat) (pfn : Nat → Nat → Nat → Option Nat) : Option (FMat Til) := do
  if ntx = 0 ∨ nty = 0 then none else
  let _ ← (List.range ntx).mapM (fun j => (List.range nty).mapM (fun i => pfn j i nrank))
  some { m := m, n := n, ntx := ntx, nty := nty, nrank := nrank, myrank := myrank,
         node := fun i j => pfn j i nrank, tiles := fun _ _ => none }

/-- First half of `ingestEdgelist` with several ranks, /repo/include/GMDP/matrices/SpMat.h:119-167. -/
def FMat.shuffleOut (M : FMat Til) (srt : MatSorts E) (edges : List (Edge E)) :
    Option (List (Edge E) × List (Nat × Nat)) := do
  let ted ← edges.mapM (fun e => do
    let ij ← matPartition M.m M.n M.nty M.ntx e.src e.dst
    let o ← M.node ij.1 ij.2
    some (e, o))
  let ted := srt.owner M.myrank ted
  let plan ← sendPlan (ted.map (·.2)) M.nrank
  some (ted.map (·.1), plan)

/-- One tile of the second half, /repo/include/GMDP/matrices/SpMat.h:250-270.  Constructors that sort the edges they get (CSR) change a
part of `received_edges` that no other tile uses and that is freed afterwards. -/
def FMat.makeTile (F : TileFmt E Til) (M : FMat Til) (received : List (Edge E)) (assignment : List Nat) (i j : Nat) : Option Til := do
  let y0 ← (startIds M.m M.nty)[i]?
  let y1 ← (startIds M.m M.nty)[i + 1]?
  let x0 ← (startIds M.n M.ntx)[j]?
  let x1 ← (startIds M.n M.ntx)[j + 1]?
  let a : Arr Int := Arr.ofList 0 (assignment.map Int.ofNat)
  let id : Int := ((i + j * M.nty : Nat) : Int)
  let s ← leftBorder a id assignment.length (assignment.length + 2) 0 assignment.length
  let e ← rightBorder a id assignment.length (assignment.length + 2) 0 assignment.length
  let nnz : Int := if s ≠ -1 ∧ e ≠ -1 then (e + 1) - s else 0
  if nnz ≤ 0 then some (F.empty M.myrank i j (y1 - y0) (x1 - x0))
  else do
    let es ← sliceOf received s.toNat nnz.toNat
    F.build M.myrank i j es (y1 - y0) (x1 - x0) y0 x0

/-- Second half of `ingestEdgelist` on one rank, /repo/include/GMDP/matrices/SpMat.h:222-277. -/
def FMat.ingestLocal (F : TileFmt E Til) (M : FMat Til) (srt : MatSorts E) (received : List (Edge E)) : Option (FMat Til) := do
  let ted ← received.mapM (fun e => do
    let ij ← matPartition M.m M.n M.nty M.ntx e.src e.dst
    some (e, ij.1 + ij.2 * M.nty))
  let ted := srt.tile M.myrank ted
  forLoop 0 M.ntx M (fun j M' => forLoop 0 M.nty M' (fun i M' => do
    let o ← M.node i j
    if o = M.myrank then
      let t ← FMat.makeTile F M (ted.map (·.1)) (ted.map (·.2)) i j
      some { M' with tiles := fun a b => if a = i ∧ b = j then some t else M'.tiles a b }
    else some M'))

/-- The constructor `SpMat(edgelist, ntx, nty, pfn)` on all ranks, /repo/include/GMDP/matrices/SpMat.h:325-330 with lines 97-278; the
first component of the result is the contents of the arrays of the callers afterwards. -/
def FMat.ofEdges (F : TileFmt E Til) (m n ntx nty nrank : Nat) (pfn : Nat → Nat → Nat → Option Nat) (srt : MatSorts E)
    (blobs : List (List (Edge E))) : Option (List (List (Edge E)) × List (FMat Til)) := do
  let Ms ← (List.range nrank).mapM (fun r => FMat.alloc (Til := Til) m n ntx nty nrank r pfn)
  if nrank = 1 then
    let D ← (Ms.zip blobs).mapM (fun Mb => FMat.ingestLocal F Mb.1 srt Mb.2)
    some (blobs, D)
  else
    let out ← (Ms.zip blobs).mapM (fun Mb => FMat.shuffleOut Mb.1 srt Mb.2)
    let D ← Ms.mapM (fun M => do
      let parts ← out.mapM (fun o => do
        let pc ← o.2[M.myrank]?
        sliceOf o.1 pc.1 pc.2)
      FMat.ingestLocal F M srt parts.flatten)
    some (out.map (·.1), D)

/-- The loop over the tiles of this rank (/repo/include/GMDP/matrices/SpMat.h:349-355, 366-374, 382-391). -/
def FMat.foldTiles (M : FMat Til) (s : σ) (f : Nat → Nat → Til → σ → Option σ) : Option σ :=
  forLoop 0 M.nty s (fun i s => forLoop 0 M.ntx s (fun j s => do
    let o ← M.node i j
    if o = M.myrank then
      let t ← M.tiles i j
      f i j t s
    else some s))

/-- `get_edges(edgelist)`, /repo/include/GMDP/matrices/SpMat.h:343-376. -/
def FMat.getEdges (F : TileFmt E Til) (M : FMat Til) : Option (List (Edge E)) := do
  let nnzs ← M.foldTiles 0 (fun _ _ t k => some (k + F.nnz t))
  if nnzs > 0 then
    let out ← M.foldTiles ([] : List (Edge E)) (fun i j t out => do
      let y0 ← (startIds M.m M.nty)[i]?
      let x0 ← (startIds M.n M.ntx)[j]?
      let es ← F.getEdges M.myrank i j t y0 x0
      some (out ++ es))
    if out.length = nnzs then some out else none
  else some []

/-- `getNNZ()` as seen by each rank, /repo/include/GMDP/matrices/SpMat.h:378-395 (see `DMat.getNNZ`). -/
def FMat.getNNZ (F : TileFmt E Til) (D : List (FMat Til)) : Option (List Nat) := do
  let ks ← D.mapM (fun M => M.foldTiles 0 (fun _ _ t k => some (k + F.nnz t)))
  let low := (ks.map (· % 2 ^ 32)).sum % 2 ^ 32
  some (ks.map (fun k => k / 2 ^ 32 * 2 ^ 32 + low))

/-- `Transpose(mat, &matc, ntx, nty, pfn)` on all ranks, /repo/include/GMDP/matrices/SpMat.h:422-443; `F` reads the old tiles, `F'` makes
the new ones. -/
def FMat.transpose (F F' : TileFmt E Til) (D : List (FMat Til)) (m n ntx nty nrank : Nat) (pfn : Nat → Nat → Nat → Option Nat)
    (srt : MatSorts E) : Option (List (FMat Til)) := do
  let blobs ← D.mapM (FMat.getEdges F)
  let swapped := blobs.map (fun es => es.map (fun e => ({ e with src := e.dst, dst := e.src } : Edge E)))
  let r ← FMat.ofEdges F' n m ntx nty nrank pfn srt swapped
  some r.2

/-- `row_ranks[i]` of `get_row_ranks`, /repo/include/GMDP/matrices/SpMat.h:402-409. -/
def FMat.rowRanks (M : FMat Til) (i : Nat) : Option (List Nat) := do
  let l ← (List.range M.ntx).mapM (fun j => M.node i j)
  some (rankSet l)

/-- `col_ranks[j]` of `get_row_ranks`, /repo/include/GMDP/matrices/SpMat.h:411-418. -/
def FMat.colRanks (M : FMat Til) (j : Nat) : Option (List Nat) := do
  let l ← (List.range M.nty).mapM (fun i => M.node i j)
  some (rankSet l)

/-- `SpMSpV(grida, vecx, vecy, mul_fp, add_fp, vsp)` on all ranks, /repo/include/GMDP/multinode/spmspv.h:41-206; `mult r i j` is the call
of `mult_segment` for tile `(i, j)` on rank `r` (line 124-126). -/
def FMat.spmspv (env : MulEnv T U V) (threads nrank : Nat) (D : List (FMat Til))
    (mult : Nat → Nat → Nat → Til → Segment T → Segment U → Option (Segment U)) (add : U → U → U) (x : DVec T) (y : DVec U) :
    Option (DVec T × DVec U) := do
  let M ← D[0]?
  let colPairs ← rankPairs M.ntx M.colRanks
  let rowPairs ← rankPairs M.nty M.rowRanks
  let x ← x.broadcast env.serT threads nrank env.gx colPairs
  let y ← eachRank y (fun r yv => do
    let xv ← x.read r
    let M ← D[r]?
    M.foldTiles yv (fun i j t yv => do
      let sx ← xv.segs.read j
      yv.modifySeg i (fun sy => mult r i j t sx sy)))
  let x ← x.freeNonOwned M.ntx
  let y ← DVec.reduceRows env.serU threads nrank M.nty add env.gy env.gq rowPairs y
  some (x, y)

/-- One call of a program with a matrix of any format and two vectors, as `MulOp.exec` (/repo/include/GMDP/vectors/SpVec.h:310-338,
/repo/include/GMDP/multinode/clear.h:40-49, /repo/include/GMDP/multinode/spmspv.h:41-206). -/
def FMat.exec (env : MulEnv T U V) (gx : Nat → Nat → Fresh T) (gy : Nat → Nat → Fresh U) (threads nrank : Nat) (D : List (FMat Til))
    (mult : Nat → Nat → Nat → Til → Segment T → Segment U → Option (Segment U)) (add : U → U → U) :
    MulOp T U → DVec T × DVec U → Option (DVec T × DVec U)
  | .onX op, (x, y) => (op.exec gx x).map (fun x => (x, y))
  | .onY op, (x, y) => (op.exec gy y).map (fun y => (x, y))
  | .mul, (x, y) => FMat.spmspv env threads nrank D mult add x y

/-- A sequence of calls (/repo/include/GMDP/multinode/spmspv.h:41-206, /repo/include/GMDP/vectors/SpVec.h:310-338); call number `k` finds
memory contents `env k`, `gx k`, `gy k`, and `mult k` are its calls of `mult_segment`. -/
def FMat.run (env : Nat → MulEnv T U V) (gx : Nat → Nat → Nat → Fresh T) (gy : Nat → Nat → Nat → Fresh U) (threads nrank : Nat)
    (D : List (FMat Til)) (mult : Nat → Nat → Nat → Nat → Til → Segment T → Segment U → Option (Segment U)) (add : U → U → U) :
    Nat → List (MulOp T U) → DVec T × DVec U → Option (DVec T × DVec U)
  | _, [], s => some s
  | k, op :: ops, s => (FMat.exec (env k) (gx k) (gy k) threads nrank D (mult k) add op s).bind
      (FMat.run env gx gy threads nrank D mult add (k + 1) ops)

/-! ### The formats -/

/-- What the constructors of the tiles of a matrix find in fresh memory and behind their arrays, and how their sorts behave, by rank and
tile (/repo/include/GMDP/matrices/SpMat.h:263-268). -/
structure FmtEnv (E : Type) where
  /-- fresh memory -/
  g : Nat → Nat → Nat → FmtFresh E
  /-- fresh memory of DCSC tiles -/
  gt : Nat → Nat → Nat → TileFresh E
  /-- the array `get_edges` writes to -/
  out : Nat → Nat → Nat → Nat → Edge E
  /-- the `int` behind `ia` (COO) or `row_ids` (DCSR) -/
  behind : Nat → Nat → Nat → Option Int
  /-- sorting by row and column (CSR, COO, DCSR) -/
  sort : Nat → Nat → Nat → List (Edge E) → List (Edge E)
  /-- sorting of DCSC tiles -/
  dcsc : Nat → Nat → Nat → List (TEdge E) → List (TEdge E)
  /-- sorting of COO-SIMD tiles -/
  simd : Nat → Nat → Nat → List (TEdge E) → List (TEdge E)
  /-- sorting of the bins of COO-SIMD tiles -/
  bins : Nat → Nat → Nat → Nat → List SimdBin → List SimdBin
  /-- sorting of hybrid tiles -/
  hybrid : Nat → Nat → Nat → HybridSorts E

/-- `CSRTile<T>`, /repo/include/GMDP/matrices/CSRTile.h:124-217. -/
def csrFmt (env : FmtEnv E) (threads : Nat) : TileFmt E (CSR E) where
  empty r i j m n := CSR.empty (env.g r i j) m n
  build r i j es m n rs cs := (CSR.build (env.g r i j) threads (env.sort r i j) es m n rs cs).map (·.2)
  nnz t := t.nnz
  getEdges r i j t rs cs := t.getEdges (env.out r i j) rs cs

/-- `COOTile<T>`, /repo/include/GMDP/matrices/COOTile.h:137-202. -/
def cooFmt (env : FmtEnv E) (threads : Nat) : TileFmt E (COO E) where
  empty r i j m n := COO.empty (env.g r i j) m n
  build r i j es m n rs cs := COO.build (env.behind r i j) (env.g r i j) threads (env.sort r i j) es m n rs cs
  nnz t := t.nnz
  getEdges _ _ _ t rs cs := t.getEdges rs cs

/-- `COOSIMD32Tile<T>`, /repo/include/GMDP/matrices/COOSIMD32Tile.h:157-379. -/
def simdFmt (env : FmtEnv E) (threads : Nat) : TileFmt E (COO E) where
  empty r i j m n := COO.empty (env.g r i j) m n
  build r i j es m n rs cs := COO.buildSimd (env.g r i j) threads (env.simd r i j) (env.bins r i j) es m n rs cs
  nnz t := t.nnz
  getEdges _ _ _ t rs cs := t.getEdges rs cs

/-- `DCSRTile<T>`, /repo/include/GMDP/matrices/DCSRTile.h:126-243. -/
def dcsrFmt (env : FmtEnv E) (threads : Nat) : TileFmt E (DCSR E) where
  empty r i j m n := DCSR.empty (env.g r i j) m n
  build r i j es m n rs cs := DCSR.build (env.behind r i j) (env.g r i j) threads (env.sort r i j) es m n rs cs
  nnz t := t.nnz
  getEdges r i j t rs cs := t.getEdges (env.out r i j) rs cs

/-- `HybridTile<T>`, /repo/include/GMDP/matrices/HybridTile.h:76-149. -/
def hybridFmt (env : FmtEnv E) (threads : Nat) : TileFmt E (Hybrid E) where
  empty _ _ _ m n := Hybrid.empty m n
  build r i j es m n rs cs := Hybrid.build (env.behind r i j) (env.g r i j) threads (env.hybrid r i j) es m n rs cs
  nnz t := t.nnz
  getEdges r i j t rs cs := t.getEdges (env.out r i j) rs cs

/-- `DCSCTile<T>`, /repo/include/GMDP/matrices/DCSCTile.h:183, 241-398. -/
def dcscFmt (env : FmtEnv E) (threads : Nat) : TileFmt E (Tile E) where
  empty r i j m n := Tile.empty (env.gt r i j) 0 m n
  build r i j es m n rs cs := Tile.build (env.gt r i j) threads (env.dcsc r i j) es m n rs cs
  nnz t := t.nnz
  getEdges _ _ _ t rs cs := t.getEdges rs cs

/-- The calls of `mult_segment` for a matrix of CSR tiles, /repo/include/GMDP/singlenode/spmspv.h:265-279; `gy`: fresh memory of the
segments, `old`: contents of the uninitialised `temp_mul_result`. -/
def csrMult (threads : Nat) (gy : Nat → Nat → Fresh U) (old : Nat → Nat → Nat → U) (mul : E → T → U → U) (add : U → U → U)
    (r i j : Nat) (t : CSR E) (sx : Segment T) (sy : Segment U) : Option (Segment U) :=
  t.mult threads (gy r i) (old i j) mul add sx sy

/-- The calls of `mult_segment` for a matrix of COO or COO-SIMD tiles, /repo/include/GMDP/singlenode/spmspv.h:282-314. -/
def cooMult (gy : Nat → Nat → Fresh U) (old : Nat → Nat → Nat → U) (mul : E → T → U → U) (add : U → U → U)
    (r i j : Nat) (t : COO E) (sx : Segment T) (sy : Segment U) : Option (Segment U) :=
  t.mult (gy r i) (old i j) mul add sx sy

/-- The calls of `mult_segment` for a matrix of hybrid tiles, /repo/include/GMDP/singlenode/spmspv.h:241-262. -/
def hybridMult (gy : Nat → Nat → Fresh U) (old old' : Nat → Nat → Nat → U) (mul : E → T → U → U) (add : U → U → U)
    (r i j : Nat) (t : Hybrid E) (sx : Segment T) (sy : Segment U) : Option (Segment U) :=
  t.mult (gy r i) (old i j) (old' i j) mul add sx sy

/-- The calls of `mult_segment` for a matrix of DCSC tiles, /repo/include/GMDP/singlenode/spmspv.h:226-238. -/
def dcscMult (gy : Nat → Nat → Fresh U) (tmp : Nat → Nat → Nat → Nat → U) (mul : E → T → U → U) (add : U → U → U)
    (r i j : Nat) (t : Tile E) (sx : Segment T) (sy : Segment U) : Option (Segment U) :=
  multSegment (gy r i) (tmp i j) (fun _ _ => mul) add t sx sy

/-! ### The tests -/

/-- `A->get_edges(&OE)` on every rank, /repo/test/test_matrix_basics.cpp:65. -/
def gotFmtEdges (F : TileFmt E Til) (k : Nat → Edge E) (D : List (FMat Til)) : Option (List (EdgeList E)) :=
  (List.range D.length).mapM (fun r => do
    let M ← D[r]?
    let es ← FMat.getEdges F M
    some (gotList (k r) M.m M.n es))

/-- The checks of the size of a matrix, e.g. /repo/test/test_matrix_basics.cpp:58-60. -/
def requireFmtSize (F : TileFmt E Til) (D : List (FMat Til)) (nnz : Nat) (m n : Int) : Option Bool := do
  let l ← FMat.getNNZ F D
  some (l.all (fun x => decide (x = nnz)) && D.all (fun M => decide ((M.m : Int) = m) && decide ((M.n : Int) = n)))

/-- `matrix_test<TILE_T, EDGE_T>(E)`, /repo/test/test_matrix_basics.cpp:38-117; `F`, `F'`, `F''` are the tiles of the matrix, its transpose
and the transpose of that. -/
def testFmtMatrix (F F' F'' : TileFmt E Til) (sort : List (Edge E) → List (Edge E)) (eq : E → E → Bool) (srt srt' srt'' : MatSorts E)
    (k : Nat → Edge E) (w : Nat) (els : List (EdgeList E)) : Option Bool := do
  let els := els.map (EdgeList.sortWith sort)
  let el ← els[0]?
  let nrank := els.length
  let D ← FMat.ofEdges F el.m.toNat el.n.toNat nrank nrank nrank partitionFn1d srt (els.map EdgeList.list)
  let els := (els.zip D.1).map (fun x => x.1.sortWith (fun _ => x.2))
  let all ← collectEdges k w els
  let a ← all[0]?
  let b1 ← requireFmtSize F D.2 a.nnz el.m el.n
  let oe ← gotFmtEdges F k D.2
  let b2 ← requireSameLists sort eq k w els oe
  let T ← FMat.transpose F F' D.2 el.m.toNat el.n.toNat nrank nrank nrank partitionFn1d srt'
  let b3 ← requireFmtSize F' T a.nnz el.n el.m
  let TT ← FMat.transpose F' F'' T el.n.toNat el.m.toNat nrank nrank nrank partitionFn1d srt''
  let b4 ← requireFmtSize F'' TT a.nnz el.m el.n
  let oet ← gotFmtEdges F'' k TT
  let b5 ← requireSameLists sort eq k w els oet
  some (b1 && b2 && b3 && b4 && b5)

/-- `create_spmv_identity_test<TILE_T, EDGE_T>(N)`, /repo/test/test_spmv.cpp:38-81; `mult` are the calls of `mult_segment`. -/
def testFmtSpmv (F : TileFmt E Til) (mult : Nat → Nat → Nat → Til → Segment E → Segment E → Option (Segment E)) (add : E → E → E)
    (sort : List (Edge E) → List (Edge E)) (eq : E → E → Bool) (g : Nat → Nat → Edge E) (k : Nat → Edge E) (w : Nat) (dist : Nat → Nat)
    (draws : Nat) (one : E) (srt : MatSorts E) (gm : Nat → Nat → Nat → Edge E) (gi : Nat → IngestFresh E) (env : MulEnv E E E)
    (threads nrank n : Nat) : Option Bool := do
  let e1 ← generated g nrank (genIdentity (g 0) one n)
  let el ← e1[0]?
  let A ← FMat.ofEdges F el.m.toNat el.n.toNat nrank nrank nrank partitionFn1d srt (e1.map EdgeList.list)
  let v ← genVecRandom (g 0) dist draws one n (n / 10)
  let e2 := onRankZero g nrank v
  let x ← DVec.new n nrank nrank
  let x ← x.ingestEdgelist gm gi (e2.map EdgeList.list)
  let y ← DVec.new n nrank nrank
  let y ← y.clear
  let r ← FMat.spmspv env threads nrank A.2 mult add x y
  let e3 ← gotVecEdges k r.2
  let b ← compareCollected sort eq true k w e3 e2
  let nx ← r.1.getNNZ
  let ny ← r.2.getNNZ
  some (decide (nx = ny) && b)

end GraphMat

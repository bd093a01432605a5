import Verif.Model.FmtMat
import Verif.Model.FmtSnapshot

/-!
# Archives of distributed matrices of any tile format

Models the serialization of `SpMat<SpTile>` with the tile type as a parameter, and `test_matrix_serialization.cpp` for all formats.
Archives are as in `Model/Snapshot`.
-/
namespace GraphMat

variable {E Til : Type}

/-- How a tile of a format is saved and loaded, /repo/include/GMDP/matrices/SpMat.h:68; the arguments are the rank and the indices of
the tile, which decide what memory is found. -/
structure TileIO (E Til : Type) where
  /-- `ar << tile` -/
  put : Nat → Nat → Nat → Til → Archive E → Option (Archive E)
  /-- `ar >> tile` -/
  get : Nat → Nat → Nat → Archive E → Option (Til × Archive E)

/-- Saving a pointer to a tile, /repo/include/GMDP/matrices/SpMat.h:68. -/
def putFmt (put : Til → Archive E → Option (Archive E)) (t : Option Til) (ar : Archive E) : Option (Archive E) :=
  match t with
  | none => some (ar ++ [.null])
  | some t => put t (ar ++ [.object])

/-- Loading a pointer to a tile, /repo/include/GMDP/matrices/SpMat.h:68. -/
def takeFmt (get : Archive E → Option (Til × Archive E)) : Archive E → Option (Option Til × Archive E)
  | .null :: ar => some (none, ar)
  | .object :: ar => do
    let (t, ar) ← get ar
    some (some t, ar)
  | _ => none

/-- `SpMat::serialize` of an output archive, on one rank, /repo/include/GMDP/matrices/SpMat.h:62-72, as `RMat.save`. -/
def FMat.save (io : TileIO E Til) (M : FMat Til) (ar : Archive E) : Option (Archive E) := do
  let ar := ar ++ [.object, .int M.ntx, .int M.nty, .int M.m, .int M.n]
  let ar ← putList (fun i => putList (fun j => putFmt (io.put M.myrank i j) (M.tiles i j)) (List.range M.ntx)) (List.range M.nty) ar
  let ar ← putList putInt (startIds M.n M.ntx) ar
  let ar ← putList putInt (startIds M.m M.nty) ar
  let ids ← (List.range M.ntx).mapM (fun j => (List.range M.nty).mapM (fun i => M.node i j))
  putList putInt ids.flatten ar

/-- `SpMat::serialize` of an input archive, on rank `r` of `nrank`, /repo/include/GMDP/matrices/SpMat.h:62-72, as `RMat.load`.  Indices of
no tile, which the code never uses, are given the node `other` says. -/
def FMat.load (io : TileIO E Til) (other : Nat → Nat → Option Nat) (nrank r : Nat) (ar : Archive E) : Option (FMat Til × Archive E) := do
  match ar with
  | .object :: ar =>
    let (ntx, ar) ← getInt ar
    let (nty, ar) ← getInt ar
    let (m, ar) ← getInt ar
    let (n, ar) ← getInt ar
    let (tiles, ar) ← takeList (fun i => takeList (fun j => takeFmt (io.get r i j))) ar
    let (startIdx, ar) ← takeList (fun _ => getInt) ar
    let (startIdy, ar) ← takeList (fun _ => getInt) ar
    let (nodeIds, ar) ← takeList (fun _ => getInt) ar
    if startIdx ≠ startIds n ntx ∨ startIdy ≠ startIds m nty then none else
    some ({ m := m, n := n, ntx := ntx, nty := nty, nrank := nrank, myrank := r,
            node := fun i j => if i < nty ∧ j < ntx then nodeIds[i + j * nty]? else other i j,
            tiles := fun i j => ((tiles[i]?).bind (fun row => row[j]?)).join }, ar)
  | _ => none

/-- Every rank saves its part of the matrix to an archive of its own and loads it from there,
/repo/test/test_matrix_serialization.cpp:48-59. -/
def FMat.reload (io : TileIO E Til) (other : Nat → Nat → Option Nat) (D : List (FMat Til)) : Option (List (FMat Til)) :=
  (List.range D.length).mapM (fun r => do
    let M ← D[r]?
    let ar ← M.save io []
    let L ← FMat.load io other D.length r ar
    some L.1)

/-! ### The formats -/

/-- What archives of tiles meet: the memory of loaded tiles and what is found behind the array `ia` of DCSR tiles,
/repo/include/GMDP/matrices/DCSRTile.h:77-80. -/
structure IOEnv (E : Type) where
  /-- arrays of loaded tiles -/
  g : Nat → Nat → Nat → FmtFresh E
  /-- arrays of loaded DCSC tiles -/
  gt : Nat → Nat → Nat → TileFresh E
  /-- behind `ia`, `none` = not readable -/
  beyond : Nat → Nat → Nat → Option (Nat → Nat)

/-- `CSRTile<T>`, /repo/include/GMDP/matrices/CSRTile.h:69-122. -/
def csrIO (env : IOEnv E) : TileIO E (CSR E) where
  put _ _ _ t ar := t.archive ar
  get r i j ar := CSR.restore (env.g r i j) ar

/-- `COOTile<T>`, /repo/include/GMDP/matrices/COOTile.h:71-135. -/
def cooIO (env : IOEnv E) : TileIO E (COO E) where
  put _ _ _ t ar := t.archive false ar
  get r i j ar := COO.restore false (env.g r i j) ar

/-- `COOSIMD32Tile<T>`, /repo/include/GMDP/matrices/COOSIMD32Tile.h:82-155. -/
def simdIO (env : IOEnv E) : TileIO E (COO E) where
  put _ _ _ t ar := t.archive true ar
  get r i j ar := COO.restore true (env.g r i j) ar

/-- `DCSRTile<T>`, /repo/include/GMDP/matrices/DCSRTile.h:59-124. -/
def dcsrIO (env : IOEnv E) : TileIO E (DCSR E) where
  put r i j t ar := t.archive (env.beyond r i j) ar
  get r i j ar := DCSR.restore (env.g r i j) ar

/-- `HybridTile<T>`, /repo/include/GMDP/matrices/HybridTile.h:59-74. -/
def hybridIO (env : IOEnv E) : TileIO E (Hybrid E) where
  put r i j t ar := t.archive (env.beyond r i j) ar
  get r i j ar := Hybrid.restore (env.g r i j) ar

/-- `DCSCTile<T>`, /repo/include/GMDP/matrices/DCSCTile.h:75-160. -/
def dcscIO (env : IOEnv E) : TileIO E (Tile E) where
  put _ _ _ t ar := t.save ar
  get r i j ar := Tile.load (env.gt r i j) ar

/-! ### The test -/

/-- `matrix_serialization_test<TILE_T, EDGE_T>(N)`, /repo/test/test_matrix_serialization.cpp:38-79. -/
def testFmtArchive (F : TileFmt E Til) (io : TileIO E Til) (other : Nat → Nat → Option Nat) (sort : List (Edge E) → List (Edge E))
    (eq : E → E → Bool) (g : Nat → Nat → Edge E) (k : Nat → Edge E) (dist : Nat → Nat) (draws : Nat) (one : E) (srt : MatSorts E)
    (nrank n : Nat) : Option Bool := do
  let els ← generated g nrank (genRandom (g 0) dist draws one n 16)
  let el ← els[0]?
  let A ← FMat.ofEdges F el.m.toNat el.n.toNat nrank nrank nrank partitionFn1d srt (els.map EdgeList.list)
  let B ← FMat.reload io other A.2
  let oks ← (List.range nrank).mapM (fun r => do
    let M ← A.2[r]?
    let L ← B[r]?
    let es1 ← FMat.getEdges F M
    let es2 ← FMat.getEdges F L
    compareEdges sort eq (k r) M.m M.n es1 L.m L.n es2)
  some (oks.all id)

end GraphMat

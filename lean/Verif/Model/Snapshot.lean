import Verif.Model.SpMat
import Verif.Model.World

/-!
# Binary snapshots of a graph

Models `WriteGraphMatBin` and `ReadGraphMatBin` (/repo/include/Graph.h:152-208) with the serialization of
`SpMat` (/repo/include/GMDP/matrices/SpMat.h:62-72) and `DCSCTile` (/repo/include/GMDP/matrices/DCSCTile.h:79-179).

A boost archive is modelled as the list of the values written to it.  Reading a value that is not there, or a value of
another kind, gives `none` (boost throws or the reader gets garbage); the class ids, versions and object ids that boost
adds are left out, as is the constant string `name` of a tile.  Boost writes an object only once when it is reached
through several pointers; here all pointers are distinct (each tile belongs to one matrix).
-/
namespace GraphMat

variable {α E V : Type}

/-- A value in an archive: an `int` that is not negative (or the size of a `std::vector`), an edge or vector value, a
null pointer, the mark before an object reached through a pointer, or (in the archive of a vector) any `int`, a word of
presence bits, a `bool`.  /repo/include/GMDP/matrices/SpMat.h:63-71, /repo/include/GMDP/matrices/DCSCTile.h:81-116,
/repo/include/GMDP/vectors/DenseSegment.h:93-113. -/
inductive Tok (E : Type) where
  | int (k : Nat)
  | val (e : E)
  | null
  | object
  | signed (k : Int)
  | word (w : BitVec 32)
  | flag (b : Bool)
  deriving DecidableEq

/-- The contents of a file, /repo/include/Graph.h:157, 201. -/
abbrev Archive (E : Type) := List (Tok E)

/-- `ar & i` of an input archive for an `int`, e.g. /repo/include/GMDP/matrices/DCSCTile.h:122. -/
def getInt : Archive E → Option (Nat × Archive E)
  | .int k :: ar => some (k, ar)
  | _ => none

/-- `ar & vals[i]` of an input archive, /repo/include/GMDP/matrices/DCSCTile.h:151. -/
def getVal : Archive E → Option (E × Archive E)
  | .val e :: ar => some (e, ar)
  | _ => none

/-- `for(int i = 0 ; i < k ; i++) ar & a[i];` of an output archive,
/repo/include/GMDP/matrices/DCSCTile.h:88-117. -/
def putArr (enc : α → Tok E) (a : Arr α) (k : Nat) (ar : Archive E) : Option (Archive E) :=
  forLoop 0 k ar (fun i ar => do
    let x ← a.read i
    some (ar ++ [enc x]))

/-- `for(int i = 0 ; i < k ; i++) ar & a[i];` of an input archive, /repo/include/GMDP/matrices/DCSCTile.h:149-175. -/
def takeArr (get : Archive E → Option (α × Archive E)) (a : Arr α) (k : Nat) (ar : Archive E) :
    Option (Arr α × Archive E) :=
  forLoop 0 k (a, ar) (fun i st => do
    let (x, ar) ← get st.2
    let a ← st.1.write i x
    some (a, ar))

/-- `DCSCTile::save`, /repo/include/GMDP/matrices/DCSCTile.h:81-118.  In an empty tile `num_cols` has never been
written, so that what is saved there is indeterminate. -/
def Tile.save (t : Tile E) (ar : Archive E) : Option (Archive E) := do
  let ar := ar ++ [.int t.nnz, .int t.m, .int t.n, .int t.numCols, .int t.np]
  if t.nnz > 0 then
    let ar ← putArr .val t.vals t.nnz ar
    let ar ← putArr .int t.rowInds t.nnz ar
    let ar ← putArr .int t.rp (t.np + 1) ar
    let ar ← putArr .int t.ep (t.np + 1) ar
    let ar ← putArr .int t.cs (t.np + 1) ar
    let k ← t.cs.read t.np
    let ar ← putArr .int t.colPtrs k ar
    putArr .int t.colIdx k ar
  else some ar

/-- `DCSCTile::load` into a default-constructed tile, /repo/include/GMDP/matrices/DCSCTile.h:121-178, 181.  `g`: the
contents of the allocated arrays before they are filled. -/
def Tile.load (g : TileFresh E) (ar : Archive E) : Option (Tile E × Archive E) := do
  let (nnz, ar) ← getInt ar
  let (m, ar) ← getInt ar
  let (n, ar) ← getInt ar
  let (numCols, ar) ← getInt ar
  let (np, ar) ← getInt ar
  if nnz > 0 then
    let (vals, ar) ← takeArr getVal ⟨nnz, g.vals⟩ nnz ar
    let (rowInds, ar) ← takeArr getInt ⟨nnz, g.ints 0⟩ nnz ar
    let (rp, ar) ← takeArr getInt ⟨np + 1, g.ints 1⟩ (np + 1) ar
    let (ep, ar) ← takeArr getInt ⟨np + 1, g.ints 2⟩ (np + 1) ar
    let (cs, ar) ← takeArr getInt ⟨np + 1, g.ints 3⟩ (np + 1) ar
    let (colPtrs, ar) ← takeArr getInt ⟨numCols, g.ints 4⟩ numCols ar
    let (colIdx, ar) ← takeArr getInt ⟨numCols, g.ints 5⟩ numCols ar
    some ({ nnz := nnz, m := m, n := n, numCols := numCols, np := np, vals := vals, rowInds := rowInds, rp := rp,
            ep := ep, cs := cs, colPtrs := colPtrs, colIdx := colIdx }, ar)
  else
    some ({ nnz := nnz, m := m, n := n, numCols := numCols, np := np, vals := ⟨0, g.vals⟩, rowInds := ⟨0, g.ints 0⟩,
            rp := ⟨0, g.ints 1⟩, ep := ⟨0, g.ints 2⟩, cs := ⟨0, g.ints 3⟩, colPtrs := ⟨0, g.ints 4⟩,
            colIdx := ⟨0, g.ints 5⟩ }, ar)

/-- Saving a `std::vector` (boost/serialization/vector.hpp, used for /repo/include/GMDP/matrices/SpMat.h:68-71): the
number of elements, then the elements. -/
def putList (put : α → Archive E → Option (Archive E)) (l : List α) (ar : Archive E) : Option (Archive E) :=
  l.foldlM (fun ar x => put x ar) (ar ++ [.int l.length])

/-- Loading a `std::vector` (/repo/include/GMDP/matrices/SpMat.h:68-71): `get i` reads the element `i`. -/
def takeList (get : Nat → Archive E → Option (α × Archive E)) (ar : Archive E) : Option (List α × Archive E) := do
  let (k, ar) ← getInt ar
  forLoop 0 k ([], ar) (fun i st => do
    let (x, ar) ← get i st.2
    some (st.1 ++ [x], ar))

/-- `ar & i` of an output archive for an `int` in a vector, /repo/include/GMDP/matrices/SpMat.h:69-71. -/
def putInt (k : Nat) (ar : Archive E) : Option (Archive E) := some (ar ++ [.int k])

/-- Saving a pointer to a tile, /repo/include/GMDP/matrices/SpMat.h:68. -/
def putTile (t : Option (Tile E)) (ar : Archive E) : Option (Archive E) :=
  match t with
  | none => some (ar ++ [.null])
  | some t => t.save (ar ++ [.object])

/-- Loading a pointer to a tile, /repo/include/GMDP/matrices/SpMat.h:68. -/
def takeTile (g : TileFresh E) : Archive E → Option (Option (Tile E) × Archive E)
  | .null :: ar => some (none, ar)
  | .object :: ar => do
    let (t, ar) ← Tile.load g ar
    some (some t, ar)
  | _ => none

/-- `SpMat::serialize` of an output archive, on one rank, after the mark of the pointer;
/repo/include/GMDP/matrices/SpMat.h:62-72, /repo/include/Graph.h:203-204.  `start_idx`, `start_idy` and `nodeIds` are
as `Allocate2DPartitioned` made them (lines 295-309). -/
def RMat.save (M : RMat E) (ar : Archive E) : Option (Archive E) := do
  let ar := ar ++ [.object, .int M.ntx, .int M.nty, .int M.m, .int M.n]
  let ar ← putList (fun i => putList (fun j => putTile (M.tiles i j)) (List.range M.ntx)) (List.range M.nty) ar
  let ar ← putList putInt (startIds M.n M.ntx) ar
  let ar ← putList putInt (startIds M.m M.nty) ar
  let ids ← (List.range M.ntx).mapM (fun j => (List.range M.nty).mapM (fun i => M.node i j))
  putList putInt ids.flatten ar

/-- `SpMat::serialize` of an input archive, on rank `r` of `nrank`; /repo/include/GMDP/matrices/SpMat.h:62-72,
/repo/include/Graph.h:162-163.  `RMat` has no components for `start_idx`, `start_idy`: the model only goes on when they
are those of the dimensions.  `nodeIds[i + j*ntiles_y]` becomes `node i j`; indices of no tile, which the code never
uses, are given the value they have in `RMat.alloc`. -/
def RMat.load (g : Nat → Nat → TileFresh E) (nrank r : Nat) (ar : Archive E) : Option (RMat E × Archive E) := do
  match ar with
  | .object :: ar =>
    let (ntx, ar) ← getInt ar
    let (nty, ar) ← getInt ar
    let (m, ar) ← getInt ar
    let (n, ar) ← getInt ar
    let (tiles, ar) ← takeList (fun i => takeList (fun j => takeTile (g i j))) ar
    let (startIdx, ar) ← takeList (fun _ => getInt) ar
    let (startIdy, ar) ← takeList (fun _ => getInt) ar
    let (nodeIds, ar) ← takeList (fun _ => getInt) ar
    if startIdx ≠ startIds n ntx ∨ startIdy ≠ startIds m nty then none else
    some ({ m := m, n := n, ntx := ntx, nty := nty, nrank := nrank, myrank := r,
            node := fun i j => if i < nty ∧ j < ntx then nodeIds[i + j * nty]? else partitionFn2d j i nrank,
            tiles := fun i j => ((tiles[i]?).bind (fun row => row[j]?)).join }, ar)
  | _ => none

/-- `WriteGraphMatBin` on one rank: the contents of its file, /repo/include/Graph.h:196-208. -/
def writeBinRank (A AT : RMat E) (threads : Nat) : Option (Archive E) := do
  let ar ← A.save []
  let ar ← AT.save ar
  some (ar ++ [.int threads])

/-- `WriteGraphMatBin` on all ranks (one file per rank), /repo/include/Graph.h:196-208. -/
def Graph.writeBin (G : Graph V E) : Option (List (Archive E)) :=
  (List.range G.nrank).mapM (fun r => do
    let A ← G.A[r]?
    let AT ← G.AT[r]?
    writeBinRank A AT G.threads)

/-- How `ReadGraphMatBin` can end on a rank: both matrices, or one of the two error messages and `exit(1)`,
/repo/include/Graph.h:162-175. -/
inductive BinOut (E : Type) where
  | matrices (A AT : RMat E)
  | otherRanks
  | otherThreads

/-- `ReadGraphMatBin` on rank `r` of `nrank` with `omp_get_max_threads() = threads`, up to the checks,
/repo/include/Graph.h:162-175. -/
def readBinRank (gA gAT : Nat → Nat → TileFresh E) (threads nrank r : Nat) (file : Archive E) : Option (BinOut E) := do
  let (A, ar) ← RMat.load gA nrank r file
  let (AT, ar) ← RMat.load gAT nrank r ar
  if A.ntx ≠ nrank ∨ A.nty ≠ nrank ∨ AT.ntx ≠ nrank ∨ AT.nty ≠ nrank then some .otherRanks else
  let (numThreads, _) ← getInt ar
  if numThreads ≠ threads then some .otherThreads else
  some (.matrices A AT)

/-- The matrices a rank goes on with; `none` when it has called `exit(1)`, /repo/include/Graph.h:165-175. -/
def BinOut.pair? : BinOut E → Option (RMat E × RMat E)
  | .matrices A AT => some (A, AT)
  | _ => none

/-- `ReadGraphMatBin` on all ranks, /repo/include/Graph.h:152-194: `none` if some rank has no file, cannot read it or
stops with an error message.  All ranks must agree on the number of vertices (each takes its own `A->m`; the model has
no graphs where they differ). -/
def Graph.readBin (env : LoadEnv V E) (threads nrank : Nat) (files : List (Archive E)) : Option (Graph V E) := do
  let outs ← (List.range nrank).mapM (fun r => do
    let file ← files[r]?
    let out ← readBinRank (env.gA r) (env.gAT r) threads nrank r file
    out.pair?)
  let first ← outs[0]?
  let n := first.1.m
  if outs.any (fun o => decide (o.1.m ≠ n)) then none else
  let A : DMat E := outs.map (·.1)
  let nnz ← DMat.getNNZ A
  let vg ← VGraph.create n nrank threads env.gv env.ga env.d
  some { vg with nnz := nnz, A := A, AT := outs.map (·.2) }

end GraphMat

import Verif.Model.TileMem

/-!
# Lives of tiles

What a program can do with tiles of one class: create them without edges, from edges or from an archive, use them, and
destroy each once.
-/
namespace GraphMat

/-- One step of a program. -/
inductive TileOp where
  /-- a new tile without edges -/
  | empty
  /-- a new tile with `nnz` edges -/
  | make (nnz : Nat)
  /-- a new tile, loaded from the archive of a tile with `nnz` edges -/
  | restore (nnz : Nat)
  /-- use of the `i`-th existing tile -/
  | use (i : Nat)
  /-- the end of the `i`-th existing tile -/
  | destroy (i : Nat)

variable {T : Type}

/-- A step; the list holds the existing tiles.  Steps for tiles that do not exist are left out. -/
def TileOp.run (C : TileClass T) : TileOp → List T → HeapM (List T)
  | .empty, ts => pure (C.empty :: ts)
  | .make k, ts => do
    let t ← C.make k
    pure (t :: ts)
  | .restore k, ts => do
    let t ← C.load k C.empty
    pure (t :: ts)
  | .use i, ts =>
    match ts[i]? with
    | none => pure ts
    | some t => do
      C.use t
      pure ts
  | .destroy i, ts =>
    match ts[i]? with
    | none => pure ts
    | some t => do
      C.destroy t
      pure (ts.eraseIdx i)

/-- The steps one after the other. -/
def runTileOps (C : TileClass T) : List TileOp → List T → HeapM (List T)
  | [], ts => pure ts
  | op :: ops, ts => do
    let ts ← op.run C ts
    runTileOps C ops ts

/-- The end of all existing tiles. -/
def destroyAll (C : TileClass T) : List T → HeapM Unit
  | [] => pure ()
  | t :: ts => do
    C.destroy t
    destroyAll C ts

/-- A whole program: the steps, then the end of the tiles that are left. -/
def tileLives (C : TileClass T) (ops : List TileOp) : HeapM Unit := do
  let ts ← runTileOps C ops []
  destroyAll C ts

/-- How many blocks belong to a hybrid tile with `n` edges, `l` of them in rows with at least 16 edges: the two parts, and five
arrays for each part that has edges. -/
def hybridCost (n l : Nat) : Nat :=
  if 0 < n then 2 + (if 0 < l then 5 else 0) + (if 0 < n - l then 5 else 0) else 0

/-- The steps that hybrid tiles stand: the constructor for edges is only called with edges, and archives are only loaded if no
row of the tile has 16 edges. -/
def HybridOk (large : Nat → Nat) : TileOp → Prop
  | .make n => 0 < n
  | .restore n => large n = 0
  | _ => True

/-- How many blocks a step makes that belong to a hybrid tile. -/
def hybridLeak (large : Nat → Nat) : TileOp → Nat
  | .make n => hybridCost n (large n)
  | .restore n => hybridCost n (large n)
  | _ => 0

/-- One step of a program with matrices, on one rank. -/
inductive MatOp where
  /-- a new matrix; `cs` says for every tile how many edges it has if it belongs to this rank -/
  | make (cs : List (Option Nat))
  /-- a new matrix, loaded from the archive of a matrix with tiles as `cs` says -/
  | restore (cs : List (Option Nat))
  /-- the edges of the `i`-th existing matrix are fetched; the caller releases them if there are any -/
  | edges (i : Nat)
  /-- the transpose of the `i`-th existing matrix is a new matrix with tiles as `cs` says -/
  | transpose (i : Nat) (cs : List (Option Nat))
  /-- the end of the `i`-th existing matrix -/
  | delete (i : Nat)

/-- A step; the list holds the existing matrices. -/
def MatOp.run (C : TileClass T) (nrank : Nat) : MatOp → List (Ptr × MatMem T) → HeapM (List (Ptr × MatMem T))
  | .make cs, ms => do
    let m ← makeMat C nrank cs
    pure (m :: ms)
  | .restore cs, ms => do
    let m ← loadMat C cs
    pure (m :: ms)
  | .edges i, ms =>
    match ms[i]? with
    | none => pure ms
    | some m => do
      let el ← matEdges C m
      if 0 < el.1 then do
        release .mm el.2
        pure ms
      else pure ms
  | .transpose i cs, ms =>
    match ms[i]? with
    | none => pure ms
    | some m => do
      let mt ← transposeMem C nrank cs m
      pure (mt :: ms)
  | .delete i, ms =>
    match ms[i]? with
    | none => pure ms
    | some m => do
      deleteMat C m
      pure (ms.eraseIdx i)

/-- The steps one after the other. -/
def runMatOps (C : TileClass T) (nrank : Nat) : List MatOp → List (Ptr × MatMem T) → HeapM (List (Ptr × MatMem T))
  | [], ms => pure ms
  | op :: ops, ms => do
    let ms ← op.run C nrank ms
    runMatOps C nrank ops ms

/-- The end of all existing matrices. -/
def deleteMats (C : TileClass T) : List (Ptr × MatMem T) → HeapM Unit
  | [] => pure ()
  | m :: ms => do
    deleteMat C m
    deleteMats C ms

/-- A whole program: the steps, then the end of the matrices that are left. -/
def matLives (C : TileClass T) (nrank : Nat) (ops : List MatOp) : HeapM Unit := do
  let ms ← runMatOps C nrank ops []
  deleteMats C ms

end GraphMat

import Verif.Model.Loops
import Verif.Model.Runtime

/-!
# The parallel loops of a superstep as tasks

The iterations of the parallel loops of `my_spmspv` and `my_spmspv3` (DCSC tiles) and of the loop of `run_graph_program` that
applies the results, as programs over single elements of all arrays involved (see `Model/Loops.lean`).
`Model/Tasks.lean` has them as lists of accesses to the arrays that are written.  The bounds of the inner loops are loaded
once instead of before each iteration, and the prefetch (/repo/include/GMDP/singlenode/spmspv.h:59) is left out; the
arrays concerned are only read.
-/
namespace GraphMat

variable {E T U V : Type}

/-! ### The products -/

/-- The arrays of `my_spmspv` and `my_spmspv3` (/repo/include/GMDP/singlenode/spmspv.h:40-43,
/repo/include/GMDP/singlenode/spmspv3.h:39-43; `row_pointers` is not used). -/
inductive DcArr where
  /-- `col_starts` -/
  | cs
  /-- `edge_pointers` -/
  | ep
  /-- `col_indices` -/
  | colIdx
  /-- `col_ptrs` -/
  | colPtrs
  /-- `row_inds` -/
  | rowInds
  /-- `vals` -/
  | vals
  /-- `xvalue` -/
  | xv
  /-- `xbit_vector` -/
  | xb
  /-- `vpvalue` -/
  | vv
  /-- `vpbit_vector` -/
  | vb
  /-- `yvalue` -/
  | yv
  /-- `ybit_vector` -/
  | yb
deriving DecidableEq

/-- The types of the elements (/repo/include/GMDP/singlenode/spmspv.h:40-43,
/repo/include/GMDP/singlenode/spmspv3.h:39-43). -/
abbrev DcArr.Ty (E T V U : Type) : DcArr → Type
  | .cs => Nat
  | .ep => Nat
  | .colIdx => Nat
  | .colPtrs => Nat
  | .rowInds => Nat
  | .vals => E
  | .xv => T
  | .xb => Word
  | .vv => V
  | .vb => Word
  | .yv => U
  | .yb => Word

/-- Programs over these arrays (/repo/include/GMDP/singlenode/spmspv.h:40-43,
/repo/include/GMDP/singlenode/spmspv3.h:39-43). -/
abbrev DcCode (E T V U β : Type) := Code (DcArr × Nat) (fun l => DcArr.Ty E T V U l.1) β

/-- The arrays as a function of their names (/repo/include/GMDP/singlenode/spmspv.h:40-43,
/repo/include/GMDP/singlenode/spmspv3.h:39-43); `vv`, `vb` are not used by `my_spmspv`. -/
def dcA (t : Tile E) (xv : Arr T) (xb : Arr Word) (vv : Arr V) (vb : Arr Word) (st : Arr U × Arr Word) :
    (k : DcArr) → Arr (DcArr.Ty E T V U k)
  | .cs => t.cs
  | .ep => t.ep
  | .colIdx => t.colIdx
  | .colPtrs => t.colPtrs
  | .rowInds => t.rowInds
  | .vals => t.vals
  | .xv => xv
  | .xb => xb
  | .vv => vv
  | .vb => vb
  | .yv => st.1
  | .yb => st.2

/-- Iteration `p` of the parallel loop of `my_spmspv`, /repo/include/GMDP/singlenode/spmspv.h:49-80; `tmp p nz_idx` is the
content of the uninitialised `temp_mul_result` (sequential model: `Tile.spmspv`). -/
def dcscC (tmp : Nat → Nat → U) (mul : Nat → Nat → E → T → U → U) (add : U → U → U) (p : Nat) : DcCode E T V U Unit := do
  let c0 : Nat ← aload DcArr.cs p
  let e0 : Nat ← aload DcArr.ep p
  let c1 : Nat ← aload DcArr.cs (p + 1)
  Code.for 0 (c1 - c0 - 1) () (fun j _ => do
    let col : Nat ← aload DcArr.colIdx (c0 + j)
    let bit ← getBitC (aload (τ := DcArr.Ty E T V U) DcArr.xb) col
    if bit then do
      let x : T ← aload DcArr.xv col
      let a : Nat ← aload DcArr.colPtrs (c0 + j)
      let b : Nat ← aload DcArr.colPtrs (c0 + j + 1)
      Code.for a b () (fun nz _ => do
        let row : Nat ← aload DcArr.rowInds (e0 + nz)
        let av : E ← aload DcArr.vals (e0 + nz)
        let temp := mul p nz av x (tmp p nz)
        let ybit ← getBitC (aload (τ := DcArr.Ty E T V U) DcArr.yb) row
        if ybit then do
          let y : U ← aload DcArr.yv row
          astore DcArr.yv row (add y temp)
        else do
          astore DcArr.yv row temp
          setBitC (aload DcArr.yb) (astore (τ := DcArr.Ty E T V U) DcArr.yb) row)
    else pure ())

/-- Iteration `p` of the parallel loop of `my_spmspv3`, /repo/include/GMDP/singlenode/spmspv3.h:48-83 (sequential model:
`Tile.spmspv3`; it decides whether the assertion holds).  `op_mul` loads `xvalue[col_index]`, `vpvalue[row_ind]` and, for a
first message, what `yvalue[row_ind]` held before. -/
def dcsc3C (tmp : Nat → Nat → U) (mul : E → T → V → U → U) (add : U → U → U) (p : Nat) : DcCode E T V U Unit := do
  let c0 : Nat ← aload DcArr.cs p
  let e0 : Nat ← aload DcArr.ep p
  let c1 : Nat ← aload DcArr.cs (p + 1)
  Code.for 0 (c1 - c0 - 1) () (fun j _ => do
    let col : Nat ← aload DcArr.colIdx (c0 + j)
    let bit ← getBitC (aload (τ := DcArr.Ty E T V U) DcArr.xb) col
    if bit then do
      let a : Nat ← aload DcArr.colPtrs (c0 + j)
      let b : Nat ← aload DcArr.colPtrs (c0 + j + 1)
      Code.for a b () (fun nz _ => do
        let row : Nat ← aload DcArr.rowInds (e0 + nz)
        let _ ← getBitC (aload (τ := DcArr.Ty E T V U) DcArr.vb) row
        let av : E ← aload DcArr.vals (e0 + nz)
        let ybit ← getBitC (aload (τ := DcArr.Ty E T V U) DcArr.yb) row
        if ybit then do
          let x : T ← aload DcArr.xv col
          let v : V ← aload DcArr.vv row
          let y : U ← aload DcArr.yv row
          astore DcArr.yv row (add y (mul av x v (tmp p nz)))
        else do
          let x : T ← aload DcArr.xv col
          let v : V ← aload DcArr.vv row
          let y : U ← aload DcArr.yv row
          astore DcArr.yv row (mul av x v y)
          setBitC (aload DcArr.yb) (astore (τ := DcArr.Ty E T V U) DcArr.yb) row)
    else pure ())

/-! ### Applying the results -/

/-- The arrays of the loop that applies the results: `segment->value`, `segment->bit_vector`, `vpValueArray`, and `value` and
`bit_vector` of `active` (/repo/include/GraphMatRuntime.h:197-221). -/
inductive UpdArr where
  /-- `segment->value` -/
  | yv
  /-- `segment->bit_vector` -/
  | yb
  /-- `vpValueArray` -/
  | vv
  /-- `value` of `active` -/
  | av
  /-- `bit_vector` of `active` -/
  | ab
deriving DecidableEq

/-- The types of the elements (/repo/include/GraphMatRuntime.h:197-221). -/
abbrev UpdArr.Ty (U V : Type) : UpdArr → Type
  | .yv => U
  | .yb => Word
  | .vv => V
  | .av => Bool
  | .ab => Word

/-- Programs over these arrays (/repo/include/GraphMatRuntime.h:197-221). -/
abbrev UpdCode (U V β : Type) := Code (UpdArr × Nat) (fun l => UpdArr.Ty U V l.1) β

/-- The arrays as a function of their names (/repo/include/GraphMatRuntime.h:197-221); `st` is the state of the sequential
model, of which the last component, `local_converged`, is not shared. -/
def updA (yv : Arr U) (yb : Arr Word) (st : Arr V × Arr Bool × Arr Word × Bool) : (k : UpdArr) → Arr (UpdArr.Ty U V k)
  | .yv => yv
  | .yb => yb
  | .vv => st.1
  | .av => st.2.1
  | .ab => st.2.2.1

/-- The loop over the bits of a word, /repo/include/GraphMatRuntime.h:202-221 (sequential model: `scanWord`); `r` are the
private variables. -/
def scanWordC {Loc : Type} {W : Loc → Type} {R : Type} (base : Nat) (body : Nat → R → Code Loc W R) :
    Nat → Word → R → Code Loc W R
  | 0, _, r => pure r
  | fuel + 1, w, r =>
    if w = 0#32 then pure r
    else do
      let b := (bitScanForward w).getD 0
      let r ← body (base + b) r
      scanWordC base body fuel (w &&& ~~~ (bitMask b)) r

/-- One vertex of the loop, /repo/include/GraphMatRuntime.h:205-218 (sequential model: `applyOne`); `conv` is the private
copy of `local_converged`. -/
def updateOneC (gp : GProg T U V E) (idx : Nat) (conv : Bool) : UpdCode U V Bool := do
  let old : V ← aload UpdArr.vv idx
  let u : U ← aload UpdArr.yv idx
  let cur : V ← aload UpdArr.vv idx
  astore UpdArr.vv idx (gp.apply u cur)
  let new : V ← aload UpdArr.vv idx
  if gp.ne old new then do
    astore UpdArr.av idx true
    setBitC (aload UpdArr.ab) (astore (τ := UpdArr.Ty U V) UpdArr.ab) idx
    pure false
  else pure conv

/-- Iteration `i` of the parallel loop, /repo/include/GraphMatRuntime.h:200-222 (sequential model: `scanBits` with
`applyOne`).  The result is false if the iteration sets the private copy of `local_converged` to 0; otherwise it leaves it
as it is. -/
def updateC (gp : GProg T U V E) (i : Nat) : UpdCode U V Bool := do
  let w : Word ← aload UpdArr.yb i
  scanWordC (i * 32) (updateOneC gp) 33 w true

end GraphMat

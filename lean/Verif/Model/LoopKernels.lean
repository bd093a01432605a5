import Verif.Model.Loops

/-!
# The parallel loops over a tile as tasks

The iterations of the parallel loops of `my_applyedges` and of the products for CSR, DCSR, COO and COO-SIMD tiles as
programs over single elements of the arrays (see `Model/Loops.lean`).  The bounds of the inner loops are loaded once instead
of before each iteration; the arrays they come from are only read.  An index that the C++ code computes with `int` is
converted with `Int.toNat`; whether it is negative is decided by the sequential model.
-/
namespace GraphMat

variable {E T U V : Type}

/-! ### `my_applyedges` -/

/-- The arrays of `my_applyedges` (/repo/include/GMDP/singlenode/applyedges.h:38-44). -/
inductive EdgArr where
  /-- `col_starts` -/
  | cs
  /-- `edge_pointers` -/
  | ep
  /-- `col_indices` -/
  | colIdx
  /-- `col_ptrs` -/
  | colPtrs
  /-- `row_inds` -/
  | rowInds
  /-- `vals` -/
  | vals
  /-- `vpvalue1` -/
  | vp1
  /-- `vpvalue2` -/
  | vp2
  /-- `vpbit_vector2` -/
  | vb2
deriving DecidableEq

/-- The types of the elements (/repo/include/GMDP/singlenode/applyedges.h:38-44). -/
abbrev EdgArr.Ty (E V : Type) : EdgArr → Type
  | .cs => Nat
  | .ep => Nat
  | .colIdx => Nat
  | .colPtrs => Nat
  | .rowInds => Nat
  | .vals => E
  | .vp1 => V
  | .vp2 => V
  | .vb2 => Word

/-- Programs over these arrays (/repo/include/GMDP/singlenode/applyedges.h:38-44). -/
abbrev EdgCode (E V β : Type) := Code (EdgArr × Nat) (fun l => EdgArr.Ty E V l.1) β

/-- The arrays as a function of their names (/repo/include/GMDP/singlenode/applyedges.h:38-44); the arrays of the tile come
from `t` except for `vals`. -/
def edgA (t : Tile E) (vp1 vp2 : Arr V) (vb2 : Arr Word) (vals : Arr E) : (k : EdgArr) → Arr (EdgArr.Ty E V k)
  | .cs => t.cs
  | .ep => t.ep
  | .colIdx => t.colIdx
  | .colPtrs => t.colPtrs
  | .rowInds => t.rowInds
  | .vals => vals
  | .vp1 => vp1
  | .vp2 => vp2
  | .vb2 => vb2

/-- Iteration `p` of the parallel loop of `my_applyedges`, /repo/include/GMDP/singlenode/applyedges.h:48-72 (sequential
model: `Tile.applyPart`; it decides whether the assertion of line 62 holds). -/
def applyEdgesC (op : E → V → V → E) (p : Nat) : EdgCode E V Unit := do
  let c0 : Nat ← aload EdgArr.cs p
  let e0 : Nat ← aload EdgArr.ep p
  let c1 : Nat ← aload EdgArr.cs (p + 1)
  Code.for 0 (c1 - c0 - 1) () (fun j _ => do
    let col : Nat ← aload EdgArr.colIdx (c0 + j)
    let a : Nat ← aload EdgArr.colPtrs (c0 + j)
    let b : Nat ← aload EdgArr.colPtrs (c0 + j + 1)
    Code.for a b () (fun nz _ => do
      let row : Nat ← aload EdgArr.rowInds (e0 + nz)
      let _ ← getBitC (aload EdgArr.vb2) row
      let x : V ← aload EdgArr.vp1 col
      let y : V ← aload EdgArr.vp2 row
      let v : E ← aload EdgArr.vals (e0 + nz)
      astore EdgArr.vals (e0 + nz) (op v x y)))

/-! ### The products of the other formats -/

/-- The arrays of `my_csrspmspv`, `my_dcsrspmspv`, `my_coospmspv` and `my_coospmspv3`
(/repo/include/GMDP/singlenode/spmspv.h:89-91, 141-144, 186-189, /repo/include/GMDP/singlenode/spmspv3.h:94-98). -/
inductive KerArr where
  /-- `a` -/
  | a
  /-- `ja` -/
  | ja
  /-- `ia` of the row-wise formats -/
  | ia
  /-- `row_ids` of DCSR tiles, `ia` of COO tiles -/
  | ids
  /-- `partition_ptrs`, `partition_starts` -/
  | pp
  /-- `xvalue` -/
  | xv
  /-- `xbit_vector` -/
  | xb
  /-- `vpvalue` -/
  | vv
  /-- `vpbit_vector` -/
  | vb
  /-- `yvalue` -/
  | yv
  /-- `ybit_vector` -/
  | yb
deriving DecidableEq

/-- The types of the elements (/repo/include/GMDP/singlenode/spmspv.h:89-91, 141-144, 186-189). -/
abbrev KerArr.Ty (E T V U : Type) : KerArr → Type
  | .a => E
  | .ja => Int
  | .ia => Nat
  | .ids => Int
  | .pp => Nat
  | .xv => T
  | .xb => Word
  | .vv => V
  | .vb => Word
  | .yv => U
  | .yb => Word

/-- Programs over these arrays (/repo/include/GMDP/singlenode/spmspv.h:89-91, 141-144, 186-189). -/
abbrev KerCode (E T V U β : Type) := Code (KerArr × Nat) (fun l => KerArr.Ty E T V U l.1) β

/-- The arrays that are only read (/repo/include/GMDP/singlenode/spmspv.h:89-91, 141-144, 186-189,
/repo/include/GMDP/singlenode/spmspv3.h:94-98).  A kernel does not use those that it does not have as parameters. -/
structure KerIn (E T V : Type) where
  /-- `a` -/
  a : Arr E
  /-- `ja` -/
  ja : Arr Int
  /-- `ia` of the row-wise formats -/
  ia : Arr Nat
  /-- `row_ids`, or `ia` of COO tiles -/
  ids : Arr Int
  /-- `partition_ptrs`, `partition_starts` -/
  pp : Arr Nat
  /-- `xvalue` -/
  xv : Arr T
  /-- `xbit_vector` -/
  xb : Arr Word
  /-- `vpvalue` -/
  vv : Arr V
  /-- `vpbit_vector` -/
  vb : Arr Word

/-- The arrays as a function of their names (/repo/include/GMDP/singlenode/spmspv.h:89-91, 141-144, 186-189). -/
def kerA (k : KerIn E T V) (st : Arr U × Arr Word) : (n : KerArr) → Arr (KerArr.Ty E T V U n)
  | .a => k.a
  | .ja => k.ja
  | .ia => k.ia
  | .ids => k.ids
  | .pp => k.pp
  | .xv => k.xv
  | .xb => k.xb
  | .vv => k.vv
  | .vb => k.vb
  | .yv => st.1
  | .yb => st.2

/-- `row_exists` and `yval` at the beginning of a row, /repo/include/GMDP/singlenode/spmspv.h:105-110, 152-157 (sequential
model: `rowValue`). -/
def rowValueC (row : Nat) : KerCode E T V U (Option U) := do
  let bit ← getBitC (aload KerArr.yb) row
  if bit then do
    let y : U ← aload KerArr.yv row
    pure (some y)
  else pure none

/-- One row of `my_csrspmspv`, /repo/include/GMDP/singlenode/spmspv.h:105-133 (sequential model: `csrRow`). -/
def csrRowC (mul : E → T → U → U) (add : U → U → U) (old : Nat → U) (row : Nat) : KerCode E T V U Unit := do
  let y0 ← rowValueC row
  let lo : Nat ← aload KerArr.ia row
  let hi : Nat ← aload KerArr.ia (row + 1)
  let y ← Code.for lo hi y0 (fun nz (y : Option U) => do
    let j : Int ← aload KerArr.ja (nz - 1)
    let xbit ← getBitC (aload KerArr.xb) (j - 1).toNat
    if xbit then do
      let av : E ← aload KerArr.a (nz - 1)
      let x : T ← aload KerArr.xv (j - 1).toNat
      match y with
      | some y => pure (some (add y (mul av x (old nz))))
      | none => do
        setBitC (aload KerArr.yb) (astore (τ := KerArr.Ty E T V U) KerArr.yb) row
        pure (some (mul av x (old nz)))
    else pure y)
  match y with
  | some y => astore KerArr.yv row y
  | none => pure ()

/-- Iteration `p` of the parallel loop of `my_csrspmspv`, /repo/include/GMDP/singlenode/spmspv.h:98-135 (sequential model:
`CSR.spmspv`). -/
def csrC (mul : E → T → U → U) (add : U → U → U) (old : Nat → U) (m rpp p : Nat) : KerCode E T V U Unit :=
  Code.for (p * rpp) (min ((p + 1) * rpp) m) () (fun row _ => csrRowC mul add old row)

/-- One row of `my_dcsrspmspv`, /repo/include/GMDP/singlenode/spmspv.h:151-180 (sequential model: `dcsrRow`). -/
def dcsrRowC (mul : E → T → U → U) (add : U → U → U) (old : Nat → U) (i : Nat) : KerCode E T V U Unit := do
  let r : Int ← aload KerArr.ids i
  let row := r.toNat
  let y0 ← rowValueC row
  let lo : Nat ← aload KerArr.ia i
  let hi : Nat ← aload KerArr.ia (i + 1)
  let y ← Code.for lo hi y0 (fun nz (y : Option U) => do
    let j : Int ← aload KerArr.ja nz
    let xbit ← getBitC (aload KerArr.xb) j.toNat
    if xbit then do
      let av : E ← aload KerArr.a nz
      let x : T ← aload KerArr.xv j.toNat
      match y with
      | some y => pure (some (add y (mul av x (old nz))))
      | none => pure (some (mul av x (old nz)))
    else pure y)
  match y with
  | some y => do
    setBitC (aload KerArr.yb) (astore (τ := KerArr.Ty E T V U) KerArr.yb) row
    astore KerArr.yv row y
  | none => pure ()

/-- Iteration `p` of the parallel loop of `my_dcsrspmspv`, /repo/include/GMDP/singlenode/spmspv.h:147-182 (sequential model:
`DCSR.spmspv`). -/
def dcsrC (mul : E → T → U → U) (add : U → U → U) (old : Nat → U) (p : Nat) : KerCode E T V U Unit := do
  let lo : Nat ← aload KerArr.pp p
  let hi : Nat ← aload KerArr.pp (p + 1)
  Code.for lo hi () (fun i _ => dcsrRowC mul add old i)

/-- Storing or adding a product, /repo/include/GMDP/singlenode/spmspv.h:208-220,
/repo/include/GMDP/singlenode/spmspv3.h:122-135 (sequential model: `cooStore` and what follows it). -/
def cooStoreC (add : U → U → U) (row : Nat) (u : U) : KerCode E T V U Unit := do
  let bit ← getBitC (aload KerArr.yb) row
  if bit then do
    let y : U ← aload KerArr.yv row
    astore KerArr.yv row (add y u)
  else astore KerArr.yv row u
  setBitC (aload KerArr.yb) (astore (τ := KerArr.Ty E T V U) KerArr.yb) row

/-- One entry of `my_coospmspv`, /repo/include/GMDP/singlenode/spmspv.h:196-221 (sequential model: `cooEntry`). -/
def cooEntryC (mul : E → T → U → U) (add : U → U → U) (old : Nat → U) (nz : Nat) : KerCode E T V U Unit := do
  let r : Int ← aload KerArr.ids nz
  let j : Int ← aload KerArr.ja nz
  let xbit ← getBitC (aload KerArr.xb) (j - 1).toNat
  if xbit then do
    let av : E ← aload KerArr.a nz
    let x : T ← aload KerArr.xv (j - 1).toNat
    cooStoreC add (r - 1).toNat (mul av x (old nz))
  else pure ()

/-- Iteration `p` of the parallel loop of `my_coospmspv`, /repo/include/GMDP/singlenode/spmspv.h:192-223 (sequential model:
`COO.spmspv`). -/
def cooC (mul : E → T → U → U) (add : U → U → U) (old : Nat → U) (p : Nat) : KerCode E T V U Unit := do
  let lo : Nat ← aload KerArr.pp p
  let hi : Nat ← aload KerArr.pp (p + 1)
  Code.for lo hi () (fun nz _ => cooEntryC mul add old nz)

/-- One entry of `my_coospmspv3`, /repo/include/GMDP/singlenode/spmspv3.h:106-138 (sequential model: `cooEntry3`; it decides
whether the assertion holds). -/
def cooEntry3C (mul : E → T → V → U → U) (add : U → U → U) (old : Nat → U) (nz : Nat) : KerCode E T V U Unit := do
  let r : Int ← aload KerArr.ids nz
  let j : Int ← aload KerArr.ja nz
  let xbit ← getBitC (aload KerArr.xb) (j - 1).toNat
  if xbit then do
    let v : V ← aload KerArr.vv (r - 1).toNat
    let _ ← getBitC (aload KerArr.vb) (r - 1).toNat
    let av : E ← aload KerArr.a nz
    let x : T ← aload KerArr.xv (j - 1).toNat
    cooStoreC add (r - 1).toNat (mul av x v (old nz))
  else pure ()

/-- Iteration `p` of the parallel loop of `my_coospmspv3`, /repo/include/GMDP/singlenode/spmspv3.h:104-140 (sequential
model: `COO.spmspv3`). -/
def coo3C (mul : E → T → V → U → U) (add : U → U → U) (old : Nat → U) (p : Nat) : KerCode E T V U Unit := do
  let lo : Nat ← aload KerArr.pp p
  let hi : Nat ← aload KerArr.pp (p + 1)
  Code.for lo hi () (fun nz _ => cooEntry3C mul add old nz)

end GraphMat

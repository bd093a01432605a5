import Verif.Model.Loops

/-!
# The parallel loops over whole vectors as tasks

As in `Model/Loops.lean`: `setAll`, `compute_nnz`, `union_dense`, `apply_dense_segment`, `intersect_dense_segment`.  The
sequential models are `Segment.setAll`, `Buffer.computeNnzRange`, `unionDense`, `applySegment`, `applySegmentSelf` and
`intersectSegment`.
-/
namespace GraphMat

variable {α β γ : Type}

/-- The arrays of three vectors: `v1`, `bv1`, `v2`, `bv2`, `v3`, `bv3`
(/repo/include/GMDP/singlenode/unionreduce.h:39, /repo/include/GMDP/singlenode/intersectreduce.h:40,
/repo/include/GMDP/singlenode/apply.h:37-38). -/
inductive VecArr where
  /-- `v1` -/
  | v1
  /-- `bv1` -/
  | b1
  /-- `v2` -/
  | v2
  /-- `bv2` -/
  | b2
  /-- `v3` -/
  | v3
  /-- `bv3` -/
  | b3
deriving DecidableEq

/-- The types of the elements (/repo/include/GMDP/singlenode/intersectreduce.h:39-40). -/
abbrev VecArr.Ty (α β γ : Type) : VecArr → Type
  | .v1 => α
  | .b1 => Word
  | .v2 => β
  | .b2 => Word
  | .v3 => γ
  | .b3 => Word

/-- Programs over these arrays (/repo/include/GMDP/singlenode/intersectreduce.h:39-68). -/
abbrev VecCode (α β γ δ : Type) := Code (VecArr × Nat) (fun l => VecArr.Ty α β γ l.1) δ

/-- The arrays as a function of their names (/repo/include/GMDP/singlenode/intersectreduce.h:39-68). -/
def vecA (x : Arr α × Arr Word) (y : Arr β × Arr Word) (z : Arr γ × Arr Word) : (k : VecArr) → Arr (VecArr.Ty α β γ k)
  | .v1 => x.1
  | .b1 => x.2
  | .v2 => y.1
  | .b2 => y.2
  | .v3 => z.1
  | .b3 => z.2

/-- First loop of `setAll`, /repo/include/GMDP/vectors/DenseSegment.h:623-627. -/
def setAllWordC (i : Nat) : VecCode α β γ Unit := astore VecArr.b1 i (0xFFFFFFFF#32 : Word)

/-- Second loop of `setAll`, /repo/include/GMDP/vectors/DenseSegment.h:635-639. -/
def setAllValC (val : α) (i : Nat) : VecCode α β γ Unit := astore VecArr.v1 i val

/-- The loops of `compute_nnz`, /repo/include/GMDP/vectors/DenseSegment.h:211-215, 222-226; the result is the contribution
to `len`. -/
def nnzC (ii : Nat) : VecCode α β γ Nat := do
  let w : Word ← aload VecArr.b1 ii
  pure (popcnt w)

/-- First loop of `union_dense` with `v3 = v1`, `bv3 = bv1`, /repo/include/GMDP/singlenode/unionreduce.h:43-59. -/
def unionDenseC (add : α → α → α) (ii : Nat) : VecCode α α γ Unit := do
  let set1 ← getBitC (aload (τ := VecArr.Ty α α γ) VecArr.b1) ii
  let set2 ← getBitC (aload (τ := VecArr.Ty α α γ) VecArr.b2) ii
  if set1 && !set2 then do
    let x : α ← aload VecArr.v1 ii
    astore VecArr.v1 ii x
  else if !set1 && set2 then do
    let x : α ← aload VecArr.v2 ii
    astore VecArr.v1 ii x
  else if set1 && set2 then do
    let x : α ← aload VecArr.v1 ii
    let y : α ← aload VecArr.v2 ii
    astore VecArr.v1 ii (add x y)
  else pure ()

/-- Second loop of `union_dense` with `bv3 = bv1`, /repo/include/GMDP/singlenode/unionreduce.h:61-65. -/
def unionWordC (i : Nat) : VecCode α β γ Unit := do
  let x : Word ← aload VecArr.b1 i
  let y : Word ← aload VecArr.b2 i
  astore VecArr.b1 i (x ||| y)

/-- The body of the loops over the words of `bv`, /repo/include/GMDP/singlenode/apply.h:48-64,
/repo/include/GMDP/singlenode/intersectreduce.h:51-66; the result is the contribution to `tmp_nnz`. -/
def wordC (bv : Nat → VecCode α β γ Word) (body : Nat → VecCode α β γ Unit) (ii : Nat) : VecCode α β γ Nat := do
  let w ← bv ii
  if popcnt w = 0 then pure 0
  else do
    let _ ← Code.for (ii * 32) ((ii + 1) * 32) () (fun i _ => do
      let b ← getBitC bv i
      if b then body i else pure ())
    pure (popcnt w)

/-- First loop of `apply_dense_segment` for two different vectors, /repo/include/GMDP/singlenode/apply.h:40-44. -/
def applyWordC (i : Nat) : VecCode α β γ Unit := do
  let x : Word ← aload VecArr.b2 i
  let y : Word ← aload VecArr.b1 i
  astore VecArr.b2 i (x ||| y)

/-- Second loop of `apply_dense_segment` for two different vectors, /repo/include/GMDP/singlenode/apply.h:47-64. -/
def applyValC (f : α → β → β) : Nat → VecCode α β γ Nat :=
  wordC (aload (τ := VecArr.Ty α β γ) VecArr.b1) (fun i => do
    let tmp : α ← aload VecArr.v1 i
    let old : β ← aload VecArr.v2 i
    astore VecArr.v2 i (f tmp old))

/-- First loop of `apply_dense_segment` when input and output are the same vector,
/repo/include/GMDP/singlenode/apply.h:40-44. -/
def applySelfWordC (i : Nat) : VecCode α β γ Unit := do
  let x : Word ← aload VecArr.b1 i
  let y : Word ← aload VecArr.b1 i
  astore VecArr.b1 i (x ||| y)

/-- Second loop of `apply_dense_segment` when input and output are the same vector,
/repo/include/GMDP/singlenode/apply.h:47-64. -/
def applySelfValC (f : α → α → α) : Nat → VecCode α β γ Nat :=
  wordC (aload (τ := VecArr.Ty α β γ) VecArr.b1) (fun i => do
    let tmp : α ← aload VecArr.v1 i
    let old : α ← aload VecArr.v1 i
    astore VecArr.v1 i (f tmp old))

/-- First loop of `intersect_dense_segment`, /repo/include/GMDP/singlenode/intersectreduce.h:43-47. -/
def interWordC (i : Nat) : VecCode α β γ Unit := do
  let x : Word ← aload VecArr.b1 i
  let y : Word ← aload VecArr.b2 i
  astore VecArr.b3 i (x &&& y)

/-- Second loop of `intersect_dense_segment`, /repo/include/GMDP/singlenode/intersectreduce.h:50-66. -/
def interValC (op : α → β → γ → γ) : Nat → VecCode α β γ Nat :=
  wordC (aload (τ := VecArr.Ty α β γ) VecArr.b3) (fun i => do
    let x : α ← aload VecArr.v1 i
    let y : β ← aload VecArr.v2 i
    let old : γ ← aload VecArr.v3 i
    astore VecArr.v3 i (op x y old))

end GraphMat

import Verif.Model.SpMSpV
import Verif.Model.CInt

/-!
# The parts of the multiplication kernel that have no effect on the result

`Tile.spmspv` and `Tile.spmspv3` (Verif/Model/SpMSpV.lean) leave out two things the kernels do besides computing the
product: the read behind the prefetch and the arithmetic of the dead store `*nnz = m * n`.  Neither can be seen in the
result, but each can be undefined.
-/
namespace GraphMat

variable {E T U V σ : Type}

/-- The read `column_offset[j + 4]` in the argument of `_mm_prefetch`, for one partition.  It is an ordinary load from
`col_indices`, made for every stored column with a message.  The address handed to `_mm_prefetch` is not modelled (the
instruction ignores bad addresses).
/repo/include/GMDP/singlenode/spmspv.h:51-59, /repo/include/GMDP/singlenode/spmspv3.h:50-58. -/
def Tile.prefetchPart (t : Tile E) (xb : Arr Word) (p : Nat) : Option Unit := do
  let c0 ← t.cs.read p
  let c1 ← t.cs.read (p + 1)
  forLoop 0 (c1 - c0 - 1) () (fun j _ => do
    let col ← t.colIdx.read (c0 + j)
    let bit ← getBitvector col xb
    if bit then
      let _ ← t.colIdx.read (c0 + j + 4)
      some ()
    else some ())

/-- These reads for all partitions, /repo/include/GMDP/singlenode/spmspv.h:48-59,
/repo/include/GMDP/singlenode/spmspv3.h:47-58. -/
def Tile.prefetchReads (t : Tile E) (xb : Arr Word) : Option Unit :=
  forLoop 0 t.np () (fun p _ => t.prefetchPart xb p)

/-- The product `m * n` of `int`s, stored in a variable that nobody reads before it is overwritten.
/repo/include/GMDP/singlenode/spmspv.h:85, /repo/include/GMDP/singlenode/spmspv3.h:89. -/
def Tile.deadStore (t : Tile E) : Option Int := cmul t.m t.n

/-- `my_spmspv` complete, /repo/include/GMDP/singlenode/spmspv.h:39-86.  The reads of the prefetches come first here;
in the code they are interleaved with the product, on which they do not depend. -/
def Tile.kernel (t : Tile E) (tmp : Nat → Nat → U) (mul : Nat → Nat → E → T → U → U) (add : U → U → U) (xv : Arr T)
    (xb : Arr Word) (y : Arr U × Arr Word) : Option (Arr U × Arr Word) := do
  let _ ← t.prefetchReads xb
  let y' ← t.spmspv tmp mul add xv xb y
  let _ ← t.deadStore
  some y'

/-- `my_spmspv3` complete, /repo/include/GMDP/singlenode/spmspv3.h:38-90, likewise. -/
def Tile.kernel3 (t : Tile E) (tmp : Nat → Nat → U) (mul : E → T → V → U → U) (add : U → U → U) (xv : Arr T)
    (xb : Arr Word) (vv : Arr V) (vb : Arr Word) (y : Arr U × Arr Word) : Option (Arr U × Arr Word) := do
  let _ ← t.prefetchReads xb
  let y' ← t.spmspv3 tmp mul add xv xb vv vb y
  let _ ← t.deadStore
  some y'

end GraphMat

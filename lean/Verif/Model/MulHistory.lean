import Verif.Model.SpMSpV
import Verif.Model.History
import Verif.Spec.Mult

/-! # A user program that makes a sequence of calls on two vectors and multiplies with a matrix. -/
namespace GraphMat

variable {E T U V : Type}

/-- One call executed by all ranks: `set`, `unset`, `setAll`, `Clear` on one of the vectors
(/repo/include/GMDP/vectors/SpVec.h:310-338, /repo/include/GMDP/multinode/clear.h:40-49) or `SpMSpV`
(/repo/include/GMDP/multinode/spmspv.h:41-206).  `gx`, `gy` are the contents of memory that a call on a vector may
allocate. -/
def MulOp.exec (env : MulEnv T U V) (gx : Nat → Nat → Fresh T) (gy : Nat → Nat → Fresh U) (threads nrank : Nat)
    (D : DMat E) (mul : Nat → Nat → Nat → Nat → E → T → U → U) (add : U → U → U) :
    MulOp T U → DVec T × DVec U → Option (DVec T × DVec U)
  | .onX op, (x, y) => (op.exec gx x).map (fun x => (x, y))
  | .onY op, (x, y) => (op.exec gy y).map (fun y => (x, y))
  | .mul, (x, y) => D.spmspv env threads nrank mul add x y

/-- A sequence of calls (/repo/include/GMDP/multinode/spmspv.h:41-206, /repo/include/GMDP/vectors/SpVec.h:310-338); call
number `k` finds memory contents `env k`, `gx k`, `gy k`. -/
def runMul (env : Nat → MulEnv T U V) (gx : Nat → Nat → Nat → Fresh T) (gy : Nat → Nat → Nat → Fresh U)
    (threads nrank : Nat) (D : DMat E) (mul : Nat → Nat → Nat → Nat → E → T → U → U) (add : U → U → U) :
    Nat → List (MulOp T U) → DVec T × DVec U → Option (DVec T × DVec U)
  | _, [], s => some s
  | k, op :: ops, s => (op.exec (env k) (gx k) (gy k) threads nrank D mul add s).bind
      (runMul env gx gy threads nrank D mul add (k + 1) ops)

end GraphMat

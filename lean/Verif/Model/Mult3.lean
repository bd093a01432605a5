import Verif.Model.MulHistory
import Verif.Spec.Mult3

/-! # A user program that makes a sequence of calls on three vectors and multiplies with a matrix. -/
namespace GraphMat

variable {E T U V : Type}

/-- One call executed by all ranks: `set`, `unset`, `setAll`, `Clear` on one of the vectors
(/repo/include/GMDP/vectors/SpVec.h:310-338, /repo/include/GMDP/multinode/clear.h:40-49), `SpMSpV`
(/repo/include/GMDP/multinode/spmspv.h:41-206) or `SpMSpV3` (/repo/include/GMDP/multinode/spmspv3.h:41-267).  `gx`, `gv`,
`gy` are the contents of memory that a call on a vector may allocate. -/
def Mul3Op.exec (env : MulEnv T U V) (gx : Nat → Nat → Fresh T) (gv : Nat → Nat → Fresh V) (gy : Nat → Nat → Fresh U)
    (threads nrank : Nat) (D : DMat E) (mul : Nat → Nat → Nat → Nat → E → T → U → U) (mul3 : E → T → V → U → U)
    (add : U → U → U) : Mul3Op T V U → DVec T × DVec V × DVec U → Option (DVec T × DVec V × DVec U)
  | .onX op, (x, v, y) => (op.exec gx x).map (fun x => (x, v, y))
  | .onV op, (x, v, y) => (op.exec gv v).map (fun v => (x, v, y))
  | .onY op, (x, v, y) => (op.exec gy y).map (fun y => (x, v, y))
  | .mul, (x, v, y) => (D.spmspv env threads nrank mul add x y).map (fun r => (r.1, v, r.2))
  | .mul3, (x, v, y) => D.spmspv3 env threads nrank mul3 add x v y

/-- A sequence of calls (/repo/include/GMDP/multinode/spmspv3.h:41-267, /repo/include/GMDP/vectors/SpVec.h:310-338); call
number `k` finds memory contents `env k`, `gx k`, `gv k`, `gy k`. -/
def runMul3 (env : Nat → MulEnv T U V) (gx : Nat → Nat → Nat → Fresh T) (gv : Nat → Nat → Nat → Fresh V)
    (gy : Nat → Nat → Nat → Fresh U) (threads nrank : Nat) (D : DMat E) (mul : Nat → Nat → Nat → Nat → E → T → U → U)
    (mul3 : E → T → V → U → U) (add : U → U → U) :
    Nat → List (Mul3Op T V U) → DVec T × DVec V × DVec U → Option (DVec T × DVec V × DVec U)
  | _, [], s => some s
  | k, op :: ops, s => (op.exec (env k) (gx k) (gv k) (gy k) threads nrank D mul mul3 add s).bind
      (runMul3 env gx gv gy threads nrank D mul mul3 add (k + 1) ops)

end GraphMat

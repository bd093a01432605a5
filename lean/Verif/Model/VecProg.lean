import Verif.Model.Mult3
import Verif.Spec.VecProg

/-! # A user program that uses all operations on vectors -/
namespace GraphMat

variable {E T α β : Type}

/-- `Apply(v_in, v_out, add_fp, vsp)` for two different vectors on all ranks, /repo/include/GMDP/multinode/apply.h:39-49. -/
def DVec.apply (g : Nat → Nat → Fresh β) (f : α → β → β) (va : DVec α) (vb : DVec β) : Option (DVec β) :=
  eachRank vb (fun r b => do
    let a ← va.read r
    SpVec.apply (g r) f a b)

/-- Vector `i` becomes `v` (/repo/include/GMDP/vectors/SpVec.h:45-338: vectors are separate objects). -/
def putVec (d : Nat → DVec T) (i : Nat) (v : DVec T) : Nat → DVec T := fun j => if j = i then v else d j

/-- One call executed by all ranks: `set`, `unset`, `setAll` (/repo/include/GMDP/vectors/SpVec.h:310-338), `Clear`
(/repo/include/GMDP/multinode/clear.h:40-49), `Apply` (/repo/include/GMDP/multinode/apply.h:39-49), `IntersectReduce`
(/repo/include/GMDP/multinode/intersectreduce.h:39-52), `SpMSpV` (/repo/include/GMDP/multinode/spmspv.h:41-206) or `SpMSpV3`
(/repo/include/GMDP/multinode/spmspv3.h:41-267).  `g` is the content of memory that a call may allocate.  Simplified: the
functions of the program do not look at the old contents of their output argument. -/
def VarOp.exec (env : MulEnv T T T) (g : Nat → Nat → Fresh T) (threads nrank : Nat) (D : DMat E) :
    VarOp E T → (Nat → DVec T) → Option (Nat → DVec T)
  | .on i op, d => (op.exec g (d i)).map (putVec d i)
  | .apply f i j, d => (DVec.apply g (fun x _ => f x) (d i) (d j)).map (putVec d j)
  | .applySelf f i, d => (eachRank (d i) (fun r v => v.applySelf (g r) (fun x _ => f x))).map (putVec d i)
  | .intersect f i j k, d => (DVec.intersectReduce g (fun x y _ => f x y) (d i) (d j) (d k)).map (putVec d k)
  | .mul pm add i j, d => (D.spmspv env threads nrank (fun _ _ _ _ e x _ => pm e x) add (d i) (d j)).map
      (fun r => putVec (putVec d i r.1) j r.2)
  | .mul3 pm add i j k, d => (D.spmspv3 env threads nrank (fun e x v _ => pm e x v) add (d i) (d j) (d k)).map
      (fun r => putVec (putVec (putVec d i r.1) j r.2.1) k r.2.2)

/-- A sequence of calls (/repo/include/GMDP/vectors/SpVec.h:310-338, /repo/include/GMDP/multinode/apply.h:39-49 and the other
functions named at `VarOp.exec`); call number `k` finds memory contents `env k`, `g k`. -/
def runVars (env : Nat → MulEnv T T T) (g : Nat → Nat → Nat → Fresh T) (threads nrank : Nat) (D : DMat E) :
    Nat → List (VarOp E T) → (Nat → DVec T) → Option (Nat → DVec T)
  | _, [], d => some d
  | k, op :: ops, d => (op.exec (env k) (g k) threads nrank D d).bind (runVars env g threads nrank D (k + 1) ops)

end GraphMat

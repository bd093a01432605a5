import Verif.Model.VecProg
import Verif.Model.MapReduce
import Verif.Spec.AskProg

/-! # A user program that also asks for results -/
namespace GraphMat

variable {E T A : Type}

/-- One call executed by all ranks: a call of `VarOp.exec`, `MapReduce` (/repo/include/GMDP/multinode/reduce.h:39-74; every rank begins
with the same `*res`) or `getNNZ` (/repo/include/GMDP/vectors/SpVec.h:350-364).  `tmp` is what the uninitialised variables of the
reduction contain.  Simplified: the mapping function does not look at the old contents of its output argument; all reductions of a program have
results of one type. -/
def AskOp.exec (env : MulEnv T T T) (g : Nat → Nat → Fresh T) (tmp : Nat → Nat → Nat → A) (threads nrank : Nat) (D : DMat E) :
    AskOp E T A → (Nat → DVec T) → Option ((Nat → DVec T) × List (Answer A))
  | .call op, d => (op.exec env g threads nrank D d).map (fun d => (d, []))
  | .reduce m w op e i, d => (DVec.mapReduce threads g (fun v _ => (m v, w v)) op tmp (d i) (fun _ => e)).map
      (fun r => (putVec d i r.1, [.val r.2]))
  | .count i, d => (d i).getNNZ.map (fun k => (d, [.num k]))

/-- A sequence of calls (the functions named at `AskOp.exec`, /repo/include/GMDP/multinode/reduce.h:39-74 and others) and the list of
their results; call number `k` finds memory contents `env k`, `g k`, `tmp k`. -/
def runAsks (env : Nat → MulEnv T T T) (g : Nat → Nat → Nat → Fresh T) (tmp : Nat → Nat → Nat → Nat → A) (threads nrank : Nat) (D : DMat E) :
    Nat → List (AskOp E T A) → (Nat → DVec T) → Option ((Nat → DVec T) × List (Answer A))
  | _, [], d => some (d, [])
  | k, op :: ops, d => do
    let r ← op.exec (env k) (g k) (tmp k) threads nrank D d
    let q ← runAsks env g tmp threads nrank D (k + 1) ops r.1
    some (q.1, r.2 ++ q.2)

end GraphMat

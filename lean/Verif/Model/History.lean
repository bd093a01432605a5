import Verif.Model.Program
import Verif.Spec.Vertex

/-! # A user program that makes a sequence of calls on the vertices of a graph. -/
namespace GraphMat

variable {V : Type}

/-- One call (the methods of /repo/include/Graph.h:263-316, 371-374) executed by all ranks; `gv`,
`ga` are the contents of memory that the call may allocate.  `reset` uses a default constructor
that gives the same value on every rank. -/
def VGraph.step (gv : Nat → Nat → Fresh V) (ga : Nat → Nat → Fresh Bool) (op : VOp V)
    (G : VGraph V) : Option (VGraph V) :=
  match op with
  | .setAllProp x => G.setAllVertexproperty gv x
  | .setProp v x => G.setVertexproperty (fun r => gv r 0) v x
  | .applyAll f => G.applyToAllVertices gv f
  | .setAllActive => G.setAllActive ga
  | .setAllInactive => G.setAllInactive ga
  | .setActive v => G.setActive (fun r => ga r 0) v
  | .setInactive v => G.setInactive (fun r => ga r 0) v
  | .reset d => G.reset ga gv (fun _ => d)

/-- A sequence of calls (/repo/include/Graph.h:263-316, 371-374); call number `k` finds memory
contents `gv k`, `ga k`. -/
def VGraph.runOps (gv : Nat → Nat → Nat → Fresh V) (ga : Nat → Nat → Nat → Fresh Bool) :
    Nat → List (VOp V) → VGraph V → Option (VGraph V)
  | _, [], G => some G
  | k, op :: ops, G => (G.step (gv k) (ga k) op).bind (VGraph.runOps gv ga (k + 1) ops)

/-- One call on a distributed vector executed by all ranks: `set`, `unset`, `setAll`
(/repo/include/GMDP/vectors/SpVec.h:310-338) and `Clear`
(/repo/include/GMDP/multinode/clear.h:40-49). -/
def VecOp.exec {α : Type} (g : Nat → Nat → Fresh α) : VecOp α → DVec α → Option (DVec α)
  | .set w x, d => eachRank d (fun r v => v.set (g r 0) w x)
  | .unset w, d => eachRank d (fun r v => v.unset (g r 0) w)
  | .setAll x, d => eachRank d (fun r v => v.setAll (g r) x)
  | .clear, d => d.clear

end GraphMat

import Verif.Model.World

/-!
# Graph programs and message generation

Models /repo/include/GraphProgram.h and the first step of a superstep,
/repo/include/GraphMatRuntime.h:139-145.
-/
namespace GraphMat

variable {α β γ T U V E : Type}

/-- `edge_direction`, /repo/include/GraphProgram.h:35 and its use at
/repo/include/GraphMatRuntime.h:160-176. -/
inductive EdgeDir where
  | out
  | inn
  | all
deriving DecidableEq

/-- `GraphProgram<T,U,V,E>`, /repo/include/GraphProgram.h:38-101.  The virtual methods are pure
functions: an output parameter `B&` becomes an extra argument (its contents before the call) and
the result (its contents after the call).  `ne` is `operator!=` of `V`, used at
/repo/include/GraphMatRuntime.h:214. -/
structure GProg (T U V E : Type) where
  /-- `order` -/
  order : EdgeDir
  /-- `activity == ALL_VERTICES` -/
  allVertices : Bool
  /-- `process_message_requires_vertexprop` -/
  needsProp : Bool
  /-- `send_message(vertexprop, message&)`: returned flag and new contents of `message` -/
  send : V → T → Bool × T
  /-- `process_message(message, edge_val, vertexprop, res&)`: new contents of `res` -/
  process : T → E → V → U → U
  /-- `reduce_function(v&, w)`: new contents of `v` -/
  reduce : U → U → U
  /-- `apply(message_out, vertexprop&)`: new contents of `vertexprop` -/
  apply : U → V → V
  /-- `operator!=` -/
  ne : V → V → Bool

/-- The wrapper `send_message(const bool& a, const V& _v, T* b, void* gpv)`,
/repo/include/GraphMatRuntime.h:79-85.  The flag returned by the user's method is dropped. -/
def sendWrapper (gp : GProg T U V E) (a : Bool) (v : V) (old : T) : T :=
  if a then (gp.send v old).2 else old

/-- `IntersectReduce(va, vb, vc, op_fp, vsp)` on all ranks,
/repo/include/GMDP/multinode/intersectreduce.h:39-52. -/
def DVec.intersectReduce (g : Nat → Nat → Fresh γ) (op : α → β → γ → γ) (va : DVec α) (vb : DVec β)
    (vc : DVec γ) : Option (DVec γ) :=
  eachRank vc (fun r c => do
    let a ← va.read r
    let b ← vb.read r
    a.intersectReduce (g r) op b c)

/-- `Clear(&x)` on all ranks, /repo/include/GMDP/multinode/clear.h:40-49. -/
def DVec.clear (d : DVec α) : Option (DVec α) := eachRank d (fun _ v => v.clear)

/-- Message generation of one superstep: `Clear(&x)` and
`IntersectReduce(g.active, g.vertexproperty, &x, send_message, gp)`,
/repo/include/GraphMatRuntime.h:139, 145. -/
def VGraph.generate (gp : GProg T U V E) (g : Nat → Nat → Fresh T) (G : VGraph V) (x : DVec T) :
    Option (DVec T) := do
  let x ← x.clear
  DVec.intersectReduce g (sendWrapper gp) G.active G.vp x

end GraphMat

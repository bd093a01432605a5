import Verif.Model.Runtime
import Verif.Model.MapReduce

/-!
# Pieces of application programs

The bundled programs (/repo/src) prepare the vertices in loops that read, change and write back one
property at a time; every rank executes the same loop.
-/
namespace GraphMat

variable {V E : Type}

/-- `V x = G.getVertexproperty(v); f(x); G.setVertexproperty(v, x);` on every rank, e.g.
/repo/src/BFS.cpp:116-118, 127-129.  `getVertexproperty` (/repo/include/Graph.h:358-364) returns the
default-constructed `dflt` on the ranks that do not own `v`; writing it back has no effect there. -/
def VGraph.updateVertex (g : Nat → Fresh V) (dflt : V) (f : V → V) (v : Int) (G : VGraph V) :
    Option (VGraph V) := do
  let w ← G.native v
  let vp ← eachRank G.vp (fun r x => do
    let old ← x.get w
    x.set (g r) w (f (old.getD dflt)))
  some { G with vp := vp }

/-- The part of the body of `updateOwned` below that concerns the property vector of rank `r`
(e.g. /repo/src/TopologicalSort.cpp:157-166). -/
def VGraph.ownedProp (gv : Nat → Fresh V) (f : V → Option (V × Bool)) (v w : Int) (G : VGraph V) (r : Nat)
    (x : SpVec V) : Option (SpVec V) :=
  (G.vertexNodeOwner r v).bind (fun own =>
    if own then (x.get w).bind (fun old => old.bind (fun old =>
      match f old with
      | some y => x.set (gv r) w y.1
      | none => some x))
    else some x)

/-- The part of the body of `updateOwned` below that concerns the activity vector of rank `r`
(e.g. /repo/src/TopologicalSort.cpp:157-166). -/
def VGraph.ownedActive (ga : Nat → Fresh Bool) (f : V → Option (V × Bool)) (v w : Int) (G : VGraph V) (r : Nat)
    (a : SpVec Bool) : Option (SpVec Bool) :=
  (G.vertexNodeOwner r v).bind (fun own =>
    if own then (G.vp.read r).bind (fun x => (x.get w).bind (fun old => old.bind (fun old =>
      match f old with
      | some y => if y.2 then a.set (ga r) w true else some a
      | none => some a)))
    else some a)

/-- `if (G.vertexNodeOwner(v)) { V x = G.getVertexproperty(v); ...; G.setVertexproperty(v, x); }` on every
rank, e.g. /repo/src/TopologicalSort.cpp:157-166, /repo/src/TriangleCounting.cpp:175-181.  `f x = none`:
nothing is done; `f x = some (y, act)`: `y` is written, and `G.setActive(v)` is called if `act`.  The calls on
the two vectors touch different data and are executed one vector after the other here. -/
def VGraph.updateOwned (gv : Nat → Fresh V) (ga : Nat → Fresh Bool) (f : V → Option (V × Bool)) (v : Int)
    (G : VGraph V) : Option (VGraph V) := do
  let w ← G.native v
  let vp ← eachRank G.vp (G.ownedProp gv f v w)
  let active ← eachRank G.active (G.ownedActive ga f v w)
  some { G with vp := vp, active := active }

/-- A call on the vertices of a graph with edges (the methods of /repo/include/Graph.h:263-381 leave the
matrices alone). -/
def Graph.onVertices (f : VGraph V → Option (VGraph V)) (G : Graph V E) : Option (Graph V E) :=
  (f G.toVGraph).map (fun vg => { G with toVGraph := vg })

/-- `for (i = 1; i <= n; i++) body(i)` (e.g. /repo/src/BFS.cpp:114-119, where `i` is one less). -/
def Graph.forVertices (n : Nat) (body : Nat → VGraph V → Option (VGraph V)) (G : Graph V E) : Option (Graph V E) :=
  G.onVertices (fun vg => forLoop 1 (n + 1) vg body)

/-- `AddFn`, /repo/include/Graph.h:53-55, on `int`; an `int` that overflowed
is `none`. -/
def addInt (a b : Option Int) : Option Int := do
  let x ← a
  let y ← b
  cadd x y

/-- What a call sequence of one of the bundled programs (e.g. /repo/src/BFS.cpp:110-144) finds in fresh memory;
not a part of the code. -/
structure AppEnv (T U V : Type) where
  /-- writes of properties in a loop over all vertices, or by a call that sets all of them -/
  g : Nat → Nat → Fresh V
  /-- write of a single property -/
  gs : Nat → Fresh V
  /-- `setAllInactive`, `setAllActive` -/
  gia : Nat → Nat → Fresh Bool
  /-- `setActive` -/
  ga : Nat → Fresh Bool
  /-- scratch vectors -/
  ie : InitEnv T U
  /-- supersteps -/
  env : Nat → StepEnv T U V
  /-- `applyReduceAllVertices` -/
  gr : Nat → Nat → Fresh V

end GraphMat

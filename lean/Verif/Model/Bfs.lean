import Verif.Model.App

/-!
# Breadth-first search

Models /repo/src/BFS.cpp.  `E` is `int`.
-/
namespace GraphMat

/-- `typedef unsigned int depth_type; depth_type MAX_DIST = numeric_limits<depth_type>::max()`,
/repo/src/BFS.cpp:36-38. -/
def MAXD : BitVec 32 := BitVec.allOnes 32

/-- `class BFSD2`, /repo/src/BFS.cpp:40-45. -/
structure BfsV where
  /-- `depth` -/
  depth : BitVec 32
  /-- `parent` -/
  parent : BitVec 64
  /-- `id` -/
  id : BitVec 64
deriving DecidableEq

/-- The constructor, /repo/src/BFS.cpp:47-51. -/
def BfsV.new : BfsV := ⟨MAXD, BitVec.allOnes 64, BitVec.allOnes 64⟩

/-- `class BFS2`, /repo/src/BFS.cpp:62-99; the state of the object is `current_depth`.  Note that
`current_depth - 1` in `send_message` only affects the returned flag. -/
def bfsProg : Program (BitVec 32) (BitVec 64) (BitVec 64) BfsV Int where
  gp cur :=
    { order := .out
      allVertices := false
      needsProp := false
      send := fun v _ => (decide (v.depth = cur - 1#32), v.id)
      process := fun msg _ _ _ => msg
      reduce := fun _ b => b
      apply := fun u v => if v.depth = MAXD then { v with depth := cur, parent := u } else v
      ne := fun a b => decide (a.depth ≠ b.depth) }
  every _ cur := cur + 1#32

/-- `reachable_or_not`, /repo/src/BFS.cpp:101-107; an `int` that overflowed would be `none`. -/
def reachableOrNot (v : BfsV) (_ : Option Int) : Option Int × BfsV :=
  (some (if v.depth < MAXD then 1 else 0), v)

/-- The preparations of `run_bfs` after loading, /repo/src/BFS.cpp:114-130. -/
def bfsPrepare (e : AppEnv (BitVec 64) (BitVec 64) BfsV) (source : Int) (G : Graph BfsV Int) :
    Option (Graph BfsV Int × DVec (BitVec 64) × DVec (BitVec 64)) := do
  let G ← G.forVertices G.n (fun i => VGraph.updateVertex (e.g i) BfsV.new
    (fun v => { v with id := BitVec.ofNat 64 i }) (i : Int))
  let xy ← G.newScratch e.ie
  let G ← G.onVertices (VGraph.setAllInactive e.gia)
  let G ← G.onVertices (VGraph.updateVertex e.gs BfsV.new (fun v => { v with depth := 0#32 }) source)
  let G ← G.onVertices (VGraph.setActive e.ga source)
  some (G, xy)

/-- The end of `run_bfs`, /repo/src/BFS.cpp:142-143: the number of reachable vertices. -/
def bfsReport (e : AppEnv (BitVec 64) (BitVec 64) BfsV) (tmp : Nat → Nat → Nat → Option Int) :
    RunOut (RunState (BitVec 32) (BitVec 64) (BitVec 64) BfsV Int) → Option (RunOut (Graph BfsV Int × Option Int))
  | .more st => some (.more (st.G, none))
  | .done st => do
    let r ← st.G.toVGraph.applyReduceAllVertices e.gr reachableOrNot addInt tmp (fun _ => some 0)
    some (.done ({ st.G with toVGraph := r.1 }, r.2))

/-- `run_bfs(filename, v)` after `G.ReadMTX(filename)`, /repo/src/BFS.cpp:110-144; printing is left out. -/
def runBfs (e : AppEnv (BitVec 64) (BitVec 64) BfsV) (tmp : Nat → Nat → Nat → Option Int) (source : Int)
    (G : Graph BfsV Int) (fuel : Nat) : Option (RunOut (Graph BfsV Int × Option Int)) := do
  let p ← bfsPrepare e source G
  let o ← Graph.run e.ie e.env bfsProg 1#32 (-1) (some p.2) p.1 fuel
  bfsReport e tmp o

end GraphMat

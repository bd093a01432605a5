import Verif.Model.App

/-!
# Single-source shortest paths

Models /repo/src/SSSP.cpp with `edge_type = int` (`run_sssp<int>`).
-/
namespace GraphMat

/-- `class SSSP_vertex_type`, /repo/src/SSSP.cpp:44-61: only `distance` (`unsigned int`). -/
structure SsspV where
  /-- `distance` -/
  dist : BitVec 32
deriving DecidableEq

/-- `MAX_DIST` and the constructor, /repo/src/SSSP.cpp:42, 48-50. -/
def SsspV.new : SsspV := ⟨BitVec.allOnes 32⟩

/-- `class SSSP<int>`, /repo/src/SSSP.cpp:63-90.  `message + edge_val` adds an `int` to an `unsigned`: the
`int` is converted, the sum wraps around. -/
def ssspProg : Program Unit (BitVec 32) (BitVec 32) SsspV Int where
  gp _ :=
    { order := .out
      allVertices := false
      needsProp := false
      send := fun v _ => (true, v.dist)
      process := fun msg e _ _ => msg + BitVec.ofInt 32 e
      reduce := fun a b => if a ≤ b then a else b
      apply := fun u v => ⟨if u < v.dist then u else v.dist⟩
      ne := fun a b => decide (a.dist ≠ b.dist) }
  every _ s := s

/-- `reachable_or_not`, /repo/src/SSSP.cpp:92-98. -/
def ssspReachable (v : SsspV) (_ : Option Int) : Option Int × SsspV :=
  (some (if v.dist < SsspV.new.dist then 1 else 0), v)

/-- The preparations of `run_sssp` after loading, /repo/src/SSSP.cpp:107-118. -/
def ssspPrepare (e : AppEnv (BitVec 32) (BitVec 32) SsspV) (source : Int) (G : Graph SsspV Int) :
    Option (Graph SsspV Int × DVec (BitVec 32) × DVec (BitVec 32)) := do
  let xy ← G.newScratch e.ie
  let G ← G.onVertices (VGraph.setAllVertexproperty e.g SsspV.new)
  let G ← G.onVertices (VGraph.setAllInactive e.gia)
  let G ← G.onVertices (VGraph.setVertexproperty e.gs source ⟨0#32⟩)
  let G ← G.onVertices (VGraph.setActive e.ga source)
  some (G, xy)

/-- The end of `run_sssp`, /repo/src/SSSP.cpp:129-130: the number of reachable vertices. -/
def ssspReport (e : AppEnv (BitVec 32) (BitVec 32) SsspV) (tmp : Nat → Nat → Nat → Option Int) :
    RunOut (RunState Unit (BitVec 32) (BitVec 32) SsspV Int) → Option (RunOut (Graph SsspV Int × Option Int))
  | .more st => some (.more (st.G, none))
  | .done st => do
    let r ← st.G.toVGraph.applyReduceAllVertices e.gr ssspReachable addInt tmp (fun _ => some 0)
    some (.done ({ st.G with toVGraph := r.1 }, r.2))

/-- `run_sssp(filename, v)` after `G.ReadMTX(filename)`, /repo/src/SSSP.cpp:107-130; printing is left out. -/
def runSssp (e : AppEnv (BitVec 32) (BitVec 32) SsspV) (tmp : Nat → Nat → Nat → Option Int) (source : Int)
    (G : Graph SsspV Int) (fuel : Nat) : Option (RunOut (Graph SsspV Int × Option Int)) := do
  let p ← ssspPrepare e source G
  let o ← Graph.run e.ie e.env ssspProg () (-1) (some p.2) p.1 fuel
  ssspReport e tmp o

end GraphMat

import Verif.Model.App

/-!
# Topological sort

Models /repo/src/TopologicalSort.cpp.
-/
namespace GraphMat

/-- `class Vertex_type`, /repo/src/TopologicalSort.cpp:39-57.  `deg = none`: computing the field was
undefined (signed overflow) or an assertion failed on the way, in the real program the run is over. -/
structure TsV where
  /-- `topsort_order` -/
  order : BitVec 32
  /-- `in_degree` -/
  deg : Option Int
deriving DecidableEq

/-- The constructor, /repo/src/TopologicalSort.cpp:37, 44-47. -/
def TsV.new : TsV := ⟨BitVec.allOnes 32, some 0⟩

/-- `class InDegree<Vertex_type>`, /repo/src/TopologicalSort.cpp:59-86. -/
def inDegProg : Program Unit Int (Option Int) TsV Int where
  gp _ :=
    { order := .out
      allVertices := true
      needsProp := false
      send := fun _ _ => (true, 1)
      process := fun msg _ _ _ => some msg
      reduce := addInt
      apply := fun u v => { v with deg := u }
      ne := fun a b => decide (a.order ≠ b.order) }
  every _ s := s

/-- `TopSort::apply`, /repo/src/TopologicalSort.cpp:116-124, with its three assertions. -/
def tsApply (cur : BitVec 32) (u : Option Int) (v : TsV) : TsV :=
  match (do
    let m ← u
    let d ← v.deg
    if m > 0 ∧ d > 0 then
      let d' ← csub d m
      if d' ≥ 0 then some d' else none
    else none : Option Int) with
  | some d' => ⟨if d' = 0 then cur else v.order, some d'⟩
  | none => { v with deg := none }

/-- `class TopSort`, /repo/src/TopologicalSort.cpp:89-130; the state is `current_topsort_order`. -/
def topProg : Program (BitVec 32) Bool (Option Int) TsV Int where
  gp cur :=
    { order := .out
      allVertices := false
      needsProp := false
      send := fun v _ => (true, decide (v.deg = some 0))
      process := fun msg _ _ _ => some (if msg then 1 else 0)
      reduce := addInt
      apply := tsApply cur
      ne := fun a b => decide (a.order ≠ b.order) }
  every _ cur := cur + 1#32

/-- `unreachable`, /repo/src/TopologicalSort.cpp:132-138. -/
def tsUnreachable (v : TsV) (_ : Option Int) : Option Int × TsV :=
  (some (if v.order = BitVec.allOnes 32 then 1 else 0), v)

/-- The body of the loop that marks the first vertices, /repo/src/TopologicalSort.cpp:160-165. -/
def tsMark (v : TsV) : Option (TsV × Bool) :=
  if v.deg = some 0 then some ({ v with order := 0#32 }, true) else none

/-- `run_topsort` between the two runs, /repo/src/TopologicalSort.cpp:156-167.  The loop is an
`omp parallel for` in the code; here its iterations are executed one after the other. -/
def tsBetween (gia : Nat → Nat → Fresh Bool) (gv : Nat → Nat → Fresh TsV) (ga : Nat → Nat → Fresh Bool)
    (G : Graph TsV Int) : Option (Graph TsV Int) := do
  let G ← G.onVertices (VGraph.setAllInactive gia)
  G.forVertices G.n (fun i vg => vg.updateOwned (gv i) (ga i) tsMark (i : Int))

/-- The end of `run_topsort`, /repo/src/TopologicalSort.cpp:177-178: the number of unreachable vertices. -/
def tsReport (gr : Nat → Nat → Fresh TsV) (tmp : Nat → Nat → Nat → Option Int) :
    RunOut (RunState (BitVec 32) Bool (Option Int) TsV Int) → Option (RunOut (Graph TsV Int × Option Int))
  | .more st => some (.more (st.G, none))
  | .done st => do
    let r ← st.G.toVGraph.applyReduceAllVertices gr tsUnreachable addInt tmp (fun _ => some 0)
    some (.done ({ st.G with toVGraph := r.1 }, r.2))

/-- `run_topsort` after the degree pass, /repo/src/TopologicalSort.cpp:156-178. -/
def tsMain (e1 : AppEnv Int (Option Int) TsV) (e2 : AppEnv Bool (Option Int) TsV) (tmp : Nat → Nat → Nat → Option Int)
    (b : DVec Bool × DVec (Option Int)) (fuel : Nat) :
    RunOut (RunState Unit Int (Option Int) TsV Int) → Option (RunOut (Graph TsV Int × Option Int))
  | .more st => some (.more (st.G, none))
  | .done st => do
    let G ← tsBetween e2.gia e2.g e1.gia st.G
    let o ← Graph.run e2.ie e2.env topProg 1#32 (-1) (some b) G fuel
    tsReport e2.gr tmp o

/-- `run_topsort(filename)` after `G.ReadMTX(filename)`, /repo/src/TopologicalSort.cpp:144-178; printing is
left out. -/
def runTopsort (e1 : AppEnv Int (Option Int) TsV) (e2 : AppEnv Bool (Option Int) TsV)
    (tmp : Nat → Nat → Nat → Option Int) (G : Graph TsV Int) (fuel : Nat) :
    Option (RunOut (Graph TsV Int × Option Int)) := do
  let d ← G.newScratch e1.ie
  let b ← G.newScratch e2.ie
  let o ← Graph.run e1.ie e1.env inDegProg () 1 (some d) G fuel
  tsMain e1 e2 tmp b fuel o

end GraphMat

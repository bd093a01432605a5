import Verif.Model.App
import Verif.Model.EdgeList

/-!
# Delta-stepping

Models /repo/src/DeltaStepping.cpp.  Printing and timing are left out; `load_edgelist` is replaced by its
result, one edge list per rank.
-/
namespace GraphMat

/-- `class DeltaSteppingDS`, /repo/src/DeltaStepping.cpp:42-61.  `bucket` is `none` after a division by zero,
which is undefined behaviour. -/
structure DsV where
  /-- `distance` -/
  dist : BitVec 32
  /-- `bucket` -/
  bucket : Option Int
deriving DecidableEq

/-- `MAX_DIST` and the constructor, /repo/src/DeltaStepping.cpp:40, 48-51. -/
def DsV.new : DsV := ⟨BitVec.allOnes 32, some INT_MAX⟩

/-- `(int)(message_out/delta)`, /repo/src/DeltaStepping.cpp:94: `delta` is converted to `unsigned int`, the
quotient is unsigned and is converted to `int` modulo 2^32. -/
def dsBucket (delta : Int) (d : BitVec 32) : Option Int :=
  if BitVec.ofInt 32 delta = 0#32 then none else some (d / BitVec.ofInt 32 delta).toInt

/-- `class DeltaStepping`, /repo/src/DeltaStepping.cpp:63-98, without the member `delta`, which never changes; the
state is `bid`.  A bucket that resulted from a division by zero differs from every `bid`; the run as a whole is
undefined then, because `CheckBucketNotEmpty` reads it (`dsNotEmpty`). -/
def dsProg (delta : Int) : Program Int (BitVec 32) (BitVec 32) DsV Int where
  gp bid :=
    { order := .out
      allVertices := false
      needsProp := false
      send := fun v _ => (true, if v.bucket = some bid then v.dist else DsV.new.dist)
      process := fun msg e _ _ => if msg < DsV.new.dist then msg + BitVec.ofInt 32 e else DsV.new.dist
      reduce := fun a b => if a ≤ b then a else b
      apply := fun u v => if u < v.dist then ⟨u, dsBucket delta u⟩ else v
      ne := fun a b => decide (a.dist ≠ b.dist) }
  every _ s := s

/-- `reachable_or_not`, /repo/src/DeltaStepping.cpp:100-106. -/
def dsReachable (v : DsV) (_ : Option Int) : Option Int × DsV :=
  (some (if v.dist < DsV.new.dist then 1 else 0), v)

/-- `CheckBucketNotEmpty`, /repo/src/DeltaStepping.cpp:108-110. -/
def dsNotEmpty (bid : Int) (v : DsV) (_ : Option Int) : Option Int × DsV :=
  (v.bucket.map (fun b => if b ≥ bid ∧ b < INT_MAX then 1 else 0), v)

/-- `less_than_delta`, /repo/src/DeltaStepping.cpp:117-119. -/
def dsLight (delta : Int) (e : Edge Int) : Bool := decide (e.val ≤ delta)

/-- `greater_than_delta`, /repo/src/DeltaStepping.cpp:120-122. -/
def dsHeavy (delta : Int) (e : Edge Int) : Bool := decide (e.val > delta)

/-- `shareVertexProperty`, /repo/include/Graph.h:300-305, and reads of the shared vector: from here on the property
vector of `G2` is that of `G`.  Where one graph is used after the other the model hands the vector over. -/
def Graph.sharing (G2 G : Graph V E) : Graph V E := { G2 with vp := G.vp }

/-- The variables of the loop in `run_deltastepping`, /repo/src/DeltaStepping.cpp:134-163. -/
structure DsState where
  /-- light edges; owner of the properties -/
  G : Graph DsV Int
  /-- heavy edges -/
  G2 : Graph DsV Int
  /-- `ds_ts` -/
  xy : DVec (BitVec 32) × DVec (BitVec 32)
  /-- `deltastep.bid` -/
  bid : Int

/-- Unknown values of one round of the loop, /repo/src/DeltaStepping.cpp:165-181; not a part of the code. -/
structure DsEnv where
  /-- run on the light edges -/
  light : AppEnv (BitVec 32) (BitVec 32) DsV
  /-- run on the heavy edges -/
  heavy : AppEnv (BitVec 32) (BitVec 32) DsV
  /-- uninitialised variables of the reduction -/
  tmp : Nat → Nat → Nat → Option Int

/-- The round of the loop after the run on the light edges, /repo/src/DeltaStepping.cpp:170-176. -/
def dsAfterLight (e : DsEnv) (delta : Int) (G2 : Graph DsV Int) (fuel : Nat) :
    RunOut (RunState Int (BitVec 32) (BitVec 32) DsV Int) → Option (RunOut (DsState × Option Int))
  | .more st => some (.more ({ G := st.G, G2 := G2, xy := (st.x, st.y), bid := st.s }, none))
  | .done st => do
    let G2 ← (G2.sharing st.G).onVertices (VGraph.setAllActive e.heavy.gia)
    let o ← Graph.run e.heavy.ie e.heavy.env (dsProg delta) st.s 1 (some (st.x, st.y)) G2 fuel
    match o with
    | .more st2 => some (.more ({ G := st.G.sharing st2.G, G2 := st2.G, xy := (st2.x, st2.y), bid := st2.s }, none))
    | .done st2 => do
      let bid ← cadd st2.s 1
      let G := st.G.sharing st2.G
      let r ← G.toVGraph.applyReduceAllVertices e.light.gr (dsNotEmpty bid) addInt e.tmp (fun _ => some 0)
      some (.done ({ G := { G with toVGraph := r.1 }, G2 := st2.G, xy := (st2.x, st2.y), bid := bid }, r.2))

/-- One round of the loop, /repo/src/DeltaStepping.cpp:167-176, with the new value of `bucket_not_empty`. -/
def dsRound (e : DsEnv) (delta : Int) (st : DsState) (fuel : Nat) : Option (RunOut (DsState × Option Int)) := do
  let G ← st.G.onVertices (VGraph.setAllActive e.light.gia)
  let o ← Graph.run e.light.ie e.light.env (dsProg delta) st.bid (-1) (some st.xy) G fuel
  dsAfterLight e delta st.G2 fuel o

/-- The loop, /repo/src/DeltaStepping.cpp:163-178; at most `rounds` rounds of at most `fuel` supersteps per run.
A count that is undefined makes the condition undefined. -/
def dsLoop (e : Nat → DsEnv) (delta : Int) (fuel : Nat) : Nat → Nat → DsState → Option (RunOut DsState)
  | 0, _, st => some (.more st)
  | rounds + 1, i, st =>
    (dsRound (e i) delta st fuel).bind fun o =>
      match o with
      | .more r => some (.more r.1)
      | .done (st, cnt) => cnt.bind fun b => if b ≠ 0 then dsLoop e delta fuel rounds (i + 1) st else some (.done st)

/-- The preparations after loading, /repo/src/DeltaStepping.cpp:142-153. -/
def dsPrepare (e : AppEnv (BitVec 32) (BitVec 32) DsV) (source : Int) (G G2 : Graph DsV Int) : Option DsState := do
  let G2 := G2.sharing G
  let xy ← G.newScratch e.ie
  let G ← G.onVertices (VGraph.setAllInactive e.gia)
  let G ← G.onVertices (VGraph.setVertexproperty e.gs source ⟨0#32, some 0⟩)
  let G ← G.onVertices (VGraph.setActive e.ga source)
  some { G := G, G2 := G2, xy := xy, bid := 0 }

/-- The end of `run_deltastepping`, /repo/src/DeltaStepping.cpp:186-187: the number of reachable vertices. -/
def dsReport (e : AppEnv (BitVec 32) (BitVec 32) DsV) (tmp : Nat → Nat → Nat → Option Int) :
    RunOut DsState → Option (RunOut (Graph DsV Int × Option Int))
  | .more st => some (.more (st.G, none))
  | .done st => do
    let r ← st.G.toVGraph.applyReduceAllVertices e.gr dsReachable addInt tmp (fun _ => some 0)
    some (.done ({ st.G with toVGraph := r.1 }, r.2))

/-- Filtering and loading, /repo/src/DeltaStepping.cpp:129-137: `els` holds each rank's part of `E`, `g` the
uninitialised memory of the filtered lists. -/
def dsLoad (le le2 : LoadEnv DsV Int) (g : Nat → Edge Int) (threads nrank : Nat) (m n : Nat) (delta : Int)
    (els : List (EdgeList Int)) : Option (Graph DsV Int × Graph DsV Int) := do
  let light ← els.mapM (filterEdges g (dsLight delta))
  let heavy ← els.mapM (filterEdges g (dsHeavy delta))
  let r ← Graph.readEdgelist le threads nrank m n (light.map EdgeList.list)
  let r2 ← Graph.readEdgelist le2 threads nrank m n (heavy.map EdgeList.list)
  some (r.2, r2.2)

/-- `run_deltastepping` after `load_edgelist`, /repo/src/DeltaStepping.cpp:129-187. -/
def runDeltaStepping (le le2 : LoadEnv DsV Int) (g : Nat → Edge Int) (e : AppEnv (BitVec 32) (BitVec 32) DsV)
    (er : Nat → DsEnv) (tmp : Nat → Nat → Nat → Option Int) (threads nrank : Nat) (m n : Nat) (delta source : Int)
    (els : List (EdgeList Int)) (rounds fuel : Nat) : Option (RunOut (Graph DsV Int × Option Int)) := do
  let G ← dsLoad le le2 g threads nrank m n delta els
  let st ← dsPrepare e source G.1 G.2
  let o ← dsLoop er delta fuel rounds 0 st
  dsReport e tmp o

end GraphMat

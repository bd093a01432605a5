import Verif.Model.TestGen
import Verif.Model.Bfs
import Mathlib.Data.List.Sort

/-!
# The repository's tests of breadth-first search and of the neighbour lists

Models /repo/test/test_bfs.cpp, /repo/test/test_get_neighbors.cpp and the sizes checked in /repo/test/test_graph_basics.cpp.  A test gives
`some true` if all of its checks (`REQUIRE`) succeed on all ranks.  Catch runs the functions anew for every `SECTION` in them.
-/
namespace GraphMat

variable {V : Type}

/-- `if (G.vertexNodeOwner(i)) REQUIRE(ok(G.getVertexproperty(i)));` on rank `r`, e.g. /repo/test/test_bfs.cpp:117-118; `dflt` is what
`getVertexproperty` gives when it finds nothing. -/
def requireVertex (G : VGraph V) (dflt : V) (ok : V → Bool) (i r : Nat) : Option Bool := do
  let own ← G.vertexNodeOwner r (i : Int)
  if own then do
    let x ← G.getVertexproperty r (i : Int)
    some (ok (x.getD dflt))
  else some true

/-- Such checks for the vertices `1..n` on all ranks, e.g. /repo/test/test_bfs.cpp:114-119. -/
def requireVertices (G : VGraph V) (dflt : V) (ok : Nat → V → Bool) (n : Nat) : Option Bool :=
  forLoop 1 (n + 1) true (fun i b => do
    let l ← (List.range G.nrank).mapM (requireVertex G dflt (ok i) i)
    some (b && l.all id))

/-- `G.ReadEdgelist(E)` on a generated list, e.g. /repo/test/test_bfs.cpp:98-100. -/
def readGenerated (le : LoadEnv V Int) (threads : Nat) (els : List (EdgeList Int)) : Option (Graph V Int) := do
  let el ← els[0]?
  let r ← Graph.readEdgelist le threads els.length el.m.toNat el.n.toNat (els.map EdgeList.list)
  some r.2

/-! ### Breadth-first search -/

/-- `class BFS`, /repo/test/test_bfs.cpp:58-94, on the property `BFSD` (lines 41-56), whose only field is `depth`. -/
def testBfsProg : Program (BitVec 32) (BitVec 64) (BitVec 64) (BitVec 32) Int where
  gp cur :=
    { order := .out
      allVertices := false
      needsProp := false
      send := fun v _ => (decide (v = cur - 1#32), 0#64)
      process := fun msg _ _ _ => msg
      reduce := fun _ b => b
      apply := fun _ v => if v = MAXD then cur else v
      ne := fun a b => decide (a ≠ b) }
  every _ cur := cur + 1#32

/-- The checks at the end of a section, e.g. /repo/test/test_bfs.cpp:114-119: `depth == expect(i)` for every vertex. -/
def testBfsCheck (n : Nat) (expect : Nat → BitVec 32) :
    RunOut (RunState (BitVec 32) (BitVec 64) (BitVec 64) (BitVec 32) Int) → Option (RunOut (Option Bool))
  | .more _ => some (.more none)
  | .done st => do
    let b ← requireVertices st.G.toVGraph MAXD (fun i x => decide (x = expect i)) n
    some (.done (some b))

/-- One section of the functions of /repo/test/test_bfs.cpp:97-236: `els` is the generated list, `source` the vertex the search
starts from. -/
def testBfs (le : LoadEnv (BitVec 32) Int) (e : AppEnv (BitVec 64) (BitVec 64) (BitVec 32)) (threads n : Nat) (source : Nat)
    (expect : Nat → BitVec 32) (els : List (EdgeList Int)) (fuel : Nat) : Option (RunOut (Option Bool)) := do
  let G ← readGenerated le threads els
  let G ← G.onVertices (VGraph.setVertexproperty e.gs (source : Int) 0#32)
  let G ← G.onVertices (VGraph.setAllInactive e.gia)
  let G ← G.onVertices (VGraph.setActive e.ga (source : Int))
  let o ← Graph.run e.ie e.env testBfsProg 1#32 (-1) none G fuel
  testBfsCheck n expect o

/-- `test_ut_bfs(n)`, section "node 1", /repo/test/test_bfs.cpp:97-120. -/
def testUtBfsOne (g : Nat → Nat → Edge Int) (le : LoadEnv (BitVec 32) Int) (e : AppEnv (BitVec 64) (BitVec 64) (BitVec 32))
    (threads nrank n fuel : Nat) : Option (RunOut (Option Bool)) := do
  let els ← generated g nrank (genUpper (g 0) 1 n)
  testBfs le e threads n 1 (fun i => if i = 1 then 0#32 else 1#32) els fuel

/-- `test_ut_bfs(n)`, section "node n/2", /repo/test/test_bfs.cpp:97-103, 122-141. -/
def testUtBfsHalf (g : Nat → Nat → Edge Int) (le : LoadEnv (BitVec 32) Int) (e : AppEnv (BitVec 64) (BitVec 64) (BitVec 32))
    (threads nrank n fuel : Nat) : Option (RunOut (Option Bool)) := do
  let els ← generated g nrank (genUpper (g 0) 1 n)
  testBfs le e threads n (n / 2) (fun i => if i < n / 2 then MAXD else if i = n / 2 then 0#32 else 1#32) els fuel

/-- `test_dense_bfs(n)`, section "node 1", /repo/test/test_bfs.cpp:144-167. -/
def testDenseBfsOne (g : Nat → Nat → Edge Int) (le : LoadEnv (BitVec 32) Int) (e : AppEnv (BitVec 64) (BitVec 64) (BitVec 32))
    (threads nrank n fuel : Nat) : Option (RunOut (Option Bool)) := do
  let els ← generated g nrank (genDense (g 0) 1 n)
  testBfs le e threads n 1 (fun i => if i = 1 then 0#32 else 1#32) els fuel

/-- `test_dense_bfs(n)`, section "node n/2", /repo/test/test_bfs.cpp:144-150, 169-188. -/
def testDenseBfsHalf (g : Nat → Nat → Edge Int) (le : LoadEnv (BitVec 32) Int) (e : AppEnv (BitVec 64) (BitVec 64) (BitVec 32))
    (threads nrank n fuel : Nat) : Option (RunOut (Option Bool)) := do
  let els ← generated g nrank (genDense (g 0) 1 n)
  testBfs le e threads n (n / 2) (fun i => if i < n / 2 then 1#32 else if i = n / 2 then 0#32 else 1#32) els fuel

/-- `test_chain_bfs(n)`, section "node 1", /repo/test/test_bfs.cpp:191-214. -/
def testChainBfsOne (g : Nat → Nat → Edge Int) (le : LoadEnv (BitVec 32) Int) (e : AppEnv (BitVec 64) (BitVec 64) (BitVec 32))
    (threads nrank n fuel : Nat) : Option (RunOut (Option Bool)) := do
  let els ← generated g nrank (genChain (g 0) 1 n)
  testBfs le e threads n 1 (fun i => if i = 1 then 0#32 else BitVec.ofNat 32 (i - 1)) els fuel

/-- `test_chain_bfs(n)`, section "node n/2", /repo/test/test_bfs.cpp:191-197, 216-235. -/
def testChainBfsHalf (g : Nat → Nat → Edge Int) (le : LoadEnv (BitVec 32) Int) (e : AppEnv (BitVec 64) (BitVec 64) (BitVec 32))
    (threads nrank n fuel : Nat) : Option (RunOut (Option Bool)) := do
  let els ← generated g nrank (genChain (g 0) 1 n)
  testBfs le e threads n (n / 2) (fun i => if i < n / 2 then BitVec.ofNat 32 (n / 2 + i) else if i = n / 2 then 0#32
    else BitVec.ofNat 32 (i - n / 2)) els fuel

/-! ### Neighbour lists -/

/-- `class neighbors_vp`, /repo/test/test_get_neighbors.cpp:40-53. -/
structure NbV where
  /-- `id` -/
  id : Int
  /-- `v` -/
  v : List Int
deriving DecidableEq

/-- `class GetNeighbors`, /repo/test/test_get_neighbors.cpp:66-96. -/
def testNeighborsProg : Program Unit Int (List Int) NbV Int where
  gp _ :=
    { order := .inn
      allVertices := true
      needsProp := false
      send := fun v _ => (true, v.id)
      process := fun msg _ _ _ => [msg]
      reduce := fun a b => a ++ b
      apply := fun u v => { v with v := u.insertionSort (· ≤ ·) }
      ne := fun a b => decide (a.id ≠ b.id) }
  every _ s := s

/-- The checks, /repo/test/test_get_neighbors.cpp:119-128. -/
def testNeighborsCheck (n : Nat) : RunOut (RunState Unit Int (List Int) NbV Int) → Option (RunOut (Option Bool))
  | .more _ => some (.more none)
  | .done st => do
    let ref : List Int := (List.range n).map (fun (j : Nat) => (j : Int) + 1)
    let b ← requireVertices st.G.toVGraph ⟨0, []⟩ (fun _ x => decide (x.v.length = n) && decide (x.v = ref)) n
    some (.done (some b))

/-- `test_get_neighbors(n)`, /repo/test/test_get_neighbors.cpp:98-129. -/
def testNeighbors (g : Nat → Nat → Edge Int) (le : LoadEnv NbV Int) (e : AppEnv Int (List Int) NbV)
    (threads nrank n fuel : Nat) : Option (RunOut (Option Bool)) := do
  let els ← generated g nrank (genDense (g 0) 1 n)
  let G ← readGenerated le threads els
  let G ← G.forVertices n (fun i vg => vg.updateOwned (e.g i) (e.gia i) (fun v => some ({ v with id := i }, false)) (i : Int))
  let gn ← G.newScratch e.ie
  let o ← Graph.run e.ie e.env testNeighborsProg () 1 (some gn) G fuel
  testNeighborsCheck n o

/-! ### Sizes -/

/-- `REQUIRE(G.getNumberOfVertices() == n); REQUIRE(G.nnz == nnz);` on all ranks, e.g. /repo/test/test_graph_basics.cpp:90-91; `nnz` is computed in
`int`. -/
def testSize (le : LoadEnv V Int) (threads n : Nat) (nnz : Option Int) (els : List (EdgeList Int)) : Option Bool := do
  let G ← readGenerated le threads els
  let nnz ← nnz
  some (decide (G.n = n) && G.nnz.all (fun k => decide ((k : Int) = nnz)))

/-- The first block of `test_graph_size(n)`, /repo/test/test_graph_basics.cpp:84-92, also of `test_graph_getset(n)`, lines 57-63. -/
def testSizeRandom (g : Nat → Nat → Edge Int) (dist : Nat → Nat) (draws : Nat) (le : LoadEnv V Int) (threads nrank n : Nat) : Option Bool := do
  let els ← generated g nrank (genRandom (g 0) dist draws 1 n 16)
  testSize le threads n (cmul n 16) els

/-- The second block of `test_graph_size(n)`, /repo/test/test_graph_basics.cpp:94-102. -/
def testSizeDense (g : Nat → Nat → Edge Int) (le : LoadEnv V Int) (threads nrank n : Nat) : Option Bool := do
  let els ← generated g nrank (genDense (g 0) 1 n)
  testSize le threads n (cmul n n) els

/-- The third block of `test_graph_size(n)`, /repo/test/test_graph_basics.cpp:104-112. -/
def testSizeUpper (g : Nat → Nat → Edge Int) (le : LoadEnv V Int) (threads nrank n : Nat) : Option Bool := do
  let els ← generated g nrank (genUpper (g 0) 1 n)
  testSize le threads n (do let a ← csub n 1; let b ← cmul n a; cdiv b 2) els

end GraphMat

import Verif.Model.TestGen

/-!
# The repository's tests of the edge list functions

Models /repo/test/test_edgelist_utils.cpp.  A test gives `some true` if all of its checks (`REQUIRE`) succeed on all ranks.  `w` is the number of
`int`s in an edge (3 for the edge types `int` and `float` of the tests, lines 147-170), so the check that the edge type consists of `int`s
(/repo/test/test_utils.h:54) succeeds.  The contents of a cleared list are not needed; `E.clear()` is not modelled.
-/
namespace GraphMat

variable {E : Type}

/-- `f(&E)` on every rank, e.g. /repo/test/test_edgelist_utils.cpp:41. -/
def onLists (f : Nat → EdgeList E → Option (EdgeList E)) (els : List (EdgeList E)) : Option (List (EdgeList E)) :=
  (List.range els.length).mapM (fun r => do
    let el ← els[r]?
    f r el)

/-- `REQUIRE`s on every rank, e.g. /repo/test/test_edgelist_utils.cpp:45-48. -/
def requireLists (ok : EdgeList E → Option Bool) (els : List (EdgeList E)) : Option Bool := do
  let bs ← els.mapM ok
  some (bs.all id)

/-- `REQUIRE(ok(E_out.edges[i]))` for all `i`, e.g. /repo/test/test_edgelist_utils.cpp:46-48. -/
def requireEdges (ok : Edge E → Bool) (el : EdgeList E) : Option Bool :=
  forLoop 0 el.nnz true (fun i b => do
    let e ← el.edges.read i
    some (b && ok e))

/-- `std::sort(E.edges, E.edges + E.nnz, edge_compare<T>)`, e.g. /repo/test/test_edgelist_utils.cpp:93; `sort` stands for the library's
sorting. -/
def EdgeList.sortWith (sort : List (Edge E) → List (Edge E)) (el : EdgeList E) : EdgeList E :=
  { el with edges := ⟨el.edges.size, fun i => (sort el.list).getD i (el.edges.get i)⟩ }

/-- `test_remove_selfedges(n)`, /repo/test/test_edgelist_utils.cpp:37-51. -/
def testSelfedges (g h : Nat → Nat → Edge E) (k : Nat → Edge E) (w : Nat) (one : E) (nrank n : Nat) : Option Bool := do
  let els ← generated g nrank (genDense (g 0) one n)
  let els ← onLists (fun r => removeSelfedges (h r)) els
  let out ← collectEdges k w els
  requireLists (fun el => do
    let a ← csub n 1
    let p ← cmul n a
    let b ← requireEdges (fun e => decide (e.src ≠ e.dst)) el
    some (decide ((el.nnz : Int) = p) && b)) out

/-- `test_remove_duplicate_edges(n)`, /repo/test/test_edgelist_utils.cpp:53-69. -/
def testDuplicates (sort : Nat → List (Edge E) → List (Edge E)) (g h h' : Nat → Nat → Edge E) (k : Nat → Edge E) (w : Nat) (one : E)
    (nthreads nrank n : Nat) : Option Bool := do
  let els ← generated g nrank (genDense (g 0) one n)
  let els2 ← onLists (fun r => createBidirectional (h r)) els
  let b ← (els.zip els2).mapM (fun x => do
    let m ← cmul 2 x.1.nnz
    some (decide ((x.2.nnz : Int) = m)))
  let els3 ← removeDuplicates sort h' nthreads els2
  let out ← collectEdges k w els3
  let b2 ← requireLists (fun el => do
    let p ← cmul n n
    some (decide ((el.nnz : Int) = p))) out
  some (b.all id && b2)

/-- `test_randomize_edge_direction(n)`, /repo/test/test_edgelist_utils.cpp:71-82. -/
def testRandomize (coin : Nat → Nat → Bool) (g : Nat → Nat → Edge E) (k : Nat → Edge E) (w : Nat) (one : E) (nrank n : Nat) : Option Bool := do
  let els ← generated g nrank (genDense (g 0) one n)
  let els ← onLists (fun r => randomizeDirection (coin r)) els
  let out ← collectEdges k w els
  requireLists (fun el => do
    let p ← cmul n n
    some (decide ((el.nnz : Int) = p))) out

/-- The loop of `test_bidirectional_edges`, /repo/test/test_edgelist_utils.cpp:94-98; `eq` is `==` of the edge type. -/
def requirePairs (eq : E → E → Bool) (el : EdgeList E) : Option Bool :=
  forLoop 0 (el.nnz / 2) true (fun i b => do
    let x ← el.edges.read (2 * i)
    let y ← el.edges.read (2 * i + 1)
    some (b && (decide (x.src = y.src) && decide (x.dst = y.dst) && eq x.val y.val)))

/-- `test_bidirectional_edges(n)`, /repo/test/test_edgelist_utils.cpp:84-101. -/
def testBidirectional (sort : List (Edge E) → List (Edge E)) (eq : E → E → Bool) (g h : Nat → Nat → Edge E) (k : Nat → Edge E) (w : Nat)
    (one : E) (nrank n : Nat) : Option Bool := do
  let els ← generated g nrank (genDense (g 0) one n)
  let els ← onLists (fun r => createBidirectional (h r)) els
  let out ← collectEdges k w els
  requireLists (fun el => do
    let a ← cmul 2 n
    let p ← cmul a n
    let b ← requirePairs eq (el.sortWith sort)
    some (decide ((el.nnz : Int) = p) && b)) out

/-- `test_convert_to_dag(n)`, /repo/test/test_edgelist_utils.cpp:103-117. -/
def testDag (g : Nat → Nat → Edge E) (k : Nat → Edge E) (w : Nat) (one : E) (nrank n : Nat) : Option Bool := do
  let els ← generated g nrank (genDense (g 0) one n)
  let els ← onLists (fun _ => convertToDag) els
  let out ← collectEdges k w els
  requireLists (fun el => do
    let p ← cmul n n
    let b ← requireEdges (fun e => decide (e.src ≤ e.dst)) el
    some (decide ((el.nnz : Int) = p) && b)) out

/-- `src_div_by_3`, /repo/test/test_edgelist_utils.cpp:119-122. -/
def srcDivBy3 (e : Edge E) : Bool := decide (e.src.tmod 3 = 0)

/-- The loop of `test_filter_edges`, /repo/test/test_edgelist_utils.cpp:133-139, and the check after it, line 140; the state is whether the
checks succeeded so far and `k`. -/
def requireFiltered (el out : EdgeList E) : Option Bool := do
  let r ← forLoop 0 el.nnz (true, 0) (fun i (s : Bool × Nat) => do
    let e ← el.edges.read i
    if srcDivBy3 e then do
      let x ← out.edges.read s.2
      some (s.1 && srcDivBy3 x, s.2 + 1)
    else some s)
  some (r.1 && decide (out.nnz = r.2))

/-- `test_filter_edges(n)`, /repo/test/test_edgelist_utils.cpp:124-144. -/
def testFilter (sort : List (Edge E) → List (Edge E)) (g h : Nat → Nat → Edge E) (one : E) (nrank n : Nat) : Option Bool := do
  let els ← generated g nrank (genDense (g 0) one n)
  let out ← onLists (fun r => filterEdges (h r) srcDivBy3) els
  let bs ← (els.zip out).mapM (fun x => do
    let p ← cmul n n
    let b ← requireFiltered (x.1.sortWith sort) (x.2.sortWith sort)
    some (decide ((x.2.nnz : Int) ≤ p) && b))
  some (bs.all id)

end GraphMat

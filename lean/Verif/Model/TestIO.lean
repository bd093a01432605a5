import Verif.Model.TestRuns
import Verif.Model.TestEdges
import Verif.Model.Converter
import Verif.Model.ApplyEdges
import Verif.Model.FloatBits

/-!
# The repository's tests of files, matrices and edge functions

Models /repo/test/test_io.cpp, `test_graph_getset` and `test_graph_io` of /repo/test/test_graph_basics.cpp, /repo/test/test_apply_edges.cpp and, for
the tiles the library itself uses (`DCSCTile`), /repo/test/test_matrix_basics.cpp.  As in `Model/TestRuns.lean` a test gives `some true` if all of
its checks (`REQUIRE`) succeed on all ranks.  `w` is the number of `int`s in an edge; lists that are cleared at the end are not modelled.
-/
namespace GraphMat

variable {E V : Type}

/-- The list a rank gets from `get_edges` or `getEdgelist`: as many elements as there are edges,
/repo/include/GMDP/matrices/SpMat.h:357-363. -/
def gotList (d : Edge E) (m n : Nat) (es : List (Edge E)) : EdgeList E :=
  { edges := Arr.ofList d es, m := m, n := n, nnz := es.length }

/-- `G.getEdgelist(E2)` on every rank, /repo/include/Graph.h:327-335, e.g. /repo/test/test_io.cpp:120. -/
def gotEdgelists (k : Nat → Edge E) (G : Graph V E) : Option (List (EdgeList E)) :=
  (List.range G.nrank).mapM (fun r => do
    let es ← G.getEdgelist r
    some (gotList (k r) G.n G.n es))

/-- `A->get_edges(&OE)` on every rank, e.g. /repo/test/test_matrix_basics.cpp:65. -/
def gotEdges (k : Nat → Edge E) (D : DMat E) : Option (List (EdgeList E)) :=
  (List.range D.length).mapM (fun r => do
    let M ← D[r]?
    let es ← M.getEdges
    some (gotList (k r) M.m M.n es))

/-- `G.ReadEdgelist(E)`, e.g. /repo/test/test_io.cpp:112, which also changes the caller's arrays: the first component of the result. -/
def loadInPlace (le : LoadEnv V E) (threads : Nat) (els : List (EdgeList E)) : Option (List (EdgeList E) × Graph V E) := do
  let el ← els[0]?
  let r ← Graph.readEdgelist le threads els.length el.m.toNat el.n.toNat (els.map EdgeList.list)
  some ((els.zip r.1).map (fun x => x.1.sortWith (fun _ => x.2)), r.2)

/-- The checks that compare two sorted lists, e.g. /repo/test/test_io.cpp:83-88; `eq` is `==` of the edge type.  After a failed `REQUIRE` nothing
more is read. -/
def requireSame (eq : E → E → Bool) (weights : Bool) (a b : EdgeList E) : Option Bool :=
  if a.nnz = b.nnz then
    forLoop 0 a.nnz true (fun i ok => do
      let x ← a.edges.read i
      let y ← b.edges.read i
      some (ok && (decide (x.src = y.src) && decide (x.dst = y.dst) && (!weights || eq x.val y.val))))
  else some false

/-- The comparison of the edges of the two matrices in `matrix_serialization_test`, /repo/test/test_matrix_serialization.cpp:60-78: the edges
`es1` of `A` and `es2` of `B` in new lists with the dimensions of the matrices (/repo/include/GMDP/matrices/SpMat.h:357-359).  The checks of
the dimensions are evaluated after those of the edges here. -/
def compareEdges (sort : List (Edge E) → List (Edge E)) (eq : E → E → Bool) (k : Edge E) (m1 n1 : Nat) (es1 : List (Edge E)) (m2 n2 : Nat)
    (es2 : List (Edge E)) : Option Bool := do
  let oe1 := gotList k m1 n1 es1
  let oe2 := gotList k m2 n2 es2
  let b ← requireSame eq true (oe1.sortWith sort) (oe2.sortWith sort)
  some (b && decide (oe1.m = oe2.m) && decide (oe1.n = oe2.n))

/-- Collecting two lists, sorting them and comparing them, e.g. /repo/test/test_io.cpp:75-88. -/
def compareCollected (sort : List (Edge E) → List (Edge E)) (eq : E → E → Bool) (weights : Bool) (k : Nat → Edge E) (w : Nat)
    (els els2 : List (EdgeList E)) : Option Bool := do
  let a ← collectEdges k w els
  let b ← collectEdges k w els2
  let oks ← (a.zip b).mapM (fun x => requireSame eq weights (x.1.sortWith sort) (x.2.sortWith sort))
  some (oks.all id)

/-! ### Setting and getting -/

/-- `class custom_vertex_type`, /repo/test/test_graph_basics.cpp:37-53; the `float` is represented by a value of any type `F`. -/
structure CustomV (F : Type) where
  /-- `iprop` -/
  iprop : Int
  /-- `fprop` -/
  fprop : F

/-- `test_graph_getset(n)`, /repo/test/test_graph_basics.cpp:57-81.  `half i` is the `float` made of `i*2.5`, `approx i` the comparison
with `Approx(2.5*i)`. -/
def testGetSet {F : Type} (half : Nat → F) (approx : Nat → F → Bool) (dflt : CustomV F) (g : Nat → Nat → Edge Int) (dist : Nat → Nat) (draws : Nat)
    (le : LoadEnv (CustomV F) Int) (gv : Nat → Nat → Fresh (CustomV F)) (ga : Nat → Nat → Fresh Bool) (threads nrank n : Nat) : Option Bool := do
  let els ← generated g nrank (genRandom (g 0) dist draws 1 n 16)
  let G ← readGenerated le threads els
  let nnz ← cmul n 16
  let size := decide (G.n = n) && G.nnz.all (fun k => decide ((k : Int) = nnz))
  let G ← G.forVertices n (fun i vg => vg.updateOwned (gv i) (ga i) (fun _ => some (⟨(i : Int), half i⟩, false)) (i : Int))
  let b ← requireVertices G.toVGraph dflt (fun i x => decide (x.iprop = (i : Int)) && approx i x.fprop) n
  some (size && b)

/-! ### Edge lists in and out -/

/-- `test_graph_io(n)`, /repo/test/test_graph_basics.cpp:115-146; `E1` is a copy of the list made before the graph is read. -/
def testGraphIo (sort : List (Edge Int) → List (Edge Int)) (cast : Rat → Int) (t : Nat → Nat → Rat) (g : Nat → Nat → Edge Int) (k : Nat → Edge Int)
    (w : Nat) (dist : Nat → Nat) (draws : Nat) (le : LoadEnv V Int) (threads nrank n : Nat) : Option Bool := do
  let els ← generated g nrank (genRandom (g 0) dist draws 1 n 16)
  let els ← onLists (fun r => randomEdgeWeights cast 128 (t r)) els
  let r ← loadInPlace le threads els
  let els2 ← gotEdgelists k r.2
  compareCollected sort (fun a b => decide (a = b)) true k w els els2

/-- `test_read_mtx(n, binaryformat, header, edgeweights)`, /repo/test/test_io.cpp:40-93.  Every rank has a file name of its own and finds
its own file only; as rank `r` looks for the files `r`, `r + nrank`, .., this is the same as files `0..nrank-1` with one name. -/
def testReadMtx (ct : ConvType E) (sort : List (Edge E) → List (Edge E)) (eq : E → E → Bool) (t : Nat → Nat → Rat) (g h : Nat → Nat → Edge E)
    (k : Nat → Edge E) (w nrank n : Nat) (one : E) (binary header weights : Bool) : Option Bool := do
  let els ← generated g nrank (genDense (g 0) one n)
  let els ← onLists (fun r => randomEdgeWeights ct.cast 128 (t r)) els
  let els2 ← if binary then do
      let fs ← els.mapM (GraphMat.writeBin ct.bin header weights)
      loadEdgelist (binReader ct.bin weights) header nrank h fs
    else do
      let fs ← els.mapM (writeText ct.print header weights)
      loadEdgelist (textReader ct.text weights) header nrank h fs
  compareCollected sort eq weights k w els els2

/-- `int` weights in files, /repo/test/test_io.cpp:143-152: the bytes of an `int`, `%d` in both directions; `(int)t` drops the fraction. -/
def intConv : ConvType Int where
  bin := { size := 4, enc := encInt, dec := decInt, one := 1 }
  text := ⟨scanInt, 1⟩
  print := printInt
  cast t := if t < 0 then -((-t).floor) else t.floor

/-- `==` and `<` of two `float`s, e.g. /repo/test/test_io.cpp:87, /repo/test/test_utils.h:44. -/
def FNum.less : FNum → FNum → Bool
  | .fin a x, .fin b y => decide ((if a then -x else x) < (if b then -y else y))
  | .fin _ _, .inf b => !b
  | .inf a, .fin _ _ => a
  | .inf a, .inf b => a && !b
  | _, _ => false

/-- `==` of two `float`s, /repo/test/test_io.cpp:87. -/
def FNum.same : FNum → FNum → Bool
  | .fin a x, .fin b y => decide ((if a then -x else x) = (if b then -y else y))
  | .inf a, .inf b => a == b
  | _, _ => false

/-- `test_read_gm_bin(n)` on a given list, /repo/test/test_io.cpp:96-139: the list is compared after `ReadEdgelist` has changed it. -/
def testReadGmBinOn {V' : Type} (sort : List (Edge E) → List (Edge E)) (eq : E → E → Bool) (k : Nat → Edge E) (w : Nat) (le : LoadEnv V E)
    (le2 : LoadEnv V' E) (threads : Nat) (els : List (EdgeList E)) : Option Bool := do
  let r ← loadInPlace le threads els
  let files ← r.2.writeBin
  let G2 ← Graph.readBin le2 threads els.length files
  let els2 ← gotEdgelists k G2
  compareCollected sort eq true k w r.1 els2

/-- `test_read_gm_bin(n)`, /repo/test/test_io.cpp:96-139. -/
def testReadGmBin {V' : Type} (sort : List (Edge E) → List (Edge E)) (eq : E → E → Bool) (g : Nat → Nat → Edge E) (k : Nat → Edge E) (w : Nat) (one : E)
    (le : LoadEnv V E) (le2 : LoadEnv V' E) (threads nrank n : Nat) : Option Bool := do
  let els ← generated g nrank (genDense (g 0) one n)
  testReadGmBinOn sort eq k w le le2 threads els

/-! ### Functions on edges -/

/-- `apply_edges_fn`, /repo/test/test_apply_edges.cpp:39-43.  The sum is an `int`; that it fits is seen in the check, which computes the same. -/
def applyEdgesFn (s : Int) (_ src dst : Int) : Int := src + s * dst

/-- The checks after a function was applied, /repo/test/test_apply_edges.cpp:63-66, 91-94: `val == a + s * b`, computed in `int`. -/
def requireApplied (s : Int) (a b : Edge Int → Int) (el : EdgeList Int) : Option Bool :=
  forLoop 0 el.nnz true (fun i ok => do
    let e ← el.edges.read i
    let p ← cmul s (b e)
    let v ← cadd (a e) p
    some (ok && decide (e.val = v)))

/-- What `apply_edges(E)` does with the graph, /repo/test/test_apply_edges.cpp:49-67; the first component is the list afterwards. -/
def testApplyGraph (le : LoadEnv Int Int) (gs : Nat → Nat → Fresh Int) (g1 g2 : Nat → Nat → Fresh Int) (k : Nat → Edge Int) (threads : Nat)
    (els : List (EdgeList Int)) : Option (List (EdgeList Int) × Bool) := do
  let r ← loadInPlace le threads els
  let G ← r.2.forVertices r.2.n (fun i vg => vg.setVertexproperty (gs i) (i : Int) (i : Int))
  let G ← G.applyToAllEdges false g1 g2 (applyEdgesFn 2)
  let els2 ← gotEdgelists k G
  let b ← requireLists (requireApplied 2 Edge.src Edge.dst) els2
  some (r.1, b)

/-- What `apply_edges(E)` does with the matrix, /repo/test/test_apply_edges.cpp:70-94. -/
def testApplyMatrix (sort : List (Edge Int) → List (Edge Int)) (srt : Sorts Int) (gt : Nat → Nat → Nat → TileFresh Int) (gs : Nat → Nat → Fresh Int)
    (g1 : Nat → Nat → Fresh Int) (k : Nat → Edge Int) (threads : Nat) (els : List (EdgeList Int)) : Option Bool := do
  let els := els.map (EdgeList.sortWith sort)
  let el ← els[0]?
  let nrank := els.length
  let D ← DMat.ofEdges el.m.toNat el.n.toNat nrank nrank nrank partitionFn1d srt gt threads (els.map EdgeList.list)
  let vp ← DVec.new el.n.toNat nrank nrank
  let vp ← forLoop 0 el.n.toNat vp (fun i vp => eachRank vp (fun r x => x.set (gs i r) ((i : Int) + 1) ((i : Int) + 1)))
  let A ← DMat.applyEdges false g1 threads nrank D.2 (applyEdgesFn 2) vp
  let els2 ← gotEdges k A.1
  requireLists (requireApplied 2 Edge.dst Edge.src) els2

/-- `apply_edges(E)`, /repo/test/test_apply_edges.cpp:45-99. -/
def testApplyEdges (sort : List (Edge Int) → List (Edge Int)) (le : LoadEnv Int Int) (srt : Sorts Int) (gt : Nat → Nat → Nat → TileFresh Int)
    (gs gs' : Nat → Nat → Fresh Int) (g1 g2 g3 : Nat → Nat → Fresh Int) (k : Nat → Edge Int) (threads : Nat) (els : List (EdgeList Int)) :
    Option Bool := do
  let r ← testApplyGraph le gs g1 g2 k threads els
  let b ← testApplyMatrix sort srt gt gs' g3 k threads r.1
  some (r.2 && b)

/-! ### Matrices -/

/-- The checks of the size of a matrix, e.g. /repo/test/test_matrix_basics.cpp:58-60. -/
def requireSize (D : DMat E) (nnz : Nat) (m n : Int) : Option Bool := do
  let l ← D.getNNZ
  some (l.all (fun x => decide (x = nnz)) && D.all (fun M => decide ((M.m : Int) = m) && decide ((M.n : Int) = n)))

/-- Collecting and comparing lists and their dimensions, /repo/test/test_matrix_basics.cpp:67-81, 98-111. -/
def requireSameLists (sort : List (Edge E) → List (Edge E)) (eq : E → E → Bool) (k : Nat → Edge E) (w : Nat) (els els2 : List (EdgeList E)) :
    Option Bool := do
  let b ← compareCollected sort eq true k w els els2
  some (b && (els.zip els2).all (fun x => decide (x.1.m = x.2.m) && decide (x.1.n = x.2.n)))

/-- `matrix_test(E)` for `DCSCTile`, /repo/test/test_matrix_basics.cpp:41-118.  `SpMat` reorders the caller's lists. -/
def testMatrix (sort : List (Edge E) → List (Edge E)) (eq : E → E → Bool) (srt srt' srt'' : Sorts E) (gt gt' gt'' : Nat → Nat → Nat → TileFresh E)
    (k : Nat → Edge E) (w threads : Nat) (els : List (EdgeList E)) : Option Bool := do
  let els := els.map (EdgeList.sortWith sort)
  let el ← els[0]?
  let nrank := els.length
  let D ← DMat.ofEdges el.m.toNat el.n.toNat nrank nrank nrank partitionFn1d srt gt threads (els.map EdgeList.list)
  let els := (els.zip D.1).map (fun x => x.1.sortWith (fun _ => x.2))
  let all ← collectEdges k w els
  let a ← all[0]?
  let b1 ← requireSize D.2 a.nnz el.m el.n
  let oe ← gotEdges k D.2
  let b2 ← requireSameLists sort eq k w els oe
  let T ← DMat.transpose D.2 el.m.toNat el.n.toNat nrank nrank nrank partitionFn1d srt' gt' threads
  let b3 ← requireSize T a.nnz el.n el.m
  let TT ← DMat.transpose T el.n.toNat el.m.toNat nrank nrank nrank partitionFn1d srt'' gt'' threads
  let b4 ← requireSize TT a.nnz el.m el.n
  let oet ← gotEdges k TT
  let b5 ← requireSameLists sort eq k w els oet
  some (b1 && b2 && b3 && b4 && b5)

end GraphMat

import Verif.Model.MapReduce
import Verif.Model.SaveVec
import Verif.Model.SpMSpV
import Verif.Model.History
import Verif.Model.Snapshot
import Verif.Model.VecSnapshot
import Verif.Model.TestIO

/-!
# The tests of vectors, reductions, products and archives

Models /repo/test/test_vector.cpp, test_reduce.cpp, test_vector_serialization.cpp, test_spmv.cpp and test_matrix_serialization.cpp
(the last two for `DCSCTile`).  The sizes, indices and values of the tests are parameters.  A test gives `some true` if all its checks
succeed, `some false` if one fails, `none` if it has undefined behaviour.
-/
namespace GraphMat

variable {α E : Type}

/-! ### Vectors -/

/-- `REQUIRE(myvec.getNNZ() == k)`, e.g. /repo/test/test_vector.cpp:65. -/
def requireNNZ (d : DVec α) (k : Nat) : Option Bool := do
  let x ← d.getNNZ
  some (decide (x = k))

/-- `myvec.set(w, v)` for every pair of a list, e.g. /repo/test/test_vector.cpp:67-70; `g k` is the memory the `k`-th call may allocate. -/
def setEach (g : Nat → Nat → Nat → Fresh α) (ws : List (Nat × α)) (d : DVec α) : Option (DVec α) :=
  ws.zipIdx.foldlM (fun d x => (VecOp.set x.1.1 x.1.2).exec (g x.2) d) d

/-- "SpVec basic tests", /repo/test/test_vector.cpp:60-84, with `n` for 1000, `ws` for 1, 10, 200, 300, `u` for the last of them,
`one` and `two` for the values 1 and 2; `tiles_per_dim` is the number of ranks (/repo/include/GMDP/matrices/layouts.h:67-91). -/
def testSpVec (one two : α) (g : Nat → Nat → Nat → Fresh α) (gu ga : Nat → Nat → Fresh α) (n nrank : Nat) (ws : List Nat) (u : Nat) :
    Option Bool := do
  let tiles ← tilesPerDim 1 nrank
  let d ← DVec.new n tiles nrank
  let b0 ← requireNNZ d 0
  let d ← setEach g (ws.map (fun w => (w, one))) d
  let b1 ← requireNNZ d ws.length
  let d ← (VecOp.unset u).exec gu d
  let b2 ← requireNNZ d (ws.length - 1)
  let d ← (VecOp.setAll two).exec ga d
  let b3 ← requireNNZ d n
  let d ← d.clear
  let b4 ← requireNNZ d 0
  some (b0 && b1 && b2 && b3 && b4)

/-- `v1.set(w, v)` for every pair of a list, e.g. /repo/test/test_vector.cpp:88-91. -/
def Segment.setEach (g : Nat → Fresh α) (ws : List (Nat × α)) (s : Segment α) : Option (Segment α) :=
  ws.zipIdx.foldlM (fun s x => s.set (g x.2) x.1.1 x.1.2) s

/-- "DenseSegment basic tests", /repo/test/test_vector.cpp:86-96. -/
def testSegment (one : α) (g : Nat → Fresh α) (gu : Fresh α) (n : Nat) (ws : List Nat) (u : Nat) : Option Bool := do
  let s ← (Segment.new n).setEach g (ws.map (fun w => (w, one)))
  let k ← s.computeNnz
  let s ← s.unset gu u
  let k' ← s.computeNnz
  some (decide (k = ws.length) && decide (k' = ws.length - 1))

/-- The checks at the end of the tests of sending, /repo/test/test_vector.cpp:135-140, 187-205; `eq` compares values. -/
def requireEntries (eq : α → α → Bool) (ws : List (Nat × α)) (s : Segment α) : Option Bool := do
  let k ← s.computeNnz
  let oks ← ws.mapM (fun x => do
    let v ← s.get x.1
    some (eq v x.2))
  some (decide (k = ws.length) && oks.all id)

/-- A rank with `ts` threads and the next one with `tr` threads in the tests of sending, /repo/test/test_vector.cpp:100-141, 146-206:
the first sets the entries, checks their number, compresses and sends; the second checks that it has none and receives; then both
decompress and check. -/
def testSendPair (ser : Bool) (eq : α → α → Bool) (g : Nat → Fresh α) (gc gr : Fresh α) (n ts tr : Nat) (ws : List (Nat × α)) :
    Option Bool := do
  let r := Segment.new n
  let k0 ← r.computeNnz
  let s ← (Segment.new n).setEach g ws
  let k ← s.computeNnz
  let s ← s.compress ser ts gc
  let msg ← s.send ser
  let r ← r.recv ser tr gr msg
  let s ← s.decompress ser ts
  let r ← r.decompress ser tr
  let bs ← requireEntries eq ws s
  let br ← requireEntries eq ws r
  some (decide (k0 = 0) && decide (k = ws.length) && bs && br)

/-- "DenseSegment send/recv tests" (`ser = false`) and the serialized variant (`ser = true`) on all ranks,
/repo/test/test_vector.cpp:98-142, 144-208; rank `r` has `threads r` threads. -/
def testSend (ser : Bool) (eq : α → α → Bool) (g : Nat → Nat → Fresh α) (gc gr : Nat → Fresh α) (n nrank : Nat) (threads : Nat → Nat)
    (ws : List (Nat × α)) : Option Bool :=
  if nrank % 2 = 0 then do
    let oks ← (List.range (nrank / 2)).mapM (fun k =>
      testSendPair ser eq (g (2 * k)) (gc (2 * k)) (gr (2 * k + 1)) n (threads (2 * k)) (threads (2 * k + 1)) ws)
    some (oks.all id)
  else some true

/-! ### Reductions -/

/-- `mapdouble`, /repo/test/test_reduce.cpp:36: the value written, `none` on overflow; the element is not changed. -/
def mapDouble (a : Int) (_ : Option Int) : Option Int × Int := (cmul 2 a, a)

/-- `sumreduce`, /repo/test/test_reduce.cpp:37; `none` once a sum has overflowed. -/
def sumReduce (a b : Option Int) : Option Int := do
  let a ← a
  let b ← b
  cadd a b

/-- The sections of /repo/test/test_reduce.cpp:41-69 after the entries are there: `MapReduce` from 0 and the check of the result. -/
def requireSum (threads : Nat) (gm : Nat → Nat → Fresh Int) (tmp : Nat → Nat → Nat → Option Int) (d : DVec Int) (expected : Int) :
    Option Bool := do
  let r ← DVec.mapReduce threads gm mapDouble sumReduce tmp d (fun _ => some 0)
  let x ← r.2
  some (decide (x = expected))

/-- "mapreduce basic", /repo/test/test_reduce.cpp:41-51. -/
def testReduceAll (ga gm : Nat → Nat → Fresh Int) (tmp : Nat → Nat → Nat → Option Int) (threads n nrank : Nat) : Option Bool := do
  let tiles ← tilesPerDim 1 nrank
  let d ← DVec.new n tiles nrank
  let b0 ← requireNNZ d 0
  let d ← (VecOp.setAll 1).exec ga d
  let b ← requireSum threads gm tmp d (2 * n)
  some (b0 && b)

/-- "mapreduce empty", /repo/test/test_reduce.cpp:52-66. -/
def testReduceSome (g : Nat → Nat → Nat → Fresh Int) (gm : Nat → Nat → Fresh Int) (tmp : Nat → Nat → Nat → Option Int)
    (threads n nrank : Nat) (ws : List Nat) : Option Bool := do
  let tiles ← tilesPerDim 1 nrank
  let d ← DVec.new n tiles nrank
  let b0 ← requireNNZ d 0
  let d ← setEach g (ws.map (fun w => (w, 1))) d
  let b ← requireSum threads gm tmp d (2 * ws.length)
  some (b0 && b)

/-! ### Archives -/

/-- `myvec2.get(w, &val); if (myvec2.node_owner(w)) REQUIRE(val == v)` on one rank, /repo/test/test_vector_serialization.cpp:68-88. -/
def requireOwned (eq : α → α → Bool) (v : SpVec α) (x : Nat × α) : Option Bool := do
  let val ← v.get x.1
  let own ← nodeOwner v.n v.nseg v.nrank v.myrank x.1
  if own then do
    let val ← val
    some (eq val x.2)
  else some true

/-- /repo/test/test_vector_serialization.cpp:41-97. -/
def testVecArchive (eq : α → α → Bool) (two : α) (g : Nat → Nat → Nat → Fresh α) (gl : Nat → Nat → Nat → Nat → Fresh α)
    (ga : Nat → Nat → Fresh α) (n nrank : Nat) (ws : List (Nat × α)) : Option Bool := do
  let tiles ← tilesPerDim 1 nrank
  let d ← DVec.new n tiles nrank
  let b0 ← requireNNZ d 0
  let d ← setEach g ws d
  let d ← d.throughArchive gl
  let b1 ← requireNNZ d ws.length
  let oks ← (List.range d.size).mapM (fun r => do
    let v ← d.read r
    ws.mapM (requireOwned eq v))
  let d ← (VecOp.setAll two).exec ga d
  let b2 ← requireNNZ d n
  let d ← d.clear
  let b3 ← requireNNZ d 0
  some (b0 && b1 && oks.flatten.all id && b2 && b3)

/-- `matrix_serialization_test<DCSCTile<E>, E>(N)`, /repo/test/test_matrix_serialization.cpp:38-79: every rank saves its part of the matrix,
loads it, and compares the edges of both. -/
def testMatArchive (sort : List (Edge E) → List (Edge E)) (eq : E → E → Bool) (g : Nat → Nat → Edge E) (k : Nat → Edge E) (dist : Nat → Nat)
    (draws : Nat) (one : E) (srt : Sorts E) (gt gl : Nat → Nat → Nat → TileFresh E) (threads nrank n : Nat) : Option Bool := do
  let els ← generated g nrank (genRandom (g 0) dist draws one n 16)
  let el ← els[0]?
  let A ← DMat.ofEdges el.m.toNat el.n.toNat nrank nrank nrank partitionFn1d srt gt threads (els.map EdgeList.list)
  let oks ← (List.range nrank).mapM (fun r => do
    let M ← A.2[r]?
    let ar ← M.save []
    let L ← RMat.load (gl r) nrank r ar
    let es1 ← M.getEdges
    let es2 ← L.1.getEdges
    compareEdges sort eq (k r) M.m M.n es1 L.1.m L.1.n es2)
  some (oks.all id)

/-! ### Products -/

/-- The part of `generate_dense_vector_edgelist` on rank 0, /repo/test/generator.h:176-187. -/
def genVecDense (g : Nat → Edge E) (one : E) (n : Nat) : Option (EdgeList E) := do
  let el := EdgeList.alloc g n 1 n
  let a ← forLoop 0 n el.edges (fun i a => a.write i ⟨(i : Int) + 1, 1, one⟩)
  some { el with edges := a }

/-- The part of `generate_random_vector_edgelist` on rank 0, /repo/test/generator.h:191-219; `dist q` is what the `q`-th call of `dist(gen)`
gives.  `src` is written before the number is drawn in the code, here all three fields are written at once. -/
def genVecRandom (g : Nat → Edge E) (dist : Nat → Nat) (fuel : Nat) (one : E) (n nnz : Nat) : Option (EdgeList E) :=
  if n < nnz then genVecDense g one n else do
    let el := EdgeList.alloc g n 1 nnz
    let r ← forLoop 0 nnz (el.edges, 0) (fun j s => do
      let d ← drawDst dist s.1 0 j fuel s.2
      let a ← s.1.write j ⟨1, (d.1 : Int), one⟩
      some (a, d.2))
    let a ← forLoop 0 nnz r.1 (fun j a => do
      let e ← a.read j
      a.write j ⟨e.dst, e.src, e.val⟩)
    some { el with edges := a }

/-- `y.get_edges(&E3)` on every rank, /repo/test/test_spmv.cpp:64; the new list has `n` rows and one column
(/repo/include/GMDP/vectors/SpVec.h:122-124). -/
def gotVecEdges (k : Nat → Edge α) (d : DVec α) : Option (List (EdgeList α)) :=
  (List.range d.size).mapM (fun r => do
    let v ← d.read r
    let es ← v.getEdges
    some (gotList (k r) v.n 1 es))

/-- `create_spmv_identity_test<DCSCTile<E>, E>(N)`, /repo/test/test_spmv.cpp:38-83.  `mul` and `add` are `a*b` and `a+b`
(/repo/test/test_utils.h:167-171) of the type `E`. -/
def testSpmvIdentity (mul add : E → E → E) (sort : List (Edge E) → List (Edge E)) (eq : E → E → Bool) (g : Nat → Nat → Edge E)
    (k : Nat → Edge E) (w : Nat) (dist : Nat → Nat) (draws : Nat) (one : E) (srt : Sorts E) (gt : Nat → Nat → Nat → TileFresh E)
    (gm : Nat → Nat → Nat → Edge E) (gi : Nat → IngestFresh E) (env : MulEnv E E E) (threads nrank n : Nat) : Option Bool := do
  let e1 ← generated g nrank (genIdentity (g 0) one n)
  let el ← e1[0]?
  let A ← DMat.ofEdges el.m.toNat el.n.toNat nrank nrank nrank partitionFn1d srt gt threads (e1.map EdgeList.list)
  let v ← genVecRandom (g 0) dist draws one n (n / 10)
  let e2 := onRankZero g nrank v
  let x ← DVec.new n nrank nrank
  let x ← x.ingestEdgelist gm gi (e2.map EdgeList.list)
  let y ← DVec.new n nrank nrank
  let y ← y.clear
  let r ← A.2.spmspv env threads nrank (fun _ _ _ _ a b _ => mul a b) add x y
  let e3 ← gotVecEdges k r.2
  let b ← compareCollected sort eq true k w e3 e2
  let nx ← r.1.getNNZ
  let ny ← r.2.getNNZ
  some (decide (nx = ny) && b)

end GraphMat

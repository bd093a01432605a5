import Verif.Model.App
import Mathlib.Data.List.Sort

/-!
# Triangle counting

Models /repo/src/TriangleCounting.cpp.
-/
namespace GraphMat

/-- `class TC`, /repo/src/TriangleCounting.cpp:39-68.  `tri = none`: computing the field was undefined
(signed overflow). -/
structure TcV where
  /-- `id` -/
  id : Int
  /-- `triangles` -/
  tri : Option Int
  /-- `neighbors` -/
  nb : List Int
deriving DecidableEq

/-- The constructor, /repo/src/TriangleCounting.cpp:46-48: `id` is left uninitialised. -/
def TcV.new (garbage : Int) : TcV := ⟨garbage, some 0, []⟩

/-- `operator!=`, /repo/src/TriangleCounting.cpp:49-51. -/
def TcV.ne (a b : TcV) : Bool := decide (b.tri ≠ a.tri)

/-- `class GetNeighbors`, /repo/src/TriangleCounting.cpp:82-111.  `std::sort` on ints: any correct sort gives
the same list. -/
def neighborsProg : Program Unit Int (List Int) TcV Int where
  gp _ :=
    { order := .inn
      allVertices := true
      needsProp := false
      send := fun v _ => (true, v.id)
      process := fun msg _ _ _ => [msg]
      reduce := fun a b => a ++ b
      apply := fun u v => { v with nb := u.insertionSort (· ≤ ·) }
      ne := TcV.ne }
  every _ s := s

/-- The `while` loop of `CountTriangles::process_message`, /repo/src/TriangleCounting.cpp:133-142, on the parts
of the two vectors that are still ahead; every round advances in one of them, so that `fuel` rounds are enough
if it is at least the number of entries. -/
def mergeLoop : Nat → List Int → List Int → Nat
  | fuel + 1, x :: a, y :: b =>
    if x = y then mergeLoop fuel a b + 1
    else if x < y then mergeLoop fuel a (y :: b)
    else mergeLoop fuel (x :: a) b
  | _, _, _ => 0

/-- `CountTriangles::process_message`, /repo/src/TriangleCounting.cpp:127-144.  `none` if the size of a
vector does not fit the `int` it is stored in. -/
def countCommon (a b : List Int) : Option Int := do
  let _ ← ck (a.length : Int)
  let _ ← ck (b.length : Int)
  some (mergeLoop (a.length + b.length) a b)

/-- `class CountTriangles`, /repo/src/TriangleCounting.cpp:114-156; the receiver's property is used (the
default of `process_message_requires_vertexprop`). -/
def trianglesProg : Program Unit TcV (Option Int) TcV Int where
  gp _ :=
    { order := .out
      allVertices := true
      needsProp := true
      send := fun v _ => (true, v)
      process := fun msg _ v _ => countCommon msg.nb v.nb
      reduce := addInt
      apply := fun u v => { v with tri := addInt v.tri u }
      ne := TcV.ne }
  every _ s := s

/-- `return_triangles`, /repo/src/TriangleCounting.cpp:158-160; an overflowed count is read as 0 (the real
program has no meaning then). -/
def returnTriangles (v : TcV) (_ : BitVec 64) : BitVec 64 × TcV := (BitVec.ofInt 64 (v.tri.getD 0), v)

/-- The end of `run_triangle_counting`, /repo/src/TriangleCounting.cpp:194-195: the total. -/
def tcReport (gr : Nat → Nat → Fresh TcV) (tmp : Nat → Nat → Nat → BitVec 64) :
    RunOut (RunState Unit TcV (Option Int) TcV Int) → Option (RunOut (Graph TcV Int × BitVec 64))
  | .more st => some (.more (st.G, 0))
  | .done st => do
    let r ← st.G.toVGraph.applyReduceAllVertices gr returnTriangles (fun a b => a + b) tmp (fun _ => 0)
    some (.done ({ st.G with toVGraph := r.1 }, r.2))

/-- `run_triangle_counting` after the first run, /repo/src/TriangleCounting.cpp:186-195. -/
def tcMain (e2 : AppEnv TcV (Option Int) TcV) (tmp : Nat → Nat → Nat → BitVec 64) (ct : DVec TcV × DVec (Option Int))
    (fuel : Nat) : RunOut (RunState Unit Int (List Int) TcV Int) → Option (RunOut (Graph TcV Int × BitVec 64))
  | .more st => some (.more (st.G, 0))
  | .done st => do
    let o ← Graph.run e2.ie e2.env trianglesProg () 1 (some ct) st.G fuel
    tcReport e2.gr tmp o

/-- `run_triangle_counting(filename)` after `G.ReadMTX(filename)`, /repo/src/TriangleCounting.cpp:166-195; timing and
printing are left out. -/
def runTriangles (e1 : AppEnv Int (List Int) TcV) (e2 : AppEnv TcV (Option Int) TcV)
    (tmp : Nat → Nat → Nat → BitVec 64) (G : Graph TcV Int) (fuel : Nat) :
    Option (RunOut (Graph TcV Int × BitVec 64)) := do
  let gn ← G.newScratch e1.ie
  let ct ← G.newScratch e2.ie
  let G ← G.forVertices G.n (fun i vg => vg.updateOwned (e1.g i) (e1.gia i) (fun v => some ({ v with id := i }, false)) (i : Int))
  let o ← Graph.run e1.ie e1.env neighborsProg () 1 (some gn) G fuel
  tcMain e2 tmp ct fuel o

end GraphMat

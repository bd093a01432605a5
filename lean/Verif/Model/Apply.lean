import Verif.Model.SpVec

/-!
# Element-wise operations on segments and vectors

Models /repo/include/GMDP/singlenode/{apply,clear,intersectreduce,reduce}.h and the rank-local part
of /repo/include/GMDP/multinode/{apply,clear,intersectreduce,reduce}.h.  The OpenMP loops write a
different element in every iteration; here they run in index order (see `Props/Schedule.lean` for
arbitrary schedules).
User functions are pure functions; `void (*f)(const A&, B*, void*)` becomes `A → B → B`, the second
argument being the previous contents of the output location.
-/
namespace GraphMat

variable {α β γ : Type}

/-- `for i < num_ints: bv3[i] = f(bv1[i], bv2[i])`
(/repo/include/GMDP/singlenode/apply.h:40-44, /repo/include/GMDP/singlenode/intersectreduce.h:43-47). -/
def combineWords (f : Word → Word → Word) (bv1 bv2 bv3 : Arr Word) (numInts : Nat) :
    Option (Arr Word) :=
  forLoop 0 numInts bv3 (fun i bv3 => do
    let a ← bv1.read i
    let b ← bv2.read i
    bv3.write i (f a b))

/-- `apply_segment(s_in, s_out, add_fp, vsp)` for two different segments,
/repo/include/GMDP/singlenode/apply.h:36-72. -/
def applySegment (g : Fresh β) (f : α → β → β) (sIn : Segment α) (sOut : Segment β) :
    Option (Segment β) := do
  let sOut ← (sOut.alloc g).initialize
  let b1 ← sIn.props
  let b2 ← sOut.props
  let bits2 ← forLoop 0 sIn.numInts b2.bits (fun i bits2 => do
    let x ← bits2.read i
    let y ← b1.bits.read i
    bits2.write i (x ||| y))
  let nnz ← sumPopcnt b1.bits sIn.numInts
  let value2 ← forBits b1.bits 0 sIn.numInts b2.value (fun i v2 => do
    let tmp ← b1.value.read i
    let old ← v2.read i
    v2.write i (f tmp old))
  some { sOut with props := some { b2 with bits := bits2, value := value2, nnz := (nnz : Int) } }

/-- `apply_segment(s, s, add_fp, vsp)`: input and output are the same segment, as in
`Graph::applyToAllVertices` (/repo/include/Graph.h:371-374).
/repo/include/GMDP/singlenode/apply.h:36-72 with `v1 = v2` and `bitvector = bitvector2`. -/
def applySegmentSelf (g : Fresh α) (f : α → α → α) (s : Segment α) : Option (Segment α) := do
  let s ← (s.alloc g).initialize
  let b ← s.props
  let bits ← forLoop 0 s.numInts b.bits (fun i bits => do
    let x ← bits.read i
    let y ← bits.read i
    bits.write i (x ||| y))
  let nnz ← sumPopcnt bits s.numInts
  let value ← forBits bits 0 s.numInts b.value (fun i v => do
    let tmp ← v.read i
    let old ← v.read i
    v.write i (f tmp old))
  some { s with props := some { b with bits := bits, value := value, nnz := (nnz : Int) } }

/-- `Apply(v, v, add_fp, vsp)` on one rank, /repo/include/GMDP/multinode/apply.h:39-49. -/
def SpVec.applySelf (g : Nat → Fresh α) (f : α → α → α) (v : SpVec α) : Option (SpVec α) :=
  v.forOwned (fun j s => applySegmentSelf (g j) f s)

/-- `Apply(v_in, v_out, add_fp, vsp)` for two different vectors on one rank,
/repo/include/GMDP/multinode/apply.h:39-49. -/
def SpVec.apply (g : Nat → Fresh β) (f : α → β → β) (vIn : SpVec α) (vOut : SpVec β) :
    Option (SpVec β) :=
  forLoop 0 vIn.nseg vOut (fun j vOut => do
    let own ← vIn.owns j
    if own then
      let s ← vIn.segs.read j
      vOut.modifySeg j (applySegment (g j) f s)
    else some vOut)

/-- `clear_segment`, /repo/include/GMDP/singlenode/clear.h:41-44, and `Clear` on one rank,
/repo/include/GMDP/multinode/clear.h:40-49. -/
def SpVec.clear (v : SpVec α) : Option (SpVec α) :=
  v.forOwned (fun _ s => some s.setUninitialized)

/-- `intersect_segment(s1, s2, s3, op_fp, vsp)`,
/repo/include/GMDP/singlenode/intersectreduce.h:39-78. -/
def intersectSegment (g : Fresh γ) (op : α → β → γ → γ) (s1 : Segment α) (s2 : Segment β)
    (s3 : Segment γ) : Option (Segment γ) := do
  let s3 ← (s3.alloc g).initialize
  let b1 ← s1.props
  let b2 ← s2.props
  let b3 ← s3.props
  if !b1.uninit && !b2.uninit then
    let bits3 ← combineWords (· &&& ·) b1.bits b2.bits b3.bits s1.numInts
    let nnz ← sumPopcnt bits3 s1.numInts
    let value3 ← forBits bits3 0 s1.numInts b3.value (fun i v3 => do
      let x ← b1.value.read i
      let y ← b2.value.read i
      let old ← v3.read i
      v3.write i (op x y old))
    some { s3 with props := some { b3 with bits := bits3, value := value3, nnz := (nnz : Int) } }
  else some s3

/-- `IntersectReduce(veca, vecb, vecc, op_fp, vsp)` on one rank,
/repo/include/GMDP/multinode/intersectreduce.h:39-52. -/
def SpVec.intersectReduce (g : Nat → Fresh γ) (op : α → β → γ → γ) (va : SpVec α) (vb : SpVec β)
    (vc : SpVec γ) : Option (SpVec γ) :=
  forLoop 0 va.nseg vc (fun j vc => do
    let own ← va.owns j
    if own then
      let s1 ← va.segs.read j
      let s2 ← vb.segs.read j
      vc.modifySeg j (intersectSegment (g j) op s1 s2)
    else some vc)

end GraphMat

import Verif.Model.Segment

/-!
# Functions on one segment that the library defines and does not call
-/
namespace GraphMat

variable {α T : Type}

/-- `reduce_dense_segment`, /repo/include/GMDP/singlenode/reduce.h:36-48 (`res_set` is not used).  `op` is `op_fp`, whose output is its first
argument. -/
def reduceDense (op : α → α → α) (value : Arr α) (bits : Arr Word) (nnz : Nat) (res : α) : Option α :=
  forLoop 0 nnz res (fun i res => do
    let bit ← getBitvector i bits
    if bit then
      let v ← value.read i
      some (op res v)
    else some res)

/-- `reduce_segment`, /repo/include/GMDP/singlenode/reduce.h:101-106. -/
def reduceSegment (op : α → α → α) (s : Segment α) (res : α) : Option α := do
  let b ← s.props
  reduceDense op b.value b.bits s.capacity res

/-- `compute_nnz(start, finish)`, /repo/include/GMDP/vectors/DenseSegment.h:525-530. -/
def Segment.computeNnzRange (s : Segment α) (start finish : Nat) : Option Nat :=
  match s.props with
  | none => some 0
  | some b => if b.uninit then some 0 else b.computeNnzRange start finish

end GraphMat

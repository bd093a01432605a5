import Verif.Model.Compress
import Verif.Model.MapReduce
import Verif.Model.ApplyEdges
import Verif.Model.Apply
import Verif.Model.Formats
import Verif.Spec.Conc

/-!
# The parallel loops as tasks

The iterations of `omp parallel for` loops as programs that load and store single elements of the arrays involved, to
be run at the same time (`Spec/Conc.lean`).  All arrays are in memory, those that are only read too.  The sequential models
of the same loops are elsewhere (named at each definition); they decide whether an access is within the bounds.  The
loops of a superstep are in `Model/Tasks.lean`.
-/
namespace GraphMat

variable {Loc : Type} {W : Loc → Type} {E T U V α : Type}

/-! ### Bit vectors -/

/-- `get_bitvector(idx, bitvec)`, /repo/include/GMDP/utils/bitvector.h:58-64; `load` loads an element of `bitvec`. -/
def getBitC (load : Nat → Code Loc W Word) (idx : Nat) : Code Loc W Bool := do
  let cur ← load (idx >>> 5)
  pure (decide (cur &&& bitMask (idx &&& 0x1F) ≠ 0#32))

/-- `set_bitvector(idx, bitvec)`, /repo/include/GMDP/utils/bitvector.h:36-45; `load` and `store` access an element of
`bitvec`. -/
def setBitC (load : Nat → Code Loc W Word) (store : Nat → Word → Code Loc W Unit) (idx : Nat) : Code Loc W Unit := do
  let cur ← load (idx >>> 5)
  if cur &&& bitMask (idx &&& 0x1F) = 0#32 then store (idx >>> 5) (cur ||| bitMask (idx &&& 0x1F)) else pure ()

/-! ### Merging and expanding compressed segments -/

/-- The arrays of `union_compressed` and `decompress`: `v1`, `indices`, `v2`, `bv2`
(/repo/include/GMDP/singlenode/unionreduce.h:69-70) or `compressed_data`, `compressed_indices`, `value`, `bit_vector`
(/repo/include/GMDP/vectors/DenseSegment.h:81-100). -/
inductive SegArr where
  /-- `v1`, `compressed_data` -/
  | data
  /-- `indices`, `compressed_indices` -/
  | idx
  /-- `v2`, `value` -/
  | val
  /-- `bv2`, `bit_vector` -/
  | bits
deriving DecidableEq

/-- The types of the elements (/repo/include/GMDP/singlenode/unionreduce.h:69-70). -/
abbrev SegArr.Ty (α : Type) : SegArr → Type
  | .data => α
  | .idx => Nat
  | .val => α
  | .bits => Word

/-- Programs over these arrays (/repo/include/GMDP/singlenode/unionreduce.h:69-70). -/
abbrev SegCode (α β : Type) := Code (SegArr × Nat) (fun l => SegArr.Ty α l.1) β

/-- The arrays as a function of their names (/repo/include/GMDP/singlenode/unionreduce.h:69-70); `st` is the pair of the
two that are written. -/
def segA (data : Arr α) (idx : Arr Nat) (st : Arr α × Arr Word) : (k : SegArr) → Arr (SegArr.Ty α k)
  | .data => data
  | .idx => idx
  | .val => st.1
  | .bits => st.2

/-- `while((k < nnz) && (indices[k]/32 == indices[k-1]/32)) k++;`
(/repo/include/GMDP/singlenode/unionreduce.h:85, 87; sequential model: `adjustIdx`). -/
def adjustC : Nat → Nat → SegCode α Nat
  | 0, k => pure k
  | fuel + 1, k => do
    let a : Nat ← aload SegArr.idx k
    let b : Nat ← aload SegArr.idx (k - 1)
    if a / 32 = b / 32 then adjustC fuel (k + 1) else pure k

/-- One element of the merge loop, /repo/include/GMDP/singlenode/unionreduce.h:89-104 (sequential model: `mergeOne`). -/
def mergeC (add : α → α → α) (i : Nat) : SegCode α Unit := do
  let idx : Nat ← aload SegArr.idx i
  let bit ← getBitC (aload SegArr.bits) idx
  if bit then do
    let y : α ← aload SegArr.val idx
    let x : α ← aload SegArr.data i
    astore SegArr.val idx (add y x)
  else do
    setBitC (aload SegArr.bits) (astore (τ := SegArr.Ty α) SegArr.bits) idx
    let x : α ← aload SegArr.data i
    astore SegArr.val idx x

/-- Iteration `p` of the parallel loop of `union_compressed`, /repo/include/GMDP/singlenode/unionreduce.h:75-105 (sequential
model: `unionCompressed`). -/
def unionC (add : α → α → α) (np nnz p : Nat) : SegCode α Unit := do
  let per := (nnz + np - 1) / np
  let s := p * per
  let e := (p + 1) * per
  let e := if e > nnz then nnz else e
  let s ← (if s > 0 then adjustC (nnz - s) s else pure s)
  let e ← adjustC (nnz - e) e
  Code.for s e () (fun i _ => mergeC add i)

/-- Iteration `p` of the parallel loop of `decompress` for plain types,
/repo/include/GMDP/vectors/DenseSegment.h:284-294; `bounds` are `start_nnzs` and `end_nnzs` (sequential model:
`Buffer.decompress`). -/
def decompressC (bounds : List (Nat × Nat)) (p : Nat) : SegCode α Unit :=
  let se := bounds.getD p (0, 0)
  Code.for se.1 se.2 () (fun i _ => do
    let idx : Nat ← aload SegArr.idx i
    setBitC (aload SegArr.bits) (astore (τ := SegArr.Ty α) SegArr.bits) idx
    let x : α ← aload SegArr.data i
    astore SegArr.val idx x)

/-! ### Loops over the bits of a bit vector -/

/-- The loop pattern `for ii: if popcnt(bv[ii]) == 0 continue; for i in ii*32 .. (ii+1)*32: if get_bitvector(i, bv) body(i)`
with private variables `r` (/repo/include/GMDP/vectors/DenseSegment.h:393-405, /repo/include/GMDP/singlenode/apply.h:48-64;
sequential model: `forBits`). -/
def forBitsC {R : Type} (load : Nat → Code Loc W Word) (lo hi : Nat) (r : R) (body : Nat → R → Code Loc W R) :
    Code Loc W R :=
  Code.for lo hi r (fun ii r => do
    let w ← load ii
    if popcnt w = 0 then pure r
    else Code.for (ii * 32) ((ii + 1) * 32) r (fun i r => do
      let b ← getBitC load i
      if b then body i r else pure r))

/-! ### Compressing -/

/-- The arrays of `compress` for plain types (/repo/include/GMDP/vectors/DenseSegment.h:362-407). -/
inductive CmpArr where
  /-- `compressed_data` -/
  | cdata
  /-- `compressed_indices` -/
  | cidx
  /-- `value` -/
  | val
  /-- `bit_vector` -/
  | bits
  /-- `partition_nnz` -/
  | cnt
  /-- `partition_nnz_scan` -/
  | scan
deriving DecidableEq

/-- The types of the elements (/repo/include/GMDP/vectors/DenseSegment.h:362-407). -/
abbrev CmpArr.Ty (α : Type) : CmpArr → Type
  | .cdata => α
  | .cidx => Nat
  | .val => α
  | .bits => Word
  | .cnt => Nat
  | .scan => Nat

/-- Programs over these arrays (/repo/include/GMDP/vectors/DenseSegment.h:362-407). -/
abbrev CmpCode (α β : Type) := Code (CmpArr × Nat) (fun l => CmpArr.Ty α l.1) β

/-- The arrays as a function of their names (/repo/include/GMDP/vectors/DenseSegment.h:362-407). -/
def cmpA (val : Arr α) (bits : Arr Word) (cnt scan : Arr Nat) (st : Arr α × Arr Nat) :
    (k : CmpArr) → Arr (CmpArr.Ty α k)
  | .cdata => st.1
  | .cidx => st.2
  | .val => val
  | .bits => bits
  | .cnt => cnt
  | .scan => scan

/-- Iteration `p` of the first parallel loop of `compress`: count the bits of a partition,
/repo/include/GMDP/vectors/DenseSegment.h:368-375 with `compute_nnz(start, finish)` (lines 219-228; a parallel region inside
a parallel region is run by one thread).  Sequential model: the list `pnnz` in `Buffer.compress`. -/
def countC (numInts np p : Nat) : CmpCode α Unit := do
  let len : Nat ← Code.for (partLo numInts np p) (partHi numInts np p) 0 (fun ii len => do
    let w : Word ← aload CmpArr.bits ii
    pure (len + popcnt w))
  astore CmpArr.cnt p len

/-- Iteration `p` of the second parallel loop of `compress`: copy the elements of a partition,
/repo/include/GMDP/vectors/DenseSegment.h:385-406 (sequential model: the loop of `Buffer.compress`). -/
def copyC (numInts np p : Nat) : CmpCode α Unit := do
  let nzcnt : Nat ← aload CmpArr.scan p
  let _ ← forBitsC (aload CmpArr.bits) (partLo numInts np p) (partHi numInts np p) nzcnt (fun i (nz : Nat) => do
    let v : α ← aload CmpArr.val i
    astore CmpArr.cdata nz v
    astore CmpArr.cidx nz i
    pure (nz + 1))
  pure ()

/-! ### Reducing over a segment -/

/-- The arrays of `mapreduce_dense_segment` (/repo/include/GMDP/singlenode/reduce.h:52-57). -/
inductive RedArr where
  /-- `value` -/
  | val
  /-- `bitvector` -/
  | bits
  /-- `local_reduced` -/
  | red
  /-- `firstSet` -/
  | first
deriving DecidableEq

/-- The types of the elements (/repo/include/GMDP/singlenode/reduce.h:52-57). -/
abbrev RedArr.Ty (V T : Type) : RedArr → Type
  | .val => V
  | .bits => Word
  | .red => T
  | .first => Bool

/-- Programs over these arrays (/repo/include/GMDP/singlenode/reduce.h:52-57). -/
abbrev RedCode (V T β : Type) := Code (RedArr × Nat) (fun l => RedArr.Ty V T l.1) β

/-- The arrays as a function of their names (/repo/include/GMDP/singlenode/reduce.h:52-57). -/
def redA (val : Arr V) (bits : Arr Word) (red : Arr T) (first : Arr Bool) : (k : RedArr) → Arr (RedArr.Ty V T k)
  | .val => val
  | .bits => bits
  | .red => red
  | .first => first

/-- Iteration `p` of the parallel loop of `mapreduce_dense_segment`, /repo/include/GMDP/singlenode/reduce.h:59-86 (sequential
model: `mapReducePart`).  `map` gets the property and the contents `tmp i` of the uninitialised `temp_result2` and returns
the new contents of both. -/
def mapReduceC (map : V → T → T × V) (op : T → T → T) (tmp : Nat → T) (threads nnz p : Nat) : RedCode V T Unit := do
  astore RedArr.first (p * 16) false
  let per := (nnz + threads - 1) / threads
  Code.for (min (per * p) nnz) (min (per * (p + 1)) nnz) () (fun i _ => do
    let bit ← getBitC (aload RedArr.bits) i
    if bit then do
      let v : V ← aload RedArr.val i
      astore RedArr.val i (map v (tmp i)).2
      let f : Bool ← aload RedArr.first (p * 16)
      if f then do
        let t : T ← aload RedArr.red (p * 16)
        astore RedArr.red (p * 16) (op t (map v (tmp i)).1)
      else do
        astore RedArr.red (p * 16) (map v (tmp i)).1
        astore RedArr.first (p * 16) true
    else pure ())

end GraphMat

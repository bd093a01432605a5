import Verif.Model.Mem

/-!
# Bit vectors

Models /repo/include/GMDP/utils/bitvector.h and the bit intrinsics used with it
(`_popcnt32`, `_bit_scan_forward`).  Words are 32-bit vectors.
-/
namespace GraphMat

/-- A word of a bit vector (`int` reinterpreted as `unsigned int`,
/repo/include/GMDP/utils/bitvector.h:40). -/
abbrev Word := BitVec 32

/-- The mask `1 << bit`, /repo/include/GMDP/utils/bitvector.h:41. -/
def bitMask (bit : Nat) : Word := 1#32 <<< bit

/-- `set_bitvector(idx, bitvec)`, /repo/include/GMDP/utils/bitvector.h:36-45. -/
def setBitvector (idx : Nat) (bv : Arr Word) : Option (Arr Word) := do
  let dword := idx >>> 5
  let bit := idx &&& 0x1F
  let cur ← bv.read dword
  if cur &&& bitMask bit = 0#32 then
    bv.write dword (cur ||| bitMask bit)
  else
    some bv

/-- `clear_bitvector(idx, bitvec)`, /repo/include/GMDP/utils/bitvector.h:47-56. -/
def clearBitvector (idx : Nat) (bv : Arr Word) : Option (Arr Word) := do
  let dword := idx >>> 5
  let bit := idx &&& 0x1F
  let cur ← bv.read dword
  if cur &&& bitMask bit ≠ 0#32 then
    bv.write dword (cur ^^^ bitMask bit)
  else
    some bv

/-- `get_bitvector(idx, bitvec)`, /repo/include/GMDP/utils/bitvector.h:58-64. -/
def getBitvector (idx : Nat) (bv : Arr Word) : Option Bool := do
  let dword := idx >>> 5
  let bit := idx &&& 0x1F
  let cur ← bv.read dword
  some (decide (cur &&& bitMask bit ≠ 0#32))

/-- `_popcnt32` (documented lane semantics: number of one bits), used at
/repo/include/GMDP/vectors/DenseSegment.h:213. -/
def popcnt (w : Word) : Nat := ((List.range 32).filter (fun i => w.getLsbD i)).length

/-- `_bit_scan_forward(w)` for `w ≠ 0` (index of the lowest one bit), used at
/repo/include/GraphMatRuntime.h:205; `none` = undefined (argument zero). -/
def bitScanForward (w : Word) : Option Nat := (List.range 32).find? (fun i => w.getLsbD i)

/-- `memset(bit_vector, 0, num_ints*sizeof(int))`,
/repo/include/GMDP/singlenode/clear.h:37-39. -/
def memsetZero (numInts : Nat) (bv : Arr Word) : Option (Arr Word) :=
  forLoop 0 numInts bv (fun i bv => bv.write i 0#32)

/-- The loop pattern over the set bits of a bit vector shared by
/repo/include/GMDP/singlenode/apply.h:49-64, /repo/include/GMDP/singlenode/intersectreduce.h:52-66
and /repo/include/GMDP/vectors/DenseSegment.h:393-405:
`for ii < num_ints: if popcnt(bv[ii]) == 0 continue; for i in ii*32 .. (ii+1)*32:
if get_bitvector(i, bv) body(i)`, for words `lo .. hi`.  The body does not write `bv`. -/
def forBits {σ : Type} (bv : Arr Word) (lo hi : Nat) (s : σ) (body : Nat → σ → Option σ) :
    Option σ :=
  forLoop lo hi s (fun ii s => do
    let w ← bv.read ii
    if popcnt w = 0 then some s
    else forLoop (ii * 32) ((ii + 1) * 32) s (fun i s => do
      let b ← getBitvector i bv
      if b then body i s else some s))

/-- The accumulation `tmp_nnz += _popcnt32(bv[ii])` over `ii < num_ints`
(/repo/include/GMDP/singlenode/apply.h:47-55, /repo/include/GMDP/singlenode/intersectreduce.h:50-57;
written as a loop of its own). -/
def sumPopcnt (bv : Arr Word) (numInts : Nat) : Option Nat :=
  forLoop 0 numInts 0 (fun ii acc => do
    let w ← bv.read ii
    some (acc + popcnt w))

end GraphMat

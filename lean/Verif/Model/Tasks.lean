import Verif.Model.Runtime
import Verif.Spec.Par

/-!
# The parallel loops, access by access

The `omp parallel for` loops that a superstep runs on one rank, each iteration written as the list of its
accesses to memory that some iteration of the same loop writes.  Arrays that no iteration of the loop writes (the
matrix tile, `x`, and so on) are read as constants.  Loading and storing one element (a value or a 32-bit word) is
one access.  The `reduction(+)` counters of these loops are private to the threads and left out.
-/
namespace GraphMat

variable {E T U V : Type}

/-- The memory written by the product loops: elements of `yvalue` and words of `ybit_vector`
(/repo/include/GMDP/singlenode/spmspv.h:43-44). -/
inductive YLoc where
  /-- `yvalue[i]` -/
  | val (i : Nat)
  /-- `ybit_vector[i]` -/
  | word (i : Nat)
deriving DecidableEq

/-- The type stored at a location (/repo/include/GMDP/singlenode/spmspv.h:42-43). -/
abbrev YLoc.W (U : Type) : YLoc → Type
  | .val _ => U
  | .word _ => Word

/-- The memory of a pair (`yvalue`, `ybit_vector`), /repo/include/GMDP/singlenode/spmspv.h:42-43. -/
def yMem (st : Arr U × Arr Word) : (l : YLoc) → YLoc.W U l
  | .val i => st.1.get i
  | .word i => st.2.get i

/-- Registers of the product loop: the word loaded by `get_bitvector`, the word loaded by `set_bitvector`
(/repo/include/GMDP/utils/bitvector.h:40, 62) and the loaded `yvalue[row_ind]`. -/
structure YReg (U : Type) where
  /-- loaded by `get_bitvector` -/
  cur : Word
  /-- loaded by `set_bitvector` -/
  nxt : Word
  /-- loaded from `yvalue` -/
  y : U

/-- The result of `get_bitvector(row_ind, ybit_vector)`, /repo/include/GMDP/utils/bitvector.h:62-63. -/
def YReg.hit (row : Nat) (s : YReg U) : Bool := decide (s.cur &&& bitMask (row &&& 0x1F) ≠ 0#32)

/-- The body of the innermost loop of `my_spmspv`, /repo/include/GMDP/singlenode/spmspv.h:67-78
(`get_bitvector`, then either `op_add` on `yvalue[row_ind]` or a store and `set_bitvector`,
/repo/include/GMDP/utils/bitvector.h:36-64); `temp` is `temp_mul_result`. -/
def mulAddActs (add : U → U → U) (temp : U) (row : Nat) : List (Act YLoc (YLoc.W U) (YReg U)) :=
  [ .read (fun _ => true) (.word (row >>> 5)) (fun s w => { s with cur := w }),
    .read (fun s => s.hit row) (.val row) (fun s y => { s with y := y }),
    .write (fun _ => true) (.val row) (fun s => if s.hit row then add s.y temp else temp),
    .read (fun s => !s.hit row) (.word (row >>> 5)) (fun s w => { s with nxt := w }),
    .write (fun s => !s.hit row && decide (s.nxt &&& bitMask (row &&& 0x1F) = 0#32)) (.word (row >>> 5))
      (fun s => s.nxt ||| bitMask (row &&& 0x1F)) ]

/-- The body of the innermost loop of `my_spmspv3`, /repo/include/GMDP/singlenode/spmspv3.h:66-82; `mul` is
`op_mul` applied to the edge, the message and the property of the receiving vertex, `old` the content of the
uninitialised `tmp_mul`. -/
def mulAdd3Acts (mul : U → U) (add : U → U → U) (old : U) (row : Nat) : List (Act YLoc (YLoc.W U) (YReg U)) :=
  [ .read (fun _ => true) (.word (row >>> 5)) (fun s w => { s with cur := w }),
    .read (fun _ => true) (.val row) (fun s y => { s with y := y }),
    .write (fun _ => true) (.val row) (fun s => if s.hit row then add s.y (mul old) else mul s.y),
    .read (fun s => !s.hit row) (.word (row >>> 5)) (fun s w => { s with nxt := w }),
    .write (fun s => !s.hit row && decide (s.nxt &&& bitMask (row &&& 0x1F) = 0#32)) (.word (row >>> 5))
      (fun s => s.nxt ||| bitMask (row &&& 0x1F)) ]

/-- The entries that partition `p` visits, in order: index, row, edge value, message
(/repo/include/GMDP/singlenode/spmspv.h:50-66, /repo/include/GMDP/singlenode/spmspv3.h:48-66).  All of it depends
only on arrays that the loop does not write. -/
def Tile.visits (t : Tile E) (xv : Arr T) (xb : Arr Word) (p : Nat) : Option (List (Nat × Nat × E × T)) := do
  let c0 ← t.cs.read p
  let e0 ← t.ep.read p
  let c1 ← t.cs.read (p + 1)
  let ls ← (List.range' 0 (c1 - c0 - 1 - 0)).mapM (fun j => do
    let col ← t.colIdx.read (c0 + j)
    let bit ← getBitvector col xb
    if bit then
      let x ← xv.read col
      let a ← t.colPtrs.read (c0 + j)
      let b ← t.colPtrs.read (c0 + j + 1)
      (List.range' a (b - a)).mapM (fun nz => do
        let row ← t.rowInds.read (e0 + nz)
        let v ← t.vals.read (e0 + nz)
        some (nz, row, v, x))
    else some [])
  some ls.flatten

/-- The parallel loop of `my_spmspv`, one task per partition, /repo/include/GMDP/singlenode/spmspv.h:48-80
(no accesses if the tile is malformed; `Tile.spmspv` is `none` then). -/
def Tile.spmspvTasks (t : Tile E) (tmp : Nat → Nat → U) (mul : Nat → Nat → E → T → U → U) (add : U → U → U)
    (xv : Arr T) (xb : Arr Word) (p : Nat) : List (Act YLoc (YLoc.W U) (YReg U)) :=
  if p < t.np then
    ((t.visits xv xb p).getD []).flatMap (fun v => mulAddActs add (mul p v.1 v.2.2.1 v.2.2.2 (tmp p v.1)) v.2.1)
  else []

/-- The parallel loop of `my_spmspv3`, one task per partition, /repo/include/GMDP/singlenode/spmspv3.h:47-84.
`vv` is the array of vertex properties. -/
def Tile.spmspv3Tasks (t : Tile E) (tmp : Nat → Nat → U) (mul : E → T → V → U → U) (add : U → U → U)
    (xv : Arr T) (xb : Arr Word) (vv : Arr V) (p : Nat) : List (Act YLoc (YLoc.W U) (YReg U)) :=
  if p < t.np then
    ((t.visits xv xb p).getD []).flatMap
      (fun v => mulAdd3Acts (mul v.2.2.1 v.2.2.2 (vv.get v.2.1)) add (tmp p v.1) v.2.1)
  else []

/-- The memory written by the apply loop: vertex properties, values of `active`, words of its bit vector
(/repo/include/GraphMatRuntime.h:212-218). -/
inductive ALoc where
  /-- `vpValueArray[idx]` -/
  | prop (i : Nat)
  /-- `g.active->..->value[idx]` -/
  | flag (i : Nat)
  /-- word of `g.active->..->bit_vector` -/
  | word (i : Nat)
deriving DecidableEq

/-- The type stored at a location (/repo/include/GraphMatRuntime.h:212-218). -/
abbrev ALoc.W (V : Type) : ALoc → Type
  | .prop _ => V
  | .flag _ => Bool
  | .word _ => Word

/-- The memory of the state of the apply loop (without `local_converged`),
/repo/include/GraphMatRuntime.h:199-221. -/
def aMem (st : Arr V × Arr Bool × Arr Word × Bool) : (l : ALoc) → ALoc.W V l
  | .prop i => st.1.get i
  | .flag i => st.2.1.get i
  | .word i => st.2.2.1.get i

/-- Local variables of an iteration of the apply loop: `old_prop`, the property loaded for the comparison, the word
loaded by `set_bitvector` and the private copy of `local_converged` (/repo/include/GraphMatRuntime.h:200-217). -/
structure AReg (V : Type) where
  /-- `old_prop` -/
  old : V
  /-- the new property, loaded for `old_prop != vpValueArray[idx]` -/
  new : V
  /-- loaded by `set_bitvector` -/
  nxt : Word
  /-- private `local_converged` -/
  conv : Bool

/-- One vertex of the apply loop, /repo/include/GraphMatRuntime.h:208-218; `u` is the reduced message.
`local_converged = 0` is written together with the load for the comparison. -/
def applyActs (gp : GProg T U V E) (u : U) (idx : Nat) : List (Act ALoc (ALoc.W V) (AReg V)) :=
  [ .read (fun _ => true) (.prop idx) (fun s v => { s with old := v }),
    .write (fun _ => true) (.prop idx) (fun s => gp.apply u s.old),
    .read (fun _ => true) (.prop idx) (fun s v => { s with new := v, conv := s.conv && !gp.ne s.old v }),
    .write (fun s => gp.ne s.old s.new) (.flag idx) (fun _ => true),
    .read (fun s => gp.ne s.old s.new) (.word (idx >>> 5)) (fun s w => { s with nxt := w }),
    .write (fun s => gp.ne s.old s.new && decide (s.nxt &&& bitMask (idx &&& 0x1F) = 0#32))
      (.word (idx >>> 5)) (fun s => s.nxt ||| bitMask (idx &&& 0x1F)) ]

/-- The vertices visited by iteration `i` of the apply loop: the bits of the word, lowest first
(/repo/include/GraphMatRuntime.h:202-206, 220). -/
def wordBits (w : Word) (i : Nat) : List Nat := ((List.range 32).filter (fun j => w.getLsbD j)).map (fun j => i * 32 + j)

/-- The parallel apply loop, one task per word of the bit vector of `y`,
/repo/include/GraphMatRuntime.h:200-222. -/
def applyTasks (gp : GProg T U V E) (yv : Arr U) (yb : Arr Word) (numInts i : Nat) :
    List (Act ALoc (ALoc.W V) (AReg V)) :=
  if i < numInts then (wordBits (yb.get i) i).flatMap (fun idx => applyActs gp (yv.get idx) idx) else []

/-- The parallel loop that combines two bit vectors, one task per word,
/repo/include/GMDP/singlenode/intersectreduce.h:43-47. -/
def combineTasks (f : Word → Word → Word) (bv1 bv2 : Arr Word) (numInts i : Nat) :
    List (Act YLoc (YLoc.W U) (YReg U)) :=
  if i < numInts then [.write (fun _ => true) (.word i) (fun _ => f (bv1.get i) (bv2.get i))] else []

/-- The parallel loop that computes the values, one task per word of the result's bit vector (which this loop does
not write), /repo/include/GMDP/singlenode/intersectreduce.h:51-66. -/
def intersectTasks (op : Nat → U → U) (bv3 : Arr Word) (numInts i : Nat) :
    List (Act YLoc (YLoc.W U) (YReg U)) :=
  if i < numInts then (wordBits (bv3.get i) i).flatMap (fun idx =>
    [ .read (fun _ => true) (.val idx) (fun s y => { s with y := y }),
      .write (fun _ => true) (.val idx) (fun s => op idx s.y) ])
  else []

/-! ### `DenseSegment::set` called from several threads -/

/-- The memory that `set` of an initialised segment touches, /repo/include/GMDP/vectors/DenseSegment.h:600-607. -/
inductive SLoc where
  /-- `properties->value[i]` -/
  | val (i : Nat)
  /-- `properties->bit_vector[i]` -/
  | word (i : Nat)
  /-- `properties->nnz` -/
  | nnz
  /-- `properties->uninitialized` -/
  | uninit
deriving DecidableEq

/-- The type stored at a location (/repo/include/GMDP/vectors/DenseSegment.h:81-100). -/
abbrev SLoc.W (V : Type) : SLoc → Type
  | .val _ => V
  | .word _ => Word
  | .nnz => Int
  | .uninit => Bool

/-- The memory of the buffer of a segment, /repo/include/GMDP/vectors/DenseSegment.h:81-100. -/
def bufMem (b : Buffer V) : (l : SLoc) → SLoc.W V l
  | .val i => b.value.get i
  | .word i => b.bits.get i
  | .nnz => b.nnz
  | .uninit => b.uninit

/-- Registers of `set`: the words loaded by `get_bitvector` and `set_bitvector` and the loaded `nnz`
(/repo/include/GMDP/vectors/DenseSegment.h:603-605). -/
structure SReg where
  /-- loaded by `get_bitvector` -/
  cur : Word
  /-- loaded by `set_bitvector` -/
  nxt : Word
  /-- loaded from `nnz` -/
  cnt : Int

/-- `set(i + 1, v)` on a segment that is allocated and initialised,
/repo/include/GMDP/vectors/DenseSegment.h:603-606. -/
def setActs (v : V) (i : Nat) : List (Act SLoc (SLoc.W V) SReg) :=
  [ .read (fun _ => true) (.word (i >>> 5)) (fun s w => { s with cur := w }),
    .read (fun s => decide (s.cur &&& bitMask (i &&& 0x1F) = 0#32)) .nnz (fun s k => { s with cnt := k }),
    .write (fun s => decide (s.cur &&& bitMask (i &&& 0x1F) = 0#32)) .nnz (fun s => s.cnt + 1),
    .write (fun _ => true) (.val i) (fun _ => v),
    .read (fun _ => true) (.word (i >>> 5)) (fun s w => { s with nxt := w }),
    .write (fun s => decide (s.nxt &&& bitMask (i &&& 0x1F) = 0#32)) (.word (i >>> 5))
      (fun s => s.nxt ||| bitMask (i &&& 0x1F)),
    .write (fun _ => true) .uninit (fun _ => false) ]

/-- The place of vertex `v` in the bit vector of `active` on one rank (one segment, starting at 0): `setActive`
passes `vertexToNative(v, 1, n)` to `set`, which subtracts one (/repo/include/Graph.h:282-286,
/repo/include/GMDP/vectors/SpVec.h:310-318, /repo/include/GMDP/vectors/DenseSegment.h:603-605). -/
def placeOf (threads n : Nat) (v : Nat) : Option Nat := do
  let w ← vertexToNative threads 1 n v
  natIdx (w - 1)

/-- The part of the parallel loop of `run_topsort` that marks vertices, /repo/src/TopologicalSort.cpp:157-167, on one
rank, one task per vertex `1 .. n`: `setActive(i)` on the vertices without incoming edges (`source`).  (The stores
of the vertex property, to the vertex's own element, are left out.) -/
def markTasks (threads n : Nat) (source : Nat → Bool) (v : Nat) : List (Act SLoc (SLoc.W Bool) SReg) :=
  if 1 ≤ v ∧ v ≤ n ∧ source v = true then
    match placeOf threads n v with
    | some i => setActs true i
    | none => []
  else []

end GraphMat

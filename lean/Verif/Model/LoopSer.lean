import Verif.Model.Loops

/-!
# Packing and unpacking serialized messages as tasks

The three parallel loops of `compress()` and `decompress()` for types that derive from `Serializable`
(/repo/include/GMDP/vectors/DenseSegment.h:230-256, 299-358) as programs over single elements (see `Model/Loops.lean`).  The
bytes of an archive are described by `ByteArchive`.  The sequential models are `Buffer.compressSer` and
`Buffer.decompressSer`, where the contents of an archive are a list of pairs.
-/
namespace GraphMat

variable {α : Type}

/-- A byte. `serialized_data` is an array of them (/repo/include/GMDP/vectors/DenseSegment.h:95). -/
abbrev Byte := BitVec 8

/-- What `boost::archive::binary_oarchive` and `binary_iarchive` do with the bytes of a stream
(/repo/include/GMDP/vectors/DenseSegment.h:246-253, 315-327).  The bytes of an element may depend on what the archive
contains already (boost writes class information once). -/
structure ByteArchive (α : Type) where
  /-- what the constructor of the output archive writes -/
  head : List Byte
  /-- what `oa << i; oa << v` write after the given pairs have been written -/
  put : List (Nat × α) → Nat → α → List Byte
  /-- the pair that the `k`-th `ia >> idx; ia >> value` finds in a stream with these bytes -/
  get : List Byte → Nat → Nat × α

/-- The bytes of an archive with the given pairs, written one after the other
(/repo/include/GMDP/vectors/DenseSegment.h:315-327). -/
def ByteArchive.bytes (ar : ByteArchive α) (l : List (Nat × α)) : List Byte :=
  (l.foldl (fun (st : List (Nat × α) × List Byte) e => (st.1 ++ [e], st.2 ++ ar.put st.1 e.1 e.2)) ([], ar.head)).2

/-- The arrays of the two functions (/repo/include/GMDP/vectors/DenseSegment.h:81-100, 235, 303-305). -/
inductive SerArr where
  /-- `value` -/
  | val
  /-- `bit_vector` -/
  | bits
  /-- `sss` -/
  | strm
  /-- `serialized_partition_nnz` -/
  | nnz
  /-- `serialized_partition_nbytes` -/
  | nbytes
  /-- `serialized_partition_nnz_scan` -/
  | nscan
  /-- `serialized_partition_nbytes_scan` -/
  | bscan
  /-- `serialized_data` -/
  | data
deriving DecidableEq

/-- The types of the elements; a stream holds the bytes that have been written and not yet read
(/repo/include/GMDP/vectors/DenseSegment.h:81-100, 235, 303-305). -/
abbrev SerArr.Ty (α : Type) : SerArr → Type
  | .val => α
  | .bits => Word
  | .strm => List Byte
  | .nnz => Nat
  | .nbytes => Nat
  | .nscan => Nat
  | .bscan => Nat
  | .data => Byte

/-- Programs over these arrays (/repo/include/GMDP/vectors/DenseSegment.h:81-100, 235, 303-305). -/
abbrev SerCode (α β : Type) := Code (SerArr × Nat) (fun l => SerArr.Ty α l.1) β

/-- All arrays (/repo/include/GMDP/vectors/DenseSegment.h:81-100, 235, 303-305). -/
structure SerMem (α : Type) where
  /-- `value` -/
  val : Arr α
  /-- `bit_vector` -/
  bits : Arr Word
  /-- `sss` -/
  strm : Arr (List Byte)
  /-- `serialized_partition_nnz` -/
  nnz : Arr Nat
  /-- `serialized_partition_nbytes` -/
  nbytes : Arr Nat
  /-- `serialized_partition_nnz_scan` -/
  nscan : Arr Nat
  /-- `serialized_partition_nbytes_scan` -/
  bscan : Arr Nat
  /-- `serialized_data` -/
  data : Arr Byte

/-- The arrays as a function of their names (/repo/include/GMDP/vectors/DenseSegment.h:81-100, 235, 303-305). -/
def serA (s : SerMem α) : (k : SerArr) → Arr (SerArr.Ty α k)
  | .val => s.val
  | .bits => s.bits
  | .strm => s.strm
  | .nnz => s.nnz
  | .nbytes => s.nbytes
  | .nscan => s.nscan
  | .bscan => s.bscan
  | .data => s.data

/-- Iteration `p` of the first parallel loop of `compress`, /repo/include/GMDP/vectors/DenseSegment.h:308-336 (sequential
model: the lists `parts` of `Buffer.compressSer`).  The pairs written so far are part of the state of the archive `oa`, which
is private. -/
def packC (ar : ByteArchive α) (numInts np p : Nat) : SerCode α Unit := do
  astore SerArr.nnz p (0 : Nat)
  let s : List Byte ← aload SerArr.strm p
  astore SerArr.strm p (s ++ ar.head)
  let _ ← forBitsC (aload (τ := SerArr.Ty α) SerArr.bits) (partLo numInts np p) (partHi numInts np p) ([] : List (Nat × α))
    (fun i done => do
      let v : α ← aload SerArr.val i
      let s : List Byte ← aload SerArr.strm p
      astore SerArr.strm p (s ++ ar.put done i v)
      let k : Nat ← aload SerArr.nnz p
      astore SerArr.nnz p (k + 1 : Nat)
      pure (done ++ [(i, v)]))
  let s : List Byte ← aload SerArr.strm p
  astore SerArr.nbytes p s.length

/-- Iteration `p` of the second parallel loop of `compress`, `sss[p].read(serialized_data + scan[p], nbytes[p])`,
/repo/include/GMDP/vectors/DenseSegment.h:348-352. -/
def flushC (p : Nat) : SerCode α Unit := do
  let off : Nat ← aload SerArr.bscan p
  let n : Nat ← aload SerArr.nbytes p
  let s : List Byte ← aload SerArr.strm p
  Code.for 0 n () (fun k _ => astore SerArr.data (off + k) (s.getD k 0#8))
  astore SerArr.strm p (s.drop n)

/-- Iteration `p` of the parallel loop of `decompress`, /repo/include/GMDP/vectors/DenseSegment.h:237-254 (sequential model:
`Buffer.decompressSer`).  `start_i` and `end_i` are not used. -/
def unpackC (ar : ByteArchive α) (p : Nat) : SerCode α Unit := do
  let a : Nat ← aload SerArr.bscan p
  let b : Nat ← aload SerArr.bscan (p + 1)
  let bytes : List Byte ← Code.for a b ([] : List Byte) (fun k acc => do
    let x : Byte ← aload SerArr.data k
    pure (acc ++ [x]))
  let s : List Byte ← aload SerArr.strm p
  astore SerArr.strm p (s ++ bytes)
  let c0 : Nat ← aload SerArr.nscan p
  let c1 : Nat ← aload SerArr.nscan (p + 1)
  let s : List Byte ← aload SerArr.strm p
  Code.for 0 (c1 - c0) () (fun i _ => do
    let e := ar.get s i
    astore SerArr.val e.1 e.2
    setBitC (aload SerArr.bits) (astore (τ := SerArr.Ty α) SerArr.bits) e.1)

end GraphMat

import Verif.Model.SegMem

/-!
# Lives of vectors

What a program does with vectors on one rank: creating them, changing and reading segments, exchanging segments with other
ranks, and deleting them.
-/
namespace GraphMat

/-- What happens to a segment. -/
inductive SegAct where
  /-- entries are written -/
  | write
  /-- entries are read -/
  | read
  /-- the segment is compressed and sent, as `kind` -/
  | ship (kind : MsgKind)
  /-- the segment is received from its owner and decompressed; the message was made with `parts` partitions -/
  | fetch (kind : MsgKind) (parts : Nat)
  /-- contributions of other ranks are received, added and dropped -/
  | collect (msgs : List (MsgKind × Nat))
  /-- the segment is cleared -/
  | clear

/-- The calls for what happens to a segment; the order of the calls is that of /repo/include/GMDP/multinode/spmspv.h:61-206. -/
def SegAct.run (threads : Nat) : SegAct → SegMem → HeapM SegMem
  | .write, s => s.write threads
  | .read, s => do
    s.read
    pure s
  | .ship kind, s => do
    let s ← s.compress threads kind
    s.send kind
    pure s
  | .fetch kind parts, s => do
    let s ← s.recvNnz threads
    let s ← s.recvSegment kind parts
    s.decompress kind
    pure s
  | .collect msgs, s => do
    let s := msgs.foldl (fun s m => s.recvNnzQueue m.1 m.2) s
    let s ← msgs.foldlM (fun s _ => s.recvSegmentQueue threads) s
    let s ← s.unionReceived threads
    s.setUninitReceived
  | .clear, s => s.setUninit

/-- All messages were made with at most `parts` partitions. -/
def SegAct.Fits (parts : Nat) : SegAct → Prop
  | .fetch _ k => k ≤ parts
  | .collect msgs => ∀ m ∈ msgs, m.2 ≤ parts
  | _ => True

/-- The number of messages received at once. -/
def SegAct.load : SegAct → Nat
  | .collect msgs => msgs.length
  | _ => 0

/-- Does the segment have its own buffer afterwards, whatever was before? -/
def SegAct.allocates : SegAct → Bool
  | .read => false
  | .clear => false
  | _ => true

/-- One segment through a list of actions. -/
def runSegActs (threads : Nat) : List SegAct → SegMem → HeapM SegMem
  | [], s => pure s
  | a :: as, s => do
    let s ← a.run threads s
    runSegActs threads as s

/-- One step of a program with vectors. -/
inductive VecStep where
  /-- a new vector; the list says which segments belong to this rank -/
  | new (mine : List Bool)
  /-- a new vector, loaded from an archive; every segment with or without entries -/
  | restore (mine : List (Bool × Bool)) (parts : Nat)
  /-- `setAll` on the `i`-th existing vector -/
  | setAll (i : Nat)
  /-- something happens to segment `j` of the `i`-th vector -/
  | act (i j : Nat) (a : SegAct)
  /-- the `k` entries of the `i`-th vector on this rank are fetched; the caller releases them -/
  | edges (i k : Nat)
  /-- the end of the `i`-th vector -/
  | delete (i : Nat)

/-- A step; the list holds the existing vectors. -/
def VecStep.run (threads : Nat) : VecStep → List (Ptr × VecMem) → HeapM (List (Ptr × VecMem))
  | .new mine, vs => do
    let v ← newVec mine
    pure (v :: vs)
  | .restore mine parts, vs => do
    let v ← loadVec threads parts mine
    pure (v :: vs)
  | .setAll i, vs =>
    match vs[i]? with
    | none => pure vs
    | some v => do
      let v ← vecSetAll threads v
      pure (vs.set i v)
  | .act i j a, vs =>
    match vs[i]? with
    | none => pure vs
    | some v =>
      match v.2[j]? with
      | none => pure vs
      | some s => do
        touch v.1
        touch s.2.1
        let t ← a.run threads s.2.2
        pure (vs.set i (v.1, v.2.set j (s.1, s.2.1, t)))
  | .edges i k, vs =>
    match vs[i]? with
    | none => pure vs
    | some v => do
      let e ← vecEdges k v
      if 0 < k then do
        release .mm e
        pure vs
      else pure vs
  | .delete i, vs =>
    match vs[i]? with
    | none => pure vs
    | some v => do
      deleteVec v
      pure (vs.eraseIdx i)

/-- All messages were made with at most `parts` partitions, all archives with at least as many. -/
def VecStep.Fits (parts : Nat) : VecStep → Prop
  | .act _ _ a => a.Fits parts
  | .restore _ k => parts ≤ k
  | _ => True

/-- The steps one after the other. -/
def runVecSteps (threads : Nat) : List VecStep → List (Ptr × VecMem) → HeapM (List (Ptr × VecMem))
  | [], vs => pure vs
  | op :: ops, vs => do
    let vs ← op.run threads vs
    runVecSteps threads ops vs

/-- The end of all existing vectors. -/
def deleteVecs : List (Ptr × VecMem) → HeapM Unit
  | [] => pure ()
  | v :: vs => do
    deleteVec v
    deleteVecs vs

/-- A whole program: the steps, then the end of the vectors that are left. -/
def vecLives (threads : Nat) (ops : List VecStep) : HeapM Unit := do
  let vs ← runVecSteps threads ops []
  deleteVecs vs

end GraphMat

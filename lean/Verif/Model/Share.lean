import Mathlib.Logic.Function.Basic

/-!
# Lifetime of property vectors

Graph objects point to their vector of vertex properties; `shareVertexProperty` makes two objects point to one vector.
Here the vectors live in a heap, so that reading through a dangling pointer and deleting a vector twice are
distinct outcomes (`none`).  The contents of a vector are an arbitrary type `X`; `Model/SpVec.lean` models the
contents.  The other members of `Graph` (`A`, `AT`, `active`) are never shared and are left out.
-/
namespace GraphMat

/-- The heap of `SpVec` objects holding vertex properties: created by `new` at
/repo/include/Graph.h:178, 232 and deleted at lines 302, 416. -/
structure PHeap (X : Type) where
  /-- number of vectors created so far -/
  next : Nat
  /-- the vectors that exist -/
  cell : Nat → Option X
  /-- how often each has been deleted (bookkeeping only) -/
  frees : Nat → Nat

/-- The two members of `Graph` that matter, /repo/include/Graph.h:64, 70. -/
structure GObj where
  /-- `vertexproperty`, `none` = `nullptr` -/
  vp : Option Nat
  /-- `vertexpropertyowner` -/
  owner : Bool

/-- All graph objects of a program and the heap (objects of type `Graph`, /repo/include/Graph.h:58-107). -/
structure PWorld (X : Type) where
  /-- live objects -/
  obj : Nat → Option GObj
  /-- heap -/
  heap : PHeap X

/-- Calls on graph objects, numbered by the objects they are made on, /repo/include/Graph.h:58-107. -/
inductive ShOp (X : Type) where
  /-- `Graph()` -/
  | construct (g : Nat)
  /-- `ReadEdgelist` / `ReadGraphMatBin`, giving the new vector its initial contents -/
  | load (g : Nat) (x : X)
  /-- `g.shareVertexProperty(h)` -/
  | share (g h : Nat)
  /-- any call on `g` that reads the vertex properties -/
  | read (g : Nat)
  /-- any call on `g` that modifies the vertex properties -/
  | write (g : Nat) (f : X → X)
  /-- `~Graph()` -/
  | destroy (g : Nat)

variable {X : Type}

/-- `new SpVec<...>(...)` filled with initial contents, /repo/include/Graph.h:178-181, 232-235. -/
def PHeap.new (H : PHeap X) (x : X) : Nat × PHeap X :=
  (H.next, { H with next := H.next + 1, cell := Function.update H.cell H.next (some x) })

/-- `delete` of a vector, /repo/include/Graph.h:302, 416; `none` = it does not exist (any more). -/
def PHeap.delete (H : PHeap X) (p : Nat) : Option (PHeap X) := do
  let _ ← H.cell p
  some { H with cell := Function.update H.cell p none, frees := Function.update H.frees p (H.frees p + 1) }

/-- One call, with the contents seen by a reading call.  `none` = undefined behaviour (or a call on an object that
does not exist).
* constructor: /repo/include/Graph.h:74-77;
* loading: lines 178-186, 232-240: a new vector; the old pointer is overwritten, the flag set;
* `shareVertexProperty`: lines 300-305;
* reading and writing follow the pointer (e.g. lines 307-316);
* destructor: lines 404-424. -/
def PWorld.step (w : PWorld X) : ShOp X → Option (PWorld X × Option X)
  | .construct g => do
    match w.obj g with
    | some _ => none
    | none => some ({ w with obj := Function.update w.obj g (some ⟨none, true⟩) }, none)
  | .load g x => do
    let _ ← w.obj g
    let (p, H) := w.heap.new x
    some (⟨Function.update w.obj g (some ⟨some p, true⟩), H⟩, none)
  | .share g h => do
    let o ← w.obj g
    let _ ← w.obj h
    let H ← match o.vp with
      | some p => w.heap.delete p
      | none => some w.heap
    let o' ← w.obj h
    some (⟨Function.update w.obj g (some ⟨o'.vp, false⟩), H⟩, none)
  | .read g => do
    let o ← w.obj g
    let p ← o.vp
    let x ← w.heap.cell p
    some (w, some x)
  | .write g f => do
    let o ← w.obj g
    let p ← o.vp
    let x ← w.heap.cell p
    some ({ w with heap := { w.heap with cell := Function.update w.heap.cell p (some (f x)) } }, none)
  | .destroy g => do
    let o ← w.obj g
    let H ← match o.owner, o.vp with
      | true, some p => w.heap.delete p
      | _, _ => some w.heap
    some (⟨Function.update w.obj g none, H⟩, none)

/-- A sequence of calls, with what the reading calls see (/repo/include/Graph.h:58-107). -/
def PWorld.run (w : PWorld X) : List (ShOp X) → Option (PWorld X × List X)
  | [] => some (w, [])
  | op :: ops => do
    let (w', out) ← w.step op
    let (w'', outs) ← w'.run ops
    some (w'', out.toList ++ outs)

/-- Before the first object is created (/repo/include/Graph.h:58-107). -/
def PWorld.start : PWorld X := ⟨fun _ => none, ⟨0, fun _ => none, fun _ => 0⟩⟩

end GraphMat

import Mathlib.Data.List.Perm.Basic

/-!
# A heap of blocks

The part of the C++ memory rules needed for questions of ownership: every allocation gives a block of its own; a block is
released at most once, with the function that belongs to the one it came from; released blocks and pointers that were
never set are not followed.  The code allocates with `_mm_malloc` (/repo/include/GMDP/matrices/DCSCTile.h:253), `new T[]`
(/repo/include/GMDP/matrices/COOTile.h:170) and `new T` (/repo/include/GMDP/matrices/SpMat.h:264).
-/
namespace GraphMat

/-- How a block was allocated. -/
inductive Alloc where
  /-- `_mm_malloc` / `_mm_free` -/
  | mm
  /-- `new T[n]` / `delete []` -/
  | newArr
  /-- `new T` / `delete` -/
  | newObj
deriving DecidableEq

/-- The live blocks; block numbers are never used again. -/
structure Heap where
  /-- the next block number -/
  next : Nat
  /-- the live blocks and where they came from -/
  live : List (Nat × Alloc)

/-- The heap is as a program can have made it: one entry per live block. -/
def Heap.Ok (h : Heap) : Prop := (h.live.map Prod.fst).Nodup ∧ ∀ b ∈ h.live, b.1 < h.next

/-- Programs that use the heap; `none` is undefined behaviour. -/
abbrev HeapM := StateT Heap Option

/-- A pointer variable. -/
inductive Ptr where
  /-- never set -/
  | garbage
  /-- `NULL` -/
  | null
  /-- the start of a block -/
  | block (b : Nat)
deriving DecidableEq

/-- Allocation. -/
def allocate (k : Alloc) : HeapM Ptr := fun h => some (.block h.next, ⟨h.next + 1, (h.next, k) :: h.live⟩)

/-- Releasing a block: it must be live and of the right kind; releasing `NULL` does nothing. -/
def release (k : Alloc) : Ptr → HeapM Unit
  | .garbage => fun _ => none
  | .null => fun h => some ((), h)
  | .block b => fun h => if (b, k) ∈ h.live then some ((), { h with live := h.live.erase (b, k) }) else none

/-- Following a pointer: the block must be live. -/
def touch : Ptr → HeapM Unit
  | .block b => fun h => if b ∈ h.live.map Prod.fst then some ((), h) else none
  | _ => fun _ => none

/-- A program is balanced: started with any heap it has no undefined behaviour and leaves the same live blocks behind. -/
def Balanced {α : Type} (p : HeapM α) : Prop :=
  ∀ h : Heap, h.Ok → ∃ a h', p h = some (a, h') ∧ h'.live.Perm h.live

end GraphMat

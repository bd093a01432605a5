import Mathlib.Logic.Function.Basic

/-!
# Transfers in flight

The rules of MPI for the memory of non-blocking calls, on one rank: from `MPI_Isend` to the `MPI_Waitall` that completes it the
program does not write to the data, from `MPI_Irecv` on it neither reads nor writes it; no two receives in flight overlap, and
none overlaps data that is being sent; the data lies within one array, and the array is not released; `MPI_Waitall` is only
given requests that are under way.  Breaking a rule is undefined behaviour.  Nothing here refers to the model.
-/
namespace GraphMat

/-- `len` elements of array `arr`, starting with element `lo`. -/
structure Span where
  /-- the array -/
  arr : Nat
  /-- the first element -/
  lo : Nat
  /-- how many -/
  len : Nat
deriving DecidableEq

/-- The two have an element in common. -/
def Span.Meets (a b : Span) : Prop := a.arr = b.arr ∧ max a.lo b.lo < min (a.lo + a.len) (b.lo + b.len)

instance (a b : Span) : Decidable (a.Meets b) := inferInstanceAs (Decidable (_ ∧ _))

/-- A transfer under way. -/
structure Transfer where
  /-- the number of the request -/
  req : Nat
  /-- is it a receive? -/
  inward : Bool
  /-- the data -/
  span : Span

/-- The arrays of a rank and its transfers. -/
structure Flight where
  /-- the next array number -/
  next : Nat
  /-- the live arrays and their sizes -/
  live : List (Nat × Nat)
  /-- the next request number -/
  nextReq : Nat
  /-- the transfers under way -/
  pending : List Transfer

/-- Programs of one rank; `none` is undefined behaviour. -/
abbrev FlightM := StateT Flight Option

/-- A new array of `n` elements. -/
def newArray (n : Nat) : FlightM Nat :=
  fun f => some (f.next, { f with next := f.next + 1, live := (f.next, n) :: f.live })

/-- Reading elements of `a`: no receive into it is under way. -/
def readArray (a : Nat) : FlightM Unit := fun f =>
  if a ∈ f.live.map Prod.fst ∧ ∀ t ∈ f.pending, t.inward = true → t.span.arr ≠ a then some ((), f) else none

/-- Writing elements of `a`: nothing is under way from it or into it. -/
def writeArray (a : Nat) : FlightM Unit := fun f =>
  if a ∈ f.live.map Prod.fst ∧ ∀ t ∈ f.pending, t.span.arr ≠ a then some ((), f) else none

/-- Releasing `a`. -/
def deleteArray (a : Nat) : FlightM Unit := fun f =>
  if a ∈ f.live.map Prod.fst ∧ ∀ t ∈ f.pending, t.span.arr ≠ a then
    some ((), { f with live := f.live.filter (fun e => e.1 ≠ a) })
  else none

/-- The data lies within a live array. -/
def Flight.Within (f : Flight) (s : Span) : Prop := ∃ e ∈ f.live, e.1 = s.arr ∧ s.lo + s.len ≤ e.2

instance (f : Flight) (s : Span) : Decidable (f.Within s) := inferInstanceAs (Decidable (∃ e ∈ f.live, _))

/-- `MPI_Isend`. -/
def isend (s : Span) : FlightM Nat := fun f =>
  if f.Within s ∧ ∀ t ∈ f.pending, t.inward = true → ¬ t.span.Meets s then
    some (f.nextReq, { f with nextReq := f.nextReq + 1, pending := f.pending ++ [⟨f.nextReq, false, s⟩] })
  else none

/-- `MPI_Irecv`. -/
def irecv (s : Span) : FlightM Nat := fun f =>
  if f.Within s ∧ ∀ t ∈ f.pending, ¬ t.span.Meets s then
    some (f.nextReq, { f with nextReq := f.nextReq + 1, pending := f.pending ++ [⟨f.nextReq, true, s⟩] })
  else none

/-- `MPI_Waitall`. -/
def waitall (reqs : List Nat) : FlightM Unit := fun f =>
  if ∀ q ∈ reqs, q ∈ f.pending.map Transfer.req then
    some ((), { f with pending := f.pending.filter (fun t => t.req ∉ reqs) })
  else none

/-- At the start of a program. -/
def Flight.start : Flight := ⟨0, [], 0, []⟩

end GraphMat

/-!
# Arrays and loops

C++ arrays are modelled as a size together with the contents.  Reading or writing outside the
allocated size (undefined behaviour in C++) yields `none`.  The contents of a freshly allocated
array are arbitrary (`new T[n]`, `_mm_malloc` do not initialise); models of allocation take the
garbage contents as a parameter and theorems quantify over it.
-/
namespace GraphMat

universe u v

/-- A heap array of known size, e.g. `T * value` of
/repo/include/GMDP/vectors/DenseSegment.h:81-87.  Entries at or above `size` do not exist;
`read`/`write` refuse to touch them. -/
structure Arr (α : Type u) where
  /-- number of allocated elements -/
  size : Nat
  /-- contents -/
  get : Nat → α

/-- `a[i]` as an rvalue (used throughout, e.g.
/repo/include/GMDP/vectors/DenseSegment.h:645); `none` = out of bounds. -/
def Arr.read {α : Type u} (a : Arr α) (i : Nat) : Option α :=
  if i < a.size then some (a.get i) else none

/-- `a[i] = x` (used throughout, e.g. /repo/include/GMDP/vectors/DenseSegment.h:604);
`none` = out of bounds. -/
def Arr.write {α : Type u} (a : Arr α) (i : Nat) (x : α) : Option (Arr α) :=
  if i < a.size then some { a with get := fun j => if j = i then x else a.get j } else none

/-- The array holding exactly the elements of a list (test data, and the result of a complete
initialisation loop such as /repo/include/GMDP/matrices/DCSCTile.h:347-349).  The default
outside the bounds is never observable through `read`. -/
def Arr.ofList {α : Type u} (d : α) (l : List α) : Arr α :=
  { size := l.length, get := fun i => l.getD i d }

/-- The contents as a list (observation of a whole array, e.g. by `MPI_Isend` of
/repo/include/GMDP/vectors/DenseSegment.h:693). -/
def Arr.toList {α : Type u} (a : Arr α) : List α := (List.range a.size).map a.get

/-- `for (int i = lo; i < hi; i++) body` (every counted loop of the code base, e.g.
/repo/include/GMDP/vectors/DenseSegment.h:624); `none` = the body failed. -/
def forLoop {σ : Type v} (lo hi : Nat) (s : σ) (body : Nat → σ → Option σ) : Option σ :=
  (List.range' lo (hi - lo)).foldlM (fun s i => body i s) s

end GraphMat

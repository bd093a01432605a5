import Mathlib.Logic.Function.Basic

/-!
# Tasks that run at the same time

A task is a program that reads and writes single memory locations; what it does next may depend on everything it
has read.  Several tasks run at the same time: in each step any one of them makes its next access.  This describes the
iterations of an `omp parallel for` (which iteration belongs to which thread only restricts the order) and the threads of
an `omp parallel` region.  Nothing here refers to the model.  (`Spec/Par.lean` describes tasks whose locations are fixed
beforehand; here they can depend on what was read.)
-/
namespace GraphMat

/-- A program over the memory locations `Loc`, where `l` holds an element of `W l`, returning an element of `α`. -/
inductive Code (Loc : Type) (W : Loc → Type) (α : Type) : Type where
  /-- finished, with the given values in its private variables -/
  | ret (a : α)
  /-- load `l` and continue depending on the value -/
  | load (l : Loc) (k : W l → Code Loc W α)
  /-- store `v` to `l` and continue -/
  | store (l : Loc) (v : W l) (k : Code Loc W α)

variable {Loc : Type} {W : Loc → Type} {α β R : Type}

/-- One program after the other. -/
def Code.bind : Code Loc W α → (α → Code Loc W β) → Code Loc W β
  | .ret a, f => f a
  | .load l k, f => .load l (fun v => (k v).bind f)
  | .store l v k, f => .store l v (k.bind f)

instance : Monad (Code Loc W) where
  pure := .ret
  bind := Code.bind

/-- The program that loads `l`. -/
def rdLoc (l : Loc) : Code Loc W (W l) := .load l .ret

/-- The program that stores `v` to `l`. -/
def wrLoc (l : Loc) (v : W l) : Code Loc W Unit := .store l v (.ret ())

/-- `for(i = lo; i < hi; i++)` with the private variables `r`. -/
def Code.for (lo hi : Nat) (r : R) (body : Nat → R → Code Loc W R) : Code Loc W R :=
  (List.range' lo (hi - lo)).foldlM (fun r i => body i r) r

/-- The tasks of a parallel loop `for(p = 0; p < n; p++)`: one for each iteration. -/
def parFor (n : Nat) (body : Nat → Code Loc W Unit) (p : Nat) : Code Loc W Unit := if p < n then body p else .ret ()

/-- The same for a loop with a `reduction`: task `p` ends with the contribution of iteration `p`, `d` is the neutral
element. -/
def parForR (d : α) (n : Nat) (body : Nat → Code Loc W α) (p : Nat) : Code Loc W α := if p < n then body p else .ret d

/-- Iterations `0 .. n` are divided among threads, `chunks` holds the iterations of each thread in the order in which it
adds their contributions to its copy of the reduction variable; the copies are combined in the order of `chunks`. -/
def IsSplit (n : Nat) (chunks : List (List Nat)) : Prop := chunks.flatten.Perm (List.range n)

/-- The result of `reduction(+)` for such a division. -/
def redSum (res : Nat → Nat) (chunks : List (List Nat)) : Nat := (chunks.map (fun c => (c.map res).sum)).sum

/-- The result of `reduction(&)` on a variable that holds 0 or 1: it is cleared (`res i = false`) or left alone by each
iteration. -/
def redAnd (res : Nat → Bool) (chunks : List (List Nat)) : Bool := chunks.all (fun c => c.all res)

/-- The result of `reduction(max)` on a variable that holds `init` before the loop; the copies begin with `low`. -/
def redMax (low init : Int) (res : Nat → Int) (chunks : List (List Nat)) : Int :=
  (chunks.map (fun c => (c.map res).foldl max low)).foldl max init

/-! ### Memory consisting of named arrays -/

section arrays
variable {K : Type} {τ : K → Type}

/-- Load element `i` of array `k`. -/
abbrev aload (k : K) (i : Nat) : Code (K × Nat) (fun l => τ l.1) (τ k) := rdLoc (k, i)

/-- Store to element `i` of array `k`. -/
abbrev astore (k : K) (i : Nat) (v : τ k) : Code (K × Nat) (fun l => τ l.1) Unit := wrLoc (k, i) v

end arrays

/-- Memory, and what the tasks still have to do. -/
structure Conc (Loc : Type) (W : Loc → Type) (α : Type) where
  /-- the shared memory -/
  mem : (l : Loc) → W l
  /-- the rest of each task -/
  todo : Nat → Code Loc W α

variable [DecidableEq Loc]

/-- One access by task `i`. -/
def Conc.step (i : Nat) (c : Conc Loc W α) : Conc Loc W α :=
  match c.todo i with
  | .ret _ => c
  | .load l k => ⟨c.mem, Function.update c.todo i (k (c.mem l))⟩
  | .store l v k => ⟨Function.update c.mem l v, Function.update c.todo i k⟩

/-- The accesses are made in the order `s` (a list of task numbers). -/
def Conc.run (s : List Nat) (c : Conc Loc W α) : Conc Loc W α := s.foldl (fun c i => c.step i) c

/-- Nothing is left to do. -/
def Conc.Finished (c : Conc Loc W α) : Prop := ∀ i, ∃ a, c.todo i = .ret a

/-- The next access, and whether it is a store. -/
def Code.next : Code Loc W α → Option (Loc × Bool)
  | .ret _ => none
  | .load l _ => some (l, false)
  | .store l _ _ => some (l, true)

/-- Two tasks can access the same location next, and one of them stores to it. -/
def Conc.Racing (c : Conc Loc W α) : Prop :=
  ∃ i j l a b, i ≠ j ∧ (c.todo i).next = some (l, a) ∧ (c.todo j).next = some (l, b) ∧ (a = true ∨ b = true)

/-- Started with memory `m`, the tasks never race; whatever order the accesses are made in, the tasks can be completed,
and once they are complete the memory is `m'` and task `i` has the private results `res i`. -/
structure OneOutcome (tasks : Nat → Code Loc W α) (m m' : (l : Loc) → W l) (res : Nat → α) : Prop where
  /-- no data race -/
  noRace : ∀ s, ¬ (Conc.run s ⟨m, tasks⟩).Racing
  /-- every started run can be completed -/
  completes : ∀ s, ∃ t, (Conc.run (s ++ t) ⟨m, tasks⟩).Finished
  /-- there is one outcome -/
  outcome : ∀ s, (Conc.run s ⟨m, tasks⟩).Finished →
    (Conc.run s ⟨m, tasks⟩).mem = m' ∧ ∀ i, (Conc.run s ⟨m, tasks⟩).todo i = .ret (res i)

end GraphMat

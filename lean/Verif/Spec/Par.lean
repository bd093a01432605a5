import Mathlib.Logic.Function.Basic

/-!
# Parallel loops

A parallel region is a number of tasks (the iterations of an `omp parallel for`).  A task is a list of memory
accesses, each of one location, which may depend on the task's local variables.  A schedule is any interleaving
of the accesses of all tasks that keeps the order within each task; how the iterations are assigned to threads only
restricts the possible schedules.  Nothing here refers to the model.
-/
namespace GraphMat

variable {Loc : Type} [DecidableEq Loc] {W : Loc → Type} {L : Type}

/-- One access to memory; it is skipped if the condition does not hold. -/
inductive Act (Loc : Type) (W : Loc → Type) (L : Type) where
  | read (cond : L → Bool) (l : Loc) (f : L → W l → L)
  | write (cond : L → Bool) (l : Loc) (f : L → W l)

/-- The location accessed. -/
def Act.loc : Act Loc W L → Loc
  | .read _ l _ => l
  | .write _ l _ => l

/-- Does the access modify memory? -/
def Act.isWrite : Act Loc W L → Bool
  | .read .. => false
  | .write .. => true

/-- Effect on memory and local variables. -/
def Act.exec : Act Loc W L → ((l : Loc) → W l) × L → ((l : Loc) → W l) × L
  | .read c l f, (m, s) => (m, if c s then f s (m l) else s)
  | .write c l f, (m, s) => (if c s then Function.update m l (f s) else m, s)

/-- A task alone. -/
def runActs (as : List (Act Loc W L)) (st : ((l : Loc) → W l) × L) : ((l : Loc) → W l) × L :=
  as.foldl (fun st a => a.exec st) st

/-- Memory and the local variables of every task. -/
abbrev ParState (Loc : Type) (W : Loc → Type) (L : Type) := ((l : Loc) → W l) × (Nat → L)

/-- Task `i` makes an access. -/
def parStep (st : ParState Loc W L) (x : Nat × Act Loc W L) : ParState Loc W L :=
  ((x.2.exec (st.1, st.2 x.1)).1, Function.update st.2 x.1 (x.2.exec (st.1, st.2 x.1)).2)

/-- Accesses in a given order. -/
def parRun (s : List (Nat × Act Loc W L)) (st : ParState Loc W L) : ParState Loc W L := s.foldl parStep st

/-- What a schedule contains of task `i`. -/
def proj (i : Nat) (s : List (Nat × Act Loc W L)) : List (Act Loc W L) :=
  s.filterMap (fun x => if x.1 = i then some x.2 else none)

/-- `s` is an interleaving of the tasks. -/
def IsSchedule (tasks : Nat → List (Act Loc W L)) (s : List (Nat × Act Loc W L)) : Prop := ∀ i, proj i s = tasks i

/-- Two accesses to one location, one of which is a write. -/
def Conflict (a b : Act Loc W L) : Prop := a.loc = b.loc ∧ (a.isWrite = true ∨ b.isWrite = true)

/-- No two tasks have conflicting accesses. -/
def RaceFree (tasks : Nat → List (Act Loc W L)) : Prop :=
  ∀ i j, i ≠ j → ∀ a ∈ tasks i, ∀ b ∈ tasks j, ¬ Conflict a b

end GraphMat

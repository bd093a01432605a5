import Verif.Spec.Conc
import Mathlib.Logic.Relation
import Mathlib.Algebra.Order.Ring.Rat

/-!
# Tasks that run at the same time on processors that reorder loads and stores

Weaker still than `Spec/Weak.lean`.  The stores to a location are kept with points in time; a store may be put before
stores to the same location that other threads have made, and a load may return a value that other threads have overwritten
long ago.  What a thread does to one location stays in order: it never goes back behind the newest point of
time at which it has accessed the location.  Nothing relates the points of time of different locations, so loads can be
overtaken by later loads, and stores by later stores and loads.  (This is how relaxed atomic accesses are described in
the literature, without the feature that a store can be seen by others before an earlier load of its thread.)  Nothing here
refers to the model.
-/
namespace GraphMat

/-- All stores, the point of time each thread has reached at each location, and what the tasks still have to do. -/
structure Views (Loc : Type) (W : Loc → Type) (α : Type) where
  /-- the values stored to each location -/
  msgs : (l : Loc) → Rat → Option (W l)
  /-- what each thread has reached -/
  view : Nat → Loc → Rat
  /-- the rest of each task -/
  todo : Nat → Code Loc W α

variable {Loc : Type} {W : Loc → Type} {α : Type} [DecidableEq Loc]

/-- One step; task `i` is executed by thread `thr i`. -/
inductive Views.Step (thr : Nat → Nat) : Views Loc W α → Views Loc W α → Prop
  /-- a task loads a value that is not older than what its thread has reached -/
  | load (c : Views Loc W α) (i : Nat) (l : Loc) (k : W l → Code Loc W α) (h : c.todo i = .load l k) (t : Rat) (v : W l)
      (ht : c.view (thr i) l ≤ t) (hv : c.msgs l t = some v) :
      Views.Step thr c { c with todo := Function.update c.todo i (k v),
                                view := Function.update c.view (thr i) (Function.update (c.view (thr i)) l t) }
  /-- a task stores, at a free point of time after what its thread has reached -/
  | store (c : Views Loc W α) (i : Nat) (l : Loc) (v : W l) (k : Code Loc W α) (h : c.todo i = .store l v k) (t : Rat)
      (ht : c.view (thr i) l < t) (hv : c.msgs l t = none) :
      Views.Step thr c { msgs := Function.update c.msgs l (Function.update (c.msgs l) t (some v)),
                         todo := Function.update c.todo i k,
                         view := Function.update c.view (thr i) (Function.update (c.view (thr i)) l t) }

/-- Any number of steps. -/
def Views.Reaches (thr : Nat → Nat) : Views Loc W α → Views Loc W α → Prop := Relation.ReflTransGen (Views.Step thr)

/-- Nothing is left to do. -/
def Views.Finished (c : Views Loc W α) : Prop := ∀ i, ∃ a, c.todo i = .ret a

/-- The newest value of a location is `v`.  After the barrier at the end of the loop this is what everybody sees. -/
def Views.Newest (c : Views Loc W α) (l : Loc) (v : W l) : Prop :=
  ∃ t, c.msgs l t = some v ∧ ∀ t' v', c.msgs l t' = some v' → t' ≤ t

/-- The beginning of a parallel loop: everybody sees `m`. -/
def Views.start (m : (l : Loc) → W l) (tasks : Nat → Code Loc W α) : Views Loc W α :=
  ⟨fun l t => if t = 0 then some (m l) else none, fun _ _ => 0, tasks⟩

/-- Started with memory `m`, and whatever the order of the steps, the tasks can be completed, and once they are complete
the memory is `m'` and task `i` has the private results `res i`. -/
structure OneOutcomeViews (thr : Nat → Nat) (tasks : Nat → Code Loc W α) (m m' : (l : Loc) → W l) (res : Nat → α) :
    Prop where
  /-- every started run can be completed -/
  completes : ∀ c, Views.Reaches thr (Views.start m tasks) c → ∃ c', Views.Reaches thr c c' ∧ c'.Finished
  /-- there is one outcome -/
  outcome : ∀ c, Views.Reaches thr (Views.start m tasks) c → c.Finished →
    (∀ l v, c.Newest l v ↔ v = m' l) ∧ ∀ i, c.todo i = .ret (res i)

end GraphMat

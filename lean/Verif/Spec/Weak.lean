import Verif.Spec.Conc
import Mathlib.Logic.Relation

/-!
# Tasks that run at the same time on processors with store buffers

`Spec/Conc.lean` lets every store reach the memory at once.  Processors do not: a store is put into a buffer of the
thread and reaches the memory some time later, while the thread goes on; until then only loads by the same thread see it.
Here stores to one location leave the buffer in order, stores to different locations in any order.  (On x86 a buffer is
emptied strictly in order, which is one of the behaviours described here.)  Nothing here refers to the model.
-/
namespace GraphMat

/-- A store that has not reached the memory yet. -/
structure Pending (Loc : Type) (W : Loc → Type) where
  /-- where -/
  loc : Loc
  /-- what -/
  val : W loc

/-- Memory, the buffer of each thread (oldest store first), and what the tasks still have to do. -/
structure Weak (Loc : Type) (W : Loc → Type) (α : Type) where
  /-- the memory -/
  mem : (l : Loc) → W l
  /-- the buffer of each thread -/
  buf : Nat → List (Pending Loc W)
  /-- the rest of each task -/
  todo : Nat → Code Loc W α

variable {Loc : Type} {W : Loc → Type} {α : Type} [DecidableEq Loc]

/-- What a thread with the buffer `b` sees: its newest store to the location, or else the memory. -/
def seenBy (m : (l : Loc) → W l) (b : List (Pending Loc W)) : (l : Loc) → W l :=
  b.foldl (fun m e => Function.update m e.loc e.val) m

/-- One step; task `i` is executed by thread `thr i`. -/
inductive Weak.Step (thr : Nat → Nat) : Weak Loc W α → Weak Loc W α → Prop
  /-- a task loads a location -/
  | load (c : Weak Loc W α) (i : Nat) (l : Loc) (k : W l → Code Loc W α) (h : c.todo i = .load l k) :
      Weak.Step thr c { c with todo := Function.update c.todo i (k (seenBy c.mem (c.buf (thr i)) l)) }
  /-- a task stores: the store enters the buffer of its thread -/
  | store (c : Weak Loc W α) (i : Nat) (l : Loc) (v : W l) (k : Code Loc W α) (h : c.todo i = .store l v k) :
      Weak.Step thr c { c with todo := Function.update c.todo i k,
                               buf := Function.update c.buf (thr i) (c.buf (thr i) ++ [⟨l, v⟩]) }
  /-- a store leaves the buffer of thread `t`; no older store to the same location is in that buffer -/
  | flush (c : Weak Loc W α) (t : Nat) (older newer : List (Pending Loc W)) (e : Pending Loc W)
      (h : c.buf t = older ++ e :: newer) (ho : ∀ d ∈ older, d.loc ≠ e.loc) :
      Weak.Step thr c { c with mem := Function.update c.mem e.loc e.val,
                               buf := Function.update c.buf t (older ++ newer) }

/-- Any number of steps. -/
def Weak.Reaches (thr : Nat → Nat) : Weak Loc W α → Weak Loc W α → Prop := Relation.ReflTransGen (Weak.Step thr)

/-- The end of a parallel loop: nothing is left to do, and all stores have reached the memory (the barrier waits for
them). -/
def Weak.Finished (c : Weak Loc W α) : Prop := (∀ i, ∃ a, c.todo i = .ret a) ∧ ∀ t, c.buf t = []

/-- The beginning of a parallel loop. -/
def Weak.start (m : (l : Loc) → W l) (tasks : Nat → Code Loc W α) : Weak Loc W α := ⟨m, fun _ => [], tasks⟩

/-- Started with memory `m`, and whatever the order of the steps, the tasks can be completed, and once they are complete
the memory is `m'` and task `i` has the private results `res i`. -/
structure OneOutcomeWeak (thr : Nat → Nat) (tasks : Nat → Code Loc W α) (m m' : (l : Loc) → W l) (res : Nat → α) :
    Prop where
  /-- every started run can be completed -/
  completes : ∀ c, Weak.Reaches thr (Weak.start m tasks) c → ∃ c', Weak.Reaches thr c c' ∧ c'.Finished
  /-- there is one outcome -/
  outcome : ∀ c, Weak.Reaches thr (Weak.start m tasks) c → c.Finished → c.mem = m' ∧ ∀ i, c.todo i = .ret (res i)

end GraphMat

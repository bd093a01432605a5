/-!
# Specification: a graph's vertex data as plain maps

No ranks, no segments, no renumbering: one total map from user ids to properties and one set of
active ids.
-/
namespace GraphMat

/-- The calls a user can make on the vertices of a graph. -/
inductive VOp (V : Type) where
  | setAllProp (x : V)
  | setProp (v : Nat) (x : V)
  | applyAll (f : V → V → V)
  | setAllActive
  | setAllInactive
  | setActive (v : Nat)
  | setInactive (v : Nat)
  | reset (d : V)

/-- The specification state. -/
structure VSpec (V : Type) where
  prop : Nat → V
  active : Nat → Bool

/-- What each call means. -/
def VSpec.step {V : Type} (s : VSpec V) : VOp V → VSpec V
  | .setAllProp x => { s with prop := fun _ => x }
  | .setProp v x => { s with prop := fun u => if u = v then x else s.prop u }
  | .applyAll f => { s with prop := fun u => f (s.prop u) (s.prop u) }
  | .setAllActive => { s with active := fun _ => true }
  | .setAllInactive => { s with active := fun _ => false }
  | .setActive v => { s with active := fun u => if u = v then true else s.active u }
  | .setInactive v => { s with active := fun u => if u = v then false else s.active u }
  | .reset d => { prop := fun _ => d, active := fun _ => false }

/-- A whole history of calls. -/
def VSpec.run {V : Type} (s : VSpec V) (h : List (VOp V)) : VSpec V := h.foldl VSpec.step s

/-- The ids used in a call exist. -/
def VOp.Valid {V : Type} (n : Nat) : VOp V → Prop
  | .setProp v _ => 1 ≤ v ∧ v ≤ n
  | .setActive v => 1 ≤ v ∧ v ≤ n
  | .setInactive v => 1 ≤ v ∧ v ≤ n
  | _ => True

/-- The call fixes the activity of every vertex. -/
def VOp.FixesActivity {V : Type} : VOp V → Prop
  | .setAllActive => True
  | .setAllInactive => True
  | .reset _ => True
  | _ => False

/-- The calls on a distributed vector. -/
inductive VecOp (α : Type) where
  | set (w : Nat) (x : α)
  | unset (w : Nat)
  | setAll (x : α)
  | clear

/-- What they mean for the partial map held by the vector. -/
def VecOp.spec {α : Type} : VecOp α → (Nat → Option α) → (Nat → Option α)
  | .set w x, m => fun u => if u = w then some x else m u
  | .unset w, m => fun u => if u = w then none else m u
  | .setAll x, _ => fun _ => some x
  | .clear, _ => fun _ => none

/-- The index exists. -/
def VecOp.Valid {α : Type} (n : Nat) : VecOp α → Prop
  | .set w _ => 1 ≤ w ∧ w ≤ n
  | .unset w => 1 ≤ w ∧ w ≤ n
  | _ => True

end GraphMat

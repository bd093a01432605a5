import Verif.Model.Share

/-!
# What sharing is supposed to mean

Every graph object has no properties, its own, or borrows those of another object.  A write through one object is
seen by all that have the same properties.  The calls are the ones a careful caller makes; all others are `none`.
-/
namespace GraphMat

/-- Status of an object. -/
inductive ShStatus where
  | dead
  | empty
  | own
  | borrow (g : Nat)
deriving DecidableEq

/-- Status of all objects and the properties of those that own some. -/
structure ShState (X : Type) where
  st : Nat → ShStatus
  val : Nat → X

variable {X : Type}

/-- Whose properties does `g` use? -/
def ShState.root (s : ShState X) (g : Nat) : Option Nat :=
  match s.st g with
  | .own => some g
  | .borrow h => some h
  | _ => none

/-- Nobody borrows from `g`. -/
def ShState.Free (s : ShState X) (g : Nat) : Prop := ∀ h, s.st h ≠ .borrow g

/-- One call by a careful caller: an object is loaded while it has no properties of its own; it starts sharing while
it is not borrowing and nobody borrows from it, and from another object that has properties; it is destroyed only when
nobody borrows from it. -/
inductive ShStep : ShState X → ShOp X → Option X → ShState X → Prop where
  | construct {s : ShState X} {g : Nat} : s.st g = .dead →
      ShStep s (.construct g) none { s with st := Function.update s.st g .empty }
  | load {s : ShState X} {g : Nat} {x : X} : (s.st g = .empty ∨ ∃ h, s.st g = .borrow h) →
      ShStep s (.load g x) none ⟨Function.update s.st g .own, Function.update s.val g x⟩
  | share {s : ShState X} {g h k : Nat} : (s.st g = .empty ∨ s.st g = .own) → s.Free g → g ≠ h →
      s.root h = some k → ShStep s (.share g h) none { s with st := Function.update s.st g (.borrow k) }
  | read {s : ShState X} {g k : Nat} : s.root g = some k → ShStep s (.read g) (some (s.val k)) s
  | write {s : ShState X} {g k : Nat} {f : X → X} : s.root g = some k →
      ShStep s (.write g f) none { s with val := Function.update s.val k (f (s.val k)) }
  | destroy {s : ShState X} {g : Nat} : s.st g ≠ .dead → s.Free g →
      ShStep s (.destroy g) none { s with st := Function.update s.st g .dead }

/-- A history with what its reads see. -/
inductive ShRun : ShState X → List (ShOp X) → List X → ShState X → Prop where
  | nil (s : ShState X) : ShRun s [] [] s
  | cons {s s' s'' : ShState X} {op : ShOp X} {ops : List (ShOp X)} {o : Option X} {os : List X} :
      ShStep s op o s' → ShRun s' ops os s'' → ShRun s (op :: ops) (o.toList ++ os) s''

end GraphMat

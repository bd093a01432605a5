import Verif.Spec.Merge

/-!
# Specification of a reduction in unspecified order

Independent of the model.
-/
namespace GraphMat

variable {U : Type}

/-- A way to bracket the reduction of some values. -/
inductive RTree (U : Type) where
  | leaf (u : U)
  | node (l r : RTree U)

/-- The values in a bracketing, from left to right. -/
def RTree.leaves : RTree U → List U
  | .leaf u => [u]
  | .node l r => l.leaves ++ r.leaves

/-- The value of a bracketing. -/
def RTree.eval (add : U → U → U) : RTree U → U
  | .leaf u => u
  | .node l r => add (l.eval add) (r.eval add)

/-- `res` is obtained by reducing all elements of `msgs`, each exactly once, in some order and with
some bracketing; it is absent exactly if there is nothing to reduce. -/
def Reduces (add : U → U → U) (msgs : List U) (res : Option U) : Prop :=
  (msgs = [] ∧ res = none) ∨ ∃ t : RTree U, t.leaves.Perm msgs ∧ res = some (t.eval add)

end GraphMat

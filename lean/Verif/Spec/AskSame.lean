import Verif.Spec.AskProg

/-!
# Programs whose operators do not depend on the order
-/
namespace GraphMat

variable {E T A : Type}

/-- The result does not depend on the order in which values are combined. -/
def OrderFree (f : A → A → A) : Prop := (∀ a b c, f (f a b) c = f a (f b c)) ∧ ∀ a b, f a b = f b a

/-- The operator with which a call adds up products or reduces is associative and commutative. -/
def AskOp.OrderFree : AskOp E T A → Prop
  | .call (.mul _ add _ _) => GraphMat.OrderFree add
  | .call (.mul3 _ add _ _ _) => GraphMat.OrderFree add
  | .reduce _ _ op _ _ => GraphMat.OrderFree op
  | _ => True

end GraphMat

import Verif.Spec.Script
import Verif.Spec.AskSame

/-!
# When two user programs return the same
-/
namespace GraphMat

variable {S T U V E A : Type}

/-- The operators of a call are associative and commutative, and reductions begin with an identity. -/
def GOp.OrderFree : GOp S T U V E A → Prop
  | .run pr _ _ _ => ∀ s, GraphMat.OrderFree (pr.gp s).reduce
  | .reduce _ _ op e => GraphMat.OrderFree op ∧ ∀ a, op e a = a
  | _ => True

/-- The same number of supersteps and state of the program object, the same value, the same property on the rank that has it, the same edges on all ranks
together. -/
def GOut.Same : GOut S V E A → GOut S V E A → Prop
  | .ran k s, .ran k' s' => k = k' ∧ s = s'
  | .val x, .val y => x = y
  | .prop l, .prop l' => l.filterMap id = l'.filterMap id
  | .edges ls, .edges ls' => ls.flatten.Perm ls'.flatten
  | _, _ => False

end GraphMat

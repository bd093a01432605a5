import Verif.Spec.Superstep

/-!
# Which vertices a program can reach in a number of supersteps
-/
namespace GraphMat

/-- Messages go from `u` to `v` along an edge in the program's direction. -/
def Hop {E : Type} (dir : EdgeDir) (es : List (Edge E)) (u v : Nat) : Prop :=
  ∃ e ∈ es, (dir ≠ .inn ∧ e.src = (u : Int) ∧ e.dst = (v : Int)) ∨ (dir ≠ .out ∧ e.dst = (u : Int) ∧ e.src = (v : Int))

/-- `v` is at the end of a walk of `k` hops from a vertex of `A`. -/
inductive WalkFrom {E : Type} (dir : EdgeDir) (es : List (Edge E)) (A : Nat → Prop) : Nat → Nat → Prop
  | start {v : Nat} (h : A v) : WalkFrom dir es A 0 v
  | hop {k u v : Nat} (w : WalkFrom dir es A k u) (h : Hop dir es u v) : WalkFrom dir es A (k + 1) v

end GraphMat

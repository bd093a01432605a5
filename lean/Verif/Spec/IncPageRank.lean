import Verif.Spec.PageRank

/-!
# Specification: the PageRank equation
-/
namespace GraphMat

variable {E : Type}

/-- What reaches `v` when every vertex `u` splits `g u` evenly over its out-edges. -/
def flowIn (es : List (Edge E)) (g : Nat → Rat) (v : Nat) : Rat :=
  ((es.filter (fun e => decide (e.dst = (v : Int)))).map (fun e => g e.src.toNat / (outDegree es e.src.toNat : Rat))).sum

/-- The right hand side of the PageRank equation with `alpha = 0.3`. -/
def prRhs (es : List (Edge E)) (x : Nat → Rat) (v : Nat) : Rat := 3 / 10 + 7 / 10 * flowIn es x v

/-- `x` is an exact solution of the PageRank equation on vertices `1..n`. -/
def IsPageRank (es : List (Edge E)) (n : Nat) (x : Nat → Rat) : Prop := ∀ v, 1 ≤ v → v ≤ n → x v = prRhs es x v

end GraphMat

import Verif.Spec.PageRank
import Mathlib.Algebra.BigOperators.Fin
import Mathlib.Algebra.Order.Field.Rat

/-!
# Specification: matrix factorisation by gradient descent, in exact arithmetic
-/
namespace GraphMat

variable {K : Nat}

/-- Inner product. -/
def inner (a b : Fin K → Rat) : Rat := ∑ i, a i * b i

/-- The error of the estimate for the rating `e`. -/
def ratingErr (x : Nat → Fin K → Rat) (e : Edge Int) : Rat := (e.val : Rat) - inner (x e.src.toNat) (x e.dst.toNat)

/-- Sum of the squared errors of all ratings. -/
def sqErr (es : List (Edge Int)) (x : Nat → Fin K → Rat) : Rat := (es.map (fun e => ratingErr x e ^ 2)).sum

/-- `v` has a rating. -/
def Rated (es : List (Edge Int)) (v : Nat) : Prop := ∃ e ∈ es, e.src = (v : Int) ∨ e.dst = (v : Int)

instance (es : List (Edge Int)) (v : Nat) : Decidable (Rated es v) := by unfold Rated; infer_instance

/-- The direction of a step at a vertex with ratings: for each rating in which `v` is one end (twice if it is both)
the error times the vector of the other end, minus the regularisation. -/
def sgdDir (lambda : Rat) (es : List (Edge Int)) (x : Nat → Fin K → Rat) (v : Nat) (i : Fin K) : Rat :=
  if Rated es v then
    -lambda * x v i + ((es.filter (fun e => decide (e.dst = (v : Int)))).map (fun e => ratingErr x e * x e.src.toNat i)).sum
      + ((es.filter (fun e => decide (e.src = (v : Int)))).map (fun e => ratingErr x e * x e.dst.toNat i)).sum
  else 0

/-- One step, taken at all vertices at once. -/
def sgdStep (lambda step : Rat) (es : List (Edge Int)) (x : Nat → Fin K → Rat) : Nat → Fin K → Rat :=
  fun v i => x v i + step * sgdDir lambda es x v i

/-- The regularised objective on vertices `1..n`: half the sum of the squared errors plus half of `lambda` times the
squared lengths of the vectors of the vertices with ratings. -/
def sgdObjective (lambda : Rat) (es : List (Edge Int)) (n : Nat) (x : Nat → Fin K → Rat) : Rat :=
  1 / 2 * sqErr es x + lambda / 2 * ∑ v ∈ Finset.Icc 1 n, if Rated es v then inner (x v) (x v) else 0

end GraphMat

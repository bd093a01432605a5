import Verif.Spec.Paths

/-!
# Specification: PageRank in exact arithmetic
-/
namespace GraphMat

variable {E : Type}

/-- The number of edges that leave `v`. -/
def outDegree (es : List (Edge E)) (v : Nat) : Nat := es.countP (fun e => decide (e.src = (v : Int)))

/-- One iteration: a vertex with in-edges gets `alpha + (1 - alpha) *` the sum over its in-edges of the rank of
their source divided by the out-degree of the source. -/
def prStep (alpha : Rat) (es : List (Edge E)) (x : Nat → Rat) (v : Nat) : Rat :=
  if inDegree es v = 0 then x v
  else alpha + (1 - alpha) *
    ((es.filter (fun e => decide (e.dst = (v : Int)))).map
      (fun e => x e.src.toNat / (outDegree es e.src.toNat : Rat))).sum

/-- The ranks after some iterations, from rank 0.3 everywhere and with `alpha = 0.3`. -/
def prIter (es : List (Edge E)) : Nat → Nat → Rat
  | 0 => fun _ => 3 / 10
  | k + 1 => prStep (3 / 10) es (prIter es k)

end GraphMat

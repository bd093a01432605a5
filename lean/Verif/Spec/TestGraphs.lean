import Verif.Model.Tile

/-!
# Specification: the graphs of the tests
-/
namespace GraphMat

variable {E : Type}

/-- The complete graph with `n` vertices and loops, in the order of the ids. -/
def denseEdges (one : E) (n : Nat) : List (Edge E) :=
  (List.range n).flatMap (fun (i : Nat) => (List.range n).map (fun (j : Nat) => ⟨(i : Int) + 1, (j : Int) + 1, one⟩))

/-- All edges from smaller to larger ids. -/
def upperEdges (one : E) (n : Nat) : List (Edge E) :=
  (List.range n).flatMap (fun (i : Nat) => (List.range' (i + 1) (n - (i + 1))).map (fun (j : Nat) => ⟨(i : Int) + 1, (j : Int) + 1, one⟩))

/-- The cycle `1 → 2 → ... → n → 1`. -/
def chainEdges (one : E) (n : Nat) : List (Edge E) :=
  (List.range n).map (fun (i : Nat) => ⟨(i : Int) + 1, if i + 1 = n then 1 else (i : Int) + 2, one⟩)

/-- A loop at every vertex. -/
def loopEdges (one : E) (n : Nat) : List (Edge E) :=
  (List.range n).map (fun (i : Nat) => ⟨(i : Int) + 1, (i : Int) + 1, one⟩)

end GraphMat

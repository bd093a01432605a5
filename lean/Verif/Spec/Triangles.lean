import Verif.Spec.Paths

/-!
# Specification: triangles of a directed graph
-/
namespace GraphMat

variable {E : Type}

/-- There is an edge `u → v`. -/
def HasEdge (es : List (Edge E)) (u v : Nat) : Prop := ∃ e ∈ es, e.src = (u : Int) ∧ e.dst = (v : Int)

/-- No edge is listed twice. -/
def NoParallel (es : List (Edge E)) : Prop := (es.map (fun e => (e.src, e.dst))).Nodup

/-- `(u, v, w)` with `u → v`, `v → w` and `u → w`. -/
def IsTriangle (es : List (Edge E)) (t : Nat × Nat × Nat) : Prop :=
  HasEdge es t.1 t.2.1 ∧ HasEdge es t.2.1 t.2.2 ∧ HasEdge es t.1 t.2.2

end GraphMat

import Verif.Spec.Superstep

/-!
# Sets of vertices that no edge enters or leaves
-/
namespace GraphMat

/-- No edge leads into or out of `C`. -/
def Closed {E : Type} (C : Nat → Bool) (es : List (Edge E)) : Prop := ∀ e ∈ es, C e.src.toNat = C e.dst.toNat

/-- The edges inside `C`. -/
def inside {E : Type} (C : Nat → Bool) (es : List (Edge E)) : List (Edge E) := es.filter (fun e => C e.src.toNat && C e.dst.toNat)

end GraphMat

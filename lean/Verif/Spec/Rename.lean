import Verif.Spec.Superstep

/-!
# Renaming the vertices of a graph
-/
namespace GraphMat

/-- `π` and `ρ` are inverse permutations of the vertices `1..n`. -/
structure Renaming (n : Nat) (π ρ : Nat → Nat) : Prop where
  into : ∀ v, 1 ≤ v → v ≤ n → 1 ≤ π v ∧ π v ≤ n
  back : ∀ v, 1 ≤ v → v ≤ n → 1 ≤ ρ v ∧ ρ v ≤ n
  left : ∀ v, 1 ≤ v → v ≤ n → ρ (π v) = v
  right : ∀ v, 1 ≤ v → v ≤ n → π (ρ v) = v

/-- The edge between the renamed ends. -/
def Edge.rename {E : Type} (π : Nat → Nat) (e : Edge E) : Edge E := ⟨(π e.src.toNat : Int), (π e.dst.toNat : Int), e.val⟩

end GraphMat

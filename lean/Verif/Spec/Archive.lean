import Verif.Model.Snapshot

/-! # Specification of saving to an archive and loading from it -/
namespace GraphMat

variable {E τ : Type}

/-- What `save` writes is appended to the archive, and `load` takes exactly that away again, whatever follows it; the object
it gives has the property `P`. -/
def ArchiveGives (save : Archive E → Option (Archive E)) (load : Archive E → Option (τ × Archive E)) (P : τ → Prop) : Prop :=
  ∃ toks, (∀ ar, save ar = some (ar ++ toks)) ∧ ∀ more, ∃ t, load (toks ++ more) = some (t, more) ∧ P t

end GraphMat

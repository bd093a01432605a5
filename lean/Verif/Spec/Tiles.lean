import Mathlib.Data.Finset.Prod
import Mathlib.Data.Finset.Card

/-!
# Specification: how many tiles a rank holds
-/
namespace GraphMat

/-- The tiles of a square grid with `t` rows and columns that `owner` gives to rank `r`. -/
def tilesOf (owner : Nat → Nat → Option Nat) (t r : Nat) : Nat :=
  ((Finset.range t ×ˢ Finset.range t).filter (fun p => owner p.1 p.2 = some r)).card

end GraphMat

import Mathlib.Algebra.Order.Field.Rat
import Mathlib.Tactic.NormNum

/-!
# Specification: binary floating-point numbers
-/
namespace GraphMat

/-- `y = m * 2^(e - (p - 1))` with a significand `m` of at most `p` digits. -/
def FloatRep (p : Nat) (m e : Int) (y : Rat) : Prop := |m| < 2 ^ p ∧ y = (m : Rat) * (2 : Rat) ^ (e - ((p : Int) - 1))

/-- `y` is a finite number of the format with `p` digits and exponents from `emin` to `emax`. -/
def IsFloat (p : Nat) (emin emax : Int) (y : Rat) : Prop := ∃ m e : Int, emin ≤ e ∧ e ≤ emax ∧ FloatRep p m e y

/-- The last digit of `y`, written with the smallest exponent, is 0. -/
def EvenFloat (p : Nat) (emin emax : Int) (y : Rat) : Prop :=
  ∃ m e : Int, emin ≤ e ∧ e ≤ emax ∧ FloatRep p m e y ∧ (e = emin ∨ 2 ^ (p - 1) ≤ |m|) ∧ m % 2 = 0

end GraphMat

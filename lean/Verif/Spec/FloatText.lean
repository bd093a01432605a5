import Verif.Spec.EdgeFile
import Verif.Spec.Float
import Verif.Model.FloatText

/-!
# Specification: decimal fractions as text
-/
namespace GraphMat

/-- `l` is decimal notation, without sign, of the number `x`: digits, possibly a point among them or at an end, possibly an exponent. -/
def IsDecimal (x : Rat) (l : List Char) : Prop :=
  ∃ (ds fs : List Nat) (pt ex : List Char) (e : Int), ds ++ fs ≠ [] ∧ (∀ d, d ∈ ds ++ fs → d < 10) ∧
    (fs = [] ∧ pt = [] ∨ pt = '.' :: fs.map digitChar) ∧
    (e = 0 ∧ ex = [] ∨ ∃ t, IsNumeral e t ∧ (ex = 'e' :: t ∨ ex = 'E' :: t)) ∧
    l = ds.map digitChar ++ (pt ++ ex) ∧ x = (digitsValue (ds ++ fs) : Rat) * (10 : Rat) ^ (e - (fs.length : Int))

/-- A sign in front of a number. -/
def IsSign (neg : Bool) (l : List Char) : Prop := neg = true ∧ l = ['-'] ∨ neg = false ∧ (l = [] ∨ l = ['+'])

/-- A value of a type with `p` digits and exponents from `emin` to `emax`. -/
def IsFNum (p : Nat) (emin emax : Int) : FNum → Prop
  | .fin _ m => 0 ≤ m ∧ IsFloat p emin emax m
  | _ => True

/-- What is kept of the weight `v` when it is written with `d` decimals and read as `w`. -/
structure TextKept (p : Nat) (emin emax : Int) (d : Nat) (big : Rat) (v w : FNum) : Prop where
  /-- infinities and NaNs stay -/
  inf : ∀ neg, v = .inf neg → w = v
  nan : ∀ neg, v = .nan neg → w = v
  /-- a finite weight stays finite, keeps its sign, and changes by at most one unit of the last decimal -/
  near : ∀ neg m, v = .fin neg m → ∃ m', w = .fin neg m' ∧ 0 ≤ m' ∧ IsFloat p emin emax m' ∧ |m' - m| ≤ 1 / (10 : Rat) ^ d
  /-- large weights stay -/
  large : ∀ neg m, v = .fin neg m → big ≤ m → w = v
  /-- weights with at most `d` decimals stay -/
  short : ∀ neg m, v = .fin neg m → (∃ k : Int, m * (10 : Rat) ^ d = k) → w = v
  /-- weights up to half of the last decimal vanish -/
  small : ∀ neg m, v = .fin neg m → m ≤ 1 / 2 / (10 : Rat) ^ d → w = .fin neg 0

end GraphMat

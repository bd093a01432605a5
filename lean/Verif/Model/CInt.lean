/-!
# 32-bit C `int` arithmetic

GraphMat stores vertex ids, sizes and counters in `int`.  The operations below compute on
mathematical integers but return `none` whenever the C++ operation would be undefined:
signed overflow, or division / remainder by zero.

Assumption (all targets of the Makefile, /repo/Makefile:13-42): `int` has 32 bits, two's
complement, and `/` and `%` truncate toward zero (C++11, which the Makefile selects).
-/
namespace GraphMat

/-- Largest `int` (32-bit `int`, used throughout /repo/include/Graph.h:62-66). -/
def INT_MAX : Int := 2147483647

/-- Smallest `int` (32-bit `int`, used throughout /repo/include/Graph.h:62-66). -/
def INT_MIN : Int := -2147483648

/-- A result of `int` arithmetic: `none` stands for signed overflow (undefined behaviour).
Models every `int` expression, e.g. /repo/include/Graph.h:116-126. -/
def ck (x : Int) : Option Int := if INT_MIN ≤ x ∧ x ≤ INT_MAX then some x else none

/-- `a + b` on `int` (e.g. /repo/include/Graph.h:142). -/
def cadd (a b : Int) : Option Int := ck (a + b)

/-- `a - b` on `int` (e.g. /repo/include/Graph.h:116). -/
def csub (a b : Int) : Option Int := ck (a - b)

/-- `a * b` on `int` (e.g. /repo/include/Graph.h:117). -/
def cmul (a b : Int) : Option Int := ck (a * b)

/-- `a / b` on `int`, truncating; undefined for `b = 0` (e.g. /repo/include/Graph.h:118). -/
def cdiv (a b : Int) : Option Int := if b = 0 then none else ck (a.tdiv b)

/-- `a % b` on `int`, truncating; undefined for `b = 0` (e.g. /repo/include/Graph.h:124). -/
def cmod (a b : Int) : Option Int :=
  if b = 0 then none else if ck (a.tdiv b) = none then none else ck (a.tmod b)

end GraphMat

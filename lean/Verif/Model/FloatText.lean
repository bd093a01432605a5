import Verif.Model.EdgeFile
import Verif.Model.FloatPr

/-!
# Weights of type `float` and `double` in text files

Models the conversions `%.8f`, `%.15lf` of `writeLine`, /repo/include/GMDP/utils/edgelist.h:191-194, and `%f`, `%lf` of
`readLine`, lines 109-114, as a correctly rounding C library does them (as glibc does): the number printed is the
exact value rounded to the given number of decimals, half to even; the number read is the exact decimal value rounded
to the type, half to even.
-/
namespace GraphMat

/-- A weight of type `float` or `double`, /repo/include/GMDP/utils/edgelist.h:109, 112, 191, 193: a sign with a finite
magnitude (so there are two zeros), infinity, or not a number.  Simplified: the payload of a NaN is left out. -/
inductive FNum where
  | fin (neg : Bool) (m : Rat)
  | inf (neg : Bool)
  | nan (neg : Bool)
deriving DecidableEq

/-- The decimals of `%.8f` and `%.15lf`, /repo/include/GMDP/utils/edgelist.h:192, 194: exactly `d` digits. -/
def printFrac : Nat → Nat → List Char
  | 0, _ => []
  | d + 1, k => printFrac d (k / 10) ++ [Char.ofNat (48 + k % 10)]

/-- A finite magnitude under `%.8f` and `%.15lf`, /repo/include/GMDP/utils/edgelist.h:192, 194, for `d` decimals. -/
def printFixed (d : Nat) (m : Rat) : List Char :=
  let k := (roundEven (m * ((10 ^ d : Nat) : Rat))).toNat
  printDigits (k / 10 ^ d + 1) (k / 10 ^ d) ++ '.' :: printFrac d (k % 10 ^ d)

/-- `%.8f` (`d = 8`) and `%.15lf` (`d = 15`) of `fprintf`, /repo/include/GMDP/utils/edgelist.h:192, 194.  (A `float` is
promoted to `double`, which is exact.) -/
def printFloat (d : Nat) : FNum → List Char
  | .fin neg m => (if neg then ['-'] else []) ++ printFixed d m
  | .inf neg => (if neg then ['-'] else []) ++ ['i', 'n', 'f']
  | .nan neg => (if neg then ['-'] else []) ++ ['n', 'a', 'n']

/-- `10^e`, the exponent of a number read by `%f` or `%lf`, /repo/include/GMDP/utils/edgelist.h:110, 113. -/
def pow10 (e : Int) : Rat := if 0 ≤ e then ((10 ^ e.toNat : Nat) : Rat) else 1 / ((10 ^ (-e).toNat : Nat) : Rat)

/-- The digits of a number read by `%f` or `%lf` with at most one point among them,
/repo/include/GMDP/utils/edgelist.h:110, 113: the number they form, how many come after the point, and the rest. -/
def scanMant (l : List Char) : Option ((Nat × Nat) × List Char) :=
  let a := scanDigits l 0 0
  match a.2.2 with
  | '.' :: cs =>
    let b := scanDigits cs a.1 0
    if a.2.1 + b.2.1 = 0 then none else some ((b.1, b.2.1), b.2.2)
  | r => if a.2.1 = 0 then none else some ((a.1, 0), r)

/-- The exponent of a number read by `%f` or `%lf`, /repo/include/GMDP/utils/edgelist.h:110, 113; `e` without digits is a
matching failure. -/
def scanExp : List Char → Option (Int × List Char)
  | c :: cs => if c = 'e' ∨ c = 'E' then scanInt cs else some (0, c :: cs)
  | [] => some (0, [])

/-- `%f` and `%lf` after the sign, /repo/include/GMDP/utils/edgelist.h:110, 113.  Simplified: `infinity`, `nan(...)` and
hexadecimal numbers are not split off as a whole. -/
def scanMag (f : FloatFmt) (neg : Bool) (l : List Char) : Option (FNum × List Char) :=
  if (l.take 3).map Char.toLower = ['i', 'n', 'f'] then some (.inf neg, l.drop 3)
  else if (l.take 3).map Char.toLower = ['n', 'a', 'n'] then some (.nan neg, l.drop 3)
  else do
    let a ← scanMant l
    let b ← scanExp a.2
    match f.round ((a.1.1 : Rat) * pow10 (b.1 - a.1.2)) with
    | some m => some (.fin neg m, b.2)
    | none => some (.inf neg, b.2)

/-- `%f` (`b32`) and `%lf` (`b64`) of `fscanf` after white space was skipped, /repo/include/GMDP/utils/edgelist.h:110, 113. -/
def scanFloat (f : FloatFmt) : List Char → Option (FNum × List Char)
  | '-' :: cs => scanMag f true cs
  | '+' :: cs => scanMag f false cs
  | cs => scanMag f false cs

/-- How `readLine` reads weights of type `float` (`b32`) and `double` (`b64`), /repo/include/GMDP/utils/edgelist.h:109-114, 127. -/
def floatText (f : FloatFmt) : TextType FNum := ⟨scanFloat f, .fin false 1⟩

end GraphMat

import Verif.Model.FloatText
import Verif.Model.Converter

/-!
# `float` and `double` weights as bits

A weight of type `float` or `double` is modelled by its bits in memory (binary32 and binary64), which is what
`fread`/`fwrite` of /repo/include/GMDP/utils/edgelist.h:101, 185 copy; text conversions go through its value
(`Model/FloatText`).
-/
namespace GraphMat

/-- The value of `w` bits: sign, exponent, significand (the `float` and `double` weights of
/repo/include/GMDP/utils/edgelist.h:191-194). -/
def bitsValue (f : FloatFmt) {w : Nat} (b : BitVec w) : FNum :=
  let n := b.toNat
  let s := n % 2 ^ (f.prec - 1)
  let e := n / 2 ^ (f.prec - 1) % 2 ^ (w - f.prec)
  let neg := decide (n / 2 ^ (w - 1) = 1)
  if e = 2 ^ (w - f.prec) - 1 then if s = 0 then .inf neg else .nan neg
  else if e = 0 then .fin neg (s * pow2 (f.emin - (f.prec - 1)))
  else .fin neg ((2 ^ (f.prec - 1) + s : Nat) * pow2 (e + f.emin - 1 - (f.prec - 1)))

/-- Sign, exponent and significand as one number (/repo/include/GMDP/utils/edgelist.h:110, 113: what `fscanf` stores). -/
def packBits (f : FloatFmt) (w : Nat) (neg : Bool) (e s : Nat) : BitVec w :=
  BitVec.ofNat w ((if neg then 2 ^ (w - 1) else 0) + e * 2 ^ (f.prec - 1) + s)

/-- The bits of a value (/repo/include/GMDP/utils/edgelist.h:110, 113: what `fscanf` stores).  A NaN is the quiet one with no
other bits. -/
def valueBits (f : FloatFmt) (w : Nat) : FNum → BitVec w
  | .inf neg => packBits f w neg (2 ^ (w - f.prec) - 1) 0
  | .nan neg => packBits f w neg (2 ^ (w - f.prec) - 1) (2 ^ (f.prec - 2))
  | .fin neg m =>
    if m < pow2 f.emin then packBits f w neg 0 (m / pow2 (f.emin - (f.prec - 1))).floor.toNat
    else packBits f w neg (expo m - f.emin + 1).toNat
      ((m / pow2 (expo m - (f.prec - 1))).floor.toNat - 2 ^ (f.prec - 1))

/-- The bytes of a number, least significant first (/repo/include/GMDP/utils/edgelist.h:185). -/
def bytesOf : Nat → Nat → List Nat
  | 0, _ => []
  | k + 1, n => n % 256 :: bytesOf k (n / 256)

/-- The number of some bytes (/repo/include/GMDP/utils/edgelist.h:101). -/
def numOf : List Nat → Nat
  | [] => 0
  | d :: l => d + 256 * numOf l

/-- `(T)(1)`, /repo/include/GMDP/utils/edgelist.h:104, 127. -/
def floatOne (f : FloatFmt) (w : Nat) : BitVec w := valueBits f w (.fin false 1)

/-- `(T)t` for a `double`, /repo/include/GMDP/utils/edgelist_transformation.h:427. -/
def castFloat (f : FloatFmt) (t : Rat) : FNum :=
  match f.round (mag t) with
  | some m => .fin (decide (t < 0)) m
  | none => .inf (decide (t < 0))

/-- `process_graph<float>` (`b32`, 32 bits, 8 decimals) and `process_graph<double>` (`b64`, 64 bits, 15 decimals),
/repo/src/graph_converter.cpp:161, 318-329. -/
def floatConv (f : FloatFmt) (w d : Nat) : ConvType (BitVec w) where
  bin := ⟨w / 8, fun v => bytesOf (w / 8) v.toNat, fun l => BitVec.ofNat w (numOf l), floatOne f w⟩
  text := ⟨fun l => (scanFloat f l).map (fun r => (valueBits f w r.1, r.2)), floatOne f w⟩
  print := fun v => printFloat d (bitsValue f v)
  cast := fun t => valueBits f w (castFloat f t)

end GraphMat

import Verif.Model.App

/-!
# PageRank in floating point

Models /repo/src/PageRank.cpp with the rounding of IEEE 754 arithmetic, round to nearest, ties to even: `float` is
binary32, `double` is binary64, and every operation in the source is rounded once, to the type the C++ rules give it
(no fused or reordered operations, no wider intermediate results).  A finite number is a rational; `none` stands for
an infinity or a NaN.  The two zeros are identified.
-/
namespace GraphMat

/-- The types `float` and `double`, /repo/src/PageRank.cpp:36, 44, 109, as binary formats: digits, smallest and largest exponent. -/
structure FloatFmt where
  prec : Nat
  emin : Int
  emax : Int

/-- `float`, e.g. /repo/src/PageRank.cpp:36: binary32. -/
def b32 : FloatFmt := ⟨24, -126, 127⟩

/-- `double`, the type of the literals `0.3`, `1e-5` and `1.0`, /repo/src/PageRank.cpp:40, 44, 109: binary64. -/
def b64 : FloatFmt := ⟨53, -1022, 1023⟩

/-- `2^e`; part of the rounding after every operation of /repo/src/PageRank.cpp:44, 95, 105, 109. -/
def pow2 (e : Int) : Rat := if 0 ≤ e then ((2 ^ e.toNat : Nat) : Rat) else 1 / ((2 ^ (-e).toNat : Nat) : Rat)

/-- The exponent of a positive number; part of the rounding, /repo/src/PageRank.cpp:44, 95, 105, 109. -/
def expo (q : Rat) : Int :=
  let e : Int := (Nat.log2 q.num.natAbs : Int) - (Nat.log2 q.den : Int)
  if pow2 e ≤ q then e else e - 1

/-- The nearest integer, the even one of two; part of the rounding, /repo/src/PageRank.cpp:44, 95, 105, 109. -/
def roundEven (q : Rat) : Int :=
  if q - q.floor < 1 / 2 then q.floor
  else if 1 / 2 < q - q.floor then q.floor + 1
  else if q.floor % 2 = 0 then q.floor else q.floor + 1

/-- `fabs`, /repo/src/PageRank.cpp:44. -/
def mag (x : Rat) : Rat := if x < 0 then -x else x

/-- Rounding without an upper limit on the exponent, /repo/src/PageRank.cpp:44, 95, 105, 109. -/
def FloatFmt.near (f : FloatFmt) (x : Rat) : Rat :=
  roundEven (x / pow2 (max (expo (mag x)) f.emin - (f.prec - 1))) * pow2 (max (expo (mag x)) f.emin - (f.prec - 1))

/-- What an operation of /repo/src/PageRank.cpp:44, 95, 105, 109 gives for the exact result `x`: it is rounded to the format; `none` if it
overflows. -/
def FloatFmt.round (f : FloatFmt) (x : Rat) : Option Rat :=
  if mag (f.near x) < pow2 (f.emax + 1) then some (f.near x) else none

/-- `class PR`, /repo/src/PageRank.cpp:34-51.  `rank = none`: infinity or NaN; `deg = none`: computing the field
overflowed. -/
structure PfV where
  /-- `pagerank` -/
  rank : Option Rat
  /-- `degree` -/
  deg : Option Int
deriving DecidableEq

/-- The literal `0.3` stored in a `float`, /repo/src/PageRank.cpp:40, 86. -/
def alphaF : Option Rat := (b64.round (3 / 10)).bind b32.round

/-- The constructor, /repo/src/PageRank.cpp:39-42. -/
def PfV.new : PfV := ⟨alphaF, some 0⟩

/-- `operator!=`, /repo/src/PageRank.cpp:43-45: the difference of two `float`s is a `float`, the literal `1e-5` is a
`double`.  Simplified: `true` when an infinity or NaN is involved (the theorems show there is none). -/
def PfV.ne (a b : PfV) : Bool :=
  match a.rank, b.rank, b64.round (1 / 100000) with
  | some x, some y, some t => match b32.round (y - x) with
    | some d => decide (mag d > t)
    | none => true
  | _, _, _ => true

/-- `class Degree<PR, E>`, /repo/src/PageRank.cpp:53-79. -/
def degreeProgF (E : Type) : Program Unit Int (Option Int) PfV E where
  gp _ :=
    { order := .inn
      allVertices := false
      needsProp := false
      send := fun _ _ => (true, 1)
      process := fun msg _ _ _ => some msg
      reduce := addInt
      apply := fun u v => { v with deg := u }
      ne := PfV.ne }
  every _ s := s

/-- `a += b` on `float`s, `PageRank::reduce_function`, /repo/src/PageRank.cpp:94-96. -/
def addF (a b : Option Rat) : Option Rat := do
  let x ← a
  let y ← b
  b32.round (x + y)

/-- `PageRank::send_message`, /repo/src/PageRank.cpp:100-107 (an overflowed degree is treated as 0, the real program
has no meaning then). -/
def prMessageF (v : PfV) : Option Rat :=
  if v.deg.getD 0 = 0 then some 0
  else do
    let r ← v.rank
    let d ← b32.round (v.deg.getD 0 : Rat)
    b32.round (r / d)

/-- `alpha + (1.0-alpha)*message_out`, /repo/src/PageRank.cpp:109: computed in `double`, stored in a `float`. -/
def prApplyF (alpha m : Option Rat) : Option Rat := do
  let a ← alpha
  let m ← m
  let c ← b64.round (1 - a)
  let p ← b64.round (c * m)
  let s ← b64.round (a + p)
  b32.round s

/-- `class PageRank<E>`, /repo/src/PageRank.cpp:81-112. -/
def prProgF (E : Type) : Program Unit (Option Rat) (Option Rat) PfV E where
  gp _ :=
    { order := .out
      allVertices := true
      needsProp := false
      send := fun v _ => (true, prMessageF v)
      process := fun msg _ _ _ => msg
      reduce := addF
      apply := fun u v => { v with rank := prApplyF alphaF u }
      ne := PfV.ne }
  every _ s := s

/-- `run_pagerank` after the degree pass, /repo/src/PageRank.cpp:139-144. -/
def prMainF {E : Type} (e2 : AppEnv (Option Rat) (Option Rat) PfV) (fuel : Nat) :
    RunOut (RunState Unit Int (Option Int) PfV E) → Option (RunOut (RunState Unit (Option Rat) (Option Rat) PfV E))
  | .more st => (st.G.newScratch e2.ie).map (fun xy => .more ⟨st.G, xy.1, xy.2, (), 0, false⟩)
  | .done st => do
    let xy ← st.G.newScratch e2.ie
    let G ← st.G.onVertices (VGraph.setAllActive e2.gia)
    Graph.run e2.ie e2.env (prProgF E) () (-1) (some xy) G fuel

/-- `run_pagerank(filename)` after `G.ReadMTX(filename)`, /repo/src/PageRank.cpp:125-144; timing and printing are left
out. -/
def runPagerankF {E : Type} (e1 : AppEnv Int (Option Int) PfV) (e2 : AppEnv (Option Rat) (Option Rat) PfV) (G : Graph PfV E)
    (fuel : Nat) : Option (RunOut (RunState Unit (Option Rat) (Option Rat) PfV E)) := do
  let d ← G.newScratch e1.ie
  let G ← G.onVertices (VGraph.setAllActive e1.gia)
  let o ← Graph.run e1.ie e1.env (degreeProgF E) () 1 (some d) G fuel
  prMainF e2 fuel o

end GraphMat

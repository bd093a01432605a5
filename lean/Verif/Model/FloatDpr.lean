import Verif.Model.FloatPr

/-!
# Incremental PageRank in floating point

Models /repo/src/IncrementalPageRank.cpp with the rounding of IEEE 754 arithmetic, as `Verif/Model/FloatPr.lean` does for
/repo/src/PageRank.cpp: every operation is rounded once, to a `double`; `none` stands for an infinity or a NaN; the two
zeros are identified.
-/
namespace GraphMat

/-- `class dPR`, /repo/src/IncrementalPageRank.cpp:33-50.  `delta`, `rank`: `none` is an infinity or a NaN; `deg = none`:
computing the field overflowed. -/
structure DpfV where
  /-- `delta` -/
  delta : Option Rat
  /-- `pagerank` -/
  rank : Option Rat
  /-- `degree` -/
  deg : Option Int
deriving DecidableEq

/-- The literal `0.3`, /repo/src/IncrementalPageRank.cpp:40, 41, 86. -/
def alphaD : Option Rat := b64.round (3 / 10)

/-- The constructor, /repo/src/IncrementalPageRank.cpp:39-43. -/
def DpfV.new : DpfV := ⟨alphaD, alphaD, some 0⟩

/-- `fabs(x) > 1e-8`, /repo/src/IncrementalPageRank.cpp:45, 112, 114.  Simplified: `true` when an infinity or NaN is
involved (the theorems show there is none). -/
def dpfBig (x : Option Rat) : Bool :=
  match x, b64.round (1 / 100000000) with
  | some x, some t => decide (mag x > t)
  | _, _ => true

/-- `p.pagerank-this->pagerank`, /repo/src/IncrementalPageRank.cpp:45. -/
def subD (a b : Option Rat) : Option Rat := do
  let x ← a
  let y ← b
  b64.round (x - y)

/-- `a += b` on `double`s, /repo/src/IncrementalPageRank.cpp:94-96, 113, 115. -/
def addD (a b : Option Rat) : Option Rat := do
  let x ← a
  let y ← b
  b64.round (x + y)

/-- `operator!=`, /repo/src/IncrementalPageRank.cpp:44-46. -/
def DpfV.ne (a b : DpfV) : Bool := dpfBig (subD b.rank a.rank)

/-- `class Degree<dPR, E>`, /repo/src/IncrementalPageRank.cpp:52-78. -/
def dpfDegreeProg (E : Type) : Program Unit Int (Option Int) DpfV E where
  gp _ :=
    { order := .inn
      allVertices := false
      needsProp := false
      send := fun _ _ => (true, 1)
      process := fun msg _ _ _ => some msg
      reduce := addInt
      apply := fun u v => { v with deg := u }
      ne := DpfV.ne }
  every _ s := s

/-- `DeltaPageRank::send_message`, /repo/src/IncrementalPageRank.cpp:101-109 (an overflowed degree is treated as
0, the real program has no meaning then). -/
def dpfMessage (v : DpfV) : Option Rat :=
  if v.deg.getD 0 = 0 then some 0
  else do
    let r ← v.delta
    let d ← b64.round (v.deg.getD 0 : Rat)
    b64.round (r / d)

/-- `(1.0-alpha)*message_out`, /repo/src/IncrementalPageRank.cpp:113. -/
def dpfShare (alpha m : Option Rat) : Option Rat := do
  let a ← alpha
  let m ← m
  let c ← b64.round (1 - a)
  b64.round (c * m)

/-- `DeltaPageRank::apply`, /repo/src/IncrementalPageRank.cpp:111-117. -/
def dpfApply (alpha u : Option Rat) (v : DpfV) : DpfV :=
  let d0 := if dpfBig v.delta then some 0 else v.delta
  let d1 := addD d0 (dpfShare alpha u)
  if dpfBig d1 then { v with delta := d1, rank := addD v.rank d1 } else { v with delta := d1 }

/-- `class DeltaPageRank`, /repo/src/IncrementalPageRank.cpp:80-123, with the `alpha` of its default argument; the
counter `iter`, which nothing reads, is left out. -/
def dpfProg (E : Type) : Program Unit (Option Rat) (Option Rat) DpfV E where
  gp _ :=
    { order := .out
      allVertices := false
      needsProp := false
      send := fun v _ => (true, dpfMessage v)
      process := fun msg _ _ _ => msg
      reduce := addD
      apply := dpfApply alphaD
      ne := DpfV.ne }
  every _ s := s

/-- `run_pagerank` after the degree pass, /repo/src/IncrementalPageRank.cpp:150-155. -/
def dpfMain {E : Type} (e2 : AppEnv (Option Rat) (Option Rat) DpfV) (fuel : Nat) :
    RunOut (RunState Unit Int (Option Int) DpfV E) → Option (RunOut (RunState Unit (Option Rat) (Option Rat) DpfV E))
  | .more st => (st.G.newScratch e2.ie).map (fun xy => .more ⟨st.G, xy.1, xy.2, (), 0, false⟩)
  | .done st => do
    let xy ← st.G.newScratch e2.ie
    let G ← st.G.onVertices (VGraph.setAllActive e2.gia)
    Graph.run e2.ie e2.env (dpfProg E) () (-1) (some xy) G fuel

/-- `run_pagerank(filename)` after `G.ReadMTX(filename)`, /repo/src/IncrementalPageRank.cpp:136-155; timing and
printing are left out. -/
def runIncPagerankF {E : Type} (e1 : AppEnv Int (Option Int) DpfV) (e2 : AppEnv (Option Rat) (Option Rat) DpfV)
    (G : Graph DpfV E) (fuel : Nat) : Option (RunOut (RunState Unit (Option Rat) (Option Rat) DpfV E)) := do
  let d ← G.newScratch e1.ie
  let G ← G.onVertices (VGraph.setAllActive e1.gia)
  let o ← Graph.run e1.ie e1.env (dpfDegreeProg E) () 1 (some d) G fuel
  dpfMain e2 fuel o

end GraphMat

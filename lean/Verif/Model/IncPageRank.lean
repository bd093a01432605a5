import Verif.Model.App

/-!
# Incremental PageRank

Models /repo/src/IncrementalPageRank.cpp with `double` replaced by exact rationals (rounding is not modelled).
-/
namespace GraphMat

/-- `class dPR`, /repo/src/IncrementalPageRank.cpp:33-50.  `deg = none`: computing the field overflowed. -/
structure DprV where
  /-- `delta` -/
  delta : Rat
  /-- `pagerank` -/
  rank : Rat
  /-- `degree` -/
  deg : Option Int
deriving DecidableEq

/-- The constructor, /repo/src/IncrementalPageRank.cpp:39-43. -/
def DprV.new : DprV := ⟨3 / 10, 3 / 10, some 0⟩

/-- `fabs(x) > 1e-8`, /repo/src/IncrementalPageRank.cpp:45, 112, 114. -/
def dprBig (x : Rat) : Bool := decide ((if x < 0 then -x else x) > 1 / 100000000)

/-- `operator!=`, /repo/src/IncrementalPageRank.cpp:44-46. -/
def DprV.ne (a b : DprV) : Bool := dprBig (b.rank - a.rank)

/-- `class Degree<dPR, E>`, /repo/src/IncrementalPageRank.cpp:52-78. -/
def dprDegreeProg (E : Type) : Program Unit Int (Option Int) DprV E where
  gp _ :=
    { order := .inn
      allVertices := false
      needsProp := false
      send := fun _ _ => (true, 1)
      process := fun msg _ _ _ => some msg
      reduce := addInt
      apply := fun u v => { v with deg := u }
      ne := DprV.ne }
  every _ s := s

/-- `DeltaPageRank::send_message`, /repo/src/IncrementalPageRank.cpp:101-109 (an overflowed degree is treated as
0, the real program has no meaning then). -/
def dprMessage (v : DprV) : Rat :=
  if v.deg.getD 0 = 0 then 0 else v.delta / (v.deg.getD 0 : Rat)

/-- `DeltaPageRank::apply`, /repo/src/IncrementalPageRank.cpp:111-117. -/
def dprApply (alpha u : Rat) (v : DprV) : DprV :=
  let d0 := if dprBig v.delta then 0 else v.delta
  let d1 := d0 + (1 - alpha) * u
  if dprBig d1 then { v with delta := d1, rank := v.rank + d1 } else { v with delta := d1 }

/-- `class DeltaPageRank`, /repo/src/IncrementalPageRank.cpp:80-123; the counter `iter`, which nothing reads, is
left out. -/
def dprProg (E : Type) (alpha : Rat) : Program Unit Rat Rat DprV E where
  gp _ :=
    { order := .out
      allVertices := false
      needsProp := false
      send := fun v _ => (true, dprMessage v)
      process := fun msg _ _ _ => msg
      reduce := fun a b => a + b
      apply := dprApply alpha
      ne := DprV.ne }
  every _ s := s

/-- `run_pagerank` after the degree pass, /repo/src/IncrementalPageRank.cpp:150-155. -/
def dprMain {E : Type} (e2 : AppEnv Rat Rat DprV) (fuel : Nat) :
    RunOut (RunState Unit Int (Option Int) DprV E) → Option (RunOut (RunState Unit Rat Rat DprV E))
  | .more st => (st.G.newScratch e2.ie).map (fun xy => .more ⟨st.G, xy.1, xy.2, (), 0, false⟩)
  | .done st => do
    let xy ← st.G.newScratch e2.ie
    let G ← st.G.onVertices (VGraph.setAllActive e2.gia)
    Graph.run e2.ie e2.env (dprProg E (3 / 10)) () (-1) (some xy) G fuel

/-- `run_pagerank(filename)` after `G.ReadMTX(filename)`, /repo/src/IncrementalPageRank.cpp:136-155; timing and
printing are left out. -/
def runIncPagerank {E : Type} (e1 : AppEnv Int (Option Int) DprV) (e2 : AppEnv Rat Rat DprV) (G : Graph DprV E)
    (fuel : Nat) : Option (RunOut (RunState Unit Rat Rat DprV E)) := do
  let d ← G.newScratch e1.ie
  let G ← G.onVertices (VGraph.setAllActive e1.gia)
  let o ← Graph.run e1.ie e1.env (dprDegreeProg E) () 1 (some d) G fuel
  dprMain e2 fuel o

end GraphMat

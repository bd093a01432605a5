import Verif.Model.App

/-!
# PageRank

Models /repo/src/PageRank.cpp with `float` replaced by exact rationals (rounding is not modelled).
-/
namespace GraphMat

/-- `class PR`, /repo/src/PageRank.cpp:34-51.  `deg = none`: computing the field overflowed. -/
structure PrV where
  /-- `pagerank` -/
  rank : Rat
  /-- `degree` -/
  deg : Option Int
deriving DecidableEq

/-- The constructor, /repo/src/PageRank.cpp:39-42. -/
def PrV.new : PrV := ⟨3 / 10, some 0⟩

/-- `operator!=`, /repo/src/PageRank.cpp:43-45. -/
def PrV.ne (a b : PrV) : Bool :=
  decide ((if b.rank - a.rank < 0 then -(b.rank - a.rank) else b.rank - a.rank) > 1 / 100000)

/-- `class Degree<PR, E>`, /repo/src/PageRank.cpp:53-79. -/
def degreeProg (E : Type) : Program Unit Int (Option Int) PrV E where
  gp _ :=
    { order := .inn
      allVertices := false
      needsProp := false
      send := fun _ _ => (true, 1)
      process := fun msg _ _ _ => some msg
      reduce := addInt
      apply := fun u v => { v with deg := u }
      ne := PrV.ne }
  every _ s := s

/-- `PageRank::send_message`, /repo/src/PageRank.cpp:100-107 (an overflowed degree is treated as 0, the
real program has no meaning then). -/
def prMessage (v : PrV) : Rat :=
  if v.deg.getD 0 = 0 then 0 else v.rank / (v.deg.getD 0 : Rat)

/-- `class PageRank<E>`, /repo/src/PageRank.cpp:81-112. -/
def prProg (E : Type) (alpha : Rat) : Program Unit Rat Rat PrV E where
  gp _ :=
    { order := .out
      allVertices := true
      needsProp := false
      send := fun v _ => (true, prMessage v)
      process := fun msg _ _ _ => msg
      reduce := fun a b => a + b
      apply := fun u v => { v with rank := alpha + (1 - alpha) * u }
      ne := PrV.ne }
  every _ s := s

/-- `run_pagerank` after the degree pass, /repo/src/PageRank.cpp:139-144. -/
def prMain {E : Type} (e2 : AppEnv Rat Rat PrV) (fuel : Nat) :
    RunOut (RunState Unit Int (Option Int) PrV E) → Option (RunOut (RunState Unit Rat Rat PrV E))
  | .more st => (st.G.newScratch e2.ie).map (fun xy => .more ⟨st.G, xy.1, xy.2, (), 0, false⟩)
  | .done st => do
    let xy ← st.G.newScratch e2.ie
    let G ← st.G.onVertices (VGraph.setAllActive e2.gia)
    Graph.run e2.ie e2.env (prProg E (3 / 10)) () (-1) (some xy) G fuel

/-- `run_pagerank(filename)` after `G.ReadMTX(filename)`, /repo/src/PageRank.cpp:125-144; timing and
printing are left out. -/
def runPagerank {E : Type} (e1 : AppEnv Int (Option Int) PrV) (e2 : AppEnv Rat Rat PrV) (G : Graph PrV E) (fuel : Nat) :
    Option (RunOut (RunState Unit Rat Rat PrV E)) := do
  let d ← G.newScratch e1.ie
  let G ← G.onVertices (VGraph.setAllActive e1.gia)
  let o ← Graph.run e1.ie e1.env (degreeProg E) () 1 (some d) G fuel
  prMain e2 fuel o

end GraphMat

import Verif.Spec.GraphLife
import Verif.Model.ElMem

/-!
# Memory of the example programs

What the programs in /repo/src do with their graphs, temporary structures and edge lists on one rank, as far as memory is
concerned.  The numbers of edges, the owners and what happens in the supersteps are parameters.  `getVertexproperty` and
`setVertexproperty` of a vertex of another rank only look at the owner; such calls are left out.  Objects on the stack and memory of
vertex properties themselves (the neighbour vectors of /repo/src/TriangleCounting.cpp:39-43) are not counted.
-/
namespace GraphMat

/-- What a rank finds after `G.ReadMTX` (/repo/src/BFS.cpp:110-111, /repo/include/Graph.h:248-260): the files of this rank have `k`
edges, and its tiles and segments; a summary of contents modelled elsewhere. -/
structure RankIn where
  /-- edges in the files of this rank -/
  k : Nat
  /-- edges of the tiles of the matrix; `none` for tiles of other ranks -/
  cs : List (Option Nat)
  /-- edges of the tiles of the transpose -/
  ct : List (Option Nat)
  /-- which segments belong to this rank -/
  mine : List Bool
  /-- the segments of the vertices of this rank, vertex after vertex -/
  vertices : List Nat
  /-- the segment of the source if it is on this rank -/
  source : Option Nat
  /-- the segments of the vertices of this rank that are printed at the end -/
  printed : List Nat

/-- `ReadMTX`, /repo/src/BFS.cpp:110-111. -/
def RankIn.load (i : RankIn) : GraphOp := .readFile i.k i.cs i.ct i.mine

/-- A loop that gets and sets the property of every vertex, /repo/src/BFS.cpp:113-118, /repo/src/TriangleCounting.cpp:174-180. -/
def RankIn.relabel (i : RankIn) : List GraphOp := i.vertices.flatMap (fun j => [.act false j .read, .act false j .write])

/-- A loop that sets the property of every vertex, /repo/src/SGD.cpp:176-184, /repo/src/LDA.cpp:276-284. -/
def RankIn.assign (i : RankIn) : List GraphOp := i.vertices.map (fun j => .act false j .write)

/-- What is done with the source, if it is on this rank, /repo/src/BFS.cpp:126-129. -/
def RankIn.atSource (i : RankIn) (f : Nat → List GraphOp) : List GraphOp := i.source.elim [] f

/-- The loop that prints, /repo/src/BFS.cpp:145-153. -/
def RankIn.print (i : RankIn) : List GraphOp := i.printed.map (fun j => .act false j .read)

/-- `run_bfs`, /repo/src/BFS.cpp:109-155. -/
def bfsOps (i : RankIn) (steps : List RunStep) : List GraphOp :=
  [i.load] ++ i.relabel ++ [.init i.mine, .setActive] ++
    i.atSource (fun j => [.act false j .read, .act false j .write, .act true j .write]) ++
    [.runWith 0 false steps, .clear 0, .reduce] ++ i.print

/-- `run_sssp`, /repo/src/SSSP.cpp:101-142. -/
def ssspOps (i : RankIn) (steps : List RunStep) : List GraphOp :=
  [i.load, .init i.mine, .setVp, .setActive] ++ i.atSource (fun j => [.act false j .write, .act true j .write]) ++
    [.runWith 0 false steps, .reduce] ++ i.print ++ [.clear 0]

/-- `run_pagerank`, /repo/src/PageRank.cpp:116-161; `Degree` works on active vertices (/repo/src/PageRank.cpp:57-60), `PageRank` on all
(/repo/src/PageRank.cpp:90). -/
def pageRankOps (i : RankIn) (degree rank : List RunStep) : List GraphOp :=
  [i.load, .init i.mine, .setActive, .runWith 0 false degree, .clear 0, .init i.mine, .setActive, .runWith 0 true rank, .clear 0] ++
    i.print

/-- `run_pagerank`, /repo/src/IncrementalPageRank.cpp:128-170; both programs work on active vertices
(/repo/src/IncrementalPageRank.cpp:56-59, 91). -/
def incPageRankOps (i : RankIn) (degree rank : List RunStep) : List GraphOp :=
  [i.load, .init i.mine, .setActive, .runWith 0 false degree, .clear 0, .init i.mine, .setActive, .runWith 0 false rank, .clear 0] ++
    i.print

/-- `run_triangle_counting`, /repo/src/TriangleCounting.cpp:161-203. -/
def trianglesOps (i : RankIn) (neighbors count : List RunStep) : List GraphOp :=
  [i.load, .init i.mine, .init i.mine] ++ i.relabel ++
    [.runWith 1 true neighbors, .runWith 0 true count, .clear 1, .clear 0, .reduce] ++ i.print

/-- `run_topsort`, /repo/src/TopologicalSort.cpp:140-192; `roots` says which vertices of this rank have no edges in.  If there are
cycles nothing is printed. -/
def topSortOps (i : RankIn) (roots : Nat → Bool) (degree sort : List RunStep) : List GraphOp :=
  [i.load, .init i.mine, .init i.mine, .runWith 1 true degree, .setActive] ++
    i.vertices.zipIdx.flatMap (fun v => .act false v.1 .read ::
      (if roots v.2 then [.act true v.1 .write, .act false v.1 .write] else [])) ++
    [.runWith 0 false sort, .clear 1, .clear 0, .reduce] ++ i.print

/-- `run_sgd`, /repo/src/SGD.cpp:163-222; `SGDProgram` works on all vertices (/repo/src/SGD.cpp:88), `RMSEProgram` on active ones. -/
def sgdOps (i : RankIn) (rmse sgd rmse' : List RunStep) : List GraphOp :=
  [i.load, .init i.mine, .init i.mine] ++ i.assign ++
    [.setActive, .runWith 0 false rmse, .reduce, .setActive, .runWith 1 true sgd, .setActive, .runWith 0 false rmse',
     .clear 0, .clear 0, .reduce] ++ i.print

/-- `run_lda`, /repo/src/LDA.cpp:266-330, for the right numbers of documents and terms; the first and the last program are run without
temporary structure.  `getnthelement` (/repo/src/LDA.cpp:250-256) is only called from lines that are commented out. -/
def ldaOps (i : RankIn) (start sweep loglik : List RunStep) : List GraphOp :=
  [i.load] ++ i.assign ++
    [.setActive, .run i.mine true start, .reduce, .init i.mine, .setActive, .runWith 0 true sweep, .clear 0] ++ i.print ++
    [.setActive, .run i.mine true loglik, .reduce]

/-- The programs with one graph (/repo/src/BFS.cpp:109, /repo/src/SSSP.cpp:101, /repo/src/PageRank.cpp:116,
/repo/src/IncrementalPageRank.cpp:128, /repo/src/TriangleCounting.cpp:161, /repo/src/TopologicalSort.cpp:140, /repo/src/SGD.cpp:163,
/repo/src/LDA.cpp:266), with what happens in the supersteps. -/
inductive AppRun where
  /-- /repo/src/BFS.cpp -/
  | bfs (steps : List RunStep)
  /-- /repo/src/SSSP.cpp -/
  | sssp (steps : List RunStep)
  /-- /repo/src/PageRank.cpp -/
  | pageRank (degree rank : List RunStep)
  /-- /repo/src/IncrementalPageRank.cpp -/
  | incPageRank (degree rank : List RunStep)
  /-- /repo/src/TriangleCounting.cpp -/
  | triangles (neighbors count : List RunStep)
  /-- /repo/src/TopologicalSort.cpp -/
  | topSort (roots : Nat → Bool) (degree sort : List RunStep)
  /-- /repo/src/SGD.cpp -/
  | sgd (rmse sgd rmse' : List RunStep)
  /-- /repo/src/LDA.cpp -/
  | lda (start sweep loglik : List RunStep)

/-- What a program does with its graph (/repo/src/BFS.cpp:109-155 and so on, as cited above at the single programs). -/
def AppRun.ops (i : RankIn) : AppRun → List GraphOp
  | .bfs s => bfsOps i s
  | .sssp s => ssspOps i s
  | .pageRank s t => pageRankOps i s t
  | .incPageRank s t => incPageRankOps i s t
  | .triangles s t => trianglesOps i s t
  | .topSort r s t => topSortOps i r s t
  | .sgd s t u => sgdOps i s t u
  | .lda s t u => ldaOps i s t u

/-- The graph with the vector of vertex properties as it is after the other graph worked on it: both hold the same pointer
(/repo/include/Graph.h:303). -/
def GraphMem.sees (g g2 : GraphMem) : GraphMem := { g with vp := g2.vp }

/-- One round of the loop, /repo/src/DeltaStepping.cpp:163-177: the light edges, the heavy edges, and the question whether a bucket is
left. -/
def deltaRound (threads : Nat) (light heavy : List RunStep) (s : (GraphMem × GraphMem) × TempMem) :
    HeapM ((GraphMem × GraphMem) × TempMem) := do
  let g ← s.1.1.setAllActive threads
  let (g, t) ← g.runWith threads false (runSteps threads light) s.2
  let g2 ← (s.1.2.sees g).setAllActive threads
  let (g2, t) ← g2.runWith threads false (runSteps threads heavy) t
  let g ← (g.sees g2).reduce threads
  pure ((g, g2.sees g), t)

/-- The rounds, /repo/src/DeltaStepping.cpp:163-179. -/
def deltaRounds (threads : Nat) : List (List RunStep × List RunStep) → (GraphMem × GraphMem) × TempMem →
    HeapM ((GraphMem × GraphMem) × TempMem)
  | [], s => pure s
  | r :: rs, s => do
    let s ← deltaRound threads r.1 r.2 s
    deltaRounds threads rs s

/-- Accesses to segments of the vertex properties, /repo/src/DeltaStepping.cpp:193-198. -/
def readVp (threads : Nat) : List Nat → GraphMem → HeapM GraphMem
  | [], g => pure g
  | j :: js, g => do
    let v ← need g.vp
    let v ← vecAct threads j .read v
    readVp threads js { g with vp := some v }

/-- The source is given its distance and made active if it is on this rank, /repo/src/DeltaStepping.cpp:148-152. -/
def deltaSource (threads : Nat) : Option Nat → GraphMem → HeapM GraphMem
  | none, g => pure g
  | some j, g => do
    let v ← need g.vp
    let v ← vecAct threads j .write v
    let a ← need g.active
    let a ← vecAct threads j .write a
    pure { g with vp := some v, active := some a }

/-- `run_deltastepping`, /repo/src/DeltaStepping.cpp:124-200: the edges of this rank have the weights `w`; `heavy` holds the tiles of
the second graph.  At the end of the function the second graph is destroyed before the first. -/
def deltaMem (threads nrank : Nat) (w : Nat → Int) (delta : Int) (i heavy : RankIn) (rounds : List (List RunStep × List RunStep)) :
    HeapM Unit := do
  let e ← loadEl i.k ElMem.fresh
  let l ← e.filterEdges (fun n => decide (w n ≤ delta))
  let h ← e.filterEdges (fun n => decide (w n > delta))
  let _ ← e.clear
  l.visit
  let g ← GraphMem.fresh.readEdgelist threads nrank i.cs i.ct i.mine
  h.visit
  let g2 ← GraphMem.fresh.readEdgelist threads nrank heavy.cs heavy.ct heavy.mine
  let _ ← l.clear
  let _ ← h.clear
  let g2 ← g.share g2
  let t ← newTemps threads i.mine
  let g ← g.setAllActive threads
  let g ← deltaSource threads i.source g
  let s ← deltaRounds threads rounds ((g, g2.sees g), t)
  deleteTemps s.2
  let g ← s.1.1.reduce threads
  let g ← readVp threads i.printed g
  (s.1.2.sees g).destroy
  g.destroy

end GraphMat

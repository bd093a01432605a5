import Verif.Model.GraphMem
import Verif.Spec.VecLife

/-!
# The life of a graph

What a program does with a graph object on one rank: filling it, setting properties and flags, reading them, running graph
programs, writing it to files; at the end the destructor.
-/
namespace GraphMat

/-- The vectors a superstep works on. -/
inductive RunVec where
  /-- messages -/
  | x
  /-- results -/
  | y
  /-- vertex properties -/
  | vp
  /-- active vertices -/
  | active
deriving DecidableEq

/-- One thing that happens in a superstep. -/
inductive RunStep where
  /-- something happens to segment `j` of a vector -/
  | act (w : RunVec) (j : Nat) (a : SegAct)
  /-- the tiles of the matrix or of its transpose are multiplied -/
  | product (transposed : Bool)
  /-- the program reduces over all vertices (`do_every_iteration`) -/
  | reduce

/-- Something happens to a segment of a vector. -/
def vecAct (threads j : Nat) (a : SegAct) (v : Ptr × VecMem) : HeapM (Ptr × VecMem) :=
  match v.2[j]? with
  | none => pure v
  | some s => do
    touch v.1
    touch s.2.1
    let t ← a.run threads s.2.2
    pure (v.1, v.2.set j (s.1, s.2.1, t))

/-- A step on the graph and the temporary vectors. -/
def RunStep.run (threads : Nat) : RunStep → GraphMem × TempMem → HeapM (GraphMem × TempMem)
  | .act .x j a, s => do
    let v ← vecAct threads j a s.2.1
    pure (s.1, (v, s.2.2))
  | .act .y j a, s => do
    let v ← vecAct threads j a s.2.2
    pure (s.1, (s.2.1, v))
  | .act .vp j a, s => do
    let v ← need s.1.vp
    let v ← vecAct threads j a v
    pure ({ s.1 with vp := some v }, s.2)
  | .act .active j a, s => do
    let v ← need s.1.active
    let v ← vecAct threads j a v
    pure ({ s.1 with active := some v }, s.2)
  | .product false, s => do
    let m ← need s.1.A
    useMat m
    pure s
  | .product true, s => do
    let m ← need s.1.AT
    useMat m
    pure s
  | .reduce, s => do
    let g ← s.1.reduce threads
    pure (g, s.2)

/-- The steps of all supersteps. -/
def runSteps (threads : Nat) : List RunStep → GraphMem × TempMem → HeapM (GraphMem × TempMem)
  | [], s => pure s
  | a :: as, s => do
    let s ← a.run threads s
    runSteps threads as s

/-- All messages were made with at most `parts` partitions. -/
def RunStep.Fits (parts : Nat) : RunStep → Prop
  | .act _ _ a => a.Fits parts
  | .product _ => True
  | .reduce => True

/-- One step of a program with a graph. -/
inductive GraphOp where
  /-- `ReadEdgelist` -/
  | read (cs ct : List (Option Nat)) (mine : List Bool)
  /-- `ReadMTX` on a rank whose files have `k` edges -/
  | readFile (k : Nat) (cs ct : List (Option Nat)) (mine : List Bool)
  /-- `ReadGraphMatBin` -/
  | restore (cs ct : List (Option Nat)) (mine : List Bool)
  /-- `WriteGraphMatBin` -/
  | archive
  /-- `setAllActive`, `setAllInactive` -/
  | setActive
  /-- `setAllVertexproperty` -/
  | setVp
  /-- something happens to a segment of the vertex properties or of the active vertices -/
  | act (active : Bool) (j : Nat) (a : SegAct)
  /-- the vertex properties are fetched, `k` on this rank; the caller releases them -/
  | vertices (k : Nat)
  /-- `applyReduceAllVertices` -/
  | reduce
  /-- the edges are fetched; the caller releases them -/
  | edges
  /-- `saveVertexproperty` -/
  | save (k r : Nat) (hit cap : Nat → Bool) (mine : List Bool)
  /-- a graph program is run -/
  | run (mine : List Bool) (all : Bool) (steps : List RunStep)
  /-- a temporary structure is made -/
  | init (mine : List Bool)
  /-- a graph program is run with the `i`-th temporary structure -/
  | runWith (i : Nat) (all : Bool) (steps : List RunStep)
  /-- the `i`-th temporary structure is cleared -/
  | clear (i : Nat)

/-- A step; the state is the graph and the existing temporary structures. -/
def GraphOp.exec (threads nrank : Nat) : GraphOp → GraphMem × List TempMem → HeapM (GraphMem × List TempMem)
  | .read cs ct mine, s => do
    let g ← s.1.readEdgelist threads nrank cs ct mine
    pure (g, s.2)
  | .readFile k cs ct mine, s => do
    let g ← s.1.readMTX threads nrank k cs ct mine
    pure (g, s.2)
  | .restore cs ct mine, s => do
    let g ← s.1.readBin threads cs ct mine
    pure (g, s.2)
  | .archive, s => do
    s.1.writeBin
    pure s
  | .setActive, s => do
    let g ← s.1.setAllActive threads
    pure (g, s.2)
  | .setVp, s => do
    let g ← s.1.setAllVp threads
    pure (g, s.2)
  | .act active j a, s =>
    if active then do
      let v ← need s.1.active
      let v ← vecAct threads j a v
      pure ({ s.1 with active := some v }, s.2)
    else do
      let v ← need s.1.vp
      let v ← vecAct threads j a v
      pure ({ s.1 with vp := some v }, s.2)
  | .vertices k, s => do
    let e ← s.1.getVertexEdgelist k
    if 0 < k then do
      release .mm e
      pure s
    else pure s
  | .reduce, s => do
    let g ← s.1.reduce threads
    pure (g, s.2)
  | .edges, s => do
    let e ← s.1.getEdgelist
    if 0 < e.1 then do
      release .mm e.2
      pure s
    else pure s
  | .save k r hit cap mine, s => do
    s.1.saveVp threads nrank k r hit cap mine
    pure s
  | .run mine all steps, s => do
    let g ← s.1.run threads mine all (runSteps threads steps)
    pure (g, s.2)
  | .init mine, s => do
    let t ← newTemps threads mine
    pure (s.1, t :: s.2)
  | .runWith i all steps, s =>
    match s.2[i]? with
    | none => pure s
    | some t => do
      let r ← s.1.runWith threads all (runSteps threads steps) t
      pure (r.1, s.2.set i r.2)
  | .clear i, s =>
    match s.2[i]? with
    | none => pure s
    | some t => do
      deleteTemps t
      pure (s.1, s.2.eraseIdx i)

/-- The steps one after the other. -/
def runGraphOps (threads nrank : Nat) : List GraphOp → GraphMem × List TempMem → HeapM (GraphMem × List TempMem)
  | [], s => pure s
  | op :: ops, s => do
    let s ← op.exec threads nrank s
    runGraphOps threads nrank ops s

/-- The end of all temporary structures. -/
def deleteAllTemps : List TempMem → HeapM Unit
  | [] => pure ()
  | t :: ts => do
    deleteTemps t
    deleteAllTemps ts

/-- A whole program with one graph: it is made, the steps, the temporary structures that are left are cleared, and the graph
goes out of scope. -/
def graphLife (threads nrank : Nat) (ops : List GraphOp) : HeapM Unit := do
  let s ← runGraphOps threads nrank ops (GraphMem.fresh, [])
  deleteAllTemps s.2
  s.1.destroy

/-- Does the step fill the graph? -/
def GraphOp.fills : GraphOp → Bool
  | .read .. => true
  | .readFile .. => true
  | .restore .. => true
  | _ => false

/-- All messages were made with at most `parts` partitions; when properties are saved, every segment with a capacity has got
edges. -/
def GraphOp.Fits (parts : Nat) : GraphOp → Prop
  | .act _ _ a => a.Fits parts
  | .run _ _ steps => ∀ s ∈ steps, s.Fits parts
  | .runWith _ _ steps => ∀ s ∈ steps, s.Fits parts
  | .save _ _ hit cap _ => ∀ j, cap j = true → hit j = true
  | _ => True

/-- How many blocks a step forgets, apart from those of the graph as it was. -/
def GraphOp.forgets : GraphOp → Nat
  | .readFile 0 _ _ _ => 1
  | .save _ 0 _ _ _ => 3
  | .save _ _ _ _ _ => 1
  | _ => 0

/-- The number of blocks of a matrix: the object, one for every tile of this rank and seven arrays for every tile with edges. -/
def matCost (cs : List (Option Nat)) : Nat :=
  1 + (cs.map (fun c => match c with
    | none => 0
    | some 0 => 1
    | some (_ + 1) => 8)).sum

/-- The number of blocks of a vector after `setAll`: the object, one for every segment and a buffer of eight blocks for every own
segment. -/
def vecCost (mine : List Bool) : Nat := 1 + (mine.map (fun m => if m then 9 else 1)).sum

/-- How many blocks a graph has after it was filled. -/
def GraphOp.cost : GraphOp → Nat
  | .read cs ct mine => matCost cs + matCost ct + vecCost mine + vecCost mine
  | .readFile _ cs ct mine => matCost cs + matCost ct + vecCost mine + vecCost mine
  | .restore cs ct mine => matCost cs + matCost ct + vecCost mine + vecCost mine
  | _ => 0

/-- What is forgotten at least when the steps are done on a graph that had `c` blocks after it was last filled: whenever it is
filled again, what it had. -/
def leastLeak : Nat → List GraphOp → Nat
  | _, [] => 0
  | c, op :: ops => if op.fills then c + op.forgets + leastLeak op.cost ops else op.forgets + leastLeak c ops

end GraphMat

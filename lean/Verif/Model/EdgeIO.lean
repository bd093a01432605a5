import Verif.Model.EdgeFile

/-!
# Reading and writing edges, and the dimensions of a list

Models /repo/include/GMDP/utils/edgelist.h:430-457.
-/
namespace GraphMat

variable {E C : Type}

/-- What one thread computes in the loop of `get_dimensions` (/repo/include/GMDP/utils/edgelist.h:436-440) for the iterations it
was given; `f` is `src` or `dst`.  The private copies of a `max` reduction (435) begin with `INT_MIN`. -/
def threadMax (f : Edge E → Int) (edges : Arr (Edge E)) (is : List Nat) : Option Int :=
  is.foldlM (fun acc i => do
    let e ← edges.read i
    some (max acc (f e))) INT_MIN

/-- `local_max_m` or `local_max_n` after the loop, /repo/include/GMDP/utils/edgelist.h:433-440; `chunks` are the iterations of each
thread, whose results the reduction combines with the initial 0. -/
def localMax (f : Edge E → Int) (edges : Arr (Edge E)) (chunks : List (List Nat)) : Option Int := do
  let l ← chunks.mapM (threadMax f edges)
  some (l.foldl max 0)

/-- `MPI_Allreduce` with `MPI_MAX`, /repo/include/GMDP/utils/edgelist.h:441-442; there is at least one rank. -/
def allMax : List Int → Option Int
  | [] => none
  | x :: l => some (l.foldl max x)

/-- `get_dimensions` on all ranks, /repo/include/GMDP/utils/edgelist.h:430-443; `chunks r` are the iterations of the threads of
rank `r`. -/
def getDimensions (chunks : Nat → List (List Nat)) (els : List (EdgeList E)) : Option (Int × Int) := do
  let ms ← els.zipIdx.mapM (fun er => localMax Edge.src er.1.edges (chunks er.2))
  let ns ← els.zipIdx.mapM (fun er => localMax Edge.dst er.1.edges (chunks er.2))
  let m ← allMax ms
  let n ← allMax ns
  some (m, n)

/-- `ReadEdges` on all ranks, /repo/include/GMDP/utils/edgelist.h:445-452; `g` is the fresh memory of each rank, `gm` and `rand`
those of `randomize_edgelist_square`. -/
def readEdges (R : Reader C E) (header randomize : Bool) (nrank : Nat) (g : Nat → Nat → Edge E) (gm rand : Nat → Nat)
    (fs : List (List C)) : Option (List (EdgeList E)) := do
  let els ← loadEdgelist R header nrank g fs
  if randomize then els.mapM (randomizeSquare gm rand) else some els

/-- `WriteEdges` of binary files on all ranks, /repo/include/GMDP/utils/edgelist.h:454-457. -/
def writeEdgesBin (bt : BinType E) (header weights : Bool) (els : List (EdgeList E)) : Option (List (List Nat)) :=
  els.mapM (writeBin bt header weights)

/-- `WriteEdges` of text files on all ranks, /repo/include/GMDP/utils/edgelist.h:454-457. -/
def writeEdgesText (pr : E → List Char) (header weights : Bool) (els : List (EdgeList E)) : Option (List (List Char)) :=
  els.mapM (writeText pr header weights)

end GraphMat

import Verif.Model.EdgeFile
import Verif.Model.Snapshot

/-!
# The graph converter

Models /repo/src/graph_converter.cpp.  The model starts from the list of options given, in order; how
`getopt_long` and `sscanf` make them out of the command line is modelled in `Verif/Model/CmdLine.lean`.  Not modelled: the printing
of options and help, and the names of the directories.
-/
namespace GraphMat

variable {E : Type}

/-- `struct myoptions`, /repo/src/graph_converter.cpp:19-35. -/
structure Options where
  /-- `selfloops` -/
  selfloops : Int
  /-- `duplicatededges` -/
  duplicatededges : Int
  /-- `uppertriangular` -/
  uppertriangular : Int
  /-- `bidirectional` -/
  bidirectional : Int
  /-- `inputformat` -/
  inputformat : Int
  /-- `outputformat` -/
  outputformat : Int
  /-- `inputheader` -/
  inputheader : Int
  /-- `outputheader` -/
  outputheader : Int
  /-- `inputedgeweights` -/
  inputedgeweights : Int
  /-- `outputedgeweights` -/
  outputedgeweights : Int
  /-- `edgeweighttype` -/
  edgeweighttype : Int
  /-- `nvertices` -/
  nvertices : Int
  /-- `random_range` -/
  randomRange : Int
  /-- `nsplits` -/
  nsplits : Int
  /-- `randomizeID` -/
  randomizeID : Int

/-- `validateOptions`, /repo/src/graph_converter.cpp:37-63; `false` for the result 0.  The variable `retval` is followed
through the five tests. -/
def validateOptions (o : Options) : Bool :=
  let retval := true
  let retval := if o.selfloops ≠ 0 ∧ o.selfloops ≠ 1 then false else retval
  let retval := if o.uppertriangular = 1 ∧ o.bidirectional = 1 then false else retval
  let retval := if o.inputedgeweights = 0 ∧ o.outputedgeweights = 1 then false else retval
  let retval := if o.nsplits < 0 then false else retval
  let retval := if o.nsplits ≠ 1 then false else retval
  retval

/-- `initOptions`, /repo/src/graph_converter.cpp:65-84. -/
def initOptions : Options :=
  { selfloops := 0, duplicatededges := 0, uppertriangular := 0, bidirectional := 0, inputformat := 1, outputformat := 0,
    inputheader := 1, outputheader := 1, inputedgeweights := 1, outputedgeweights := 1, edgeweighttype := 0,
    nvertices := 0, randomRange := 128, nsplits := 1, randomizeID := 0 }

/-- An option on the command line with its number, /repo/src/graph_converter.cpp:228-245. -/
inductive Setting where
  | uppertriangular
  | bidirectional
  | randomizeID
  | selfloops (x : Int)
  | duplicatededges (x : Int)
  | inputformat (x : Int)
  | outputformat (x : Int)
  | inputheader (x : Int)
  | outputheader (x : Int)
  | inputedgeweights (x : Int)
  | outputedgeweights (x : Int)
  | edgeweighttype (x : Int)
  | r (x : Int)
  | nvertices (x : Int)
  | split (x : Int)

/-- What one option stores, /repo/src/graph_converter.cpp:228-245 (the flags) and 255-302 (the `switch`). -/
def Setting.store (o : Options) : Setting → Options
  | .uppertriangular => { o with uppertriangular := 1 }
  | .bidirectional => { o with bidirectional := 1 }
  | .randomizeID => { o with randomizeID := 1 }
  | .selfloops x => { o with selfloops := x }
  | .duplicatededges x => { o with duplicatededges := x }
  | .inputformat x => { o with inputformat := x }
  | .outputformat x => { o with outputformat := x }
  | .inputheader x => { o with inputheader := x }
  | .outputheader x => { o with outputheader := x }
  | .inputedgeweights x => { o with inputedgeweights := x }
  | .outputedgeweights x => { o with outputedgeweights := x }
  | .edgeweighttype x => { o with edgeweighttype := x }
  | .r x => { o with randomRange := x }
  | .nvertices x => { o with nvertices := x }
  | .split x => { o with nsplits := x }

/-- The option loop, /repo/src/graph_converter.cpp:227, 247-303. -/
def readOptions (l : List Setting) : Options := l.foldl Setting.store initOptions

/-- What depends on the edge type `T` of `process_graph<T>` (/repo/src/graph_converter.cpp:161, 318-329). -/
structure ConvType (E : Type) where
  /-- the bytes of a `T` -/
  bin : BinType E
  /-- reading a `T` from text -/
  text : TextType E
  /-- what `fprintf` writes for a `T` -/
  print : E → List Char
  /-- `(T)t` for a `double` (/repo/include/GMDP/utils/edgelist_transformation.h:427) -/
  cast : Rat → E

/-- Everything one run of the converter depends on besides its options and input
(/repo/src/graph_converter.cpp:161-222): the number of ranks and threads, fresh memory, random numbers, and the behaviour
of the sorting library. -/
structure ConvEnv (E : Type) where
  /-- `omp_get_max_threads()` -/
  threads : Nat
  /-- `get_global_nrank()` -/
  nrank : Nat
  /-- fresh memory while loading (by rank) -/
  load : Nat → Nat → Edge E
  /-- the `double` computed for edge `i` of rank `r` from `rand()` -/
  t : Nat → Nat → Rat
  /-- fresh memory in each transformation (which one, rank) -/
  g : Nat → Nat → Nat → Edge E
  /-- sorting on each rank -/
  sort : Nat → List (Edge E) → List (Edge E)
  /-- fresh memory of `mapping` -/
  gm : Nat → Nat
  /-- random numbers on rank 0 for `mapping` -/
  rand : Nat → Nat
  /-- fresh memory of the graph that is read -/
  rd : LoadEnv Int E
  /-- fresh memory of the graph that is written -/
  wr : LoadEnv Int E

/-- `t` after both tests in `random_edge_weights`, /repo/include/GMDP/utils/edgelist_transformation.h:425-426. -/
def clipWeight (range : Int) (t : Rat) : Rat :=
  let t := if t > (range : Rat) then (range : Rat) else t
  if t < 1 then 1 else t

/-- `random_edge_weights`, /repo/include/GMDP/utils/edgelist_transformation.h:421-429.  `t i` is the value of
`(double)rand()/(double)RAND_MAX*(double)random_range`, a `double` and hence a rational number. -/
def randomEdgeWeights (cast : Rat → E) (range : Int) (t : Nat → Rat) (el : EdgeList E) : Option (EdgeList E) := do
  let d ← forLoop 0 el.nnz el.edges (fun i edges => do
    let e ← edges.read i
    edges.write i { e with val := cast (clipWeight range (t i)) })
  some { el with edges := d }

/-- The files found under the input name, as the three readers of /repo/src/graph_converter.cpp:168-188 see them. -/
structure InFiles (E : Type) where
  /-- bytes of the edge list files -/
  bin : List (List Nat)
  /-- characters of the edge list files -/
  text : List (List Char)
  /-- the archives of a GraphMat v2 file -/
  snap : List (Archive E)

/-- What is written, /repo/src/graph_converter.cpp:209-219. -/
inductive OutFiles (E : Type) where
  | nothing
  | bin (fs : List (List Nat))
  | text (fs : List (List Char))
  | snap (fs : List (Archive E))

/-- The dimensions after loading, /repo/src/graph_converter.cpp:173-181, with its two assertions. -/
def squareUp (nvertices : Int) (el : EdgeList E) : Option (EdgeList E) :=
  let maxn := max el.n el.m
  let el := { el with m := maxn, n := maxn }
  if nvertices > 0 then
    if nvertices ≥ el.m ∧ nvertices ≥ el.n then some { el with n := nvertices, m := nvertices } else none
  else some el

/-- `load_edgelist` in the two formats, /repo/src/graph_converter.cpp:169-172. -/
def loadInput (ct : ConvType E) (env : ConvEnv E) (o : Options) (inp : InFiles E) : Option (List (EdgeList E)) :=
  if o.inputformat = 0 then
    loadEdgelist (binReader ct.bin (decide (o.inputedgeweights = 1))) (decide (o.inputheader = 1)) env.nrank env.load inp.bin
  else
    loadEdgelist (textReader ct.text (decide (o.inputedgeweights = 1))) (decide (o.inputheader = 1)) env.nrank env.load
      inp.text

/-- The edge list of rank `r` of a graph, /repo/src/graph_converter.cpp:186 with
/repo/include/GMDP/matrices/SpMat.h:357-375. -/
def graphEdges (env : ConvEnv E) (G : Graph Int E) (r : Nat) : Option (EdgeList E) := do
  let l ← G.getEdgelist r
  some ⟨⟨l.length, fun i => l.getD i (env.load r i)⟩, (G.n : Int), (G.n : Int), l.length⟩

/-- Reading, /repo/src/graph_converter.cpp:164-188: the edge lists of all ranks.  An unknown format leaves the empty list of
the default constructor. -/
def readInput (ct : ConvType E) (env : ConvEnv E) (o : Options) (inp : InFiles E) : Option (List (EdgeList E)) :=
  if o.inputformat = 0 ∨ o.inputformat = 1 then do
    let els ← loadInput ct env o inp
    els.mapM (squareUp o.nvertices)
  else if o.inputformat = 2 then do
    let G ← Graph.readBin env.rd env.threads env.nrank inp.snap
    (List.range env.nrank).mapM (graphEdges env G)
  else some ((List.range env.nrank).map (fun r => ⟨⟨0, env.load r⟩, 0, 0, 0⟩))

/-- A step that is only done under a condition, as in /repo/src/graph_converter.cpp:189-207. -/
def stepIf {α : Type} (c : Bool) (f : α → Option α) (x : α) : Option α := if c then f x else some x

/-- A function that every rank runs on its own list, as in /repo/src/graph_converter.cpp:189-207. -/
def onRanks (f : Nat → EdgeList E → Option (EdgeList E)) (els : List (EdgeList E)) : Option (List (EdgeList E)) :=
  (List.range els.length).mapM (fun r => do
    let el ← els[r]?
    f r el)

/-- The transformations, /repo/src/graph_converter.cpp:189-207. -/
def transformEdges (ct : ConvType E) (env : ConvEnv E) (o : Options) (els : List (EdgeList E)) :
    Option (List (EdgeList E)) := do
  let els ← stepIf (decide (o.outputedgeweights = 3))
    (onRanks (fun r => randomEdgeWeights ct.cast o.randomRange (env.t r))) els
  let els ← shuffleEdges (env.g 0) env.threads els
  let els ← stepIf (decide (o.selfloops = 0)) (onRanks (fun r => removeSelfedges (env.g 1 r))) els
  let els ← stepIf (decide (o.bidirectional = 1)) (onRanks (fun r => createBidirectional (env.g 2 r))) els
  let els ← stepIf (decide (o.uppertriangular = 1)) (onRanks (fun _ => convertToDag)) els
  let els ← stepIf (decide (o.duplicatededges = 0)) (removeDuplicates env.sort (env.g 3) env.threads) els
  stepIf (decide (o.randomizeID = 1)) (onRanks (fun _ => randomizeSquare env.gm env.rand)) els

/-- Writing a GraphMat v2 file, /repo/src/graph_converter.cpp:215-219. -/
def writeSnapshot (env : ConvEnv E) (els : List (EdgeList E)) : Option (List (Archive E)) := do
  let first ← els[0]?
  let m ← natIdx first.m
  let n ← natIdx first.n
  let r ← Graph.readEdgelist env.wr env.threads env.nrank m n (els.map EdgeList.list)
  r.2.writeBin

/-- Writing, /repo/src/graph_converter.cpp:209-219; with an unknown format nothing is written. -/
def writeOutput (ct : ConvType E) (env : ConvEnv E) (o : Options) (els : List (EdgeList E)) : Option (OutFiles E) :=
  let header := decide (o.outputheader = 1)
  let weights := decide (o.outputedgeweights ≠ 0)
  if o.outputformat = 0 then (els.mapM (writeBin ct.bin header weights)).map .bin
  else if o.outputformat = 1 then (els.mapM (writeText ct.print header weights)).map .text
  else if o.outputformat = 2 then (writeSnapshot env els).map .snap
  else some .nothing

/-- `process_graph<T>` on all ranks, /repo/src/graph_converter.cpp:161-222. -/
def processGraph (ct : ConvType E) (env : ConvEnv E) (o : Options) (inp : InFiles E) : Option (OutFiles E) := do
  let els ← readInput ct env o inp
  let els ← transformEdges ct env o els
  writeOutput ct env o els

/-- The three edge types, /repo/src/graph_converter.cpp:318-329. -/
inductive WeightType where
  | uint
  | double
  | float

/-- The `switch` in `main`, /repo/src/graph_converter.cpp:318-333. -/
def weightType (k : Int) : Option WeightType :=
  if k = 0 then some .uint
  else if k = 1 then some .double
  else if k = 2 then some .float
  else none

/-- How the converter ends, /repo/src/graph_converter.cpp:310-337: the failed assertion after `validateOptions`, the message
about the edge type and `exit(-1)`, or normally with some files written. -/
inductive ConvOutcome (T : WeightType → Type) where
  | rejected
  | unknownType
  | done (k : WeightType) (out : OutFiles (T k))

/-- `main` after the option loop, with both file names present, /repo/src/graph_converter.cpp:310-337; `none` is undefined
behaviour or a failed assertion inside `process_graph`. -/
def convertMain {T : WeightType → Type} (ct : ∀ k, ConvType (T k)) (env : ∀ k, ConvEnv (T k)) (inp : ∀ k, InFiles (T k))
    (args : List Setting) : Option (ConvOutcome T) :=
  let o := readOptions args
  if validateOptions o then
    match weightType o.edgeweighttype with
    | none => some .unknownType
    | some k => (processGraph (ct k) (env k) o (inp k)).map (.done k)
  else some .rejected

end GraphMat

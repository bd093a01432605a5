import Verif.Model.GraphMem

/-!
# Memory of edge lists

Which blocks the functions on `edgelist_t` (/repo/include/GMDP/utils/edgelist.h, /repo/include/GMDP/utils/edgelist_transformation.h)
and `graph_converter` allocate, follow and release on one rank.  Contents are in `Model/EdgeList`, `Model/EdgeFile`,
`Model/Converter`; here only the pointer and the number of edges are kept.  An array that is released by the function that
allocated it is followed where it is filled or read.
-/
namespace GraphMat

/-- `edges` and `nnz` of an `edgelist_t`, /repo/include/GMDP/utils/edgelist.h:52-57; `nnz` is never negative here. -/
structure ElMem where
  /-- `edges` -/
  edges : Ptr
  /-- `nnz` -/
  nnz : Nat

/-- `edgelist_t()`, /repo/include/GMDP/utils/edgelist.h:58. -/
def ElMem.fresh : ElMem := ⟨.null, 0⟩

/-- `edgelist_t(m, n, nnz)`, /repo/include/GMDP/utils/edgelist.h:59-67: without edges the pointer is not set. -/
def newEl (k : Nat) : HeapM ElMem :=
  if 0 < k then do
    let p ← allocate .mm
    pure ⟨p, k⟩
  else pure ⟨.garbage, 0⟩

/-- `clear`, /repo/include/GMDP/utils/edgelist.h:69-77. -/
def ElMem.clear (e : ElMem) : HeapM ElMem := do
  (if 0 < e.nnz then release .mm e.edges else pure ())
  pure ElMem.fresh

/-- A loop over the edges that reads or changes every one: `randomize_edge_direction`, `convert_to_dag`, `random_edge_weights`
(/repo/include/GMDP/utils/edgelist_transformation.h:387-394, 412-429), `write_edgelist` (/repo/include/GMDP/utils/edgelist.h:235-238),
`ReadEdgelist` (/repo/include/Graph.h:219-224). -/
def ElMem.visit (e : ElMem) : HeapM Unit :=
  if 0 < e.nnz then touch e.edges else pure ()

/-- How many edges the loop of a filter keeps (/repo/include/GMDP/utils/edgelist_transformation.h:435-440); `keep` says which. -/
def ElMem.kept (e : ElMem) (keep : Nat → Bool) : Nat := ((List.range e.nnz).filter keep).length

/-- The loop that copies the edges that are kept to a new list, /repo/include/GMDP/utils/edgelist_transformation.h:41-46, 435-440. -/
def ElMem.copyKept (e e' : ElMem) (keep : Nat → Bool) : HeapM Unit := do
  e.visit
  if 0 < e.kept keep then touch e'.edges else pure ()

/-- The end of a transformation: `edgelist->clear()`, then the array of the new list with `k` edges,
/repo/include/GMDP/utils/edgelist_transformation.h:47-51. -/
def ElMem.replace (e e' : ElMem) (k : Nat) : HeapM ElMem := do
  let _ ← e.clear
  pure ⟨e'.edges, k⟩

/-- `remove_selfedges`, /repo/include/GMDP/utils/edgelist_transformation.h:37-53; `keep` says which edges are no loops. -/
def ElMem.removeSelfedges (keep : Nat → Bool) (e : ElMem) : HeapM ElMem := do
  let e' ← newEl e.nnz
  e.copyKept e' keep
  e.replace e' (e.kept keep)

/-- `remove_duplicate_edges_local`, /repo/include/GMDP/utils/edgelist_transformation.h:69-93; `keep` says which of the sorted edges
differ from the one before, the first is always kept. -/
def ElMem.removeDuplicatesLocal (keep : Nat → Bool) (e : ElMem) : HeapM ElMem :=
  if 0 < e.nnz then do
    e.visit
    let e' ← newEl e.nnz
    touch e'.edges
    e.replace e' (1 + ((List.range' 1 (e.nnz - 1)).filter keep).length)
  else pure e

/-- `shuffle_edges`, /repo/include/GMDP/utils/edgelist_transformation.h:95-235, on a rank that receives `k` edges. -/
def ElMem.shuffle (k : Nat) (e : ElMem) : HeapM ElMem := do
  let tedges ← allocate .newArr
  let histogram ← allocate .newArr
  let offset ← allocate .newArr
  let woffset ← allocate .newArr
  e.visit
  touch tedges
  touch histogram
  touch offset
  touch woffset
  let positions ← allocate .newArr
  let counts ← allocate .newArr
  let recvPositions ← allocate .newArr
  let recvCounts ← allocate .newArr
  let req ← allocate .newArr
  let status ← allocate .newArr
  let received ← newEl k
  received.visit
  release .newArr status
  release .newArr req
  release .newArr positions
  release .newArr counts
  release .newArr recvPositions
  release .newArr recvCounts
  release .newArr tedges
  release .newArr histogram
  release .newArr offset
  release .newArr woffset
  e.replace received k

/-- `remove_duplicate_edges`, /repo/include/GMDP/utils/edgelist_transformation.h:237-251. -/
def ElMem.removeDuplicates (nrank k : Nat) (keep : Nat → Bool) (e : ElMem) : HeapM ElMem :=
  if nrank = 1 then e.removeDuplicatesLocal keep
  else do
    let e ← e.shuffle k
    e.removeDuplicatesLocal keep

/-- `create_bidirectional_edges`, /repo/include/GMDP/utils/edgelist_transformation.h:396-410. -/
def ElMem.bidirectional (e : ElMem) : HeapM ElMem := do
  let e' ← newEl (e.nnz * 2)
  e.visit
  e'.visit
  e.replace e' e'.nnz

/-- `filter_edges`, /repo/include/GMDP/utils/edgelist_transformation.h:431-443: a new list, the old one stays. -/
def ElMem.filterEdges (keep : Nat → Bool) (e : ElMem) : HeapM ElMem := do
  let e' ← newEl e.nnz
  e.copyKept e' keep
  pure ⟨e'.edges, e.kept keep⟩

/-- `randomize_edgelist_square`, /repo/include/GMDP/utils/edgelist.h:336-366. -/
def ElMem.randomizeSquare (e : ElMem) : HeapM Unit := do
  let mapping ← allocate .newArr
  let rval ← allocate .newArr
  touch mapping
  touch rval
  release .newArr rval
  e.visit
  touch mapping
  release .newArr mapping

/-- `remove_empty_columns`, /repo/include/GMDP/utils/edgelist.h:368-409; the result is `*remaining_indices`, which belongs to the
caller. -/
def ElMem.removeEmptyColumns (e : ElMem) : HeapM Ptr := do
  let colexists ← allocate .newArr
  let newColids ← allocate .newArr
  touch colexists
  touch newColids
  e.visit
  let remaining ← allocate .mm
  touch remaining
  release .newArr colexists
  release .newArr newColids
  pure remaining

/-- `filter_edges_by_row`, /repo/include/GMDP/utils/edgelist.h:411-428, in place; `keep` says which rows are in the range. -/
def ElMem.filterByRow (keep : Nat → Bool) (e : ElMem) : HeapM ElMem := do
  e.visit
  pure { e with nnz := e.kept keep }

/-- `load_edgelist`, /repo/include/GMDP/utils/edgelist.h:242-334, on a rank whose files have `k` edges: the array is allocated also
for no edges, and what the list had before is not looked at. -/
def loadEl (k : Nat) (_e : ElMem) : HeapM ElMem := do
  let p ← allocate .mm
  (if 0 < k then touch p else pure ())
  pure ⟨p, k⟩

/-- `SpMat::get_edges` into a list, /repo/include/GMDP/matrices/SpMat.h:343-376: the pointer is only set if there are edges, and what
the list had before is not looked at. -/
def fetchEl (g : GraphMem) (e : ElMem) : HeapM ElMem := do
  let r ← g.getEdgelist
  pure (if 0 < r.1 then ⟨r.2, r.1⟩ else { e with nnz := 0 })

/-! ### `graph_converter` -/

/-- Where the edges come from, /repo/src/graph_converter.cpp:169-188. -/
inductive ConvIn where
  /-- files; those of this rank have `k` edges (formats 0 and 1) -/
  | files (k : Nat)
  /-- an archive, with its tiles and segments (format 2) -/
  | archive (cs ct : List (Option Nat)) (mine : List Bool)
  /-- none of the formats -/
  | other

/-- What the memory of `process_graph` depends on, /repo/src/graph_converter.cpp:161-222: the options and, for this rank, the
numbers of edges that arrive. -/
structure ConvMem where
  /-- `inputformat` -/
  input : ConvIn
  /-- `outputedgeweights == 3` -/
  weights : Bool
  /-- edges received by `shuffle_edges` -/
  shuffled : Nat
  /-- `selfloops == 0`: which edges are no loops -/
  loops : Option (Nat → Bool)
  /-- `bidirectional == 1` -/
  both : Bool
  /-- `uppertriangular == 1` -/
  upper : Bool
  /-- `duplicatededges == 0`: edges received by the second shuffle and which edges stay -/
  dups : Option (Nat × (Nat → Bool))
  /-- `randomizeID == 1` -/
  randomize : Bool
  /-- `outputformat` is 0 or 1 -/
  write : Bool
  /-- `outputformat == 2`: tiles and segments of the graph -/
  graph : Option (List (Option Nat) × List (Option Nat) × List Bool)

/-- A step that is done or not, as in /repo/src/graph_converter.cpp:189-208. -/
def optStep {α : Type} (o : Option α) (f : α → ElMem → HeapM ElMem) (e : ElMem) : HeapM ElMem :=
  match o with
  | none => pure e
  | some a => f a e

/-- A step that leaves the list where it is, done or not, as in /repo/src/graph_converter.cpp:189-208. -/
def flagStep (b : Bool) (f : ElMem → HeapM Unit) (e : ElMem) : HeapM Unit := if b then f e else pure ()

/-- Reading the edges; the graph of an archive goes out of scope, /repo/src/graph_converter.cpp:169-188. -/
def inputStep (threads : Nat) (c : ConvIn) (e : ElMem) : HeapM ElMem :=
  match c with
  | .files k => loadEl k e
  | .archive cs ct mine => do
    let g ← GraphMem.fresh.readBin threads cs ct mine
    let e ← fetchEl g e
    g.destroy
    pure e
  | .other => pure e

/-- Making a graph of the list and writing its archive; the graph goes out of scope, /repo/src/graph_converter.cpp:215-219. -/
def graphStep (threads nrank : Nat) (a : List (Option Nat) × List (Option Nat) × List Bool) (e : ElMem) : HeapM ElMem := do
  e.visit
  let g ← GraphMem.fresh.readEdgelist threads nrank a.1 a.2.1 a.2.2
  g.writeBin
  g.destroy
  pure e

/-- `process_graph`, /repo/src/graph_converter.cpp:161-222. -/
def processMem (threads nrank : Nat) (c : ConvMem) : HeapM Unit := do
  let e ← inputStep threads c.input ElMem.fresh
  flagStep c.weights ElMem.visit e
  let e ← e.shuffle c.shuffled
  let e ← optStep c.loops ElMem.removeSelfedges e
  let e ← (if c.both then e.bidirectional else pure e)
  flagStep c.upper ElMem.visit e
  let e ← optStep c.dups (fun d => ElMem.removeDuplicates nrank d.1 d.2) e
  flagStep c.randomize ElMem.randomizeSquare e
  flagStep c.write ElMem.visit e
  let e ← optStep c.graph (graphStep threads nrank) e
  let _ ← e.clear
  pure ()

end GraphMat

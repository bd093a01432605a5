import Verif.Model.SegMem

/-!
# Memory of graphs

Which blocks the functions of `Graph` (/repo/include/Graph.h) and `run_graph_program`
(/repo/include/GraphMatRuntime.h) allocate, follow and release on one rank.  Contents are in `Model/Runtime`, `Model/World`; here
only pointers are kept, as in `Model/TileMem` and `Model/SegMem`.
-/
namespace GraphMat

/-- The pointers of a `Graph`, /repo/include/Graph.h:61-71; `none` is `nullptr`. -/
structure GraphMem where
  /-- `A` -/
  A : Option (Ptr × MatMem DcscMem)
  /-- `AT` -/
  AT : Option (Ptr × MatMem DcscMem)
  /-- `vertexproperty` -/
  vp : Option (Ptr × VecMem)
  /-- `active` -/
  active : Option (Ptr × VecMem)
  /-- `vertexpropertyowner` -/
  owner : Bool

/-- `Graph()`, /repo/include/Graph.h:74-77. -/
def GraphMem.fresh : GraphMem := ⟨none, none, none, none, true⟩

/-- The vector of vertex properties, /repo/include/Graph.h:178-181, 232-235: a temporary object gives the first value. -/
def makeVp (threads : Nat) (mine : List Bool) : HeapM (Ptr × VecMem) := do
  let v ← newVec mine
  let init ← allocate .newObj
  touch init
  let v ← vecSetAll threads v
  release .newObj init
  pure v

/-- The vector of active vertices, /repo/include/Graph.h:183-184, 236-237; also the vectors of messages and of results,
/repo/include/GraphMatRuntime.h:63-68, 111-116. -/
def makeFlags (threads : Nat) (mine : List Bool) : HeapM (Ptr × VecMem) := do
  let v ← newVec mine
  vecSetAll threads v

/-- `ReadEdgelist`, /repo/include/Graph.h:210-246; `cs` and `ct` say for every tile of `A` and `AT` how many edges it has if it belongs
to this rank, `mine` which segments belong to it.  What the pointers pointed to before is not looked at. -/
def GraphMem.readEdgelist (threads nrank : Nat) (cs ct : List (Option Nat)) (mine : List Bool) (_g : GraphMem) :
    HeapM GraphMem := do
  let A ← makeMat dcscClass nrank cs
  let AT ← transposeMem dcscClass nrank ct A
  touch A.1
  let vp ← makeVp threads mine
  let active ← makeFlags threads mine
  pure ⟨some A, some AT, some vp, some active, true⟩

/-- `ReadMTX`, /repo/include/Graph.h:248-260, on a rank whose files have `k` edges: `load_edgelist` allocates also for no edges
(/repo/include/GMDP/utils/edgelist.h:287-288), `clear` releases only if there are any (/repo/include/GMDP/utils/edgelist.h:69-77). -/
def GraphMem.readMTX (threads nrank k : Nat) (cs ct : List (Option Nat)) (mine : List Bool) (g : GraphMem) :
    HeapM GraphMem := do
  let edges ← allocate .mm
  let g ← g.readEdgelist threads nrank cs ct mine
  if 0 < k then do
    release .mm edges
    pure g
  else pure g

/-- `ReadGraphMatBin`, /repo/include/Graph.h:152-194, for an archive that fits the ranks and threads. -/
def GraphMem.readBin (threads : Nat) (cs ct : List (Option Nat)) (mine : List Bool) (_g : GraphMem) : HeapM GraphMem := do
  let A ← loadMat dcscClass cs
  let AT ← loadMat dcscClass ct
  touch A.1
  touch AT.1
  let vp ← makeVp threads mine
  let active ← makeFlags threads mine
  pure ⟨some A, some AT, some vp, some active, true⟩

/-- A matrix is gone through: it is written to an archive (/repo/include/GMDP/matrices/SpMat.h:62-73) or multiplied
(/repo/include/GMDP/multinode/spmspv.h:121-129). -/
def useMat (m : Ptr × MatMem DcscMem) : HeapM Unit := do
  touch m.1
  let _ ← m.2.mapM (useTile dcscClass)
  pure ()

/-- Following a pointer of the graph; `nullptr` is not followed without fault
(as in `active->setAll`, /repo/include/Graph.h:265). -/
def need {α : Type} : Option α → HeapM α
  | none => failure
  | some a => pure a

/-- `WriteGraphMatBin`, /repo/include/Graph.h:196-208: null pointers are written as such. -/
def GraphMem.writeBin (g : GraphMem) : HeapM Unit := do
  match g.A with
  | none => pure ()
  | some A => useMat A
  match g.AT with
  | none => pure ()
  | some AT => useMat AT

/-- `setAllActive`, `active->setAll` in `setAllInactive`, /repo/include/Graph.h:263-280: after `setAll` the own segments have their
properties, which `setAllInactive` follows. -/
def GraphMem.setAllActive (threads : Nat) (g : GraphMem) : HeapM GraphMem := do
  let v ← need g.active
  let v ← vecSetAll threads v
  pure { g with active := some v }

/-- `setAllVertexproperty`, and `reset` after `setAllInactive`, /repo/include/Graph.h:293-298, 307-310. -/
def GraphMem.setAllVp (threads : Nat) (g : GraphMem) : HeapM GraphMem := do
  let v ← need g.vp
  let v ← vecSetAll threads v
  pure { g with vp := some v }

/-- `getVertexEdgelist`, /repo/include/Graph.h:318-325, for `k` vertices on this rank. -/
def GraphMem.getVertexEdgelist (k : Nat) (g : GraphMem) : HeapM Ptr := do
  let v ← need g.vp
  vecEdges k v

/-- `getEdgelist`, /repo/include/Graph.h:327-335. -/
def GraphMem.getEdgelist (g : GraphMem) : HeapM (Nat × Ptr) := do
  let A ← need g.A
  matEdges dcscClass A

/-- `MapReduce`, /repo/include/GMDP/multinode/reduce.h:39-74 with /repo/include/GMDP/singlenode/reduce.h:51-114: every own segment
is allocated if it is not, and gets two arrays for the threads; at last an array for the ranks. -/
def vecReduce (threads : Nat) (v : Ptr × VecMem) : HeapM (Ptr × VecMem) := do
  touch v.1
  let ss ← v.2.mapM (fun s => do
    if s.1 then do
      let t ← s.2.2.write threads
      let reduced ← allocate .newArr
      let first ← allocate .newArr
      touch first
      touch reduced
      release .newArr reduced
      release .newArr first
      pure (s.1, s.2.1, t)
    else pure s)
  let all ← allocate .newArr
  touch all
  release .newArr all
  pure (v.1, ss)

/-- `applyReduceAllVertices`, /repo/include/Graph.h:377-381. -/
def GraphMem.reduce (threads : Nat) (g : GraphMem) : HeapM GraphMem := do
  let v ← need g.vp
  let v ← vecReduce threads v
  pure { g with vp := some v }

/-- Releasing what a pointer of the graph points to if it is not `nullptr`, /repo/include/Graph.h:406-409. -/
def dropIf {α : Type} (f : α → HeapM Unit) : Option α → HeapM Unit
  | none => pure ()
  | some a => f a

/-- `shareVertexProperty`, /repo/include/Graph.h:300-305; the vector is from now on that of `g`. -/
def GraphMem.share (g g2 : GraphMem) : HeapM GraphMem := do
  dropIf deleteVec g2.vp
  pure { g2 with vp := g.vp, owner := false }

/-- `SpVec::save`, /repo/include/GMDP/vectors/SpVec.h:378-386 with /repo/include/GMDP/vectors/DenseSegment.h:774-791: `properties` of
own segments with a capacity is followed without a test. -/
def vecSave (cap : Nat → Bool) (v : Ptr × VecMem) : HeapM Unit := do
  touch v.1
  let _ ← v.2.zipIdx.mapM (fun s => do
    if s.1.1 then do
      s.1.2.2.read
      if cap s.2 then do
        let b ← need s.1.2.2.props
        touch b.1
        touch b.2.bits
        touch b.2.value
      else pure ()
    else pure ())
  pure ()

/-- `saveVertexproperty`, /repo/include/Graph.h:337-350, on a rank with `k` vertices that receives `r` edges; `hit` says which
segments get edges, `cap` which have a capacity. -/
def GraphMem.saveVp (threads nrank k r : Nat) (hit cap : Nat → Bool) (mine : List Bool) (g : GraphMem) : HeapM Unit := do
  let edges ← g.getVertexEdgelist k
  let vp2 ← newVec mine
  let vp2 ← vecIngest threads nrank r hit vp2
  (if 0 < k then release .mm edges else pure ())
  vecSave cap vp2
  deleteVec vp2

/-- The two vectors of `run_graph_program_temp_structure`, /repo/include/GraphMatRuntime.h:53-57. -/
abbrev TempMem := (Ptr × VecMem) × (Ptr × VecMem)

/-- `graph_program_init`, /repo/include/GraphMatRuntime.h:59-70; the same in /repo/include/GraphMatRuntime.h:110-117. -/
def newTemps (threads : Nat) (mine : List Bool) : HeapM TempMem := do
  let x ← makeFlags threads mine
  let y ← makeFlags threads mine
  pure (x, y)

/-- `graph_program_clear`, /repo/include/GraphMatRuntime.h:72-76; the same in /repo/include/GraphMatRuntime.h:266-269. -/
def deleteTemps (t : TempMem) : HeapM Unit := do
  deleteVec t.1
  deleteVec t.2

/-- `run_graph_program` with the vectors of a temporary structure, /repo/include/GraphMatRuntime.h:93-279; `body` is what the
supersteps do, `all` whether all vertices are always active (lines 122-124, 250-252: `setAllActive` before and after the supersteps). -/
def GraphMem.runWith (threads : Nat) (all : Bool) (body : GraphMem × TempMem → HeapM (GraphMem × TempMem)) (t : TempMem)
    (g : GraphMem) : HeapM (GraphMem × TempMem) := do
  let g ← (if all then g.setAllActive threads else pure g)
  let s ← body (g, t)
  let g ← (if all then s.1.setAllActive threads else pure s.1)
  pure (g, s.2)

/-- `run_graph_program` without temporary structure, /repo/include/GraphMatRuntime.h:93-279. -/
def GraphMem.run (threads : Nat) (mine : List Bool) (all : Bool) (body : GraphMem × TempMem → HeapM (GraphMem × TempMem))
    (g : GraphMem) : HeapM GraphMem := do
  let t ← newTemps threads mine
  let s ← g.runWith threads all body t
  deleteTemps s.2
  pure s.1

/-- `~Graph`, /repo/include/Graph.h:404-424. -/
def GraphMem.destroy (g : GraphMem) : HeapM Unit := do
  dropIf (deleteMat dcscClass) g.A
  dropIf (deleteMat dcscClass) g.AT
  (if g.owner then dropIf deleteVec g.vp else pure ())
  dropIf deleteVec g.active

end GraphMat

import Verif.Model.Apply
import Verif.Model.IdMap

/-!
# All ranks together

GraphMat is an SPMD program: every rank executes the same calls.  A distributed object is modelled
as the array, indexed by rank, of the parts the ranks hold; a call without communication is executed
by every rank on its own part.
-/
namespace GraphMat

variable {α : Type}

/-- A distributed vector: `SpVec<DenseSegment<T>>` (/repo/include/GMDP/vectors/SpVec.h:42-52) on
each of the ranks. -/
abbrev DVec (α : Type) := Arr (SpVec α)

/-- Every rank `r` executes `f r` on its own part (SPMD execution of a call without communication,
e.g. `active->setAll(true)`, /repo/include/Graph.h:265). -/
def eachRank {σ : Type} (d : Arr σ) (f : Nat → σ → Option σ) : Option (Arr σ) :=
  forLoop 0 d.size d (fun r d => (d.read r).bind (fun x => (f r x).bind (fun y => d.write r y)))

/-- Every rank constructs its part of a new vector (e.g. /repo/include/Graph.h:232). -/
def DVec.new (n nseg nrank : Nat) : Option (DVec α) :=
  forLoop 0 nrank (⟨nrank, fun _ => ⟨0, 0, 0, 0, ⟨0, fun _ => Segment.new 0⟩⟩⟩ : DVec α)
    (fun r d => do
      let v ← SpVec.new n nseg nrank r
      d.write r v)

/-- `getNNZ()` with its `MPI_Allreduce(SUM)`, /repo/include/GMDP/vectors/SpVec.h:350-364: the sum
of the ranks' contributions (every rank gets the same result). -/
def DVec.getNNZ (d : DVec α) : Option Nat :=
  forLoop 0 d.size 0 (fun r acc => do
    let v ← d.read r
    let k ← v.localNNZ
    some (acc + k))

/-- The vertex part of a `Graph<V,E>` on all ranks, /repo/include/Graph.h:58-71.  `threads` is
`num_threads` (the same on every rank), `nrank` is `tiles_per_dim`
(`= get_global_nrank()`, /repo/include/Graph.h:75, 216). -/
structure VGraph (V : Type) where
  /-- `nvertices` -/
  n : Nat
  /-- number of ranks = `tiles_per_dim` -/
  nrank : Nat
  /-- `num_threads` -/
  threads : Nat
  /-- `vertexproperty` -/
  vp : DVec V
  /-- `active` -/
  active : DVec Bool

variable {V : Type}

/-- The vertex part of `ReadEdgelist`, /repo/include/Graph.h:232-240 (also of `ReadGraphMatBin`,
/repo/include/Graph.h:177-186): both vectors are created, all properties set to the default
`*__v` (`d`; each rank's `new V` may be indeterminate, hence one value per rank), all presence
bits of `active` set with value `false`. -/
def VGraph.create (n nrank threads : Nat) (gv : Nat → Nat → Fresh V) (ga : Nat → Nat → Fresh Bool)
    (d : Nat → V) : Option (VGraph V) := do
  let vp ← DVec.new n nrank nrank
  let vp ← eachRank vp (fun r v => v.setAll (gv r) (d r))
  let active ← DVec.new n nrank nrank
  let active ← eachRank active (fun r v => v.setAll (ga r) false)
  some { n := n, nrank := nrank, threads := threads, vp := vp, active := active }

/-- `vertexToNative(v, tiles_per_dim, nvertices)` as called by the methods below
(/repo/include/Graph.h:284). -/
def VGraph.native (G : VGraph V) (v : Int) : Option Int :=
  vertexToNative G.threads G.nrank G.n v

/-- `setAllVertexproperty(val)`, /repo/include/Graph.h:307-310. -/
def VGraph.setAllVertexproperty (g : Nat → Nat → Fresh V) (val : V) (G : VGraph V) :
    Option (VGraph V) := do
  let vp ← eachRank G.vp (fun r v => v.setAll (g r) val)
  some { G with vp := vp }

/-- `setVertexproperty(v, val)`, /repo/include/Graph.h:312-316. -/
def VGraph.setVertexproperty (g : Nat → Fresh V) (v : Int) (val : V) (G : VGraph V) :
    Option (VGraph V) := do
  let w ← G.native v
  let vp ← eachRank G.vp (fun r x => x.set (g r) w val)
  some { G with vp := vp }

/-- `getVertexproperty(v)` on rank `r`, /repo/include/Graph.h:358-364.  `some none` = this rank
does not own the vertex; the C++ call then returns the default-constructed `vp`. -/
def VGraph.getVertexproperty (r : Nat) (v : Int) (G : VGraph V) : Option (Option V) := do
  let w ← G.native v
  let x ← G.vp.read r
  x.get w

/-- `vertexNodeOwner(v)` on rank `r`, /repo/include/Graph.h:352-356. -/
def VGraph.vertexNodeOwner (r : Nat) (v : Int) (G : VGraph V) : Option Bool := do
  let w ← G.native v
  let x ← G.vp.read r
  nodeOwner x.n x.nseg x.nrank x.myrank w

/-- `applyToAllVertices(ApplyFn, param)`, /repo/include/Graph.h:371-374. -/
def VGraph.applyToAllVertices (g : Nat → Nat → Fresh V) (f : V → V → V) (G : VGraph V) :
    Option (VGraph V) := do
  let vp ← eachRank G.vp (fun r v => v.applySelf (g r) f)
  some { G with vp := vp }

/-- `getVertexEdgelist(myedges)` on rank `r`, /repo/include/Graph.h:318-325. -/
def VGraph.getVertexEdgelist (r : Nat) (G : VGraph V) : Option (List (Edge V)) := do
  let v ← G.vp.read r
  let es ← v.getEdges
  es.mapM (fun e => do
    let src ← nativeToVertex G.threads G.nrank G.n e.src
    some { e with src := src })

/-- `setAllActive()`, /repo/include/Graph.h:263-266. -/
def VGraph.setAllActive (g : Nat → Nat → Fresh Bool) (G : VGraph V) : Option (VGraph V) := do
  let active ← eachRank G.active (fun r v => v.setAll (g r) true)
  some { G with active := active }

/-- The segment part of `setAllInactive()`: `clear_dense_segment(value, bit_vector, num_ints)`,
/repo/include/Graph.h:276-277, /repo/include/GMDP/singlenode/clear.h:36-39. -/
def clearDense (s : Segment α) : Option (Segment α) := do
  let b ← s.props
  let bits ← memsetZero s.numInts b.bits
  some { s with props := some { b with bits := bits } }

/-- `setAllInactive()` on one rank, /repo/include/Graph.h:268-280. -/
def SpVec.setAllInactive (g : Nat → Fresh Bool) (v : SpVec Bool) : Option (SpVec Bool) := do
  let v ← v.setAll g false
  v.forOwned (fun _ s => clearDense s)

/-- `setAllInactive()`, /repo/include/Graph.h:268-280. -/
def VGraph.setAllInactive (g : Nat → Nat → Fresh Bool) (G : VGraph V) : Option (VGraph V) := do
  let active ← eachRank G.active (fun r v => v.setAllInactive (g r))
  some { G with active := active }

/-- `setActive(v)`, /repo/include/Graph.h:282-286. -/
def VGraph.setActive (g : Nat → Fresh Bool) (v : Int) (G : VGraph V) : Option (VGraph V) := do
  let w ← G.native v
  let active ← eachRank G.active (fun r x => x.set (g r) w true)
  some { G with active := active }

/-- `setInactive(v)`, /repo/include/Graph.h:288-292. -/
def VGraph.setInactive (g : Nat → Fresh Bool) (v : Int) (G : VGraph V) : Option (VGraph V) := do
  let w ← G.native v
  let active ← eachRank G.active (fun r x => x.unset (g r) w)
  some { G with active := active }

/-- `reset()`, /repo/include/Graph.h:293-298; `d r` is rank `r`'s default-constructed `V v`. -/
def VGraph.reset (ga : Nat → Nat → Fresh Bool) (gv : Nat → Nat → Fresh V) (d : Nat → V)
    (G : VGraph V) : Option (VGraph V) := do
  let G ← G.setAllInactive ga
  let vp ← eachRank G.vp (fun r v => v.setAll (gv r) (d r))
  some { G with vp := vp }

end GraphMat

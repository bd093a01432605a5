import Verif.Model.SpMSpV

/-!
# Running a graph program

Models `run_graph_program`, /repo/include/GraphMatRuntime.h:93-279, on all ranks.  Timing calls and
the code under `__TIMING` are left out.
-/
namespace GraphMat

variable {σ T U V E S : Type}

/-- The loop over the bits of one word, /repo/include/GraphMatRuntime.h:202-221:
`while (value != 0) { last_bit = _bit_scan_forward(value); idx = i*32 + last_bit; ...;
value &= (~(1<<last_bit)); }` with `base = i*32`.  Every round clears one bit, so the loop ends after at
most 32 rounds; `fuel` bounds the recursion and running out of it is `none` (never happens with
`fuel = 33`, `scanWord_eq`). -/
def scanWord (base : Nat) (body : Nat → σ → Option σ) : Nat → Word → σ → Option σ
  | 0, _, _ => none
  | fuel + 1, w, s =>
    if w = 0#32 then some s
    else do
      let b ← bitScanForward w
      let s ← body (base + b) s
      scanWord base body fuel (w &&& ~~~ (bitMask b)) s

/-- `for (i = 0; i < num_ints; i++)` around the bit loop, /repo/include/GraphMatRuntime.h:200-222.  The
OpenMP iterations touch different words and are run in index order (`Props/Schedule.lean`). -/
def scanBits (bv : Arr Word) (numInts : Nat) (s : σ) (body : Nat → σ → Option σ) : Option σ :=
  forLoop 0 numInts s (fun i s => do
    let w ← bv.read i
    scanWord (i * 32) body 33 w s)

/-- The body of the loop: apply the result to the vertex, compare with the saved old property and
activate the vertex if it differs, /repo/include/GraphMatRuntime.h:205-218.  The state is: vertex
properties, `active` values, `active` bits, `local_converged`. -/
def applyOne (gp : GProg T U V E) (yv : Arr U) (idx : Nat) (st : Arr V × Arr Bool × Arr Word × Bool) :
    Option (Arr V × Arr Bool × Arr Word × Bool) := do
  let old ← st.1.read idx
  let u ← yv.read idx
  let new := gp.apply u old
  let vv ← st.1.write idx new
  if gp.ne old new then
    let av ← st.2.1.write idx true
    let ab ← setBitvector idx st.2.2.1
    some (vv, av, ab, false)
  else some (vv, st.2)

/-- The body of the loop over segments, /repo/include/GraphMatRuntime.h:197-224, for one owned segment.
(The code dereferences the `active` segment only when a vertex changes; here it must exist.) -/
def applyOneSegment (gp : GProg T U V E) (sy : Segment U) (sv : Segment V) (sa : Segment Bool) (lc : Bool) :
    Option (Segment V × Segment Bool × Bool) := do
  let by_ ← sy.props
  let bv ← sv.props
  let ba ← sa.props
  let st ← scanBits by_.bits sy.numInts (bv.value, ba.value, ba.bits, lc) (applyOne gp by_.value)
  let bv := { bv with value := st.1 }
  let ba := { ba with value := st.2.1, bits := st.2.2.1 }
  some ({ sv with props := some bv }, { sa with props := some ba }, st.2.2.2)

/-- The loop over the segments on one rank, /repo/include/GraphMatRuntime.h:189-225. -/
def applyRank (gp : GProg T U V E) (y : SpVec U) (vp : SpVec V) (act : SpVec Bool) :
    Option (SpVec V × SpVec Bool × Bool) :=
  forLoop 0 y.nseg (vp, act, true) (fun p st => do
    let own ← y.owns p
    if own then
      let sy ← y.segs.read p
      let sv ← st.1.segs.read p
      let sa ← st.2.1.segs.read p
      let r ← applyOneSegment gp sy sv sa st.2.2
      let vs ← st.1.segs.write p r.1
      let as ← st.2.1.segs.write p r.2.1
      some ({ st.1 with segs := vs }, { st.2.1 with segs := as }, r.2.2)
    else some st)

/-- The loop on all ranks and `MPI_Allreduce(&local_converged, &converged, 1, MPI_INT, MPI_LAND, ..)`,
/repo/include/GraphMatRuntime.h:186-226. -/
def applyAllRanks (gp : GProg T U V E) (y : DVec U) (vp : DVec V) (act : DVec Bool) :
    Option (DVec V × DVec Bool × Bool) :=
  forLoop 0 y.size (vp, act, true) (fun r st => do
    let yr ← y.read r
    let vr ← st.1.read r
    let ar ← st.2.1.read r
    let res ← applyRank gp yr vr ar
    let vp ← st.1.write r res.1
    let act ← st.2.1.write r res.2.1
    some (vp, act, st.2.2 && res.2.2))

/-- What one iteration finds in fresh memory (/repo/include/GraphMatRuntime.h:136-261). -/
structure StepEnv (T U V : Type) where
  /-- fresh memory of `x` while messages are generated -/
  gx : Nat → Nat → Fresh T
  /-- first product -/
  m1 : MulEnv T U V
  /-- second product (ALL_EDGES) -/
  m2 : MulEnv T U V
  /-- fresh memory of `active` in `setAllInactive` -/
  ga : Nat → Nat → Fresh Bool
  /-- fresh memory of `active` in `setAllActive` -/
  gb : Nat → Nat → Fresh Bool

/-- The products of one iteration, /repo/include/GraphMatRuntime.h:160-176.  Result: `x`, vertex
properties, `y`. -/
def Graph.products (env : StepEnv T U V) (gp : GProg T U V E) (G : Graph V E) (x : DVec T) (y : DVec U) :
    Option (DVec T × DVec V × DVec U) :=
  match gp.order with
  | .out => G.spmv env.m1 gp G.AT x y
  | .inn => G.spmv env.m1 gp G.A x y
  | .all => do
    let r ← G.spmv env.m1 gp G.AT x y
    let G := { G with vp := r.2.1 }
    G.spmv env.m2 gp G.A r.1 r.2.2

/-- One iteration of the main loop, /repo/include/GraphMatRuntime.h:139-252, without
`do_every_iteration`; `act` is the activity type read before the loop.  Result: graph, `x`, `y`,
`converged`. -/
def Graph.superstep (env : StepEnv T U V) (gp : GProg T U V E) (act : Bool) (G : Graph V E) (x : DVec T)
    (y : DVec U) : Option (Graph V E × DVec T × DVec U × Bool) := do
  let x ← x.clear
  let y ← y.clear
  let x ← DVec.intersectReduce env.gx (sendWrapper gp) G.active G.vp x
  let r ← G.products env gp x y
  let active ← eachRank G.active (fun r v => v.setAllInactive (env.ga r))
  let s ← applyAllRanks gp r.2.2 r.2.1 active
  let G := { G with vp := s.1, active := s.2.1 }
  let vg ← if act then G.toVGraph.setAllActive env.gb else some G.toVGraph
  some ({ G with toVGraph := vg }, r.1, r.2.2, s.2.2)

/-- A program object: its state determines the virtual methods; `do_every_iteration(it)` may change
the state (/repo/include/GraphProgram.h:95).  All other methods leave it unchanged. -/
structure Program (S T U V E : Type) where
  /-- the methods of an object in a given state -/
  gp : S → GProg T U V E
  /-- `do_every_iteration(it)` -/
  every : Int → S → S

/-- The variables of `run_graph_program` that live across iterations,
/repo/include/GraphMatRuntime.h:94-119. -/
structure RunState (S T U V E : Type) where
  /-- the graph -/
  G : Graph V E
  /-- the scratch vector `x` -/
  x : DVec T
  /-- the scratch vector `y` -/
  y : DVec U
  /-- state of the program object -/
  s : S
  /-- `it` -/
  it : Int
  /-- `converged == 1` -/
  converged : Bool

/-- The loop body up to and including `it++`, /repo/include/GraphMatRuntime.h:137-254. -/
def runBody (env : Nat → StepEnv T U V) (pr : Program S T U V E) (act : Bool) (st : RunState S T U V E) :
    Option (RunState S T U V E) := do
  let r ← st.G.superstep (env st.it.toNat) (pr.gp st.s) act st.x st.y
  let it ← cadd st.it 1
  some { G := r.1, x := r.2.1, y := r.2.2.1, s := pr.every st.it st.s, it := it, converged := r.2.2.2 }

/-- Result of running the loop /repo/include/GraphMatRuntime.h:136-261 for a bounded number of rounds; not a part
of the code. -/
inductive RunOut (σ : Type) where
  /-- the loop was left by `break` -/
  | done (s : σ)
  /-- the loop is still running after the given number of rounds -/
  | more (s : σ)

/-- `while(1) { ...; if (it == iterations) break; if (iterations <= 0 && converged == 1) break; }`,
/repo/include/GraphMatRuntime.h:136-261, followed for at most `fuel` rounds. -/
def runLoop (env : Nat → StepEnv T U V) (pr : Program S T U V E) (act : Bool) (iterations : Int) :
    Nat → RunState S T U V E → Option (RunOut (RunState S T U V E))
  | 0, st => some (.more st)
  | fuel + 1, st => do
    let st ← runBody env pr act st
    if st.it = iterations then some (.done st)
    else if iterations ≤ 0 ∧ st.converged = true then some (.done st)
    else runLoop env pr act iterations fuel st

/-- Fresh memory and uninitialised variables before the loop
(/repo/include/GraphMatRuntime.h:59-70, 105-124). -/
structure InitEnv (T U : Type) where
  /-- fresh memory of `x` -/
  gx : Nat → Nat → Fresh T
  /-- fresh memory of `y` -/
  gy : Nat → Nat → Fresh U
  /-- the uninitialised `T _t` on each rank -/
  t : Nat → T
  /-- the uninitialised `U _u` on each rank -/
  u : Nat → U
  /-- fresh memory of `active` in `setAllActive` -/
  gb : Nat → Nat → Fresh Bool

/-- The scratch vectors made by `graph_program_init`, /repo/include/GraphMatRuntime.h:59-70, or by
`run_graph_program` itself, /repo/include/GraphMatRuntime.h:110-117 (same statements). -/
def Graph.newScratch (env : InitEnv T U) (G : Graph V E) : Option (DVec T × DVec U) := do
  let x ← DVec.new G.n G.nrank G.nrank
  let x ← eachRank x (fun r v => v.setAll (env.gx r) (env.t r))
  let y ← DVec.new G.n G.nrank G.nrank
  let y ← eachRank y (fun r v => v.setAll (env.gy r) (env.u r))
  some (x, y)

/-- The choice between the caller's scratch vectors and new ones,
/repo/include/GraphMatRuntime.h:110-120. -/
def Graph.scratchOr (env : InitEnv T U) (G : Graph V E) : Option (DVec T × DVec U) → Option (DVec T × DVec U)
  | none => G.newScratch env
  | some xy => some xy

/-- `if (act == ALL_VERTICES) g.setAllActive();` before the loop,
/repo/include/GraphMatRuntime.h:122-124. -/
def Graph.startActive (gb : Nat → Nat → Fresh Bool) (act : Bool) (G : Graph V E) : Option (Graph V E) :=
  if act = true then (G.toVGraph.setAllActive gb).map (fun vg => { G with toVGraph := vg }) else some G

/-- `run_graph_program(gp, g, iterations, rgpts)`, /repo/include/GraphMatRuntime.h:93-279.  `scratch` is
the caller's `rgpts` (`none` = NULL); the final state holds the scratch vectors (the ones made here are
deleted at the end), the program object and the iteration count that is printed. -/
def Graph.run (ie : InitEnv T U) (env : Nat → StepEnv T U V) (pr : Program S T U V E) (s0 : S)
    (iterations : Int) (scratch : Option (DVec T × DVec U)) (G : Graph V E) (fuel : Nat) :
    Option (RunOut (RunState S T U V E)) := do
  let act := (pr.gp s0).allVertices
  let xy ← G.scratchOr ie scratch
  let G ← G.startActive ie.gb act
  runLoop env pr act iterations fuel
    { G := G, x := xy.1, y := xy.2, s := s0, it := 0, converged := true }

end GraphMat

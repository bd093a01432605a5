import Verif.Model.App

/-!
# Matrix factorisation by gradient descent

Models /repo/src/SGD.cpp with `double` replaced by exact rationals (rounding is not modelled).
-/
namespace GraphMat

/-- `class LatentVector<K>`, /repo/src/SGD.cpp:36-75. -/
structure LatV (K : Nat) where
  /-- `lv` -/
  lv : Fin K → Rat
  /-- `sqerr` -/
  sqerr : Rat

/-- `fabs(x) > 1e-7`, /repo/src/SGD.cpp:51. -/
def sgdBig (x : Rat) : Bool := decide ((if x < 0 then -x else x) > 1 / 10000000)

/-- `operator!=`, /repo/src/SGD.cpp:48-56. -/
def LatV.ne {K : Nat} (a b : LatV K) : Bool :=
  (List.finRange K).foldl (fun result i => if sgdBig (b.lv i - a.lv i) then true else result) false

/-- The loops that compute an inner product, /repo/src/SGD.cpp:97-100, 139-142. -/
def dotLoop {K : Nat} (a b : Fin K → Rat) : Rat := (List.finRange K).foldl (fun s i => s + a i * b i) 0

/-- `class SGDProgram<K>`, /repo/src/SGD.cpp:77-120.  The values delivered by `process_message` and
`reduce_function` have the type `LatentVector<K>` too; their field `sqerr` is never assigned and never used, and is
left out. -/
def sgdProg (K : Nat) (lambda step : Rat) : Program Unit (LatV K) (Fin K → Rat) (LatV K) Int where
  gp _ :=
    { order := .all
      allVertices := true
      needsProp := true
      send := fun v _ => (true, v)
      process := fun msg e v _ => fun i => msg.lv i * ((e : Rat) - dotLoop msg.lv v.lv)
      reduce := fun v w => fun i => v i + w i
      apply := fun u v => { v with lv := fun i => v.lv i + step * (-lambda * v.lv i + u i) }
      ne := LatV.ne }
  every _ s := s

/-- `class RMSEProgram<K>`, /repo/src/SGD.cpp:122-156; only active vertices send (the default). -/
def rmseProg (K : Nat) : Program Unit (LatV K) Rat (LatV K) Int where
  gp _ :=
    { order := .inn
      allVertices := false
      needsProp := true
      send := fun v _ => (true, v)
      process := fun msg e v _ => ((e : Rat) - dotLoop msg.lv v.lv) * ((e : Rat) - dotLoop msg.lv v.lv)
      reduce := fun v w => v + w
      apply := fun u v => { v with sqerr := u }
      ne := LatV.ne }
  every _ s := s

/-- `return_sqerr`, /repo/src/SGD.cpp:158-161. -/
def returnSqerr {K : Nat} (v : LatV K) (_ : Rat) : Rat × LatV K := (v.sqerr, v)

/-- The first loop of `run_sgd`, /repo/src/SGD.cpp:176-184; `rnd i j` is the number made from the `j`-th call of
`rand_r` with seed `i`. -/
def sgdInit {K : Nat} (g : Nat → Nat → Fresh (LatV K)) (rnd : Nat → Fin K → Rat) (G : Graph (LatV K) Int) :
    Option (Graph (LatV K) Int) :=
  G.forVertices G.n (fun i vg => vg.setVertexproperty (g i) (i : Int) ⟨rnd i, 0⟩)

/-- `err = 0.0; G.applyReduceAllVertices(&err, return_sqerr, AddFn);`, /repo/src/SGD.cpp:189-190, 213-214. -/
def sgdErr {K : Nat} (gr : Nat → Nat → Fresh (LatV K)) (tmp : Nat → Nat → Nat → Rat) (G : Graph (LatV K) Int) :
    Option (Graph (LatV K) Int × Rat) := do
  let r ← G.toVGraph.applyReduceAllVertices gr returnSqerr (fun a b => a + b) tmp (fun _ => 0)
  some ({ G with toVGraph := r.1 }, r.2)

/-- Going on after a run that ended; not a part of the code (/repo/src/SGD.cpp:187, 200, 208). -/
def RunOut.andThen {σ τ : Type} (f : σ → Option (RunOut τ)) (other : σ → τ) : RunOut σ → Option (RunOut τ)
  | .more s => some (.more (other s))
  | .done s => f s

/-- What is left of `run_sgd` after the last run, /repo/src/SGD.cpp:213-214. -/
def sgdEnd {K : Nat} (e3 : AppEnv (LatV K) Rat (LatV K)) (tmp2 : Nat → Nat → Nat → Rat) (err1 : Rat)
    (st : RunState Unit (LatV K) Rat (LatV K) Int) : Option (RunOut (Graph (LatV K) Int × Rat × Rat)) := do
  let r ← sgdErr e3.gr tmp2 st.G
  some (.done (r.1, err1, r.2))

/-- `run_sgd` after the ten steps, /repo/src/SGD.cpp:207-214; `xy`: the scratch vectors of the error program, used
before. -/
def sgdSecond {K : Nat} (e3 : AppEnv (LatV K) Rat (LatV K)) (tmp2 : Nat → Nat → Nat → Rat) (xy : DVec (LatV K) × DVec Rat)
    (err1 : Rat) (fuel : Nat) (st : RunState Unit (LatV K) (Fin K → Rat) (LatV K) Int) :
    Option (RunOut (Graph (LatV K) Int × Rat × Rat)) := do
  let G ← st.G.onVertices (VGraph.setAllActive e3.gia)
  let o ← Graph.run e3.ie e3.env (rmseProg K) () 1 (some xy) G fuel
  o.andThen (sgdEnd e3 tmp2 err1) (fun s => (s.G, err1, 0))

/-- `run_sgd` after the first error was computed, /repo/src/SGD.cpp:189-214. -/
def sgdMiddle {K : Nat} (lambda step : Rat) (iters : Nat) (e1 : AppEnv (LatV K) Rat (LatV K))
    (e2 : AppEnv (LatV K) (Fin K → Rat) (LatV K)) (e3 : AppEnv (LatV K) Rat (LatV K)) (tmp1 tmp2 : Nat → Nat → Nat → Rat)
    (xs : DVec (LatV K) × DVec (Fin K → Rat)) (fuel : Nat) (st : RunState Unit (LatV K) Rat (LatV K) Int) :
    Option (RunOut (Graph (LatV K) Int × Rat × Rat)) := do
  let r ← sgdErr e1.gr tmp1 st.G
  let G ← r.1.onVertices (VGraph.setAllActive e2.gia)
  let o ← Graph.run e2.ie e2.env (sgdProg K lambda step) () (iters : Int) (some xs) G fuel
  o.andThen (sgdSecond e3 tmp2 (st.x, st.y) r.2 fuel) (fun s => (s.G, r.2, 0))

/-- `run_sgd` after `G.ReadMTX(filename)`, for any length of the vectors, regularisation, step size and number of
steps, /repo/src/SGD.cpp:168-214.  The result is the graph and the two values of `err`; what is printed is
`sqrt(err/G.nnz)`.  Timing and printing are left out. -/
def runSgdWith (K : Nat) (lambda step : Rat) (iters : Nat) (rnd : Nat → Fin K → Rat) (e1 : AppEnv (LatV K) Rat (LatV K))
    (e2 : AppEnv (LatV K) (Fin K → Rat) (LatV K)) (e3 : AppEnv (LatV K) Rat (LatV K)) (tmp1 tmp2 : Nat → Nat → Nat → Rat)
    (G : Graph (LatV K) Int) (fuel : Nat) : Option (RunOut (Graph (LatV K) Int × Rat × Rat)) := do
  let xs ← G.newScratch e2.ie
  let xr ← G.newScratch e1.ie
  let G ← sgdInit e1.g rnd G
  let G ← G.onVertices (VGraph.setAllActive e1.gia)
  let o ← Graph.run e1.ie e1.env (rmseProg K) () 1 (some xr) G fuel
  o.andThen (sgdMiddle lambda step iters e1 e2 e3 tmp1 tmp2 xs fuel) (fun s => (s.G, 0, 0))

/-- `run_sgd` with its constants, /repo/src/SGD.cpp:163-214. -/
def runSgd (rnd : Nat → Fin 20 → Rat) (e1 : AppEnv (LatV 20) Rat (LatV 20))
    (e2 : AppEnv (LatV 20) (Fin 20 → Rat) (LatV 20)) (e3 : AppEnv (LatV 20) Rat (LatV 20))
    (tmp1 tmp2 : Nat → Nat → Nat → Rat) (G : Graph (LatV 20) Int) (fuel : Nat) :
    Option (RunOut (Graph (LatV 20) Int × Rat × Rat)) :=
  runSgdWith 20 (1 / 1000) (35 / 100000000) 10 rnd e1 e2 e3 tmp1 tmp2 G fuel

end GraphMat

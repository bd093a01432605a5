import Verif.Model.Sgd

/-!
# Topic model

Models /repo/src/LDA.cpp with `double` replaced by exact rationals (rounding is not modelled).
-/
namespace GraphMat

/-- `class LatentVector<K>`, /repo/src/LDA.cpp:37-68. -/
structure LdaV (K : Nat) where
  /-- `N` -/
  N : Fin K → Rat
  /-- `type` -/
  type : Char
  /-- `token_loglik` -/
  ll : Rat

/-- `fabs(x) > 1e-3`, /repo/src/LDA.cpp:54. -/
def ldaBig (x : Rat) : Bool := decide ((if x < 0 then -x else x) > 1 / 1000)

/-- `operator!=`, /repo/src/LDA.cpp:51-59. -/
def LdaV.ne {K : Nat} (a b : LdaV K) : Bool :=
  (List.finRange K).foldl (fun result i => if ldaBig (b.N i - a.N i) then true else result) false

/-- The loops that add up `K` numbers, /repo/src/LDA.cpp:93-96, 167-171, 226-230. -/
def sumLoop {K : Nat} (a : Fin K → Rat) : Rat := (List.finRange K).foldl (fun s i => s + a i) 0

/-- `gamma_wjk[i]/sum*(double)edge_value`, /repo/src/LDA.cpp:98-100, 173-175. -/
def ldaScale {K : Nat} (gamma : Fin K → Rat) (edge : Int) : Fin K → Rat := fun i => gamma i / sumLoop gamma * (edge : Rat)

/-- `class LDAInitProgram<K>`, /repo/src/LDA.cpp:69-112; `rnd e i` is the number made from the `i`-th call of `rand_r`
with seed `e`.  Of the `LatentVector`s delivered by `process_message` and `reduce_function` only `N` is assigned and
used; the rest is left out. -/
def ldaInitProg (K : Nat) (rnd : Int → Fin K → Rat) : Program Unit (LdaV K) (Fin K → Rat) (LdaV K) Int where
  gp _ :=
    { order := .all
      allVertices := true
      needsProp := false
      send := fun v _ => (true, v)
      process := fun _ e _ _ => ldaScale (rnd e) e
      reduce := fun v w => fun i => v i + w i
      apply := fun u v => { v with N := u }
      ne := LdaV.ne }
  every _ s := s

/-- `IfTerm`, /repo/src/LDA.cpp:114-121; only `N` of `out` is assigned and used. -/
def ifTerm {K : Nat} (v : LdaV K) (_ : Fin K → Rat) : (Fin K → Rat) × LdaV K :=
  (if v.type = 'w' then v.N else fun _ => 0, v)

/-- `LDAProgram::calcGlobalN`, /repo/src/LDA.cpp:144-147, with `Add`, /repo/src/LDA.cpp:123-126. -/
def calcGlobalN {K : Nat} (gr : Nat → Nat → Fresh (LdaV K)) (tmp : Nat → Nat → Nat → Fin K → Rat)
    (G : Graph (LdaV K) Int) : Option (Graph (LdaV K) Int × (Fin K → Rat)) := do
  let r ← G.toVGraph.applyReduceAllVertices gr ifTerm (fun a b => fun i => a i + b i) tmp (fun _ => fun _ => 0)
  some ({ G with toVGraph := r.1 }, r.2)

/-- `gamma_wjk` of `LDAProgram::process_message`, /repo/src/LDA.cpp:155-169. -/
def ldaGamma {K : Nat} (alpha eta vocab : Rat) (globalN : Fin K → Rat) (msg v : LdaV K) : Fin K → Rat := fun i =>
  (v.N i + (if v.type = 'd' then alpha else eta) - 1) * (msg.N i + (if v.type = 'd' then eta else alpha) - 1) /
    (globalN i + vocab * (eta - 1))

/-- `class LDAProgram<K>`, /repo/src/LDA.cpp:128-193; the state of the object is `global_N`.  Its
`do_every_iteration` reads the graph and is not in `every`, but in `runBodyOn`. -/
def ldaProg (K : Nat) (alpha eta vocab : Rat) : Program (Fin K → Rat) (LdaV K) (Fin K → Rat) (LdaV K) Int where
  gp globalN :=
    { order := .all
      allVertices := true
      needsProp := true
      send := fun v _ => (true, v)
      process := fun msg e v _ => ldaScale (ldaGamma alpha eta vocab globalN msg v) e
      reduce := fun v w => fun i => v i + w i
      apply := fun u v => { v with N := u }
      ne := LdaV.ne }
  every _ s := s

variable {S T U V E : Type}

/-- The loop body of `run_graph_program` up to and including `it++`, /repo/include/GraphMatRuntime.h:137-254, for a
program whose `do_every_iteration` (`every`) works on the graph.  In the code it is called just before
`g.setAllActive()`, here just after; the one of `LDAProgram` does not touch the active vertices, and `setAllActive`
touches nothing else. -/
def runBodyOn (env : Nat → StepEnv T U V) (pr : Program S T U V E)
    (every : Nat → Graph V E → Option (Graph V E × S)) (act : Bool) (st : RunState S T U V E) :
    Option (RunState S T U V E) := do
  let st1 ← runBody env pr act st
  let r ← every st.it.toNat st1.G
  some { st1 with G := r.1, s := r.2 }

/-- The loop of `run_graph_program`, /repo/include/GraphMatRuntime.h:136-261, for such a program (see `runLoop`). -/
def runLoopOn (env : Nat → StepEnv T U V) (pr : Program S T U V E)
    (every : Nat → Graph V E → Option (Graph V E × S)) (act : Bool) (iterations : Int) :
    Nat → RunState S T U V E → Option (RunOut (RunState S T U V E))
  | 0, st => some (.more st)
  | fuel + 1, st => do
    let st ← runBodyOn env pr every act st
    if st.it = iterations then some (.done st)
    else if iterations ≤ 0 ∧ st.converged = true then some (.done st)
    else runLoopOn env pr every act iterations fuel st

/-- `run_graph_program`, /repo/include/GraphMatRuntime.h:93-279, for such a program (see `Graph.run`). -/
def Graph.runOn (ie : InitEnv T U) (env : Nat → StepEnv T U V) (pr : Program S T U V E)
    (every : Nat → Graph V E → Option (Graph V E × S)) (s0 : S)
    (iterations : Int) (scratch : Option (DVec T × DVec U)) (G : Graph V E) (fuel : Nat) :
    Option (RunOut (RunState S T U V E)) := do
  let act := (pr.gp s0).allVertices
  let xy ← G.scratchOr ie scratch
  let G ← G.startActive ie.gb act
  runLoopOn env pr every act iterations fuel
    { G := G, x := xy.1, y := xy.2, s := s0, it := 0, converged := true }

/-- The constructor of `LDALLProgram`, /repo/src/LDA.cpp:203-212: smoothed counts. -/
def ldaSmooth {K : Nat} (Nk : Fin K → Rat) (eta : Rat) (nterms : Nat) : Fin K → Rat := fun i =>
  Nk i + (nterms : Rat) * (eta - 1)

/-- The argument of `log` in `LDALLProgram::process_message`, /repo/src/LDA.cpp:221-238. -/
def ldaDotLoop {K : Nat} (Nk : Fin K → Rat) (eta : Rat) (msg v : LdaV K) : Rat :=
  (List.finRange K).foldl (fun s i => s + (v.N i + (eta - 1)) / Nk i *
    ((msg.N i + (eta - 1)) / sumLoop (fun j => msg.N j + (eta - 1)))) 0

/-- `class LDALLProgram<K>`, /repo/src/LDA.cpp:195-250, with `Nk` the smoothed counts and any function `lg` in place
of `log`. -/
def ldaLLProg (K : Nat) (lg : Rat → Rat) (Nk : Fin K → Rat) (eta : Rat) : Program Unit (LdaV K) Rat (LdaV K) Int where
  gp _ :=
    { order := .out
      allVertices := true
      needsProp := true
      send := fun v _ => (true, v)
      process := fun msg e v _ => (e : Rat) * lg (ldaDotLoop Nk eta msg v)
      reduce := fun v w => v + w
      apply := fun u v => { v with ll := u }
      ne := LdaV.ne }
  every _ s := s

/-- `return_ll`, /repo/src/LDA.cpp:261-264. -/
def returnLL {K : Nat} (v : LdaV K) (_ : Rat) : Rat × LdaV K := (v.ll, v)

/-- The first loop of `run_lda`, /repo/src/LDA.cpp:277-285; `g0 i` is what `N` of the `i`-th local variable `v`
contains (its constructor does not initialise it). -/
def ldaTypes {K : Nat} (g : Nat → Nat → Fresh (LdaV K)) (g0 : Nat → Fin K → Rat) (ndoc : Nat)
    (G : Graph (LdaV K) Int) : Option (Graph (LdaV K) Int) :=
  G.forVertices G.n (fun i vg => vg.setVertexproperty (g i) (i : Int) ⟨g0 i, if i ≤ ndoc then 'd' else 'w', 0⟩)

/-- What `run_lda` finds in fresh memory and uninitialised variables, /repo/src/LDA.cpp:267-341; not a part of the
code. -/
structure LdaEnv (K : Nat) where
  /-- `N` of the local variables `v` of the first loop -/
  g0 : Nat → Fin K → Rat
  /-- the run of `LDAInitProgram` and the calls before it -/
  e1 : AppEnv (LdaV K) (Fin K → Rat) (LdaV K)
  /-- `calcGlobalN` before the second run -/
  gr : Nat → Nat → Fresh (LdaV K)
  /-- `calcGlobalN` before the second run -/
  tmp : Nat → Nat → Nat → Fin K → Rat
  /-- the run of `LDAProgram` and the calls before it -/
  e2 : AppEnv (LdaV K) (Fin K → Rat) (LdaV K)
  /-- `calcGlobalN` in each iteration -/
  grs : Nat → Nat → Nat → Fresh (LdaV K)
  /-- `calcGlobalN` in each iteration -/
  tmps : Nat → Nat → Nat → Nat → Fin K → Rat
  /-- the run of `LDALLProgram` and the calls around it -/
  e3 : AppEnv (LdaV K) Rat (LdaV K)
  /-- the last `applyReduceAllVertices` -/
  tmp3 : Nat → Nat → Nat → Rat

/-- `run_lda` after the last run, /repo/src/LDA.cpp:337-338. -/
def ldaEnd {K : Nat} (env : LdaEnv K) (globalN : Fin K → Rat) (st : RunState Unit (LdaV K) Rat (LdaV K) Int) :
    Option (RunOut (Graph (LdaV K) Int × (Fin K → Rat) × Rat)) := do
  let r ← st.G.toVGraph.applyReduceAllVertices env.e3.gr returnLL (fun a b => a + b) env.tmp3 (fun _ => 0)
  some (.done ({ st.G with toVGraph := r.1 }, globalN, r.2))

/-- `run_lda` after the run of `LDAProgram`, /repo/src/LDA.cpp:333-338; a violated assertion is `none`. -/
def ldaLikelihood {K : Nat} (lg : Rat → Rat) (eta : Rat) (nterms : Nat) (env : LdaEnv K) (fuel : Nat)
    (st : RunState (Fin K → Rat) (LdaV K) (Fin K → Rat) (LdaV K) Int) :
    Option (RunOut (Graph (LdaV K) Int × (Fin K → Rat) × Rat)) :=
  if eta > 1 then do
    let G ← st.G.onVertices (VGraph.setAllActive env.e3.gia)
    let o ← Graph.run env.e3.ie env.e3.env (ldaLLProg K lg (ldaSmooth st.s eta nterms) eta) () 1 none G fuel
    o.andThen (ldaEnd env st.s) (fun s => (s.G, st.s, 0))
  else none

/-- `run_lda` after the run of `LDAInitProgram`, /repo/src/LDA.cpp:294-338. -/
def ldaMain {K : Nat} (lg : Rat → Rat) (alpha eta : Rat) (nterms : Nat) (iterations : Int) (env : LdaEnv K) (fuel : Nat)
    (st : RunState Unit (LdaV K) (Fin K → Rat) (LdaV K) Int) :
    Option (RunOut (Graph (LdaV K) Int × (Fin K → Rat) × Rat)) := do
  let r ← calcGlobalN env.gr env.tmp st.G
  let xs ← r.1.newScratch env.e2.ie
  let G ← r.1.onVertices (VGraph.setAllActive env.e2.gia)
  let o ← Graph.runOn env.e2.ie env.e2.env (ldaProg K alpha eta nterms)
    (fun it G => calcGlobalN (env.grs it) (env.tmps it) G) r.2 iterations (some xs) G fuel
  o.andThen (ldaLikelihood lg eta nterms env fuel) (fun s => (s.G, s.s, 0))

/-- `run_lda` after `G.ReadMTX(filename)`, for any number of topics and any `alpha` and `eta`,
/repo/src/LDA.cpp:267-341.  The inner `none` is `exit(1)`; otherwise the result is the graph, `Nk` and `total_ll`.
Timing and printing (lines 298-331, 339-341) are left out. -/
def runLdaWith (K : Nat) (lg : Rat → Rat) (alpha eta : Rat) (rnd : Int → Fin K → Rat) (ndoc nterms : Nat)
    (iterations : Int) (env : LdaEnv K) (G : Graph (LdaV K) Int) (fuel : Nat) :
    Option (Option (RunOut (Graph (LdaV K) Int × (Fin K → Rat) × Rat))) :=
  if ndoc + nterms ≠ G.n then some none
  else do
    let G ← ldaTypes env.e1.g env.g0 ndoc G
    let G ← G.onVertices (VGraph.setAllActive env.e1.gia)
    let o ← Graph.run env.e1.ie env.e1.env (ldaInitProg K rnd) () 1 none G fuel
    let o ← o.andThen (ldaMain lg alpha eta nterms iterations env fuel) (fun s => (s.G, fun _ => 0, 0))
    some (some o)

/-- `run_lda` with its constants, /repo/src/LDA.cpp:267-341. -/
def runLda (lg : Rat → Rat) (rnd : Int → Fin 20 → Rat) (ndoc nterms : Nat) (iterations : Int) (env : LdaEnv 20)
    (G : Graph (LdaV 20) Int) (fuel : Nat) :
    Option (Option (RunOut (Graph (LdaV 20) Int × (Fin 20 → Rat) × Rat))) :=
  runLdaWith 20 lg 1 5 rnd ndoc nterms iterations env G fuel

end GraphMat

import Verif.Lemmas.Sgd

/-!
# C55: matrix factorisation by gradient descent
-/
namespace GraphMat

variable {K : Nat}

/-- C55, the program with any length of the vectors, regularisation, step size and number of steps: on any loaded
graph, whatever the vertices held, on any number of ranks and threads, in exact arithmetic, the vectors at the end are
those after the steps from the initial ones, and the two errors are the sums of the squared errors of all ratings at
the beginning and at the end. -/
theorem gradient_descent_with {n nrank threads : Nat} (c : Cfg n nrank threads) (hn : n + threads ≤ IMAX)
    (le : LoadEnv (LatV K) Int) (hsA : le.sA.OK) (hsT : le.sAT.OK) {dflt : LatV K} (hd : le.d = fun _ => dflt)
    {blobs : List (List (Edge Int))} (hb : blobs.length = nrank) (hin : ∀ es ∈ blobs, ∀ e ∈ es, e.Valid n)
    (lambda step : Rat) (iters : Nat) (hi : 1 ≤ iters) (hmax : iters ≤ IMAX) (rnd : Nat → Fin K → Rat)
    (e1 : AppEnv (LatV K) Rat (LatV K)) (e2 : AppEnv (LatV K) (Fin K → Rat) (LatV K)) (e3 : AppEnv (LatV K) Rat (LatV K))
    (tmp1 tmp2 : Nat → Nat → Nat → Rat) (fuel : Nat) (hf : iters ≤ fuel) :
    ∃ out G G' err1 err2, ∃ x : Nat → Fin K → Rat, Graph.readEdgelist le threads nrank n n blobs = some (out, G) ∧
      runSgdWith K lambda step iters rnd e1 e2 e3 tmp1 tmp2 G fuel = some (.done (G', err1, err2)) ∧
      (∀ v, 1 ≤ v → v ≤ n → x v = Nat.iterate (sgdStep lambda step blobs.flatten) iters rnd v) ∧
      err1 = sqErr blobs.flatten rnd ∧ err2 = sqErr blobs.flatten x ∧
      ∀ v, 1 ≤ v → v ≤ n → ∃ o, o < nrank ∧ ∀ r, r < nrank → ∃ q, G'.getVertexproperty r v =
        some (if r = o then some ⟨x v, q⟩ else none) := by
  obtain ⟨out, G, l1, l2⟩ := Graph.load_loaded c le hsA hsT hd hb hin
  obtain ⟨xs1, xs2, s1, s2⟩ := Graph.newScratch_spec c l2.inv e2.ie
  obtain ⟨xr1, xr2, s3, s4⟩ := Graph.newScratch_spec c l2.inv e1.ie
  obtain ⟨G1, a1, a2⟩ := sgdInit_spec c l2 e1.g rnd
  obtain ⟨G2, b1, b2⟩ := a2.setAllActive c e1.gia
  -- first errors
  obtain ⟨st1, P1, A1, cs1, d1, _, d3, d4, d5, _⟩ := run_executes_exactly_N c e1.ie e1.env rmseProg_pure ()
    (scratch := some (xr1, xr2)) b2 (by rintro _ ⟨⟩; exact s4) 1 (Nat.le_refl _) (by decide) fuel (by omega)
  have hv := d3.valid
  have hq : ∀ (es : List (Edge Int)) (v : Nat) (f : Edge Int → Rat), outDegree es v = 0 →
      ((es.filter (fun e => decide (e.src = (v : Int)))).map f).sum = 0 := by
    intro es v f h
    have : es.filter (fun e => decide (e.src = (v : Int))) = [] := by
      rw [← List.length_eq_zero_iff, ← List.countP_eq_length_filter]
      exact h
    rw [this]; rfl
  have hP1 : ∀ v, 1 ≤ v → v ≤ n → (P1 v).lv = rnd v ∧ (P1 v).sqerr =
      ((blobs.flatten.filter (fun e => decide (e.src = (v : Int)))).map (fun e => ratingErr rnd e ^ 2)).sum := by
    intro v v1 v2
    generalize st1.s = s' at d5
    cases d5 with
    | succ g1 g2 =>
      cases g1
      obtain ⟨m1, m2⟩ := rmseProg_step g2 v v1 v2
      refine ⟨m1, ?_⟩
      rw [m2]
      by_cases h0 : outDegree blobs.flatten v = 0
      · rw [if_pos h0, hq _ _ _ h0]
      · rw [if_neg h0]; rfl
  obtain ⟨vg1, err1, q1, q2, q3, q4, q5⟩ := applyReduce_is_reduction_partial (map := returnSqerr)
    (op := fun a b => a + b) (tmp := tmp1) (m := fun v : LatV K => v.sqerr) (w := id) (fun _ _ => rfl)
    e1.gr c hn d3.inv d3.props (fun a b c => add_assoc a b c) (fun a b => add_comm a b) (e := 0) (fun a => zero_add a)
  have hrep1 : ({ st1.G with toVGraph := vg1 } : Graph (LatV K) Int).Represents n nrank threads blobs.flatten P1 A1 :=
    d3.onVertices q2 q3 (by intro v v1 v2; rw [q4]; exact d3.acts v v1 v2)
  have herr1 : err1 = sqErr blobs.flatten rnd := by
    rw [q5]
    exact rmse_total hv (fun v v1 v2 => (hP1 v v1 v2).2)
  -- the steps
  obtain ⟨G3, f1, f2⟩ := hrep1.loaded.setAllActive c e2.gia
  obtain ⟨st2, P2, A2, cs2, k1, _, k3, _, k5⟩ := run_all_vertices c e2.ie e2.env (sgdProg_pure lambda step) () rfl f2.loaded
    (scratch := some (xs1, xs2)) (by rintro _ ⟨⟩; exact s2) iters hi hmax fuel hf
  have key : ∀ k P' A' s' cs, Steps (sgdProg K lambda step).gp (sgdProg K lambda step).every (fun _ v => v) (fun _ => sgdProc) true n
      blobs.flatten P1 (fun _ => true) () k P' A' s' cs → (∀ v, 1 ≤ v → v ≤ n → A' v = true ∧ (P' v).sqerr = (P1 v).sqerr ∧
        (P' v).lv = Nat.iterate (sgdStep lambda step blobs.flatten) k rnd v) := by
    intro k P' A' s' cs h
    induction h with
    | zero =>
      intro v v1 v2
      exact ⟨rfl, rfl, (hP1 v v1 v2).1⟩
    | succ g1 g2 ih =>
      rename_i k P3 P4 A3 A4 s1 cs b
      obtain ⟨m1, m3⟩ := sgdProg_step hv (fun v v1 v2 => (ih v v1 v2).1) g2
      intro v v1 v2
      obtain ⟨j1, j2⟩ := m1 v v1 v2
      refine ⟨m3 v v1 v2, by rw [j1, (ih v v1 v2).2.1], ?_⟩
      rw [j2, Function.iterate_succ_apply']
      have hx : ∀ u, 1 ≤ u → u ≤ n → vecs P3 u = Nat.iterate (sgdStep lambda step blobs.flatten) k rnd u :=
        fun u u1 u2 => (ih u u1 u2).2.2
      funext i
      exact sgdStep_congr hv lambda step hx v1 v2 i
  have hP2 := key _ _ _ _ _ k5
  -- second errors
  obtain ⟨G4, t1, t2⟩ := k3.loaded.setAllActive c e3.gia
  obtain ⟨st3, P3, A3, cs3, u1, _, u3, _, u5, _⟩ := run_executes_exactly_N c e3.ie e3.env rmseProg_pure ()
    (scratch := some (st1.x, st1.y)) t2 (by rintro _ ⟨⟩; exact d4) 1 (Nat.le_refl _) (by decide) fuel (by omega)
  have hP3 : ∀ v, 1 ≤ v → v ≤ n → (P3 v).lv = (P2 v).lv ∧ (P3 v).sqerr =
      ((blobs.flatten.filter (fun e => decide (e.src = (v : Int)))).map (fun e => ratingErr (vecs P2) e ^ 2)).sum := by
    intro v v1 v2
    generalize st3.s = s' at u5
    cases u5 with
    | succ g1 g2 =>
      cases g1
      obtain ⟨m1, m2⟩ := rmseProg_step g2 v v1 v2
      refine ⟨m1, ?_⟩
      rw [m2]
      by_cases h0 : outDegree blobs.flatten v = 0
      · rw [if_pos h0, hq _ _ _ h0, (hP2 v v1 v2).2.1, (hP1 v v1 v2).2, hq _ _ _ h0]
      · rw [if_neg h0]
  obtain ⟨vg2, err2, w1, w2, w3, w4, w5⟩ := applyReduce_is_reduction_partial (map := returnSqerr)
    (op := fun a b => a + b) (tmp := tmp2) (m := fun v : LatV K => v.sqerr) (w := id) (fun _ _ => rfl)
    e3.gr c hn u3.inv u3.props (fun a b c => add_assoc a b c) (fun a b => add_comm a b) (e := 0) (fun a => zero_add a)
  have hrep2 : ({ st3.G with toVGraph := vg2 } : Graph (LatV K) Int).Represents n nrank threads blobs.flatten P3 A3 :=
    u3.onVertices w2 w3 (by intro v v1 v2; rw [w4]; exact u3.acts v v1 v2)
  have herr2 : err2 = sqErr blobs.flatten (vecs P2) := by
    rw [w5]
    exact rmse_total hv (fun v v1 v2 => (hP3 v v1 v2).2)
  refine ⟨out, G, { st3.G with toVGraph := vg2 }, err1, err2, vecs P2, l1, ?_, fun v v1 v2 => (hP2 v v1 v2).2.2, herr1,
    herr2, ?_⟩
  · unfold runSgdWith
    rw [s1, s3]
    simp only [Option.bind_eq_bind, Option.bind_some]
    rw [a1]
    simp only [Option.bind_some]
    rw [b1]
    simp only [Option.bind_some]
    rw [show (1 : Int) = ((1 : Nat) : Int) from rfl, d1]
    simp only [Option.bind_some, RunOut.andThen, sgdMiddle, sgdErr, Option.bind_eq_bind]
    rw [q1]
    simp only [Option.bind_some]
    rw [f1]
    simp only [Option.bind_some]
    rw [k1]
    simp only [Option.bind_some, RunOut.andThen, sgdSecond, Option.bind_eq_bind]
    rw [t1]
    simp only [Option.bind_some]
    rw [show (1 : Int) = ((1 : Nat) : Int) from rfl, u1]
    simp only [Option.bind_some, sgdEnd, sgdErr, Option.bind_eq_bind]
    rw [w1]
    rfl
  · intro v v1 v2
    obtain ⟨o, o1, o2⟩ := represents_observed c hrep2 v v1 v2
    refine ⟨o, o1, fun r hr => ⟨(P3 v).sqerr, ?_⟩⟩
    rw [(o2 r hr).2]
    show _ = some (if r = o then some (⟨(P2 v).lv, (P3 v).sqerr⟩ : LatV K) else none)
    rw [← (hP3 v v1 v2).1]

/-- C55: `run_sgd` with its constants: vectors of length 20, ten steps, whatever `rand_r` delivers. -/
theorem gradient_descent {n nrank threads : Nat} (c : Cfg n nrank threads) (hn : n + threads ≤ IMAX)
    (le : LoadEnv (LatV 20) Int) (hsA : le.sA.OK) (hsT : le.sAT.OK) {dflt : LatV 20} (hd : le.d = fun _ => dflt)
    {blobs : List (List (Edge Int))} (hb : blobs.length = nrank) (hin : ∀ es ∈ blobs, ∀ e ∈ es, e.Valid n)
    (rnd : Nat → Fin 20 → Rat)
    (e1 : AppEnv (LatV 20) Rat (LatV 20)) (e2 : AppEnv (LatV 20) (Fin 20 → Rat) (LatV 20)) (e3 : AppEnv (LatV 20) Rat (LatV 20))
    (tmp1 tmp2 : Nat → Nat → Nat → Rat) (fuel : Nat) (hf : 10 ≤ fuel) :
    ∃ out G G' err1 err2, ∃ x : Nat → Fin 20 → Rat, Graph.readEdgelist le threads nrank n n blobs = some (out, G) ∧
      runSgd rnd e1 e2 e3 tmp1 tmp2 G fuel = some (.done (G', err1, err2)) ∧
      (∀ v, 1 ≤ v → v ≤ n → x v = Nat.iterate (sgdStep (1 / 1000) (35 / 100000000) blobs.flatten) 10 rnd v) ∧
      err1 = sqErr blobs.flatten rnd ∧ err2 = sqErr blobs.flatten x ∧
      ∀ v, 1 ≤ v → v ≤ n → ∃ o, o < nrank ∧ ∀ r, r < nrank → ∃ q, G'.getVertexproperty r v =
        some (if r = o then some ⟨x v, q⟩ else none) :=
  gradient_descent_with c hn le hsA hsT hd hb hin _ _ 10 (by decide) (by decide) rnd e1 e2 e3 tmp1 tmp2 fuel hf

/-- C55, what a step is: it moves along minus the gradient of half the sum of the squared errors plus half of `lambda`
times the squared lengths of the vectors of the vertices with ratings.  (Along every line through `x`, with direction
`d`, the objective is a polynomial in the distance `t` whose linear coefficient is minus the inner product of `d` with
the step's direction.) -/
theorem step_follows_gradient {n : Nat} {es : List (Edge Int)} (hv : ∀ e ∈ es, e.Valid n) (lambda : Rat)
    (x d : Nat → Fin K → Rat) :
    ∃ a b c, ∀ t, sgdObjective lambda es n (fun v i => x v i + t * d v i) = sgdObjective lambda es n x -
      t * ∑ v ∈ Finset.Icc 1 n, inner (sgdDir lambda es x v) (d v) + a * t ^ 2 + b * t ^ 3 + c * t ^ 4 :=
  objective_line hv lambda x d

/-- Load a graph on one rank, run with vectors of length 2, one step; all vectors and both errors. -/
def sgdSample (threads n : Nat) (es : List (Edge Int)) (rnd : Nat → Fin 2 → Rat) :
    Option (List Rat) := do
  let r ← Graph.readEdgelist (LoadEnv.sample (⟨fun _ => 7, 8⟩ : LatV 2) 0) threads 1 n n [es]
  let e : AppEnv (LatV 2) Rat (LatV 2) := .sample ⟨fun _ => 5, 6⟩ 4 ⟨fun _ => 3, 9⟩
  let o ← runSgdWith 2 (1 / 2) (1 / 10) 1 rnd e (.sample ⟨fun _ => 5, 6⟩ (fun _ => 4) ⟨fun _ => 3, 9⟩) e
    (fun _ _ _ => 55) (fun _ _ _ => 66) r.2 1
  match o with
  | .more _ => none
  | .done (G, err1, err2) => do
    let l ← (List.range n).mapM (fun v : Nat => G.getVertexproperty 0 ((v : Int) + 1))
    some (err1 :: err2 :: l.flatMap (fun v => match v with | some v => [v.lv 0, v.lv 1, v.sqerr] | none => []))

/-- Vertex 4 has no ratings and keeps its vector. -/
example : sgdSample 1 4 [⟨1, 2, 5⟩, ⟨3, 2, 1⟩] (fun v i => if i = 0 then v else 1) =
    some [40, 50557 / 3200, 27 / 20, 23 / 20, 100489 / 6400, 3 / 10, 11 / 20, 0, 33 / 20, 7 / 20, 25 / 256, 4, 1, 0] := by
  decide +kernel

/-- The hypotheses of the theorems can be met. -/
example : ∃ (le : LoadEnv (LatV 20) Int) (blobs : List (List (Edge Int))), Cfg 40 2 3 ∧ 40 + 3 ≤ IMAX ∧ le.sA.OK ∧
    le.sAT.OK ∧ (le.d = fun _ => ⟨fun _ => 7, 8⟩) ∧ blobs.length = 2 ∧ (∀ es ∈ blobs, ∀ e ∈ es, e.Valid 40) := by
  refine ⟨LoadEnv.sample ⟨fun _ => 7, 8⟩ 0, [[⟨1, 2, 5⟩], [⟨2, 39, 6⟩, ⟨1, 40, 7⟩]], ⟨by decide, by decide, by decide, by decide⟩,
    by decide, Sorts.ins_ok, Sorts.ins_ok, rfl, rfl, ?_⟩
  intro es hes e he
  simp at hes
  rcases hes with rfl | rfl <;> simp at he
  · subst he; simp [Edge.Valid]
  · rcases he with rfl | rfl <;> simp [Edge.Valid]

end GraphMat

import Verif.Lemmas.LdaCounts

/-!
# The topic model from loading to the reported numbers
-/
namespace GraphMat

variable {K : Nat}

/-- `run_lda`, whatever ends the loop of the main program: if that loop ends after `m` supersteps, the results are those
after `m` updates. -/
theorem topic_model_loop {n nrank threads : Nat} (c : Cfg n nrank threads) (hn : n + threads ≤ IMAX)
    (le : LoadEnv (LdaV K) Int) (hsA : le.sA.OK) (hsT : le.sAT.OK) {dflt : LdaV K} (hd : le.d = fun _ => dflt)
    {blobs : List (List (Edge Int))} (hb : blobs.length = nrank) (hin : ∀ es ∈ blobs, ∀ e ∈ es, e.Valid n)
    {ndoc nterms : Nat} (hsize : ndoc + nterms = n)
    (lg : Rat → Rat) (alpha eta : Rat) (heta : 1 < eta) (rnd : Int → Fin K → Rat) (iters : Int) (m : Nat)
    (env : LdaEnv K) (fuel : Nat) (hf : 1 ≤ fuel)
    (hloop : ∀ st, LdaAt n nrank threads ndoc blobs.flatten (ldaStart blobs.flatten rnd env.g0) st 0 →
      ∃ st', runLoopOn env.e2.env (ldaProg K alpha eta nterms) (fun it G => calcGlobalN (env.grs it) (env.tmps it) G) true
          iters fuel st = some (.done st') ∧
        LdaAt n nrank threads ndoc blobs.flatten
          (Nat.iterate (ldaNext alpha eta nterms blobs.flatten ndoc n) m (ldaStart blobs.flatten rnd env.g0)) st' m) :
    ∃ out G G' g ll, ∃ x : Nat → Fin K → Rat, Graph.readEdgelist le threads nrank n n blobs = some (out, G) ∧
      runLdaWith K lg alpha eta rnd ndoc nterms iters env G fuel = some (some (.done (G', g, ll))) ∧
      (x = Nat.iterate (ldaNext alpha eta nterms blobs.flatten ndoc n) m (ldaStart blobs.flatten rnd env.g0)) ∧
      g = wordTotal ndoc n x ∧ ll = logLik lg eta nterms blobs.flatten ndoc n x ∧
      ∀ v, 1 ≤ v → v ≤ n → ∃ o, o < nrank ∧ ∀ r, r < nrank → ∃ q, G'.getVertexproperty r v =
        some (if r = o then some ⟨x v, if v ≤ ndoc then 'd' else 'w', q⟩ else none) := by
  obtain ⟨out, G, l1, l2⟩ := Graph.load_loaded c le hsA hsT hd hb hin
  obtain ⟨G1, a1, a2⟩ := ldaTypes_spec c l2 env.e1.g env.g0 ndoc
  obtain ⟨G2, b1, b2⟩ := a2.setAllActive c env.e1.gia
  have hv := b2.valid
  have hGn : G.n = n := l2.inv.hn
  -- drawing
  obtain ⟨st1, P1, A1, cs1, d1, _, d3, _, d5⟩ := run_all_vertices c env.e1.ie env.e1.env (ldaInitProg_pure rnd) () rfl b2.loaded
    (scratch := none) (by rintro _ ⟨⟩) 1 (Nat.le_refl _) (by decide) fuel hf
  have hP1 : ∀ v, 1 ≤ v → v ≤ n → P1 v = ⟨ldaStart blobs.flatten rnd env.g0 v, kindOf ndoc v, 0⟩ := by
    intro v v1 v2
    generalize st1.s = s' at d5
    cases d5 with
    | succ g1 g2 =>
      cases g1
      exact ldaInit_step hv (fun _ _ _ => rfl) g2 v v1 v2
  obtain ⟨G3, q1, q2⟩ := calcGlobalN_spec (ndoc := ndoc) c hn d3 (by intro v v1 v2; rw [hP1 v v1 v2]) env.gr env.tmp
  obtain ⟨xs1, xs2, s1, s2⟩ := Graph.newScratch_spec c q2.inv env.e2.ie
  obtain ⟨G4, f1, f2⟩ := q2.loaded.setAllActive c env.e2.gia
  obtain ⟨vg5, k1, k2, k3, k4⟩ := VGraph.setAllActive_spec c f2.inv env.e2.ie.gb
  have hrep5 : ({ G4 with toVGraph := vg5 } : Graph (LdaV K) Int).Represents n nrank threads blobs.flatten P1 (fun _ => true) :=
    f2.onVertices k2 (by intro v v1 v2; rw [k3]; exact f2.props v v1 v2) k4
  have hx0 : ∀ v, 1 ≤ v → v ≤ n → counts P1 v = ldaStart blobs.flatten rnd env.g0 v := by
    intro v v1 v2
    unfold counts
    rw [hP1 v v1 v2]
  have hat : LdaAt n nrank threads ndoc blobs.flatten (ldaStart blobs.flatten rnd env.g0)
      ⟨{ G4 with toVGraph := vg5 }, xs1, xs2, wordTotal ndoc n (counts P1), 0, true⟩ 0 :=
    ⟨⟨P1, _, hrep5, fun _ _ _ => rfl, hP1⟩, s2, rfl, wordTotal_congr hx0⟩
  obtain ⟨st2, m1, m2⟩ := hloop _ hat
  have hx : ∃ x, x = Nat.iterate (ldaNext alpha eta nterms blobs.flatten ndoc n) m (ldaStart blobs.flatten rnd env.g0) := ⟨_, rfl⟩
  obtain ⟨x, hx⟩ := hx
  rw [← hx] at m2
  obtain ⟨P2, A2, p1, p2, p3⟩ := m2.rep
  -- likelihood
  obtain ⟨G6, t1, t2⟩ := p1.loaded.setAllActive c env.e3.gia
  obtain ⟨st3, P3, A3, cs3, u1, _, u3, _, u5⟩ := run_all_vertices c env.e3.ie env.e3.env
    (ldaLLProg_pure lg (ldaSmooth st2.s eta nterms) eta) () rfl t2.loaded
    (scratch := none) (by rintro _ ⟨⟩) 1 (Nat.le_refl _) (by decide) fuel hf
  have hP3 : ∀ v, 1 ≤ v → v ≤ n → P3 v = { P2 v with ll := ((blobs.flatten.filter (fun e => decide (e.dst = (v : Int)))).map
      (fun e => (e.val : Rat) * lg (wordProb eta nterms st2.s (counts P2 e.src.toNat) (counts P2 e.dst.toNat)))).sum } := by
    intro v v1 v2
    generalize st3.s = s' at u5
    cases u5 with
    | succ g1 g2 =>
      cases g1
      exact ldaLL_step hv (by intro v v1 v2; rw [p3 v v1 v2]) (fun _ _ _ => rfl) g2 v v1 v2
  obtain ⟨vg7, ll, w1, w2, w3, w4, w5⟩ := applyReduce_is_reduction_partial (map := returnLL)
    (op := fun a b => a + b) (tmp := env.tmp3) (m := fun v : LdaV K => v.ll) (w := id) (fun _ _ => rfl)
    env.e3.gr c hn u3.inv u3.props (fun a b c => add_assoc a b c) (fun a b => add_comm a b) (e := 0) (fun a => zero_add a)
  have hrep7 : ({ st3.G with toVGraph := vg7 } : Graph (LdaV K) Int).Represents n nrank threads blobs.flatten P3 A3 :=
    u3.onVertices w2 w3 (by intro v v1 v2; rw [w4]; exact u3.acts v v1 v2)
  have hll : ll = logLik lg eta nterms blobs.flatten ndoc n x := by
    rw [w5, ll_total hv (fun v v1 v2 => by rw [hP3 v v1 v2])]
    unfold logLik
    congr 1
    apply List.map_congr_left
    intro e he
    obtain ⟨y1, y2, y3, y4⟩ := hv e he
    unfold counts
    rw [m2.tot, p3 e.src.toNat (by omega) (by omega), p3 e.dst.toNat (by omega) (by omega)]
  refine ⟨out, G, { st3.G with toVGraph := vg7 }, st2.s, ll, x, l1, ?_, hx, m2.tot, hll, ?_⟩
  · unfold runLdaWith
    rw [if_neg (by rw [hGn, hsize]; exact fun h => h rfl), a1]
    simp only [Option.bind_eq_bind, Option.bind_some]
    rw [b1]
    simp only [Option.bind_some]
    rw [show (1 : Int) = ((1 : Nat) : Int) from rfl, d1]
    simp only [Option.bind_some, RunOut.andThen, ldaMain, Option.bind_eq_bind]
    rw [q1]
    simp only [Option.bind_some]
    rw [s1]
    simp only [Option.bind_some]
    rw [f1]
    simp only [Option.bind_some, Graph.runOn, Graph.scratchOr, Graph.startActive, ldaProg, if_true, Option.bind_eq_bind]
    rw [k1]
    simp only [Option.map_some, Option.bind_some]
    have m1' := m1
    unfold ldaProg at m1'
    rw [m1']
    simp only [Option.bind_some, ldaLikelihood, if_pos (show eta > 1 from heta), Option.bind_eq_bind]
    rw [t1]
    simp only [Option.bind_some]
    rw [show (1 : Int) = ((1 : Nat) : Int) from rfl, u1]
    simp only [Option.bind_some, RunOut.andThen, ldaEnd, Option.bind_eq_bind]
    rw [w1]
    rfl
  · intro v v1 v2
    obtain ⟨o, o1, o2⟩ := represents_observed c hrep7 v v1 v2
    refine ⟨o, o1, fun r hr => ⟨(P3 v).ll, ?_⟩⟩
    rw [(o2 r hr).2]
    have : P3 v = ⟨x v, if v ≤ ndoc then 'd' else 'w', (P3 v).ll⟩ := by
      rw [hP3 v v1 v2, p3 v v1 v2]
      rfl
    rw [← this]

theorem runLoopOn_until {n nrank threads ndoc : Nat} (c : Cfg n nrank threads) (hn : n + threads ≤ IMAX)
    {es : List (Edge Int)} (hv : ∀ e ∈ es, e.Valid n) (hj : ∀ e ∈ es, e.Joins ndoc)
    (env : Nat → StepEnv (LdaV K) (Fin K → Rat) (LdaV K)) (alpha eta vocab : Rat)
    (grs : Nat → Nat → Nat → Fresh (LdaV K)) (tmps : Nat → Nat → Nat → Nat → Fin K → Rat) {iters : Int} (hi : iters ≤ 0)
    (j : Nat) :
    ∀ {k fuel : Nat} {x : Nat → Fin K → Rat} {st : RunState (Fin K → Rat) (LdaV K) (Fin K → Rat) (LdaV K) Int},
      ((k + j + 1 : Nat) : Int) ≤ IMAX → j < fuel → LdaAt n nrank threads ndoc es x st k →
      (∀ i, i < j → ¬ CountsSettled n (Nat.iterate (ldaNext alpha eta vocab es ndoc n) i x)
        (Nat.iterate (ldaNext alpha eta vocab es ndoc n) (i + 1) x)) →
      CountsSettled n (Nat.iterate (ldaNext alpha eta vocab es ndoc n) j x)
        (Nat.iterate (ldaNext alpha eta vocab es ndoc n) (j + 1) x) →
      ∃ st', runLoopOn env (ldaProg K alpha eta vocab) (fun it G => calcGlobalN (grs it) (tmps it) G) true
          iters fuel st = some (.done st') ∧
        LdaAt n nrank threads ndoc es (Nat.iterate (ldaNext alpha eta vocab es ndoc n) (j + 1) x) st' (k + j + 1) := by
  induction j with
  | zero =>
    intro k fuel x st hmax hf h _ hs
    obtain ⟨fuel, rfl⟩ : ∃ f, fuel = f + 1 := ⟨fuel - 1, by omega⟩
    obtain ⟨st', e1, e2, e3⟩ := runBodyOn_spec c hn hv hj env alpha eta vocab grs tmps (by push_cast at hmax; omega) h
    refine ⟨st', ?_, e2⟩
    unfold runLoopOn
    rw [e1]
    simp only [Option.bind_eq_bind, Option.bind_some]
    rw [if_neg (by rw [e2.it]; omega), if_pos ⟨hi, e3.mpr hs⟩]
  | succ j ih =>
    intro k fuel x st hmax hf h hns hs
    obtain ⟨fuel, rfl⟩ : ∃ f, fuel = f + 1 := ⟨fuel - 1, by omega⟩
    obtain ⟨st1, e1, e2, e3⟩ := runBodyOn_spec c hn hv hj env alpha eta vocab grs tmps (by push_cast at hmax; omega) h
    obtain ⟨st', f1, f2⟩ := ih (by rw [show k + 1 + j + 1 = k + (j + 1) + 1 by omega]; exact hmax)
      (show j < fuel by omega) e2 (by
        intro i hij
        have := hns (i + 1) (by omega)
        rw [Function.iterate_succ_apply, Function.iterate_succ_apply _ (i + 1)] at this
        exact this) (by
        rw [Function.iterate_succ_apply, Function.iterate_succ_apply _ (j + 1)] at hs
        exact hs)
    rw [show k + 1 + j + 1 = k + (j + 1) + 1 by omega] at f2
    refine ⟨st', ?_, ?_⟩
    · unfold runLoopOn
      rw [e1]
      simp only [Option.bind_eq_bind, Option.bind_some]
      rw [if_neg (by rw [e2.it]; omega), if_neg (fun hc => hns 0 (by omega) (e3.mp hc.2))]
      exact f1
    · rw [Function.iterate_succ_apply]
      exact f2

end GraphMat

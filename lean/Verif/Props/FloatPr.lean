import Verif.Lemmas.FloatRun
import Verif.Lemmas.FloatRound

/-!
# C74: PageRank in floating point
-/
namespace GraphMat

variable {E : Type}

/-- C74, rounding: the rounding used in the model gives a number of the format, none of the others is nearer to the
exact value, of two equally near ones it is the one whose last digit is 0; a number of the format is unchanged; the
result overflows exactly from half a place above the largest number of the format on. -/
theorem float_round_nearest (f : FloatFmt) (hp : 2 ≤ f.prec) (he : f.emin ≤ f.emax) (x : Rat) :
    (∀ y, f.round x = some y → IsFloat f.prec f.emin f.emax y ∧ ∀ z, IsFloat f.prec f.emin f.emax z →
      |x - y| ≤ |x - z| ∧ (z ≠ y → |x - y| = |x - z| → EvenFloat f.prec f.emin f.emax y)) ∧
    (IsFloat f.prec f.emin f.emax x → f.round x = some x) ∧
    (f.round x = none ↔ (2 : Rat) ^ (f.emax + 1) - (2 : Rat) ^ (f.emax - f.prec) ≤ |x|) := by
  refine ⟨fun y h => f.round_spec hp he h, f.round_fix hp, ?_⟩
  rw [← pow2_eq, ← pow2_eq]
  exact ⟨f.round_over he, f.round_none hp he⟩

/-- The two formats used; 0.3 and the largest `float`; an overflow. -/
example : 2 ≤ b32.prec ∧ b32.emin ≤ b32.emax ∧ 2 ≤ b64.prec ∧ b64.emin ≤ b64.emax ∧
    b32.round (3 / 10) = some (5033165 / 16777216) ∧ b32.round (2 ^ 128 - 2 ^ 103 - 1) = some (2 ^ 128 - 2 ^ 104) ∧
    b32.round (2 ^ 128 - 2 ^ 103) = none := by decide +kernel

/-- Two ties. -/
example : b32.round 16777217 = some 16777216 ∧ b32.round 16777219 = some 16777220 ∧ b32.round (-16777217) = some (-16777216) := by
  decide +kernel

/-- C74, the iterations: on any graph whose vertices hold the initial rank and their out-degrees, with in-degrees at most
`D` where `11 (D + 6) ≤ 2^24`, on any number of ranks and threads, there are ranks `F N v` such that `N` iterations of the
program end with rank `F N v` at vertex `v`.  All are finite, never decrease from one iteration to the next, differ
from the ranks after `N` iterations in exact arithmetic by at most `5 (D + 6) n / 2^24` in total, and by at most
`1 + (D + 6) N` factors `1 ± 2^-24` each. -/
theorem pagerank_float_iterations {n nrank threads : Nat} (c : Cfg n nrank threads) (hmax : n ≤ IMAX)
    (ie : InitEnv (Option Rat) (Option Rat)) (env : Nat → StepEnv (Option Rat) (Option Rat) PfV)
    {scratch : Option (DVec (Option Rat) × DVec (Option Rat))} {G : Graph PfV E} {es : List (Edge E)} {P : Nat → PfV}
    (hG : G.Loaded n nrank threads es P) (hP : ∀ v, 1 ≤ v → v ≤ n → P v = ⟨alphaF, some (outDegree es v : Int)⟩)
    (hs : ∀ xy, scratch = some xy → Scratch n nrank xy.1 xy.2) (hdeg : ∀ v, outDegree es v ≤ IMAX) {D : Nat}
    (hD : ∀ v, inDegree es v ≤ D) (hK : 11 * (D + 6) ≤ 2 ^ 24) :
    ∃ F : Nat → Nat → Rat,
      (∀ N, 1 ≤ N → N ≤ IMAX → ∀ fuel, N ≤ fuel → ∃ st,
        G.run ie env (prProgF E) () (N : Int) scratch fuel = some (.done st) ∧ st.it = (N : Int) ∧
        ∀ v, 1 ≤ v → v ≤ n → ∃ o, o < nrank ∧ ∀ r, r < nrank → st.G.getVertexproperty r v =
          some (if r = o then some ⟨some (F N v), some (outDegree es v : Int)⟩ else none)) ∧
      (∀ v, 1 ≤ v → v ≤ n → F 0 v = 5033165 / 16777216) ∧
      (∀ N, N < IMAX → ∀ v, 1 ≤ v → v ≤ n → F N v ≤ F (N + 1) v) ∧
      (∀ N, N ≤ IMAX → ∑ v ∈ Finset.Icc 1 n, |F N v - prIter es N v| ≤ 5 * (D + 6) * n / 2 ^ 24) ∧
      ∀ N, N ≤ IMAX → ∀ v, 1 ≤ v → v ≤ n → prIter es N v * (1 - 1 / 2 ^ 24) ^ (1 + (D + 6) * N) ≤ F N v ∧
        F N v ≤ prIter es N v * (1 + 1 / 2 ^ 24) ^ (1 + (D + 6) * N) := by
  obtain ⟨TA, TT, PA, PT, g1, g2, g3⟩ := hG
  have hpr : ((prProgF E).gp ()).allVertices = true := rfl
  have hstart : ∀ it : Int, ∃ st : RunState Unit (Option Rat) (Option Rat) PfV E,
      (∀ fuel, G.run ie env (prProgF E) () it scratch fuel = runLoop env (prProgF E) true it fuel st) ∧
      (prCtx n nrank threads TA TT PA PT es).At ⟨P, fun _ => true, ()⟩ 0 st [] :=
    fun it => Graph.run_start' c ie env (prProgF E) () it (A := fun _ => true) g1 g2 g3
      (by rw [hpr]; intro h; cases h) hs (fun _ => prMessageF) (fun _ msg _ _ => msg)
  obtain ⟨st0, _, h0⟩ := hstart 0
  obtain ⟨F, f1, f2, _⟩ := prCtx_run c hmax env g1 hdeg hD (by norm_num at hK; exact hK) hP h0
  refine ⟨F, ?_, ?_, f2, ?_, ?_⟩
  · intro N hN hNm fuel hf
    obtain ⟨st1, h1, h2⟩ := hstart (N : Int)
    obtain ⟨j, rfl⟩ : ∃ j, N = j + 1 := ⟨N - 1, by omega⟩
    obtain ⟨st', cs, e1, e2⟩ := runLoop_count (R := prCtx n nrank threads TA TT PA PT es)
      c prProgF_pure env j h2 (by rw [Nat.zero_add]; exact_mod_cast hNm) (show j < fuel by omega)
    rw [Nat.zero_add] at e1 e2
    refine ⟨st', by rw [h1]; exact e1, e2.it, fun v v1 v2 => ?_⟩
    obtain ⟨o, o1, o2⟩ := represents_observed c ⟨TA, TT, PA, PT, e2.has⟩ v v1 v2
    refine ⟨o, o1, fun r hr => ?_⟩
    rw [(o2 r hr).2, (f1 (j + 1) hNm).state.vals v v1 v2]
  · intro v v1 v2
    have h := (f1 0 (Nat.zero_le _)).state.vals v v1 v2
    have h' : P v = ⟨some (F 0 v), some (outDegree es v : Int)⟩ := h
    rw [hP v v1 v2, alphaF_val] at h'
    injection h' with h'
    injection h' with h'
    exact h'.symm
  · intro N hN
    refine le_trans (f1 N hN).total ?_
    unfold relErr
    have : (0 : Rat) ≤ (D + 6) * n := by positivity
    norm_num
    linarith
  · intro N hN v v1 v2
    have := (f1 N hN).each v v1 v2
    unfold Near at this
    norm_num at this ⊢
    exact this

/-- The hypotheses can be met: a graph object after the degree pass. -/
example : ∃ (G : Graph PfV Int) (es : List (Edge Int)) (P : Nat → PfV), Cfg 40 2 3 ∧ 40 ≤ IMAX ∧ G.Loaded 40 2 3 es P ∧
    (∀ v, 1 ≤ v → v ≤ 40 → P v = ⟨alphaF, some (outDegree es v : Int)⟩) ∧ (∀ v, outDegree es v ≤ IMAX) ∧
    (∀ v, inDegree es v ≤ 3) ∧ 11 * (3 + 6) ≤ 2 ^ 24 ∧ outDegree es 1 = 2 := by
  have c : Cfg 40 2 3 := ⟨by decide, by decide, by decide, by decide⟩
  obtain ⟨out, G, _, h⟩ := Graph.load_loaded (d := PfV.new) c (LoadEnv.sample PfV.new 0) Sorts.ins_ok Sorts.ins_ok rfl
    (E := Int) (blobs := [[⟨1, 2, 5⟩], [⟨2, 39, 6⟩, ⟨1, 40, 7⟩]]) rfl (by
      intro es hes e he
      simp at hes
      rcases hes with rfl | rfl <;> simp at he
      · subst he; simp [Edge.Valid]
      · rcases he with rfl | rfl <;> simp [Edge.Valid])
  have hdeg : ∀ v, outDegree [[⟨1, 2, (5 : Int)⟩], [⟨2, 39, 6⟩, ⟨1, 40, 7⟩]].flatten v ≤ IMAX := by
    intro v
    unfold outDegree
    exact Nat.le_trans List.countP_le_length (by decide)
  obtain ⟨_, _, _, st, P, _, _, _, g1, g2⟩ := degreePassF c h hdeg (.sample 5 (some 6) ⟨some 3, some 9⟩) 1 (by decide)
  refine ⟨st.G, _, P, c, by decide, g1, g2, hdeg, ?_, by decide, by decide⟩
  intro v
  unfold inDegree
  exact Nat.le_trans List.countP_le_length (by decide)

/-- C74, two machines: with the same graph on different numbers of ranks and threads, the ranks after the same number of
iterations differ by at most `10 (D + 6) n / 2^24` in total. -/
theorem pagerank_float_agree {n nrank threads nrank' threads' : Nat} (c : Cfg n nrank threads) (c' : Cfg n nrank' threads')
    (hmax : n ≤ IMAX) (ie ie' : InitEnv (Option Rat) (Option Rat)) (env env' : Nat → StepEnv (Option Rat) (Option Rat) PfV)
    {G G' : Graph PfV E} {es es' : List (Edge E)} {P P' : Nat → PfV} (hperm : es.Perm es')
    (hG : G.Loaded n nrank threads es P) (hP : ∀ v, 1 ≤ v → v ≤ n → P v = ⟨alphaF, some (outDegree es v : Int)⟩)
    (hG' : G'.Loaded n nrank' threads' es' P') (hP' : ∀ v, 1 ≤ v → v ≤ n → P' v = ⟨alphaF, some (outDegree es' v : Int)⟩)
    (hdeg : ∀ v, outDegree es v ≤ IMAX) {D : Nat} (hD : ∀ v, inDegree es v ≤ D) (hK : 11 * (D + 6) ≤ 2 ^ 24)
    (N : Nat) (hN : 1 ≤ N) (hNm : N ≤ IMAX) (fuel : Nat) (hf : N ≤ fuel) :
    ∃ (st st' : RunState Unit (Option Rat) (Option Rat) PfV E) (x x' : Nat → Rat),
      G.run ie env (prProgF E) () (N : Int) none fuel = some (.done st) ∧
      G'.run ie' env' (prProgF E) () (N : Int) none fuel = some (.done st') ∧
      (∀ v, 1 ≤ v → v ≤ n → ∃ o, o < nrank ∧ ∀ r, r < nrank → st.G.getVertexproperty r v =
        some (if r = o then some ⟨some (x v), some (outDegree es v : Int)⟩ else none)) ∧
      (∀ v, 1 ≤ v → v ≤ n → ∃ o, o < nrank' ∧ ∀ r, r < nrank' → st'.G.getVertexproperty r v =
        some (if r = o then some ⟨some (x' v), some (outDegree es v : Int)⟩ else none)) ∧
      ∑ v ∈ Finset.Icc 1 n, |x v - x' v| ≤ 10 * (D + 6) * n / 2 ^ 24 := by
  have ho : ∀ v, outDegree es' v = outDegree es v := fun v => (hperm.countP_eq _).symm
  have hi : ∀ v, inDegree es' v = inDegree es v := fun v => (hperm.countP_eq _).symm
  have hst : ∀ x, prStep (3 / 10) es' x = prStep (3 / 10) es x := by
    intro x
    funext v
    unfold prStep
    rw [hi v, ((hperm.filter _).map _).sum_eq]
    simp only [ho]
  have hit : ∀ k, prIter es' k = prIter es k := by
    intro k
    induction k with
    | zero => rfl
    | succ k ih => rw [prIter, prIter, ih, hst]
  obtain ⟨F, f1, _, _, f4, _⟩ := pagerank_float_iterations c hmax ie env (scratch := none) hG hP (by rintro _ ⟨⟩) hdeg hD hK
  obtain ⟨F', f1', _, _, f4', _⟩ := pagerank_float_iterations c' hmax ie' env' (scratch := none) hG' hP' (by rintro _ ⟨⟩)
    (fun v => by rw [ho]; exact hdeg v) (fun v => by rw [hi]; exact hD v) hK
  obtain ⟨st, a1, _, a3⟩ := f1 N hN hNm fuel hf
  obtain ⟨st', b1, _, b3⟩ := f1' N hN hNm fuel hf
  refine ⟨st, st', F N, F' N, a1, b1, a3, ?_, ?_⟩
  · intro v v1 v2
    obtain ⟨o, o1, o2⟩ := b3 v v1 v2
    exact ⟨o, o1, fun r hr => by rw [o2 r hr, ho]⟩
  · have h1 := f4 N hNm
    have h2 := f4' N hNm
    rw [hit] at h2
    have h3 : ∑ v ∈ Finset.Icc 1 n, |F N v - F' N v| ≤
        ∑ v ∈ Finset.Icc 1 n, |F N v - prIter es N v| + ∑ v ∈ Finset.Icc 1 n, |F' N v - prIter es N v| := by
      rw [← Finset.sum_add_distrib]
      apply Finset.sum_le_sum
      intro v _
      rw [abs_sub_comm (F' N v)]
      exact abs_sub_le _ _ _
    refine le_trans h3 ?_
    linarith

/-- The hypotheses can be met: the edges of the example above in another order on one rank with one thread. -/
example : ∃ (G : Graph PfV Int) (es : List (Edge Int)) (P : Nat → PfV), es.Perm [⟨1, 2, 5⟩, ⟨2, 39, 6⟩, ⟨1, 40, 7⟩] ∧
    Cfg 40 1 1 ∧ G.Loaded 40 1 1 es P ∧ (∀ v, 1 ≤ v → v ≤ 40 → P v = ⟨alphaF, some (outDegree es v : Int)⟩) := by
  have c : Cfg 40 1 1 := ⟨by decide, by decide, by decide, by decide⟩
  obtain ⟨out, G, _, h⟩ := Graph.load_loaded (d := PfV.new) c (LoadEnv.sample PfV.new 0) Sorts.ins_ok Sorts.ins_ok rfl
    (E := Int) (blobs := [[⟨2, 39, 6⟩, ⟨1, 2, 5⟩, ⟨1, 40, 7⟩]]) rfl (by
      intro es hes e he
      simp at hes
      subst hes
      simp at he
      rcases he with rfl | rfl | rfl <;> simp [Edge.Valid])
  have hdeg : ∀ v, outDegree [[⟨2, 39, (6 : Int)⟩, ⟨1, 2, 5⟩, ⟨1, 40, 7⟩]].flatten v ≤ IMAX := by
    intro v
    unfold outDegree
    exact Nat.le_trans List.countP_le_length (by decide)
  obtain ⟨_, _, _, st, P, _, _, _, g1, g2⟩ := degreePassF c h hdeg (.sample 5 (some 6) ⟨some 3, some 9⟩) 1 (by decide)
  exact ⟨st.G, _, P, .swap _ _ _, c, g1, g2⟩

/-- C74, the program: on any loaded graph whose out-degrees fit an `int` and whose in-degrees are at most `D`, where
`11 (D + 6) ≤ 2^24`, on any number of ranks and threads, the program in floating point ends after some number `k` of
iterations, at most `102 + (D + 6) n / 16`, with finite ranks.  In total they differ from the ranks after `k` iterations
in exact arithmetic by at most `5 (D + 6) n / 2^24`, and each by at most `1 + (D + 6) k` factors `1 ± 2^-24`.  The last
iteration raised no rank by more than 0.0000100001, all others raised some rank by at least 0.0000099. -/
theorem pagerank_float_converges {n nrank threads : Nat} (c : Cfg n nrank threads) (hmax : n ≤ IMAX)
    (le : LoadEnv PfV E) (hsA : le.sA.OK) (hsT : le.sAT.OK) (hd : le.d = fun _ => PfV.new)
    {blobs : List (List (Edge E))} (hb : blobs.length = nrank) (hin : ∀ es ∈ blobs, ∀ e ∈ es, e.Valid n)
    (hdeg : ∀ v, outDegree blobs.flatten v ≤ IMAX) {D : Nat} (hD : ∀ v, inDegree blobs.flatten v ≤ D)
    (hK : 11 * (D + 6) ≤ 2 ^ 24) (e1 : AppEnv Int (Option Int) PfV) (e2 : AppEnv (Option Rat) (Option Rat) PfV) (fuel : Nat)
    (hf : 102 + (D + 6) * n / 16 ≤ fuel) (hfm : fuel ≤ IMAX) :
    ∃ out G st, ∃ k : Nat, ∃ F : Nat → Nat → Rat, Graph.readEdgelist le threads nrank n n blobs = some (out, G) ∧
      runPagerankF e1 e2 G fuel = some (.done st) ∧ st.it = (k : Int) ∧ 1 ≤ k ∧ k ≤ 102 + (D + 6) * n / 16 ∧
      (∀ v, 1 ≤ v → v ≤ n → ∃ o, o < nrank ∧ ∀ r, r < nrank → st.G.getVertexproperty r v =
        some (if r = o then some ⟨some (F k v), some (outDegree blobs.flatten v : Int)⟩ else none)) ∧
      (∀ j, j ≤ k → ∑ v ∈ Finset.Icc 1 n, |F j v - prIter blobs.flatten j v| ≤ 5 * (D + 6) * n / 2 ^ 24) ∧
      (∀ j, j ≤ k → ∀ v, 1 ≤ v → v ≤ n → prIter blobs.flatten j v * (1 - 1 / 2 ^ 24) ^ (1 + (D + 6) * j) ≤ F j v ∧
        F j v ≤ prIter blobs.flatten j v * (1 + 1 / 2 ^ 24) ^ (1 + (D + 6) * j)) ∧
      (∀ j, j < k → ∀ v, 1 ≤ v → v ≤ n → F j v ≤ F (j + 1) v) ∧
      (∀ v, 1 ≤ v → v ≤ n → F k v - F (k - 1) v ≤ 100001 / 10000000000) ∧
      (∀ j, j + 1 < k → ∃ v, 1 ≤ v ∧ v ≤ n ∧ 99 / 10000000 ≤ F (j + 1) v - F j v) := by
  obtain ⟨out, G, l1, l2⟩ := Graph.load_loaded c le hsA hsT hd hb hin
  obtain ⟨x1, y1, G1, st1, P1, s1, a1, d1, d3, hP⟩ := degreePassF c l2 hdeg e1 fuel (by omega)
  obtain ⟨x2, y2, s3, s4⟩ := Graph.newScratch_spec c d3.inv e2.ie
  obtain ⟨G2, b1, b2⟩ := d3.setAllActive c e2.gia
  obtain ⟨TA, TT, PA, PT, g1, g2, g3⟩ := b2.loaded
  have hpr : ((prProgF E).gp ()).allVertices = true := rfl
  obtain ⟨st2, h1, h2⟩ : ∃ st : RunState Unit (Option Rat) (Option Rat) PfV E,
      (∀ fuel, G2.run e2.ie e2.env (prProgF E) () (-1) (some (x2, y2)) fuel = runLoop e2.env (prProgF E) true (-1) fuel st) ∧
      (prCtx n nrank threads TA TT PA PT blobs.flatten).At ⟨P1, fun _ => true, ()⟩ 0 st [] :=
    Graph.run_start' c e2.ie e2.env (prProgF E) () (-1) (A := fun _ => true) g1 g2 g3
      (by rw [hpr]; intro h; cases h) (by rintro _ ⟨⟩; exact s4) (fun _ => prMessageF) (fun _ msg _ _ => msg)
  obtain ⟨F, f1, f2, f3⟩ := prCtx_run c hmax e2.env g1 hdeg hD (by norm_num at hK; exact hK) hP h2
  have hrun : ∀ o, G2.run e2.ie e2.env (prProgF E) () (-1) (some (x2, y2)) fuel = some o → runPagerankF e1 e2 G fuel = some o := by
    intro o ho
    unfold runPagerankF
    rw [s1]
    simp only [Option.bind_eq_bind, Option.bind_some]
    rw [a1]
    simp only [Option.bind_some]
    rw [d1]
    simp only [Option.bind_some, prMainF, Option.bind_eq_bind]
    rw [s3]
    simp only [Option.bind_some]
    rw [b1]
    simp only [Option.bind_some]
    exact ho
  rcases runLoop_until (R := prCtx n nrank threads TA TT PA PT blobs.flatten)
    c prProgF_pure e2.env (iterations := -1) (by omega) fuel h2 (by rw [Nat.zero_add]; exact_mod_cast hfm) with
    ⟨j, st', cs, j1, j2, j3, j4, j5⟩ | ⟨st', cs, j2, j3, j5⟩
  · simp only [Nat.zero_add] at j3 j4 j5
    have hj : j ≤ 101 + (D + 6) * n / 16 := f3 j (by omega) j5
    refine ⟨out, G, st', j + 1, F, l1, hrun _ (by rw [h1]; exact j2), j3.it, by omega, by omega, ?_, ?_, ?_, ?_, ?_, ?_⟩
    · intro v v1 v2
      obtain ⟨o, o1, o2⟩ := represents_observed c ⟨TA, TT, PA, PT, j3.has⟩ v v1 v2
      refine ⟨o, o1, fun r hr => ?_⟩
      rw [(o2 r hr).2, (f1 (j + 1) (by omega)).state.vals v v1 v2]
    · intro N hN
      refine le_trans (f1 N (by omega)).total ?_
      unfold relErr
      have : (0 : Rat) ≤ (D + 6) * n := by positivity
      norm_num
      linarith
    · intro N hN v v1 v2
      have := (f1 N (by omega)).each v v1 v2
      unfold Near at this
      norm_num at this ⊢
      exact this
    · intro i hi
      exact f2 i (by omega)
    · exact prCtx_quiet (f1 j (by omega)) (f1 (j + 1) (by omega)) j4
    · intro i hi
      exact prCtx_change (f1 i (by omega)) (f1 (i + 1) (by omega)) (f2 i (by omega)) (j5 i (by omega))
  · exfalso
    simp only [Nat.zero_add] at j5
    have := f3 fuel hfm j5
    omega

/-- The hypotheses of the theorem can be met. -/
example : ∃ (le : LoadEnv PfV Int) (blobs : List (List (Edge Int))), Cfg 40 2 3 ∧ 40 ≤ IMAX ∧ le.sA.OK ∧ le.sAT.OK ∧
    (le.d = fun _ => PfV.new) ∧ blobs.length = 2 ∧ (∀ es ∈ blobs, ∀ e ∈ es, e.Valid 40) ∧
    (∀ v, outDegree blobs.flatten v ≤ IMAX) ∧ (∀ v, inDegree blobs.flatten v ≤ 3) ∧ 11 * (3 + 6) ≤ 2 ^ 24 ∧
    102 + (3 + 6) * 40 / 16 ≤ 124 ∧ 124 ≤ IMAX := by
  refine ⟨LoadEnv.sample PfV.new 0, [[⟨1, 2, 5⟩], [⟨2, 39, 6⟩, ⟨1, 40, 7⟩]], ⟨by decide, by decide, by decide, by decide⟩,
    by decide, Sorts.ins_ok, Sorts.ins_ok, rfl, rfl, ?_, ?_, ?_, by decide, by decide, by decide⟩
  · intro es hes e he
    simp at hes
    rcases hes with rfl | rfl <;> simp at he
    · subst he; simp [Edge.Valid]
    · rcases he with rfl | rfl <;> simp [Edge.Valid]
  · intro v
    unfold outDegree
    exact Nat.le_trans List.countP_le_length (by decide)
  · intro v
    unfold inDegree
    exact Nat.le_trans List.countP_le_length (by decide)

/-- Load a graph on one rank, do the degree pass and some iterations, read rank and degree of all vertices. -/
def prSampleF (threads n : Nat) (es : List (Edge Int)) (fuel : Nat) : Option (Int × List (Option PfV)) := do
  let r ← Graph.readEdgelist (LoadEnv.sample PfV.new 0) threads 1 n n [es]
  let o ← runPagerankF (.sample 5 (some 6) ⟨some 3, some 9⟩) (.sample (some 7) (some 8) ⟨some 3, some 9⟩) r.2 fuel
  match o with
  | .more _ => none
  | .done st => do
    let l ← (List.range n).mapM (fun v : Nat => st.G.getVertexproperty 0 ((v : Int) + 1))
    some (st.it, l)

/-- The graph of `Verif/Props/PageRank.lean`; the exact ranks are 0.3, 0.405 and 0.6885. -/
example : prSampleF 1 3 [⟨1, 2, 1⟩, ⟨1, 3, 1⟩, ⟨2, 3, 1⟩] 3 =
    some (3, [some ⟨some (5033165 / 16777216), some 2⟩, some ⟨some (13589545 / 33554432), some 1⟩,
      some ⟨some (11551113 / 16777216), some 0⟩]) := by decide +kernel

/-- C74, no more than that: the ranks are not the same numbers on every machine.  On this graph of 32 vertices, 1 thread
and 2 threads give vertex 30 two different ranks, because its three messages are added in another order. -/
theorem pagerank_float_depends_on_threads :
    let es : List (Edge Int) := [⟨1, 30, 1⟩, ⟨2, 29, 1⟩, ⟨2, 30, 1⟩, ⟨17, 27, 1⟩, ⟨17, 28, 1⟩, ⟨17, 29, 1⟩, ⟨17, 30, 1⟩]
    ∃ k l k' l' p p', prSampleF 1 32 es 5 = some (k, l) ∧ prSampleF 2 32 es 5 = some (k', l') ∧
      l[29]? = some (some p) ∧ l'[29]? = some (some p') ∧ p.rank ≠ p'.rank := by
  have h : ∀ r r' : Option (Int × List (Option PfV)), (match r, r' with
      | some (_, l), some (_, l') => match l[29]?, l'[29]? with
        | some (some p), some (some p') => decide (p.rank ≠ p'.rank)
        | _, _ => false
      | _, _ => false) = true → ∃ k l k' l' p p', r = some (k, l) ∧ r' = some (k', l') ∧
      l[29]? = some (some p) ∧ l'[29]? = some (some p') ∧ p.rank ≠ p'.rank := by
    intro r r' h
    split at h
    · rename_i k l k' l'
      split at h
      · rename_i p p' h1 h2
        exact ⟨k, l, k', l', p, p', rfl, rfl, h1, h2, of_decide_eq_true h⟩
      · cases h
    · cases h
  exact h _ _ (by decide +kernel)

end GraphMat

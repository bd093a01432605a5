import Verif.Lemmas.FloatDprRun

/-!
# C77: incremental PageRank in floating point
-/
namespace GraphMat

variable {E : Type}

local notation "uD" => (1 / 9007199254740992 : Rat)
local notation "tE" => (1 / 99999999 : Rat)

/-- C77: on any loaded graph of `n` vertices whose out-degrees fit an `int` and whose in-degrees are at most `D`, where
`(n + 1) (D + 6) ≤ 2^43`, on any number of ranks and threads, the program in `double` arithmetic stops after at most
`51 + 7 n` supersteps.  Then every vertex holds its out-degree, a finite delta and a finite rank; the ranks miss the
PageRank equation by at most `n (39 * 10^-8 + (n + D + 7) / 2^44)` in total, and the solution of the equation by at most
`n (13 * 10^-7 + (n + D + 7) / 2^43)` in total. -/
theorem incremental_pagerank_float {n nrank threads : Nat} (c : Cfg n nrank threads)
    (le : LoadEnv DpfV E) (hsA : le.sA.OK) (hsT : le.sAT.OK) (hd : le.d = fun _ => DpfV.new)
    {blobs : List (List (Edge E))} (hb : blobs.length = nrank) (hin : ∀ es ∈ blobs, ∀ e ∈ es, e.Valid n)
    (hdeg : ∀ v, outDegree blobs.flatten v ≤ IMAX) {D : Nat} (hD : ∀ v, inDegree blobs.flatten v ≤ D)
    (hK : (n + 1) * (D + 6) ≤ 2 ^ 43)
    (e1 : AppEnv Int (Option Int) DpfV) (e2 : AppEnv (Option Rat) (Option Rat) DpfV) (fuel : Nat) (hf : 51 + 7 * n ≤ fuel)
    (hfm : fuel ≤ IMAX) :
    ∃ out G st, ∃ k : Nat, ∃ d x : Nat → Rat, Graph.readEdgelist le threads nrank n n blobs = some (out, G) ∧
      runIncPagerankF e1 e2 G fuel = some (.done st) ∧ st.it = (k : Int) ∧ 1 ≤ k ∧ k ≤ 51 + 7 * n ∧
      (∀ v, 1 ≤ v → v ≤ n → ∃ o, o < nrank ∧ ∀ r, r < nrank → st.G.getVertexproperty r v =
        some (if r = o then some ⟨some (d v), some (x v), some (outDegree blobs.flatten v : Int)⟩ else none)) ∧
      (∑ v ∈ Finset.Icc 1 n, |x v - prRhs blobs.flatten x v| ≤ n * (39 / 10 ^ 8 + (n + D + 7) / 2 ^ 44)) ∧
      (∃ y, IsPageRank blobs.flatten n y) ∧
      ∀ y, IsPageRank blobs.flatten n y →
        ∑ v ∈ Finset.Icc 1 n, |x v - y v| ≤ n * (13 / 10 ^ 7 + (n + D + 7) / 2 ^ 43) := by
  obtain ⟨out, G, l1, l2⟩ := Graph.load_loaded c le hsA hsT hd hb hin
  obtain ⟨x1, y1, s1, s2⟩ := Graph.newScratch_spec c l2.inv e1.ie
  obtain ⟨G1, a1, a2⟩ := l2.setAllActive c e1.gia
  obtain ⟨st1, P1, A1, cs, d1, d2, d3, d4, d5, _⟩ := run_executes_exactly_N c e1.ie e1.env dpfDegreeProg_pure ()
    (scratch := some (x1, y1)) a2 (by rintro _ ⟨⟩; exact s2) 1 (Nat.le_refl _) (by decide) fuel (by omega)
  have hv := d3.valid
  -- the initial rank
  obtain ⟨a, ha, hab⟩ : ∃ a, alphaD = some a ∧ 29 / 100 ≤ a ∧ a ≤ 3 / 10 ∧ 3 / 10 - a ≤ uD :=
    ⟨_, alphaD_val, by norm_num, by norm_num, by norm_num⟩
  have hP1 : ∀ v, 1 ≤ v → v ≤ n → P1 v = ⟨some a, some a, some (outDegree blobs.flatten v : Int)⟩ := by
    intro v v1 v2
    generalize st1.s = s' at d5
    cases d5 with
    | succ g1 g2 =>
      cases g1
      rw [dpfDegreeProg_step hdeg g2 v v1 v2]
      by_cases h : outDegree blobs.flatten v = 0
      · rw [if_pos h, h]; simp only [DpfV.new, ha]; rfl
      · rw [if_neg h]; simp only [DpfV.new, ha]
  obtain ⟨x2, y2, s3, s4⟩ := Graph.newScratch_spec c d3.inv e2.ie
  obtain ⟨G2, b1, b2⟩ := d3.loaded.setAllActive c e2.gia
  have htD := tD_bounds
  have htD2 : tD < 29 / 100 := by unfold tD; norm_num
  have hst0 : DpfState blobs.flatten n P1 (fun _ => true) (fun _ => a) (fun _ => a) := by
    refine ⟨hP1, ?_, ?_, ?_⟩
    · intro v _ _; linarith
    · intro v _ _ _; linarith
    · intro v _ _; linarith
  have hn0 : (0 : Rat) ≤ n := by positivity
  -- the relative error of one superstep
  have hKr : ((n : Rat) + 1) * (D + 6) ≤ 8796093022208 := by
    have : (n + 1) * (D + 6) ≤ 8796093022208 := by norm_num at hK; exact hK
    exact_mod_cast this
  have hD6 : D + 6 ≤ 8796093022208 := by
    have : (n + 1) * (D + 6) ≤ 8796093022208 := by norm_num at hK; exact hK
    have h2 : 1 * (D + 6) ≤ (n + 1) * (D + 6) := Nat.mul_le_mul_right _ (by omega)
    omega
  have hδe : relErrD (D + 6) = ((D : Rat) + 6) / 4503599627370496 := by unfold relErrD; push_cast; rfl
  have hD0 : (0 : Rat) ≤ D := by positivity
  have hδ : 12 * uD ≤ relErrD (D + 6) := by rw [hδe]; linarith
  have hδn : relErrD (D + 6) * ((n : Rat) + 1) ≤ 1 / 512 := by
    rw [hδe]
    have e : ((D : Rat) + 6) / 4503599627370496 * ((n : Rat) + 1) = (((n : Rat) + 1) * (D + 6)) / 4503599627370496 := by ring
    rw [e]
    linarith
  have hbounds0 : DpfBounds n (relErrD (D + 6)) 0 (vsum n (fun _ => a)) (vsum n (dpfPend (fun _ => a) (fun _ => true)))
      (vsum n (dpfSmall (fun _ => a))) (vsum n (fun v => |dpfRes blobs.flatten (fun _ => true) (fun _ => a) (fun _ => a) v|)) := by
    have hp : vsum n (dpfPend (fun _ => a) (fun _ => true)) = n * a := by
      rw [← vsum_const]; exact vsum_congr (fun _ _ _ => if_pos rfl)
    have hs : vsum n (dpfSmall (fun _ => a)) = 0 := by
      have : dpfSmall (fun _ => a) = fun _ => 0 := by funext u; exact if_pos (by linarith)
      rw [this, vsum_const, mul_zero]
    have hr : vsum n (fun v => |dpfRes blobs.flatten (fun _ => true) (fun _ => a) (fun _ => a) v|) = n * (3 / 10 - a) := by
      rw [← vsum_const]
      apply vsum_congr
      intro v _ _
      unfold dpfRes
      have h1 : dpfSmall (fun _ => a) v = 0 := if_pos (by linarith)
      have h2 : flowIn blobs.flatten (fun u => a - dpfPend (fun _ => a) (fun _ => true) u) v = 0 := by
        have : (fun u => a - dpfPend (fun _ => a) (fun _ => true) u) = fun _ : Nat => (0 : Rat) * 0 := by
          funext u
          have : dpfPend (fun _ => a) (fun _ => true) u = a := if_pos rfl
          rw [this]; ring
        rw [this, flowIn_smul, zero_mul]
      rw [h1, h2]
      rw [show a + 0 - 3 / 10 - 7 / 10 * 0 = -(3 / 10 - a) by ring, abs_neg, abs_of_nonneg (by linarith)]
    rw [vsum_const, hp, hs, hr]
    refine ⟨?_, ?_, fun h => absurd h (by omega), ?_, fun h => absurd h (by omega)⟩
    · push_cast
      nlinarith
    · simp only [pow_zero]
      nlinarith
    · intro _
      push_cast
      nlinarith
  obtain ⟨st, k, P', A', r1, r2, r3, r4, r5, _, d', x', i0, ib, i1⟩ := run_until_invariant c e2.ie e2.env dpfProg_pure () b2
    (scratch := some (x2, y2)) (by rintro _ ⟨⟩; exact s4) (iterations := -1) (by omega)
    (Inv := fun k P A _ => ∃ d x, DpfState blobs.flatten n P A d x ∧ (k = 0 ∨ 1 / 100000000 < vsum n (dpfPend d A)) ∧
      DpfBounds n (relErrD (D + 6)) k (vsum n x) (vsum n (dpfPend d A)) (vsum n (dpfSmall d))
        (vsum n (fun v => |dpfRes blobs.flatten A d x v|)))
    (Done := fun k P A _ => ∃ d x, DpfState blobs.flatten n P A d x ∧
      DpfBounds n (relErrD (D + 6)) k (vsum n x) (vsum n (dpfPend d A)) (vsum n (dpfSmall d))
        (vsum n (fun v => |dpfRes blobs.flatten A d x v|)) ∧ ∀ v, 1 ≤ v → v ≤ n → A v = false)
    (N := 51 + 7 * n) (by omega)
    ⟨_, _, hst0, Or.inl rfl, hbounds0⟩
    (by
      rintro k P1 A1 s1 P2 A2 b hk ⟨d, x, hst, hbig, hbd⟩ hs
      have hk' : (k : Rat) ≤ 51 + 7 * n := by
        have : k ≤ 51 + 7 * n := by omega
        exact_mod_cast this
      have hX0 : 0 ≤ vsum n x := vsum_nonneg (fun u u1 u2 => le_trans (by norm_num) (hst.low u u1 u2))
      have ht0 : 0 ≤ vsum n (dpfPend d A1) := vsum_nonneg hst.pend_nonneg
      have hH0 : 0 ≤ vsum n (dpfSmall d) := vsum_nonneg (fun u u1 u2 => (hst.small_bounds u u1 u2).1)
      have hm2 : vsum n x + 7 / 3 * vsum n (dpfPend d A1) + 10 / 3 * vsum n (dpfSmall d) ≤ 3 * n := by
        refine le_trans hbd.mass ?_
        have h0 : 0 ≤ relErrD (D + 6) := by linarith
        have h1 : relErrD (D + 6) * (k : Rat) ≤ relErrD (D + 6) * (51 * ((n : Rat) + 1)) :=
          mul_le_mul_of_nonneg_left (by linarith) h0
        have h2 := mul_le_mul_of_nonneg_left (show 1 + 4 * (relErrD (D + 6) * (k : Rat)) ≤ 2 by linarith) hn0
        linarith
      obtain ⟨d', x', g, m1, m2, m3⟩ := dpfProg_step c.n hv hdeg hD hD6 hst (by linarith) (by linarith) hs
      have hbd' := hbd.succ hδ hδn hk (DpfMove.totals hv hst m1 m2) hbig
      refine ⟨fun hb => ⟨d', x', m1, hbd', m3.mp hb⟩, fun hb => ?_⟩
      obtain ⟨v, v1, v2, hA⟩ : ∃ v, 1 ≤ v ∧ v ≤ n ∧ A2 v = true := by
        apply Classical.byContradiction
        intro hno
        have : b = true := m3.mpr (fun v v1 v2 => by
          cases hA : A2 v with
          | false => rfl
          | true => exact absurd ⟨v, v1, v2, hA⟩ hno)
        rw [this] at hb; cases hb
      have hb2 : 1 / 100000000 < vsum n (dpfPend d' A2) := by
        have h1 := single_le_vsum m1.pend_nonneg v1 v2
        have h2 : dpfPend d' A2 v = d' v := if_pos hA
        have h3 := m1.big v v1 v2 hA
        linarith
      refine ⟨?_, d', x', m1, Or.inr hb2, hbd'⟩
      rcases Nat.lt_or_ge (k + 1) 51 with h1 | h1
      · omega
      · have h2 := hbd'.tail h1
        have hH0' : 0 ≤ vsum n (dpfSmall d') := vsum_nonneg (fun u u1 u2 => (m1.small_bounds u u1 u2).1)
        have h4 : ((k + 1 : Nat) : Rat) < 51 + 7 * n := by
          by_contra hc
          push Not at hc
          generalize ((k + 1 : Nat) : Rat) = q at *
          linarith
        exact_mod_cast h4)
    fuel hf hfm
  have hr4 : (k : Rat) ≤ 51 + 7 * n := by exact_mod_cast r4
  have ht0 : 0 ≤ vsum n (dpfPend d' A') := vsum_nonneg i0.pend_nonneg
  have hH0 : 0 ≤ vsum n (dpfSmall d') := vsum_nonneg (fun u u1 u2 => (i0.small_bounds u u1 u2).1)
  have hH : vsum n (dpfSmall d') ≤ n * tE := by
    rw [← vsum_const]
    exact vsum_le (fun u u1 u2 => (i0.small_bounds u u1 u2).2)
  have herr := ib.err (by linarith) hδn r4 ht0 hH0
  have hres : vsum n (fun v => |x' v - prRhs blobs.flatten x' v|) ≤
      vsum n (fun v => |dpfRes blobs.flatten A' d' x' v|) + vsum n (dpfSmall d') := by
    rw [← vsum_add]
    apply vsum_le
    intro v v1 v2
    have h1 : flowIn blobs.flatten (fun u => x' u - dpfPend d' A' u) v = flowIn blobs.flatten x' v :=
      flowIn_congr hv (fun u u1 u2 => by unfold dpfPend; rw [i1 u u1 u2]; simp) v
    have h2 : x' v - prRhs blobs.flatten x' v = dpfRes blobs.flatten A' d' x' v - dpfSmall d' v := by
      unfold dpfRes prRhs
      rw [h1]; ring
    rw [h2]
    refine le_trans (abs_sub _ _) ?_
    rw [abs_of_nonneg (i0.small_bounds v v1 v2).1]
  have hmiss : vsum n (fun v => |x' v - prRhs blobs.flatten x' v|) ≤
      n * (uD + 102 * relErrD (D + 6) + 382 / 10 * tE + 252 / 10 * (n * uD)) := by
    linarith
  have hcoef : uD + 102 * relErrD (D + 6) + 382 / 10 * tE + 252 / 10 * ((n : Rat) * uD) ≤
      3828 / 10 ^ 10 + (n + D + 7) * (103 / 4503599627370496) := by
    rw [hδe]
    norm_num
    linarith
  have hmiss2 := le_trans hmiss (mul_le_mul_of_nonneg_left hcoef hn0)
  refine ⟨out, G, st, k, d', x', l1, ?_, r2, r3, r4, ?_, ?_, pagerank_exists hv, ?_⟩
  · unfold runIncPagerankF
    rw [s1]
    simp only [Option.bind_eq_bind, Option.bind_some]
    rw [a1]
    simp only [Option.bind_some]
    rw [show (1 : Int) = ((1 : Nat) : Int) from rfl, d1]
    simp only [Option.bind_some, dpfMain, Option.bind_eq_bind]
    rw [s3]
    simp only [Option.bind_some]
    rw [b1]
    simp only [Option.bind_some]
    exact r1
  · intro v v1 v2
    obtain ⟨o, o1, o2⟩ := represents_observed c r5 v v1 v2
    refine ⟨o, o1, fun r hr => ?_⟩
    rw [(o2 r hr).2, i0.vals v v1 v2]
  · refine le_trans hmiss2 (mul_le_mul_of_nonneg_left ?_ hn0)
    norm_num
    linarith
  · intro y hy
    have h1 := near_pagerank_sum hv (x := x') hy
    have h2 : (10 : Rat) / 3 * (n * (3828 / 10 ^ 10 + (n + D + 7) * (103 / 4503599627370496))) ≤
        n * (13 / 10 ^ 7 + (n + D + 7) / 2 ^ 43) := by
      have e : (10 : Rat) / 3 * (n * (3828 / 10 ^ 10 + (n + D + 7) * (103 / 4503599627370496))) =
        n * (10 / 3 * (3828 / 10 ^ 10 + (n + D + 7) * (103 / 4503599627370496))) := by ring
      rw [e]
      refine mul_le_mul_of_nonneg_left ?_ hn0
      norm_num
      linarith
    have h3 : vsum n (fun v => |x' v - y v|) ≤ n * (13 / 10 ^ 7 + (n + D + 7) / 2 ^ 43) := by linarith
    exact h3

/-- The hypotheses of the theorem can be met. -/
example : ∃ (le : LoadEnv DpfV Int) (blobs : List (List (Edge Int))), Cfg 40 2 3 ∧ 51 + 7 * 40 ≤ IMAX ∧ le.sA.OK ∧
    le.sAT.OK ∧ (le.d = fun _ => DpfV.new) ∧ blobs.length = 2 ∧ (∀ es ∈ blobs, ∀ e ∈ es, e.Valid 40) ∧
    (∀ v, outDegree blobs.flatten v ≤ IMAX) ∧ (∀ v, inDegree blobs.flatten v ≤ 3) ∧ (40 + 1) * (3 + 6) ≤ 2 ^ 43 := by
  refine ⟨LoadEnv.sample DpfV.new 0, [[⟨1, 2, 5⟩], [⟨2, 39, 6⟩, ⟨1, 40, 7⟩]], ⟨by decide, by decide, by decide, by decide⟩,
    by decide, Sorts.ins_ok, Sorts.ins_ok, rfl, rfl, ?_, ?_, ?_, by decide⟩
  · intro es hes e he
    simp at hes
    rcases hes with rfl | rfl <;> simp at he
    · subst he; simp [Edge.Valid]
    · rcases he with rfl | rfl <;> simp [Edge.Valid]
  · intro v
    unfold outDegree
    refine Nat.le_trans List.countP_le_length ?_
    decide
  · intro v
    unfold inDegree
    refine Nat.le_trans List.countP_le_length ?_
    decide

/-- A million vertices with in-degrees up to two million: the ranks are off by less than 2 millionths on average. -/
example : ((1000000 : Nat) + 1) * (2000000 + 6) ≤ 2 ^ 43 ∧
    (13 : Rat) / 10 ^ 7 + (1000000 + 2000000 + 7) / 2 ^ 43 ≤ 2 / 10 ^ 6 := by norm_num

/-- C77, two machines: two runs on the same edges with different numbers of ranks and threads, however the edges are
spread over the input files, end with ranks that differ by at most `n (26 * 10^-7 + (n + D + 7) / 2^42)` in total. -/
theorem incremental_pagerank_float_agree {n nrank threads nrank' threads' : Nat} (c : Cfg n nrank threads)
    (c' : Cfg n nrank' threads') (le le' : LoadEnv DpfV E) (hsA : le.sA.OK) (hsT : le.sAT.OK) (hd : le.d = fun _ => DpfV.new)
    (hsA' : le'.sA.OK) (hsT' : le'.sAT.OK) (hd' : le'.d = fun _ => DpfV.new)
    {blobs blobs' : List (List (Edge E))} (hb : blobs.length = nrank) (hb' : blobs'.length = nrank')
    (hperm : blobs.flatten.Perm blobs'.flatten) (hin : ∀ es ∈ blobs, ∀ e ∈ es, e.Valid n)
    (hdeg : ∀ v, outDegree blobs.flatten v ≤ IMAX) {D : Nat} (hD : ∀ v, inDegree blobs.flatten v ≤ D)
    (hK : (n + 1) * (D + 6) ≤ 2 ^ 43) (e1 e1' : AppEnv Int (Option Int) DpfV)
    (e2 e2' : AppEnv (Option Rat) (Option Rat) DpfV) (fuel : Nat) (hf : 51 + 7 * n ≤ fuel) (hfm : fuel ≤ IMAX) :
    ∃ out G st out' G' st', ∃ d x d' x' : Nat → Rat,
      Graph.readEdgelist le threads nrank n n blobs = some (out, G) ∧ runIncPagerankF e1 e2 G fuel = some (.done st) ∧
      Graph.readEdgelist le' threads' nrank' n n blobs' = some (out', G') ∧
      runIncPagerankF e1' e2' G' fuel = some (.done st') ∧
      (∀ v, 1 ≤ v → v ≤ n → ∃ o, o < nrank ∧ ∀ r, r < nrank → st.G.getVertexproperty r v =
        some (if r = o then some ⟨some (d v), some (x v), some (outDegree blobs.flatten v : Int)⟩ else none)) ∧
      (∀ v, 1 ≤ v → v ≤ n → ∃ o, o < nrank' ∧ ∀ r, r < nrank' → st'.G.getVertexproperty r v =
        some (if r = o then some ⟨some (d' v), some (x' v), some (outDegree blobs.flatten v : Int)⟩ else none)) ∧
      ∑ v ∈ Finset.Icc 1 n, |x v - x' v| ≤ n * (26 / 10 ^ 7 + (n + D + 7) / 2 ^ 42) := by
  have ho : ∀ v, outDegree blobs'.flatten v = outDegree blobs.flatten v := fun v => (hperm.countP_eq _).symm
  have hi : ∀ v, inDegree blobs'.flatten v = inDegree blobs.flatten v := fun v => (hperm.countP_eq _).symm
  have hin' : ∀ es ∈ blobs', ∀ e ∈ es, e.Valid n := by
    intro es hes e he
    obtain ⟨es2, h1, h2⟩ := List.mem_flatten.mp (hperm.mem_iff.mpr (List.mem_flatten.mpr ⟨es, hes, he⟩))
    exact hin es2 h1 e h2
  have hrhs : ∀ y v, prRhs blobs'.flatten y v = prRhs blobs.flatten y v := by
    intro y v
    unfold prRhs flowIn
    rw [((hperm.filter _).map _).sum_eq]
    simp only [ho]
  obtain ⟨out, G, st, k, d, x, a1, a2, _, _, _, a6, _, ⟨y, hy⟩, a9⟩ :=
    incremental_pagerank_float c le hsA hsT hd hb hin hdeg hD hK e1 e2 fuel hf hfm
  obtain ⟨out', G', st', k', d', x', b1, b2, _, _, _, b6, _, _, b9⟩ :=
    incremental_pagerank_float c' le' hsA' hsT' hd' hb' hin' (fun v => by rw [ho]; exact hdeg v)
      (fun v => by rw [hi]; exact hD v) hK e1' e2' fuel hf hfm
  refine ⟨out, G, st, out', G', st', d, x, d', x', a1, a2, b1, b2, a6, ?_, ?_⟩
  · intro v v1 v2
    obtain ⟨o, o1, o2⟩ := b6 v v1 v2
    exact ⟨o, o1, fun r hr => by rw [o2 r hr, ho]⟩
  · have h1 := a9 y hy
    have h2 := b9 y (fun v v1 v2 => by rw [hrhs]; exact hy v v1 v2)
    have h3 : ∑ v ∈ Finset.Icc 1 n, |x v - x' v| ≤
        ∑ v ∈ Finset.Icc 1 n, |x v - y v| + ∑ v ∈ Finset.Icc 1 n, |x' v - y v| := by
      rw [← Finset.sum_add_distrib]
      apply Finset.sum_le_sum
      intro v _
      rw [abs_sub_comm (x' v)]
      exact abs_sub_le _ _ _
    refine le_trans h3 (le_trans (add_le_add h1 h2) (le_of_eq ?_))
    ring

/-- The same edges for one rank and for two. -/
example : [[⟨1, 2, 5⟩, ⟨2, 39, 6⟩, ⟨1, 40, 7⟩]].flatten.Perm ([[⟨1, 2, 5⟩, ⟨1, 40, 7⟩], [⟨2, 39, 6⟩]] : List (List (Edge Int))).flatten := by
  decide

/-- Load a graph on one rank, run the program, read delta, rank and degree of all vertices. -/
def dpfSample (threads n : Nat) (es : List (Edge Int)) (fuel : Nat) : Option (Int × List (Option DpfV)) := do
  let r ← Graph.readEdgelist (LoadEnv.sample DpfV.new 0) threads 1 n n [es]
  let o ← runIncPagerankF (.sample 5 (some 6) ⟨some 3, some 4, some 9⟩) (.sample (some 7) (some 8) ⟨some 3, some 4, some 9⟩) r.2 fuel
  match o with
  | .more _ => none
  | .done st => do
    let l ← (List.range n).mapM (fun v : Nat => st.G.getVertexproperty 0 ((v : Int) + 1))
    some (st.it, l)

/-- The graph of `Verif/Props/IncPageRank.lean`; the exact ranks are 0.3, 0.405 and 0.6885.  The second is not the `double`
nearest to 0.405. -/
example : dpfSample 1 3 [⟨1, 2, 1⟩, ⟨1, 3, 1⟩, ⟨2, 3, 1⟩] 3 = some (3,
    [some ⟨some (5404319552844595 / 18014398509481984), some (5404319552844595 / 18014398509481984), some 2⟩,
      some ⟨some (7566047373982433 / 72057594037927936), some (7295831396340203 / 18014398509481984), some 1⟩,
      some ⟨some (5296233161787703 / 72057594037927936), some (6201456686889173 / 9007199254740992), some 0⟩]) := by
  decide +kernel

/-- A delta above the threshold that is added to the rank 0.3 but leaves the vertex inactive: in exact arithmetic that
cannot happen. -/
example :
    let v : DpfV := ⟨some 0, alphaD, some 1⟩
    let w := dpfApply alphaD (some (4317592212909393 / 302231454903657293676544)) v
    dpfBig w.delta = true ∧ w.rank ≠ v.rank ∧ v.ne w = false := by decide +kernel

/-- The edges from `u`: `l` says how many there are to the vertices 1, 2, ... -/
def dpfMissRow (u : Int) (l : List Nat) : List (Edge Int) :=
  (l.zipIdx.map (fun p => List.replicate p.1 (⟨u, (p.2 : Int) + 1, 1⟩ : Edge Int))).flatten

/-- A graph of 6 vertices and 42 edges. -/
def dpfMissGraph : List (Edge Int) :=
  dpfMissRow 1 [0, 1, 1, 1, 0, 6] ++ dpfMissRow 2 [2, 1, 1, 0, 0, 7] ++ dpfMissRow 3 [0, 1, 0, 1, 0, 1] ++
    dpfMissRow 4 [1, 0, 1, 0, 1, 7] ++ dpfMissRow 5 [1, 0, 2, 1, 0, 5]

/-- Its ranks in the end. -/
def dpfMissRank : Nat → Rat
  | 1 => 7522191404997293 / 18014398509481984
  | 2 => 2099881825392743 / 4503599627370496
  | 3 => 4019213693547309 / 9007199254740992
  | 4 => 1041337995058685 / 2251799813685248
  | 5 => 5987468817467379 / 18014398509481984
  | 6 => 1308901312090949 / 1125899906842624
  | _ => 0

/-- The bound of C54 for every single vertex (the rank is at most 1e-8 below the right hand side of its equation) does not
survive rounding: on this graph the program stops after 15 supersteps with vertices 1 and 3 farther below, because vertex 5
has never sent its last delta, which is above 1e-8. -/
theorem incremental_pagerank_float_misses :
    (dpfSample 1 6 dpfMissGraph 40).map (fun r => (r.1, r.2.map (fun o => o.map DpfV.rank))) =
      some (15, (List.range 6).map (fun i => some (some (dpfMissRank (i + 1))))) ∧
    dpfMissRank 1 + 1 / 10 ^ 8 < prRhs dpfMissGraph dpfMissRank 1 ∧
    dpfMissRank 3 + 1 / 10 ^ 8 < prRhs dpfMissGraph dpfMissRank 3 := by
  refine ⟨?_, ?_, ?_⟩ <;> decide +kernel

end GraphMat

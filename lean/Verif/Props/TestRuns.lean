import Verif.Lemmas.TestRuns
import Verif.Lemmas.IntLayout

/-!
# C81: what the repository's tests check, at every size
-/
namespace GraphMat

variable {E V : Type}

/-! ### The generators -/

/-- C81: the generators.  As long as the number of edges fits in an `int`, they make the complete graph, the strict upper triangle, the
cycle and the loops, and spread the edges over the ranks in order, the counts of two ranks differing by at most one. -/
theorem test_generators (g : Nat → Nat → Edge E) (one : E) {n nrank : Nat} (hr : 0 < nrank) :
    (n * n ≤ IMAX → ∃ els, generated g nrank (genDense (g 0) one n) = some els ∧ Spread n nrank (denseEdges one n) els) ∧
    (1 ≤ n → n * (n - 1) ≤ IMAX → ∃ els, generated g nrank (genUpper (g 0) one n) = some els ∧ Spread n nrank (upperEdges one n) els) ∧
    (n ≤ IMAX → ∃ els, generated g nrank (genChain (g 0) one n) = some els ∧ Spread n nrank (chainEdges one n) els) ∧
    (n ≤ IMAX → ∃ els, generated g nrank (genIdentity (g 0) one n) = some els ∧ Spread n nrank (loopEdges one n) els) := by
  refine ⟨fun h => ?_, fun h1 h => ?_, fun h => ?_, fun h => ?_⟩
  · obtain ⟨el, e1, e2⟩ := genDense_made (g 0) one h
    rw [e1]
    exact generated_spread g hr e2 (by rw [denseEdges_length]; exact h)
  · obtain ⟨el, e1, e2⟩ := genUpper_made (g 0) one h1 h
    rw [e1]
    exact generated_spread g hr e2 (by rw [upperEdges_length]; exact Nat.le_trans (Nat.div_le_self _ 2) h)
  · obtain ⟨el, e1, e2⟩ := genChain_made (g 0) one h
    rw [e1]
    exact generated_spread g hr e2 (by unfold chainEdges; simpa using h)
  · obtain ⟨el, e1, e2⟩ := genIdentity_made (g 0) one n
    rw [e1]
    exact generated_spread g hr e2 (by unfold loopEdges; simpa using h)

/-- C81: the random generator, if the draws stay in `1..n` and every id comes up at least once in any `fuel` draws in a row: every
vertex has `min(avg, n)` edges, to different vertices. -/
theorem test_random_generator (g : Nat → Nat → Edge E) {dist : Nat → Nat} {fuel : Nat} (one : E) {n nrank : Nat} (hr : 0 < nrank)
    (avg : Nat) (hd : Draws n fuel dist) (hfit : n * min avg n ≤ IMAX) :
    ∃ els es, generated g nrank (genRandom (g 0) dist fuel one n avg) = some els ∧ Spread n nrank es els ∧
      es.length = n * min avg n ∧ (∀ e ∈ es, e.Valid n ∧ e.val = one) ∧ NoParallel es ∧
      ∀ v : Nat, 1 ≤ v → v ≤ n → es.countP (fun e => decide (e.src = (v : Int))) = min avg n := by
  obtain ⟨el, es, e1, e2, e3, e4⟩ := genRandom_made (g 0) one avg hd hfit
  rw [e1]
  obtain ⟨els, h1, h2⟩ := generated_spread g hr e2 (by rw [e3]; exact hfit)
  exact ⟨els, es, h1, h2, e3, e4⟩

theorem draws_round (n : Nat) (h : 1 ≤ n) : Draws n n (fun q => q % n + 1) := by
  constructor
  · intro q
    have := Nat.mod_lt q (show n > 0 by omega)
    omega
  · intro q d d1 d2
    have hq := Nat.mod_lt q (show n > 0 by omega)
    have hdm := Nat.div_add_mod q n
    generalize q % n = m at hq hdm
    generalize q / n = k at hdm
    subst hdm
    rcases Nat.lt_or_ge (d - 1) m with h | h
    · refine ⟨n - m + (d - 1), by omega, ?_⟩
      show (n * k + m + (n - m + (d - 1))) % n + 1 = d
      rw [show n * k + m + (n - m + (d - 1)) = d - 1 + n * (k + 1) by rw [Nat.mul_succ]; omega, Nat.add_mul_mod_self_left,
        Nat.mod_eq_of_lt (by omega)]
      omega
    · refine ⟨d - 1 - m, by omega, ?_⟩
      show (n * k + m + (d - 1 - m)) % n + 1 = d
      rw [show n * k + m + (d - 1 - m) = d - 1 + n * k by omega, Nat.add_mul_mod_self_left, Nat.mod_eq_of_lt (by omega)]
      omega

/-- The complete graph with 3 vertices on 2 ranks, and 100 vertices with 16 random edges each on 3 ranks. -/
example : (∃ els, generated (fun _ _ => ⟨0, 0, 0⟩) 2 (genDense (E := Int) (fun _ => ⟨0, 0, 0⟩) 1 3) = some els ∧
      Spread 3 2 (denseEdges 1 3) els) ∧
    ∃ els es, generated (fun _ _ => ⟨0, 0, 0⟩) 3 (genRandom (E := Int) (fun _ => ⟨0, 0, 0⟩) (fun q => q % 100 + 1) 100 1 100 16) = some els ∧
      Spread 100 3 es els ∧ es.length = 1600 :=
  ⟨(test_generators (fun _ _ => ⟨0, 0, 0⟩) (1 : Int) (by decide)).1 (by decide),
    let ⟨els, es, h1, h2, h3, _⟩ := test_random_generator (fun _ _ => ⟨0, 0, 0⟩) (1 : Int) (by decide) 16
      (draws_round 100 (by decide)) (by decide)
    ⟨els, es, h1, h2, h3⟩⟩

/-- C81 fails beyond that: from 46341 vertices on, `n * n` overflows in the generator of the complete graph. -/
theorem test_dense_overflows (g : Nat → Nat → Edge E) (one : E) {n : Nat} (nrank : Nat) (h : 46341 ≤ n) :
    generated g nrank (genDense (g 0) one n) = none := by
  have : genDense (g 0) one n = none := by
    unfold genDense cmul
    rw [ck_none]
    · rfl
    · have h1 : 46341 * 46341 ≤ n * n := Nat.mul_le_mul h h
      have h2 : INT_MAX < ((n * n : Nat) : Int) := by unfold INT_MAX; omega
      simpa using h2
  rw [this]
  rfl

example : generated (E := Int) (fun _ _ => ⟨0, 0, 0⟩) 1 (genDense (fun _ => ⟨0, 0, 0⟩) 1 50000) = none :=
  test_dense_overflows (fun _ _ => ⟨0, 0, 0⟩) 1 1 (by decide)

/-! ### Sizes -/

theorem testSize_eq {n nrank threads : Nat} (c : Cfg n nrank threads) (le : LoadEnv V Int) (hsA : le.sA.OK) (hsT : le.sAT.OK) {d : V}
    (hd : le.d = fun _ => d) {es : List (Edge Int)} {els : List (EdgeList Int)} (hs : Spread n nrank es els)
    (hv : ∀ e ∈ es, e.Valid n) (hlen : es.length ≤ IMAX) (k : Nat) :
    testSize le threads n (some (k : Int)) els = some (decide (es.length = k)) := by
  obtain ⟨G, g1, g2, g3⟩ := readGenerated_loaded c le hsA hsT hd hs hv
  unfold testSize
  rw [g1]
  simp only [Option.bind_eq_bind, Option.bind_some]
  rw [g3 (by unfold IMAX at hlen; omega), show G.n = n from g2.inv.hn]
  simp only [decide_true, Bool.true_and, Option.some.injEq]
  obtain ⟨m, rfl⟩ : ∃ m, nrank = m + 1 := ⟨nrank - 1, by have := c.rpos; omega⟩
  rw [Bool.eq_iff_iff, List.all_eq_true]
  simp only [decide_eq_true_eq, List.mem_replicate, Nat.cast_inj]
  exact ⟨fun h => h _ ⟨by omega, rfl⟩, fun h x hx => by rw [hx.2]; exact h⟩

/-- C81: the test of the sizes.  The complete graph and the triangle pass at every size that fits; the random graph passes from 16 vertices on
and fails below, because the generator makes only `n` edges per vertex there. -/
theorem test_sizes_partial {n nrank threads : Nat} (c : Cfg n nrank threads) (h1 : 1 ≤ n) (le : LoadEnv V Int) (hsA : le.sA.OK) (hsT : le.sAT.OK)
    {d : V} (hd : le.d = fun _ => d) (g : Nat → Nat → Edge Int) :
    (n * n ≤ IMAX → testSizeDense g le threads nrank n = some true) ∧
    (n * (n - 1) ≤ IMAX → testSizeUpper g le threads nrank n = some true) ∧
    ∀ dist fuel, Draws n fuel dist → n * 16 ≤ IMAX → testSizeRandom g dist fuel le threads nrank n = some (decide (16 ≤ n)) := by
  refine ⟨fun h => ?_, fun h => ?_, fun dist fuel hdr h => ?_⟩
  · obtain ⟨els, e1, e2⟩ := (test_generators g (1 : Int) c.rpos).1 h
    unfold testSizeDense
    rw [e1]
    simp only [Option.bind_eq_bind, Option.bind_some]
    unfold cmul
    rw [← Int.natCast_mul, ck_nat h, testSize_eq c le hsA hsT hd e2 dense_valid (by rw [denseEdges_length]; exact h), denseEdges_length]
    simp
  · obtain ⟨els, e1, e2⟩ := (test_generators g (1 : Int) c.rpos).2.1 h1 h
    unfold testSizeUpper
    rw [e1]
    simp only [Option.bind_eq_bind, Option.bind_some]
    unfold cmul csub cdiv
    rw [show ((n : Int) - 1) = ((n - 1 : Nat) : Int) by omega, ck_nat (Nat.le_trans (Nat.sub_le _ _) c.n)]
    simp only [Option.bind_some]
    rw [← Int.natCast_mul, ck_nat h]
    simp only [Option.bind_some]
    have h2 : n * (n - 1) / 2 ≤ IMAX := Nat.le_trans (Nat.div_le_self _ 2) h
    rw [if_neg (by decide), show (2 : Int) = ((2 : Nat) : Int) from rfl, ← Int.ofNat_tdiv, ck_nat h2,
      testSize_eq c le hsA hsT hd e2 upper_valid (by rw [upperEdges_length]; exact h2), upperEdges_length]
    simp
  · have hle : n * min 16 n ≤ n * 16 := Nat.mul_le_mul_left _ (Nat.min_le_left _ _)
    obtain ⟨els, es, e1, e2, e3, e4, _⟩ := test_random_generator g (1 : Int) c.rpos 16 hdr (Nat.le_trans hle h)
    unfold testSizeRandom
    rw [e1]
    simp only [Option.bind_eq_bind, Option.bind_some]
    unfold cmul
    rw [show (n : Int) * 16 = ((n * 16 : Nat) : Int) by push_cast; rfl, ck_nat h,
      testSize_eq c le hsA hsT hd e2 (fun e he => (e4 e he).1) (by rw [e3]; exact Nat.le_trans hle h), e3]
    congr 1
    rw [Bool.eq_iff_iff]
    simp only [decide_eq_true_eq]
    rw [Nat.mul_right_inj (by omega)]
    omega

/-- 20 vertices on 3 ranks pass, 10 fail the first check. -/
example : testSizeRandom (V := Int) (fun _ _ => ⟨0, 0, 0⟩) (fun q => q % 20 + 1) 20 (LoadEnv.sample 0 0) 2 3 20 = some true ∧
    testSizeRandom (V := Int) (fun _ _ => ⟨0, 0, 0⟩) (fun q => q % 10 + 1) 10 (LoadEnv.sample 0 0) 2 3 10 = some false :=
  ⟨(test_sizes_partial (d := 0) ⟨by decide, by decide, by decide, by decide⟩ (by decide) (LoadEnv.sample 0 0) Sorts.ins_ok Sorts.ins_ok rfl _).2.2 _ _
      (draws_round 20 (by decide)) (by decide),
    (test_sizes_partial (d := 0) ⟨by decide, by decide, by decide, by decide⟩ (by decide) (LoadEnv.sample 0 0) Sorts.ins_ok Sorts.ins_ok rfl _).2.2 _ _
      (draws_round 10 (by decide)) (by decide)⟩

/-! ### Breadth-first search -/

theorem hops_pass {es : List (Edge Int)} {s v k : Nat} {x : BitVec 32} (h : IsHops es s v k) :
    ((∀ j, IsHops es s v j → x = BitVec.ofNat 32 j) ∧ (¬ Reachable es s v → x = MAXD)) ↔ x = BitVec.ofNat 32 k :=
  ⟨fun hx => hx.1 k h, fun hx => ⟨fun j hj => by rw [hj.unique h]; exact hx, fun hn => absurd ⟨k, h.1⟩ hn⟩⟩

theorem hops_self (es : List (Edge Int)) (s : Nat) : IsHops es s s 0 := ⟨.refl, fun _ _ => Nat.zero_le _⟩

/-- C81: the breadth-first search tests on the triangle and on the complete graph pass at every size that fits, on any number of ranks
and threads. -/
theorem test_bfs_passes_partial {n nrank threads : Nat} (c : Cfg n nrank threads) (h1 : 1 ≤ n) (hfit : n * n ≤ IMAX) (le : LoadEnv (BitVec 32) Int)
    (hsA : le.sA.OK) (hsT : le.sAT.OK) (hd : le.d = fun _ => MAXD) (e : AppEnv (BitVec 64) (BitVec 64) (BitVec 32))
    (g : Nat → Nat → Edge Int) (fuel : Nat) (hf : n ≤ fuel) (hfm : fuel ≤ IMAX) :
    testUtBfsOne g le e threads nrank n fuel = some (.done (some true)) ∧
    testDenseBfsOne g le e threads nrank n fuel = some (.done (some true)) ∧
    (2 ≤ n → testUtBfsHalf g le e threads nrank n fuel = some (.done (some true)) ∧
      testDenseBfsHalf g le e threads nrank n fuel = some (.done (some true))) := by
  obtain ⟨ed, d1, d2⟩ := (test_generators g (1 : Int) c.rpos).1 hfit
  obtain ⟨eu, u1, u2⟩ := (test_generators g (1 : Int) c.rpos).2.1 h1
    (Nat.le_trans (Nat.mul_le_mul_left _ (Nat.sub_le _ _)) hfit)
  refine ⟨?_, ?_, fun h2 => ⟨?_, ?_⟩⟩
  · unfold testUtBfsOne
    rw [u1]
    simp only [Option.bind_eq_bind, Option.bind_some]
    obtain ⟨b, b1, b2⟩ := testBfs_eq c le hsA hsT hd e u2 upper_valid (src := 1) (Nat.le_refl _) h1
      (fun i => if i = 1 then 0#32 else 1#32) fuel hf hfm
    rw [b1, b2.mpr]
    intro v v1 v2
    by_cases hv : v = 1
    · subst hv; exact (hops_pass (hops_self _ _)).mpr rfl
    · exact (hops_pass (upper_hops (Nat.le_refl _) (by omega) v2)).mpr (if_neg hv)
  · unfold testDenseBfsOne
    rw [d1]
    simp only [Option.bind_eq_bind, Option.bind_some]
    obtain ⟨b, b1, b2⟩ := testBfs_eq c le hsA hsT hd e d2 dense_valid (src := 1) (Nat.le_refl _) h1
      (fun i => if i = 1 then 0#32 else 1#32) fuel hf hfm
    rw [b1, b2.mpr]
    intro v v1 v2
    by_cases hv : v = 1
    · subst hv; exact (hops_pass (hops_self _ _)).mpr rfl
    · exact (hops_pass (dense_hops (Nat.le_refl _) h1 v1 v2 hv)).mpr (if_neg hv)
  · unfold testUtBfsHalf
    rw [u1]
    simp only [Option.bind_eq_bind, Option.bind_some]
    obtain ⟨b, b1, b2⟩ := testBfs_eq c le hsA hsT hd e u2 upper_valid (src := n / 2) (by omega) (by omega)
      (fun i => if i < n / 2 then MAXD else if i = n / 2 then 0#32 else 1#32) fuel hf hfm
    rw [b1, b2.mpr]
    intro v v1 v2
    rcases Nat.lt_trichotomy v (n / 2) with hv | hv | hv
    · rw [if_pos hv]
      refine ⟨fun k hk => ?_, fun _ => rfl⟩
      have := upper_walk hk.1
      omega
    · rw [hv, if_neg (by omega), if_pos rfl]
      exact (hops_pass (hops_self _ _)).mpr rfl
    · rw [if_neg (by omega), if_neg (by omega)]
      exact (hops_pass (upper_hops (by omega) hv v2)).mpr rfl
  · unfold testDenseBfsHalf
    rw [d1]
    simp only [Option.bind_eq_bind, Option.bind_some]
    obtain ⟨b, b1, b2⟩ := testBfs_eq c le hsA hsT hd e d2 dense_valid (src := n / 2) (by omega) (by omega)
      (fun i => if i < n / 2 then 1#32 else if i = n / 2 then 0#32 else 1#32) fuel hf hfm
    rw [b1, b2.mpr]
    intro v v1 v2
    rcases Nat.lt_trichotomy v (n / 2) with hv | hv | hv
    · rw [if_pos hv]
      exact (hops_pass (dense_hops (by omega) (by omega) v1 v2 (by omega))).mpr rfl
    · rw [hv, if_neg (by omega), if_pos rfl]
      exact (hops_pass (hops_self _ _)).mpr rfl
    · rw [if_neg (by omega), if_neg (by omega)]
      exact (hops_pass (dense_hops (by omega) (by omega) v1 v2 (by omega))).mpr rfl

/-- 5 vertices, 2 ranks, 2 threads. -/
example : testUtBfsHalf (fun _ _ => ⟨0, 0, 0⟩) (LoadEnv.sample MAXD 0) (AppEnv.sample 0 0 0) 2 2 5 5 = some (.done (some true)) :=
  ((test_bfs_passes_partial ⟨by decide, by decide, by decide, by decide⟩ (by decide) (by decide) (LoadEnv.sample MAXD 0) Sorts.ins_ok Sorts.ins_ok
    rfl (AppEnv.sample 0 0 0) (fun _ _ => ⟨0, 0, 0⟩) 5 (Nat.le_refl _) (by decide)).2.2 (by decide)).1

/-- C81: the breadth-first search tests on the cycle.  The section "node 1" passes at every size.  The section "node n/2" passes exactly for even
sizes and 3: for odd sizes from 5 on the value it expects at the vertices before `n/2` is one too small. -/
theorem test_bfs_chain_partial {n nrank threads : Nat} (c : Cfg n nrank threads) (h1 : 1 ≤ n) (le : LoadEnv (BitVec 32) Int)
    (hsA : le.sA.OK) (hsT : le.sAT.OK) (hd : le.d = fun _ => MAXD) (e : AppEnv (BitVec 64) (BitVec 64) (BitVec 32))
    (g : Nat → Nat → Edge Int) (fuel : Nat) (hf : n ≤ fuel) (hfm : fuel ≤ IMAX) :
    testChainBfsOne g le e threads nrank n fuel = some (.done (some true)) ∧
    (2 ≤ n → testChainBfsHalf g le e threads nrank n fuel = some (.done (some (decide (n % 2 = 0 ∨ n = 3))))) := by
  obtain ⟨els, c1, c2⟩ := (test_generators g (1 : Int) c.rpos (n := n)).2.2.1 (by omega)
  have hM : IMAX = 2147483647 := rfl
  refine ⟨?_, fun h2 => ?_⟩
  · unfold testChainBfsOne
    rw [c1]
    simp only [Option.bind_eq_bind, Option.bind_some]
    obtain ⟨b, b1, b2⟩ := testBfs_eq c le hsA hsT hd e c2 chain_valid (src := 1) (Nat.le_refl _) h1
      (fun i => if i = 1 then 0#32 else BitVec.ofNat 32 (i - 1)) fuel hf hfm
    rw [b1, b2.mpr]
    intro v v1 v2
    have hh := chain_hops (one := (1 : Int)) (Nat.le_refl 1) h1 v1 v2
    rw [if_pos v1] at hh
    refine (hops_pass hh).mpr ?_
    by_cases hv : v = 1
    · subst hv; rfl
    · exact if_neg hv
  · unfold testChainBfsHalf
    rw [c1]
    simp only [Option.bind_eq_bind, Option.bind_some]
    obtain ⟨b, b1, b2⟩ := testBfs_eq c le hsA hsT hd e c2 chain_valid (src := n / 2) (by omega) (by omega)
      (fun i => if i < n / 2 then BitVec.ofNat 32 (n / 2 + i) else if i = n / 2 then 0#32 else BitVec.ofNat 32 (i - n / 2)) fuel hf hfm
    rw [b1]
    congr 3
    rw [Bool.eq_iff_iff, b2, decide_eq_true_iff]
    constructor
    · intro hx
      by_contra hc
      have hh := chain_hops (one := (1 : Int)) (n := n) (s := n / 2) (v := 1) (by omega) (by omega) (by omega) (by omega)
      rw [if_neg (by omega)] at hh
      have := (hops_pass hh).mp (hx 1 (by omega) (by omega))
      rw [if_pos (by omega)] at this
      have t := congrArg BitVec.toNat this
      rw [BitVec.toNat_ofNat, BitVec.toNat_ofNat, Nat.mod_eq_of_lt (by omega), Nat.mod_eq_of_lt (by omega)] at t
      omega
    · intro hx v v1 v2
      have hh := chain_hops (one := (1 : Int)) (n := n) (s := n / 2) (v := v) (by omega) (by omega) v1 v2
      refine (hops_pass hh).mpr ?_
      rcases Nat.lt_trichotomy v (n / 2) with hv | hv | hv
      · rw [if_pos hv, if_neg (by omega)]
        congr 1
        omega
      · rw [if_neg (by omega), if_pos hv, if_pos (by omega), hv, Nat.sub_self]
      · rw [if_neg (by omega), if_neg (by omega), if_pos (by omega)]

/-- Size 100 as in the test passes, size 7 does not. -/
example : testChainBfsHalf (fun _ _ => ⟨0, 0, 0⟩) (LoadEnv.sample MAXD 0) (AppEnv.sample 0 0 0) 2 3 100 100 = some (.done (some true)) ∧
    testChainBfsHalf (fun _ _ => ⟨0, 0, 0⟩) (LoadEnv.sample MAXD 0) (AppEnv.sample 0 0 0) 2 3 7 7 = some (.done (some false)) :=
  ⟨(test_bfs_chain_partial ⟨by decide, by decide, by decide, by decide⟩ (by decide) (LoadEnv.sample MAXD 0) Sorts.ins_ok Sorts.ins_ok
    rfl (AppEnv.sample 0 0 0) (fun _ _ => ⟨0, 0, 0⟩) 100 (Nat.le_refl _) (by decide)).2 (by decide),
  (test_bfs_chain_partial ⟨by decide, by decide, by decide, by decide⟩ (by decide) (LoadEnv.sample MAXD 0) Sorts.ins_ok Sorts.ins_ok
    rfl (AppEnv.sample 0 0 0) (fun _ _ => ⟨0, 0, 0⟩) 7 (Nat.le_refl _) (by decide)).2 (by decide)⟩

/-! ### Neighbour lists -/

/-- C81: the test of the neighbour lists passes at every size that fits. -/
theorem test_neighbors_passes_partial {n nrank threads : Nat} (c : Cfg n nrank threads) (hfit : n * n ≤ IMAX) (le : LoadEnv NbV Int)
    (hsA : le.sA.OK) (hsT : le.sAT.OK) {d : NbV} (hd : le.d = fun _ => d) (e : AppEnv Int (List Int) NbV)
    (g : Nat → Nat → Edge Int) (fuel : Nat) (hf : 1 ≤ fuel) :
    testNeighbors g le e threads nrank n fuel = some (.done (some true)) := by
  obtain ⟨els, e1, e2⟩ := (test_generators g (1 : Int) c.rpos).1 hfit
  obtain ⟨G, g1, g2, _⟩ := readGenerated_loaded c le hsA hsT hd e2 dense_valid
  obtain ⟨G1, a1, a2⟩ := g2.updateOwnedAll c e.g e.gia (fun i v => some ({ v with id := (i : Int) }, false))
  obtain ⟨x1, y1, s1, s2⟩ := Graph.newScratch_spec c a2.inv e.ie
  obtain ⟨st, P1, A1, cs, b1, _, b3, _, b5⟩ := run_all_vertices c e.ie e.env testNeighborsProg_pure () rfl a2
    (scratch := some (x1, y1)) (by rintro _ ⟨⟩; exact s2) 1 (Nat.le_refl _) (by decide) fuel hf
  have hP1 : ∀ v, 1 ≤ v → v ≤ n → (P1 v).v = (List.range n).map (fun (j : Nat) => (j : Int) + 1) := by
    generalize st.s = s' at b5
    cases b5 with
    | succ q1 q2 =>
      cases q1
      exact testNeighborsProg_step (fun v v1 v2 => rfl) q2
  unfold testNeighbors
  rw [e1]
  simp only [Option.bind_eq_bind, Option.bind_some]
  rw [g1]
  simp only [Option.bind_some]
  rw [a1]
  simp only [Option.bind_some]
  rw [s1]
  simp only [Option.bind_some]
  rw [show (1 : Int) = ((1 : Nat) : Int) from rfl, b1]
  simp only [Option.bind_some, testNeighborsCheck, Option.bind_eq_bind]
  obtain ⟨b, r1, r2⟩ := requireVertices_eq c b3.loaded (⟨0, []⟩ : NbV)
    (fun _ x => decide (x.v.length = n) && decide (x.v = (List.range n).map (fun (j : Nat) => (j : Int) + 1)))
  rw [r1, r2.mpr]
  · rfl
  · intro v v1 v2
    rw [hP1 v v1 v2]
    simp

/-- 4 vertices, 2 ranks, 3 threads. -/
example : testNeighbors (fun _ _ => ⟨0, 0, 0⟩) (LoadEnv.sample ⟨0, []⟩ 0) (AppEnv.sample 0 [] ⟨0, []⟩) 3 2 4 1 = some (.done (some true)) :=
  test_neighbors_passes_partial (d := ⟨0, []⟩) ⟨by decide, by decide, by decide, by decide⟩ (by decide) (LoadEnv.sample ⟨0, []⟩ 0) Sorts.ins_ok
    Sorts.ins_ok rfl (AppEnv.sample 0 [] ⟨0, []⟩) (fun _ _ => ⟨0, 0, 0⟩) 1 (Nat.le_refl _)

end GraphMat

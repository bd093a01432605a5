import Verif.Lemmas.PageRank

/-!
# C31: PageRank
-/
namespace GraphMat

variable {E : Type}

/-- C31, the iterations: on any graph whose vertices hold their out-degrees, with any ranks, any `alpha`, on any
number of ranks and threads, `N` iterations of the program are `N` times the formula. -/
theorem pagerank_iterations {n nrank threads : Nat} (c : Cfg n nrank threads) (ie : InitEnv Rat Rat)
    (env : Nat → StepEnv Rat Rat PrV) (alpha : Rat) {scratch : Option (DVec Rat × DVec Rat)} {G : Graph PrV E}
    {es : List (Edge E)} {P : Nat → PrV} (hG : G.Loaded n nrank threads es P)
    (hP : ∀ v, 1 ≤ v → v ≤ n → (P v).deg = some (outDegree es v : Int))
    (hs : ∀ xy, scratch = some xy → Scratch n nrank xy.1 xy.2) (N : Nat) (hN : 1 ≤ N) (hmax : N ≤ IMAX) (fuel : Nat)
    (hf : N ≤ fuel) :
    ∃ st, G.run ie env (prProg E alpha) () (N : Int) scratch fuel = some (.done st) ∧
      ∀ v, 1 ≤ v → v ≤ n → ∃ o, o < nrank ∧ ∀ r, r < nrank → st.G.getVertexproperty r v =
        some (if r = o then some ⟨Nat.iterate (prStep alpha es) N (fun u => (P u).rank) v, some (outDegree es v : Int)⟩
          else none) := by
  obtain ⟨st, P', A', cs, h1, _, h3, _, h5⟩ := run_all_vertices c ie env (prProg_pure alpha) () rfl hG hs N hN hmax fuel hf
  have hv := h3.valid
  refine ⟨st, h1, ?_⟩
  have key : ∀ k P' A' s' cs, Steps (prProg E alpha).gp (prProg E alpha).every (fun _ => prMessage) (fun _ msg _ _ => msg) true n es
      P (fun _ => true) () k P' A' s' cs → (∀ v, 1 ≤ v → v ≤ n → A' v = true ∧
        P' v = ⟨Nat.iterate (prStep alpha es) k (fun u => (P u).rank) v, some (outDegree es v : Int)⟩) := by
    intro k P' A' s' cs h
    induction h with
    | zero =>
      intro v v1 v2
      refine ⟨rfl, ?_⟩
      rw [← hP v v1 v2]; rfl
    | succ g1 g2 ih =>
      rename_i k P1 P2 A1 A2 s1 cs b
      obtain ⟨m1, _, m3⟩ := prProg_step hv (fun v v1 v2 => by rw [(ih v v1 v2).2]) (fun v v1 v2 => (ih v v1 v2).1) g2
      intro v v1 v2
      refine ⟨m3 rfl v v1 v2, ?_⟩
      obtain ⟨d1, d2⟩ := m1 v v1 v2
      rw [(ih v v1 v2).2] at d1
      have hcong : prStep alpha es (fun u => (P1 u).rank) v =
          prStep alpha es (Nat.iterate (prStep alpha es) k (fun u => (P u).rank)) v := by
        apply prStep_congr hv alpha _ v1 v2
        intro u u1 u2
        rw [(ih u u1 u2).2]
      rw [hcong] at d2
      simp only at d1
      rw [Function.iterate_succ_apply', ← d2, ← d1]
  intro v v1 v2
  obtain ⟨o, o1, o2⟩ := represents_observed c h3 v v1 v2
  refine ⟨o, o1, fun r hr => ?_⟩
  rw [(o2 r hr).2, (key _ _ _ _ _ h5 v v1 v2).2]

/-- C31, the program: on any loaded graph whose out-degrees fit an `int`, on any number of ranks and threads, in exact
arithmetic, the program gives every vertex its out-degree and, after some number `k` of iterations of the formula, its
rank; `k` is the first iteration that changes no rank by more than 0.00001, and is at most 92 whatever the graph. -/
theorem pagerank_converges {n nrank threads : Nat} (c : Cfg n nrank threads) (hmax : n ≤ IMAX)
    (le : LoadEnv PrV E) (hsA : le.sA.OK) (hsT : le.sAT.OK) (hd : le.d = fun _ => PrV.new)
    {blobs : List (List (Edge E))} (hb : blobs.length = nrank) (hin : ∀ es ∈ blobs, ∀ e ∈ es, e.Valid n)
    (hdeg : ∀ v, outDegree blobs.flatten v ≤ IMAX)
    (e1 : AppEnv Int (Option Int) PrV) (e2 : AppEnv Rat Rat PrV) (fuel : Nat) (hf : 92 ≤ fuel) (hfm : fuel ≤ IMAX) :
    ∃ out G st, ∃ k : Nat, Graph.readEdgelist le threads nrank n n blobs = some (out, G) ∧
      runPagerank e1 e2 G fuel = some (.done st) ∧ st.it = (k : Int) ∧ 1 ≤ k ∧ k ≤ 92 ∧
      (∀ v, 1 ≤ v → v ≤ n → |prIter blobs.flatten k v - prIter blobs.flatten (k - 1) v| ≤ 1 / 100000) ∧
      (∀ j, 1 ≤ j → j < k → ∃ v, 1 ≤ v ∧ v ≤ n ∧
        1 / 100000 < |prIter blobs.flatten j v - prIter blobs.flatten (j - 1) v|) ∧
      ∀ v, 1 ≤ v → v ≤ n → ∃ o, o < nrank ∧ ∀ r, r < nrank → st.G.getVertexproperty r v =
        some (if r = o then some ⟨prIter blobs.flatten k v, some (outDegree blobs.flatten v : Int)⟩ else none) := by
  obtain ⟨out, G, l1, l2⟩ := Graph.load_loaded c le hsA hsT hd hb hin
  obtain ⟨x1, y1, s1, s2⟩ := Graph.newScratch_spec c l2.inv e1.ie
  obtain ⟨G1, a1, a2⟩ := l2.setAllActive c e1.gia
  obtain ⟨st1, P1, A1, cs, d1, d2, d3, d4, d5, _⟩ := run_executes_exactly_N c e1.ie e1.env degreeProg_pure ()
    (scratch := some (x1, y1)) a2 (by rintro _ ⟨⟩; exact s2) 1 (Nat.le_refl _) (by decide) fuel (by omega)
  have hv := d3.valid
  have hP1 : ∀ v, 1 ≤ v → v ≤ n → P1 v = ⟨3 / 10, some (outDegree blobs.flatten v : Int)⟩ := by
    intro v v1 v2
    generalize st1.s = s' at d5
    cases d5 with
    | succ g1 g2 =>
      cases g1
      rw [degreeProg_step hdeg g2 v v1 v2]
      by_cases h : outDegree blobs.flatten v = 0
      · rw [if_pos h, h]; rfl
      · rw [if_neg h]; rfl
  obtain ⟨x2, y2, s3, s4⟩ := Graph.newScratch_spec c d3.inv e2.ie
  obtain ⟨G2, b1, b2⟩ := d3.loaded.setAllActive c e2.gia
  have hcong : ∀ (k : Nat) (P : Nat → PrV), (∀ v, 1 ≤ v → v ≤ n → P v = ⟨prIter blobs.flatten k v, some (outDegree blobs.flatten v : Int)⟩) →
      ∀ v, 1 ≤ v → v ≤ n → prStep (3 / 10) blobs.flatten (fun u => (P u).rank) v = prIter blobs.flatten (k + 1) v := by
    intro k P hP v v1 v2
    show _ = prStep (3 / 10) blobs.flatten (prIter blobs.flatten k) v
    apply prStep_congr hv _ _ v1 v2
    intro u u1 u2
    rw [hP u u1 u2]
  obtain ⟨st, k, P', A', r1, r2, r3, r4, r5, _, i0, i1, i2⟩ := run_until_invariant c e2.ie e2.env (prProg_pure (3 / 10)) () b2
    (scratch := some (x2, y2)) (by rintro _ ⟨⟩; exact s4) (iterations := -1) (by omega)
    (Inv := fun k P A _ => (∀ v, 1 ≤ v → v ≤ n → A v = true) ∧ (∀ v, 1 ≤ v → v ≤ n →
      P v = ⟨prIter blobs.flatten k v, some (outDegree blobs.flatten v : Int)⟩) ∧
      ∀ j, 1 ≤ j → j ≤ k → ∃ v, 1 ≤ v ∧ v ≤ n ∧ 1 / 100000 < |prIter blobs.flatten j v - prIter blobs.flatten (j - 1) v|)
    (Done := fun k P _ _ => (∀ v, 1 ≤ v → v ≤ n →
      P v = ⟨prIter blobs.flatten k v, some (outDegree blobs.flatten v : Int)⟩) ∧
      (∀ v, 1 ≤ v → v ≤ n → |prIter blobs.flatten k v - prIter blobs.flatten (k - 1) v| ≤ 1 / 100000) ∧
      ∀ j, 1 ≤ j → j < k → ∃ v, 1 ≤ v ∧ v ≤ n ∧ 1 / 100000 < |prIter blobs.flatten j v - prIter blobs.flatten (j - 1) v|)
    (N := 92) (by omega) ⟨fun _ _ _ => rfl, hP1, by intro j j1 j2; omega⟩
    (by
      rintro k P1 A1 s1 P2 A2 b hk ⟨hA, hP, hj⟩ hs
      obtain ⟨m1, m2, m3⟩ := prProg_step hv (fun v v1 v2 => by rw [hP v v1 v2]) hA hs
      have hP2 : ∀ v, 1 ≤ v → v ≤ n → P2 v = ⟨prIter blobs.flatten (k + 1) v, some (outDegree blobs.flatten v : Int)⟩ := by
        intro v v1 v2
        obtain ⟨d1, d2⟩ := m1 v v1 v2
        rw [hP v v1 v2] at d1
        rw [hcong k P1 hP v v1 v2] at d2
        simp only at d1
        rw [← d1, ← d2]
      have hq : b = true ↔ ∀ v, 1 ≤ v → v ≤ n → |prIter blobs.flatten (k + 1) v - prIter blobs.flatten k v| ≤ 1 / 100000 := by
        rw [m2]
        constructor
        · intro h v v1 v2
          have := h v v1 v2
          rw [hP2 v v1 v2, hP v v1 v2] at this
          exact this
        · intro h v v1 v2
          rw [hP2 v v1 v2, hP v v1 v2]
          exact h v v1 v2
      refine ⟨fun hb => ⟨hP2, hq.mp hb, fun j j1 j2 => hj j j1 (by omega)⟩, fun hb => ?_⟩
      have hex : ∃ v, 1 ≤ v ∧ v ≤ n ∧ 1 / 100000 < |prIter blobs.flatten (k + 1) v - prIter blobs.flatten k v| := by
        apply Classical.byContradiction
        intro hno
        have : b = true := hq.mpr (fun v v1 v2 => not_lt.mp (fun hlt => hno ⟨v, v1, v2, hlt⟩))
        rw [this] at hb; cases hb
      refine ⟨?_, m3 rfl, hP2, ?_⟩
      · apply Classical.byContradiction
        intro hkn
        obtain rfl : k = 91 := by omega
        obtain ⟨v, v1, v2, hlt⟩ := hex
        exact absurd (prIter_quiet hv hmax v1 v2) (not_le.mpr hlt)
      · intro j j1 j2
        rcases Nat.lt_or_ge j (k + 1) with h | h
        · exact hj j j1 (by omega)
        · obtain rfl : j = k + 1 := by omega
          exact hex)
    fuel hf hfm
  refine ⟨out, G, st, k, l1, ?_, r2, r3, r4, i1, i2, ?_⟩
  · unfold runPagerank
    rw [s1]
    simp only [Option.bind_eq_bind, Option.bind_some]
    rw [a1]
    simp only [Option.bind_some]
    rw [show (1 : Int) = ((1 : Nat) : Int) from rfl, d1]
    simp only [Option.bind_some, prMain, Option.bind_eq_bind]
    rw [s3]
    simp only [Option.bind_some]
    rw [b1]
    simp only [Option.bind_some]
    exact r1
  · intro v v1 v2
    obtain ⟨o, o1, o2⟩ := represents_observed c r5 v v1 v2
    refine ⟨o, o1, fun r hr => ?_⟩
    rw [(o2 r hr).2, i0 v v1 v2]

/-- Load a graph on one rank, do the degree pass and some iterations, read rank and degree of all vertices. -/
def prSample (threads n : Nat) (es : List (Edge Int)) (fuel : Nat) : Option (Int × List (Option PrV)) := do
  let r ← Graph.readEdgelist (LoadEnv.sample PrV.new 0) threads 1 n n [es]
  let o ← runPagerank (.sample 5 (some 6) ⟨3, some 9⟩) (.sample 7 8 ⟨3, some 9⟩) r.2 fuel
  match o with
  | .more _ => none
  | .done st => do
    let l ← (List.range n).mapM (fun v : Nat => st.G.getVertexproperty 0 ((v : Int) + 1))
    some (st.it, l)

/-- A graph on which the third iteration changes nothing. -/
example : prSample 1 3 [⟨1, 2, 1⟩, ⟨1, 3, 1⟩, ⟨2, 3, 1⟩] 3 =
    some (3, [some ⟨3 / 10, some 2⟩, some ⟨81 / 200, some 1⟩, some ⟨1377 / 2000, some 0⟩]) := by decide +kernel

/-- The hypotheses of the theorem can be met. -/
example : ∃ (le : LoadEnv PrV Int) (blobs : List (List (Edge Int))), Cfg 40 2 3 ∧ 40 ≤ IMAX ∧ le.sA.OK ∧ le.sAT.OK ∧
    (le.d = fun _ => PrV.new) ∧ blobs.length = 2 ∧ (∀ es ∈ blobs, ∀ e ∈ es, e.Valid 40) ∧
    (∀ v, outDegree blobs.flatten v ≤ IMAX) := by
  refine ⟨LoadEnv.sample PrV.new 0, [[⟨1, 2, 5⟩], [⟨2, 39, 6⟩, ⟨1, 40, 7⟩]], ⟨by decide, by decide, by decide, by decide⟩,
    by decide, Sorts.ins_ok, Sorts.ins_ok, rfl, rfl, ?_, ?_⟩
  · intro es hes e he
    simp at hes
    rcases hes with rfl | rfl <;> simp at he
    · subst he; simp [Edge.Valid]
    · rcases he with rfl | rfl <;> simp [Edge.Valid]
  · intro v
    unfold outDegree
    refine Nat.le_trans List.countP_le_length ?_
    decide

end GraphMat

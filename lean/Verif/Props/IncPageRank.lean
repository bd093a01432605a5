import Verif.Lemmas.IncPageRank

/-!
# C54: incremental PageRank
-/
namespace GraphMat

variable {E : Type}

local notation "dprEps" => (1 / 100000000 : Rat)

/-- C54: on any loaded graph whose out-degrees fit an `int`, on any number of ranks and threads, in exact arithmetic,
the program stops after at most `49 + 7 n` supersteps; then every vertex holds its out-degree and a rank that is at
most 1e-8 below the right hand side of the PageRank equation, never above it, and the ranks as a whole are near the
solution of the equation. -/
theorem incremental_pagerank {n nrank threads : Nat} (c : Cfg n nrank threads)
    (le : LoadEnv DprV E) (hsA : le.sA.OK) (hsT : le.sAT.OK) (hd : le.d = fun _ => DprV.new)
    {blobs : List (List (Edge E))} (hb : blobs.length = nrank) (hin : ∀ es ∈ blobs, ∀ e ∈ es, e.Valid n)
    (hdeg : ∀ v, outDegree blobs.flatten v ≤ IMAX)
    (e1 : AppEnv Int (Option Int) DprV) (e2 : AppEnv Rat Rat DprV) (fuel : Nat) (hf : 49 + 7 * n ≤ fuel)
    (hfm : fuel ≤ IMAX) :
    ∃ out G st, ∃ k : Nat, ∃ d x : Nat → Rat, Graph.readEdgelist le threads nrank n n blobs = some (out, G) ∧
      runIncPagerank e1 e2 G fuel = some (.done st) ∧ st.it = (k : Int) ∧ 1 ≤ k ∧ k ≤ 49 + 7 * n ∧
      (∀ v, 1 ≤ v → v ≤ n → ∃ o, o < nrank ∧ ∀ r, r < nrank → st.G.getVertexproperty r v =
        some (if r = o then some ⟨d v, x v, some (outDegree blobs.flatten v : Int)⟩ else none)) ∧
      (∀ v, 1 ≤ v → v ≤ n → x v ≤ prRhs blobs.flatten x v ∧ prRhs blobs.flatten x v ≤ x v + 1 / 100000000) ∧
      (∃ y, IsPageRank blobs.flatten n y) ∧
      ∀ y, IsPageRank blobs.flatten n y → ∑ v ∈ Finset.Icc 1 n, |x v - y v| ≤ n / 30000000 := by
  obtain ⟨out, G, l1, l2⟩ := Graph.load_loaded c le hsA hsT hd hb hin
  obtain ⟨x1, y1, s1, s2⟩ := Graph.newScratch_spec c l2.inv e1.ie
  obtain ⟨G1, a1, a2⟩ := l2.setAllActive c e1.gia
  obtain ⟨st1, P1, A1, cs, d1, d2, d3, d4, d5, _⟩ := run_executes_exactly_N c e1.ie e1.env dprDegreeProg_pure ()
    (scratch := some (x1, y1)) a2 (by rintro _ ⟨⟩; exact s2) 1 (Nat.le_refl _) (by decide) fuel (by omega)
  have hv := d3.valid
  have hP1 : ∀ v, 1 ≤ v → v ≤ n → P1 v = ⟨3 / 10, 3 / 10, some (outDegree blobs.flatten v : Int)⟩ := by
    intro v v1 v2
    generalize st1.s = s' at d5
    cases d5 with
    | succ g1 g2 =>
      cases g1
      rw [dprDegreeProg_step hdeg g2 v v1 v2]
      by_cases h : outDegree blobs.flatten v = 0
      · rw [if_pos h, h]; rfl
      · rw [if_neg h]; rfl
  obtain ⟨x2, y2, s3, s4⟩ := Graph.newScratch_spec c d3.inv e2.ie
  obtain ⟨G2, b1, b2⟩ := d3.loaded.setAllActive c e2.gia
  have hsm1 : ∀ v, 1 ≤ v → v ≤ n → dprSmall (P1 v) = 0 := by
    intro v v1 v2
    rw [hP1 v v1 v2]
    unfold dprSmall
    rw [if_pos (by rw [dprBig_iff]; norm_num)]
  have hpe1 : ∀ v, 1 ≤ v → v ≤ n → dprPend P1 (fun _ => true) v = 3 / 10 := by
    intro v v1 v2
    unfold dprPend
    rw [if_pos rfl, hP1 v v1 v2]
  have hst0 : DprState blobs.flatten n P1 (fun _ => true) := by
    refine ⟨?_, ?_, ?_, ?_⟩
    · intro v v1 v2; rw [hP1 v v1 v2]
    · intro v v1 v2; rw [hP1 v v1 v2]; norm_num
    · intro v v1 v2 _; rw [hP1 v v1 v2]; norm_num
    · intro v v1 v2
      rw [hsm1 v v1 v2, flowIn_congr hv (h := fun u => (0 : Rat) - 0) (fun u u1 u2 => by
        rw [hpe1 u u1 u2, hP1 u u1 u2]; norm_num) v, flowIn_sub, hP1 v v1 v2]
      norm_num
  have htot0 : dprTotal n P1 (fun _ => true) = n * (3 / 10) ∧ dprHeld n P1 = 0 := by
    constructor
    · unfold dprTotal
      rw [Finset.sum_congr rfl (fun v hv' => hpe1 v (Finset.mem_Icc.mp hv').1 (Finset.mem_Icc.mp hv').2),
        Finset.sum_const, Nat.card_Icc, nsmul_eq_mul]
      simp
    · unfold dprHeld
      rw [Finset.sum_congr rfl (fun v hv' => hsm1 v (Finset.mem_Icc.mp hv').1 (Finset.mem_Icc.mp hv').2)]
      simp
  have hnn : (0 : Rat) ≤ n := by positivity
  obtain ⟨st, k, P', A', r1, r2, r3, r4, r5, _, i0, i1⟩ := run_until_invariant c e2.ie e2.env (dprProg_pure (3 / 10)) () b2
    (scratch := some (x2, y2)) (by rintro _ ⟨⟩; exact s4) (iterations := -1) (by omega)
    (Inv := fun k P A _ => DprState blobs.flatten n P A ∧ (k = 0 ∨ dprEps < dprTotal n P A) ∧
      dprTotal n P A + dprHeld n P ≤ n * dprEps + (7 / 10) ^ k * (3 / 10 * n) ∧
      (49 ≤ k → dprTotal n P A + dprHeld n P ≤ 2 * n * dprEps - ((k : Rat) - 49) * (3 / 10 * dprEps)))
    (Done := fun _ P A _ => DprState blobs.flatten n P A ∧ ∀ v, 1 ≤ v → v ≤ n → A v = false)
    (N := 49 + 7 * n) (by omega)
    ⟨hst0, Or.inl rfl, by
      show dprTotal n P1 (fun _ => true) + _ ≤ _
      rw [htot0.1, htot0.2]; norm_num; linarith, by intro h; omega⟩
    (by
      rintro k P1 A1 s1 P2 A2 b hk ⟨hst, hbig, hgeo, htail⟩ hs
      obtain ⟨m1, m2, m3⟩ := dprProg_step hv hst hs
      refine ⟨fun hb => ⟨m1, m2.mp hb⟩, fun hb => ?_⟩
      have hstep := dprTotal_step hv hst m3
      have hheld := dprHeld_bounds hst
      have hheld2 := dprHeld_bounds m1
      obtain ⟨v, v1, v2, hA⟩ : ∃ v, 1 ≤ v ∧ v ≤ n ∧ A2 v = true := by
        apply Classical.byContradiction
        intro hno
        have : b = true := m2.mpr (fun v v1 v2 => by
          cases hA : A2 v with
          | false => rfl
          | true => exact absurd ⟨v, v1, v2, hA⟩ hno)
        rw [this] at hb; cases hb
      have hb2 := dprTotal_big m1 v1 v2 hA
      have hgeo' : dprTotal n P2 A2 + dprHeld n P2 ≤ n * dprEps + (7 / 10) ^ (k + 1) * (3 / 10 * n) := by
        have e : (7 / 10 : Rat) ^ (k + 1) * (3 / 10 * n) = 7 / 10 * ((7 / 10) ^ k * (3 / 10 * n)) := by rw [pow_succ]; ring
        rw [e]
        generalize (7 / 10 : Rat) ^ k * (3 / 10 * n) = q at hgeo ⊢
        linarith [hheld.2]
      have htail' : 49 ≤ k + 1 → dprTotal n P2 A2 + dprHeld n P2 ≤
          2 * n * dprEps - (((k + 1 : Nat) : Rat) - 49) * (3 / 10 * dprEps) := by
        intro h
        push_cast
        rcases Nat.lt_or_ge k 49 with h1 | h1
        · obtain rfl : k = 48 := by omega
          have : (7 / 10 : Rat) ^ 49 * (3 / 10 * n) ≤ n * dprEps := by
            have h2 : (7 / 10 : Rat) ^ 49 * (3 / 10) ≤ dprEps := by norm_num
            nlinarith
          push_cast at *
          linarith
        · have h2 := htail h1
          rcases hbig with h3 | h3
          · omega
          · linarith
      refine ⟨?_, m1, Or.inr hb2, hgeo', htail'⟩
      rcases Nat.lt_or_ge (k + 1) 49 with h1 | h1
      · omega
      · have h2 := htail' h1
        have h3 : (((k + 1 : Nat) : Rat) - 49) * (3 / 10 * dprEps) < 2 * n * dprEps := by linarith [hheld2.1]
        have h4 : ((k + 1 : Nat) : Rat) < 49 + 7 * n := by
          have : (0 : Rat) < dprEps := by norm_num
          by_contra hc
          push Not at hc
          nlinarith
        exact_mod_cast h4)
    fuel hf hfm
  have heq : ∀ v, 1 ≤ v → v ≤ n → (P' v).rank + dprSmall (P' v) = prRhs blobs.flatten (fun u => (P' u).rank) v := by
    intro v v1 v2
    rw [i0.eqn v v1 v2]
    unfold prRhs
    rw [flowIn_congr hv (fun u u1 u2 => by
      show (P' u).rank - dprPend P' A' u = (P' u).rank
      unfold dprPend; rw [i1 u u1 u2]; simp) v]
  refine ⟨out, G, st, k, fun v => (P' v).delta, fun v => (P' v).rank, l1, ?_, r2, r3, r4, ?_, ?_, pagerank_exists hv, ?_⟩
  · unfold runIncPagerank
    rw [s1]
    simp only [Option.bind_eq_bind, Option.bind_some]
    rw [a1]
    simp only [Option.bind_some]
    rw [show (1 : Int) = ((1 : Nat) : Int) from rfl, d1]
    simp only [Option.bind_some, dprMain, Option.bind_eq_bind]
    rw [s3]
    simp only [Option.bind_some]
    rw [b1]
    simp only [Option.bind_some]
    exact r1
  · intro v v1 v2
    obtain ⟨o, o1, o2⟩ := represents_observed c r5 v v1 v2
    refine ⟨o, o1, fun r hr => ?_⟩
    rw [(o2 r hr).2, ← i0.deg v v1 v2]
  · intro v v1 v2
    have h1 := heq v v1 v2
    have h2 := dprSmall_bounds (i0.pos v v1 v2)
    constructor <;> linarith
  · intro y hy
    have := near_pagerank hv (x := fun u => (P' u).rank) (eps := dprEps) (fun v v1 v2 => by
      have h1 := heq v v1 v2
      have h2 := dprSmall_bounds (i0.pos v v1 v2)
      rw [abs_le]
      constructor <;> linarith) hy
    linarith

/-- Load a graph on one rank, run the program, read delta, rank and degree of all vertices. -/
def dprSample (threads n : Nat) (es : List (Edge Int)) (fuel : Nat) : Option (Int × List (Option DprV)) := do
  let r ← Graph.readEdgelist (LoadEnv.sample DprV.new 0) threads 1 n n [es]
  let o ← runIncPagerank (.sample 5 (some 6) ⟨3, 4, some 9⟩) (.sample 7 8 ⟨3, 4, some 9⟩) r.2 fuel
  match o with
  | .more _ => none
  | .done st => do
    let l ← (List.range n).mapM (fun v : Nat => st.G.getVertexproperty 0 ((v : Int) + 1))
    some (st.it, l)

/-- A graph on which the third superstep delivers nothing. -/
example : dprSample 1 3 [⟨1, 2, 1⟩, ⟨1, 3, 1⟩, ⟨2, 3, 1⟩] 3 =
    some (3, [some ⟨3 / 10, 3 / 10, some 2⟩, some ⟨21 / 200, 81 / 200, some 1⟩, some ⟨147 / 2000, 1377 / 2000, some 0⟩]) := by
  decide +kernel

/-- The hypotheses of the theorem can be met. -/
example : ∃ (le : LoadEnv DprV Int) (blobs : List (List (Edge Int))), Cfg 40 2 3 ∧ 49 + 7 * 40 ≤ IMAX ∧ le.sA.OK ∧
    le.sAT.OK ∧ (le.d = fun _ => DprV.new) ∧ blobs.length = 2 ∧ (∀ es ∈ blobs, ∀ e ∈ es, e.Valid 40) ∧
    (∀ v, outDegree blobs.flatten v ≤ IMAX) := by
  refine ⟨LoadEnv.sample DprV.new 0, [[⟨1, 2, 5⟩], [⟨2, 39, 6⟩, ⟨1, 40, 7⟩]], ⟨by decide, by decide, by decide, by decide⟩,
    by decide, Sorts.ins_ok, Sorts.ins_ok, rfl, rfl, ?_, ?_⟩
  · intro es hes e he
    simp at hes
    rcases hes with rfl | rfl <;> simp at he
    · subst he; simp [Edge.Valid]
    · rcases he with rfl | rfl <;> simp [Edge.Valid]
  · intro v
    unfold outDegree
    refine Nat.le_trans List.countP_le_length ?_
    decide

end GraphMat

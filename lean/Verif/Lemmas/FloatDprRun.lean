import Verif.Lemmas.FloatDpr

namespace GraphMat

variable {E : Type}

local notation "uD" => (1 / 9007199254740992 : Rat)
local notation "tE" => (1 / 99999999 : Rat)

/-! ### Sums over all vertices -/

/-- By how much the ranks miss the PageRank equation, apart from what is still to be sent or held back. -/
def dpfRes (es : List (Edge E)) (A : Nat → Bool) (d x : Nat → Rat) (v : Nat) : Rat :=
  x v + dpfSmall d v - 3 / 10 - 7 / 10 * flowIn es (fun u => x u - dpfPend d A u) v

theorem abs_flowIn (es : List (Edge E)) (f : Nat → Rat) (v : Nat) : |flowIn es f v| ≤ flowIn es (fun u => |f u|) v := by
  unfold flowIn
  refine le_trans (abs_list_sum _ _) (le_of_eq ?_)
  congr 2
  funext e
  rw [abs_div, abs_of_nonneg (by positivity : (0 : Rat) ≤ (outDegree es e.src.toNat : Rat))]

/-- The totals before and after one superstep. -/
structure DpfTotals (n : Nat) (δ X t H R X' t' H' R' g : Rat) : Prop where
  X0 : 0 ≤ X
  t0 : 0 ≤ t
  H0 : 0 ≤ H
  R0 : 0 ≤ R
  t0' : 0 ≤ t'
  H0' : 0 ≤ H'
  g0 : 0 ≤ g
  Hle : H ≤ n * tE
  Hle' : H' ≤ n * tE
  mass : t' + H' + g ≤ (1 + δ) * (H + 7 / 10 * t)
  rank : X' ≤ (1 + uD) * (X + t' + g)
  res : R' ≤ R + δ * (H + 7 / 10 * t) + 17 / 10 * (uD * (X + t' + g)) + 7 / 10 * g
  drop : g ≤ n * tE + uD * (X + t' + g)

theorem DpfMove.totals {es : List (Edge E)} {n D : Nat} (hv : ∀ e ∈ es, e.Valid n) {P P' : Nat → DpfV} {A A' : Nat → Bool}
    {d x d' x' g : Nat → Rat} (hst : DpfState es n P A d x) (hst' : DpfState es n P' A' d' x')
    (hm : ∀ v, 1 ≤ v → v ≤ n → DpfMove es D A A' d x d' x' g v) :
    DpfTotals n (relErrD (D + 6)) (vsum n x) (vsum n (dpfPend d A)) (vsum n (dpfSmall d))
      (vsum n (fun v => |dpfRes es A d x v|)) (vsum n x') (vsum n (dpfPend d' A')) (vsum n (dpfSmall d'))
      (vsum n (fun v => |dpfRes es A' d' x' v|)) (vsum n g) := by
  have hfl := flowIn_nonneg hv hst.pend_nonneg
  have htot : vsum n (flowIn es (dpfPend d A)) ≤ vsum n (dpfPend d A) := flowIn_total hv hst.pend_nonneg
  have hδ0 : (0 : Rat) ≤ relErrD (D + 6) := by unfold relErrD; positivity
  have hHle : ∀ {P : Nat → DpfV} {A : Nat → Bool} {d x : Nat → Rat}, DpfState es n P A d x → vsum n (dpfSmall d) ≤ n * tE := by
    intro P A d x h
    rw [← vsum_const]
    exact vsum_le (fun u u1 u2 => (h.small_bounds u u1 u2).2)
  -- the sum of what is there to be distributed
  have hh : vsum n (fun v => dpfSmall d v + 7 / 10 * flowIn es (dpfPend d A) v) ≤
      vsum n (dpfSmall d) + 7 / 10 * vsum n (dpfPend d A) := by
    rw [vsum_add, vsum_mul]; linarith
  have hq : vsum n (fun v => x v + dpfPend d' A' v + g v) = vsum n x + vsum n (dpfPend d' A') + vsum n g := by
    rw [vsum_add, vsum_add]
  refine ⟨vsum_nonneg (fun u u1 u2 => le_trans (by norm_num) (hst.low u u1 u2)), vsum_nonneg hst.pend_nonneg,
    vsum_nonneg (fun u u1 u2 => (hst.small_bounds u u1 u2).1), vsum_nonneg (fun _ _ _ => abs_nonneg _),
    vsum_nonneg hst'.pend_nonneg, vsum_nonneg (fun u u1 u2 => (hst'.small_bounds u u1 u2).1),
    vsum_nonneg (fun u u1 u2 => (hm u u1 u2).nonneg), hHle hst, hHle hst', ?_, ?_, ?_, ?_⟩
  · have h1 : vsum n (fun v => dpfPend d' A' v + dpfSmall d' v + g v) ≤
        vsum n (fun v => (1 + relErrD (D + 6)) * (dpfSmall d v + 7 / 10 * flowIn es (dpfPend d A) v)) := by
      apply vsum_le
      intro u u1 u2
      have := (abs_le.mp (hm u u1 u2).delta).2
      linarith
    rw [vsum_add, vsum_add, vsum_mul] at h1
    have := mul_le_mul_of_nonneg_left hh (show (0 : Rat) ≤ 1 + relErrD (D + 6) by linarith)
    linarith
  · have h1 : vsum n x' ≤ vsum n (fun v => (1 + uD) * (x v + dpfPend d' A' v + g v)) := by
      apply vsum_le
      intro u u1 u2
      have := (abs_le.mp (hm u u1 u2).rank).2
      linarith
    rw [vsum_mul, hq] at h1
    exact h1
  · -- what the ranks changed by, apart from what is still to be sent
    let r : Nat → Rat := fun u => x' u - dpfPend d' A' u - x u
    have hr : ∀ u, 1 ≤ u → u ≤ n → |r u| ≤ uD * (x u + dpfPend d' A' u + g u) + g u := by
      intro u u1 u2
      have h1 := (hm u u1 u2).rank
      have h2 := (hm u u1 u2).nonneg
      have e : r u = (x' u - (x u + dpfPend d' A' u + g u)) + g u := by simp only [r]; ring
      rw [e]
      refine le_trans (abs_add_le _ _) ?_
      rw [abs_of_nonneg h2]
      linarith
    have hone : ∀ v, 1 ≤ v → v ≤ n → |dpfRes es A' d' x' v| ≤ |dpfRes es A d x v| +
        (relErrD (D + 6) * (dpfSmall d v + 7 / 10 * flowIn es (dpfPend d A) v) +
        (uD * (x v + dpfPend d' A' v + g v) + 7 / 10 * flowIn es (fun u => |r u|) v)) := by
      intro v v1 v2
      have h1 := (hm v v1 v2).delta
      have h2 := (hm v v1 v2).rank
      have h3 := abs_flowIn es r v
      have e1 : flowIn es (fun u => x' u - dpfPend d' A' u) v = flowIn es x v + flowIn es r v := by
        rw [← flowIn_add]
        congr 1
        funext u
        simp only [r]; ring
      have e2 : dpfRes es A' d' x' v = dpfRes es A d x v +
          ((dpfPend d' A' v + dpfSmall d' v + g v - (dpfSmall d v + 7 / 10 * flowIn es (dpfPend d A) v)) +
          ((x' v - (x v + dpfPend d' A' v + g v)) - 7 / 10 * flowIn es r v)) := by
        unfold dpfRes
        rw [e1, flowIn_sub es x (dpfPend d A)]; ring
      rw [e2]
      refine le_trans (abs_add_le _ _) ?_
      have h4 : |(x' v - (x v + dpfPend d' A' v + g v)) - 7 / 10 * flowIn es r v| ≤
          uD * (x v + dpfPend d' A' v + g v) + 7 / 10 * flowIn es (fun u => |r u|) v := by
        refine le_trans (abs_sub _ _) ?_
        rw [abs_mul, abs_of_pos (by norm_num : (0 : Rat) < 7 / 10)]
        linarith
      have h5 := abs_add_le (dpfPend d' A' v + dpfSmall d' v + g v - (dpfSmall d v + 7 / 10 * flowIn es (dpfPend d A) v))
        ((x' v - (x v + dpfPend d' A' v + g v)) - 7 / 10 * flowIn es r v)
      linarith
    have h1 := vsum_le hone
    rw [vsum_add, vsum_add, vsum_add, vsum_mul, vsum_mul, vsum_mul, hq] at h1
    have h2 : vsum n (flowIn es (fun u => |r u|)) ≤ vsum n (fun u => |r u|) := flowIn_total hv (fun _ _ _ => abs_nonneg _)
    have h3 := vsum_le hr
    rw [vsum_add, vsum_mul, hq] at h3
    have h4 := mul_le_mul_of_nonneg_left hh hδ0
    have h5 : vsum n (fun v => flowIn es (fun u => |r u|) v) ≤ uD * (vsum n x + vsum n (dpfPend d' A') + vsum n g) + vsum n g :=
      le_trans h2 h3
    generalize uD * (vsum n x + vsum n (dpfPend d' A') + vsum n g) = q at *
    linarith
  · have h1 := vsum_le (fun u u1 u2 => (hm u u1 u2).dropped)
    rw [vsum_add, vsum_const, vsum_mul, hq] at h1
    exact h1

/-! ### The supersteps -/

/-- The bounds after `k` supersteps. -/
structure DpfBounds (n : Nat) (δ : Rat) (k : Nat) (X t H R : Rat) : Prop where
  mass : X + 7 / 3 * t + 10 / 3 * H ≤ 1001 / 1000 * n * (1 + 4 * (δ * k))
  geo : t + H ≤ 11 / 10 * (n * tE) + (71 / 100) ^ k * (31 / 100 * n)
  tail : 51 ≤ k → t + H ≤ 2 * (n * tE) - ((k : Rat) - 51) * (29 / 100 / 100000000)
  early : k ≤ 51 → R ≤ n * uD + k * (2 * (δ * n) + 7 / 10 * (n * tE))
  late : 51 ≤ k → R + 7 / 10 * (t + H) ≤ n * uD + 51 * (2 * (δ * n) + 7 / 10 * (n * tE)) + 14 / 10 * (n * tE) +
    ((k : Rat) - 51) * (34 / 10 * (δ * (n * tE)) + 36 / 10 * (n * uD))

theorem DpfBounds.succ {n k : Nat} {δ X t H R X' t' H' R' g : Rat} (hδ : 12 * uD ≤ δ) (hδn : δ * ((n : Rat) + 1) ≤ 1 / 512)
    (hk : k < 51 + 7 * n) (hb : DpfBounds n δ k X t H R) (ht : DpfTotals n δ X t H R X' t' H' R' g)
    (hbig : k = 0 ∨ 1 / 100000000 < t) : DpfBounds n δ (k + 1) X' t' H' R' := by
  obtain ⟨b1, b2, b3, b4, b5⟩ := hb
  obtain ⟨X0, t0, H0, R0, t0', H0', g0, Hle, Hle', mass, rank, res, drop⟩ := ht
  have hn0 : (0 : Rat) ≤ n := by positivity
  have hδ0 : 0 ≤ δ := le_trans (by norm_num) hδ
  have hδs : δ ≤ 1 / 512 := by nlinarith
  have hδn' : δ * n ≤ 1 / 512 := by nlinarith
  have hδn0 : 0 ≤ δ * n := mul_nonneg hδ0 hn0
  have hk' : (k : Rat) ≤ 51 + 7 * n := by
    have : k ≤ 51 + 7 * n := by omega
    exact_mod_cast this
  have hδk : δ * k ≤ 51 / 512 := by
    have : δ * (k : Rat) ≤ δ * (51 * ((n : Rat) + 1)) := mul_le_mul_of_nonneg_left (by linarith) hδ0
    linarith
  have hk0 : (0 : Rat) ≤ k := by positivity
  have hδk0 : 0 ≤ δ * k := mul_nonneg hδ0 hk0
  -- `W` is distributed, `Q` bounds what is rounded
  have hW0 : 0 ≤ H + 7 / 10 * t := by linarith
  have hM : X + 10 / 3 * (H + 7 / 10 * t) ≤ 1001 / 1000 * n * (1 + 4 * (δ * k)) := by linarith
  have hM2 : X + 10 / 3 * (H + 7 / 10 * t) ≤ 2 * n := by
    refine le_trans hM ?_
    have : (n : Rat) * (1 + 4 * (δ * k)) ≤ n * (1 + 4 * (51 / 512)) := mul_le_mul_of_nonneg_left (by linarith) hn0
    linarith
  have hδW : δ * (H + 7 / 10 * t) ≤ 1 / 512 * (H + 7 / 10 * t) := mul_le_mul_of_nonneg_right hδs hW0
  have hδW0 : 0 ≤ δ * (H + 7 / 10 * t) := mul_nonneg hδ0 hW0
  have hWs : H + 7 / 10 * t ≤ 6 / 10 * n := by linarith
  have hδW2 : δ * (H + 7 / 10 * t) ≤ 6 / 10 * (δ * n) := by
    have := mul_le_mul_of_nonneg_left hWs hδ0
    linarith
  have mass' : t' + H' + g ≤ H + 7 / 10 * t + δ * (H + 7 / 10 * t) := by linarith
  have hQ : X + t' + g ≤ 2 * n := by linarith
  have hQ0 : 0 ≤ X + t' + g := by linarith
  have hu : uD ≤ δ / 12 := by linarith
  have huQ : uD * (X + t' + g) ≤ δ * n / 6 := by
    have h1 : uD * (X + t' + g) ≤ uD * (2 * n) := mul_le_mul_of_nonneg_left hQ (by norm_num)
    have h2 : uD * (2 * n) ≤ δ / 12 * (2 * n) := mul_le_mul_of_nonneg_right hu (by linarith)
    linarith
  have huQ2 : uD * (X + t' + g) ≤ 2 * (n * uD) := by
    have h1 : uD * (X + t' + g) ≤ uD * (2 * n) := mul_le_mul_of_nonneg_left hQ (by norm_num)
    linarith
  have hgeo : t' + H' ≤ 11 / 10 * (n * tE) + (71 / 100) ^ (k + 1) * (31 / 100 * n) := by
    have e : (71 / 100 : Rat) ^ (k + 1) * (31 / 100 * n) = 71 / 100 * ((71 / 100) ^ k * (31 / 100 * n)) := by
      rw [pow_succ]; ring
    have h0 : (0 : Rat) ≤ (71 / 100) ^ k * (31 / 100 * n) := by positivity
    rw [e]
    generalize (71 / 100 : Rat) ^ k * (31 / 100 * n) = q at b2 h0 ⊢
    linarith
  have htail : 51 ≤ k → t' + H' + g ≤ t + H - 29 / 100 / 100000000 := by
    intro h
    have h1 := b3 h
    rcases hbig with h2 | h2
    · omega
    have hk51 : (51 : Rat) ≤ k := by exact_mod_cast h
    have h3 : t + H ≤ 2 * (n * tE) := by linarith only [h1, hk51]
    have h4 : δ * (H + 7 / 10 * t) ≤ δ * (2 * (n * tE)) := mul_le_mul_of_nonneg_left (by linarith) hδ0
    have h5 : δ * (2 * (n * tE)) ≤ 1 / 256 * tE := by
      have e : δ * (2 * (n * tE)) = (δ * n) * (2 * tE) := by ring
      rw [e]
      have := mul_le_mul_of_nonneg_right hδn' (show (0 : Rat) ≤ 2 * tE by norm_num)
      linarith only [this]
    linarith only [mass', h4, h5, h2]
  have htail' : 51 ≤ k + 1 → t' + H' ≤ 2 * (n * tE) - (((k + 1 : Nat) : Rat) - 51) * (29 / 100 / 100000000) := by
    intro h
    push_cast
    rcases Nat.lt_or_ge k 51 with h1 | h1
    · obtain rfl : k = 50 := by omega
      have : (71 / 100 : Rat) ^ 51 * (31 / 100 * n) ≤ 9 / 10 * (n * tE) := by
        have h2 : (71 / 100 : Rat) ^ 51 * (31 / 100) ≤ 9 / 10 * tE := by norm_num
        linarith only [mul_le_mul_of_nonneg_right h2 hn0]
      norm_num only at hgeo
      norm_num only at this ⊢
      linarith only [hgeo, this]
    · linarith only [htail h1, b3 h1, g0]
  have hearly : k + 1 ≤ 51 → R' ≤ n * uD + ((k + 1 : Nat) : Rat) * (2 * (δ * n) + 7 / 10 * (n * tE)) := by
    intro h
    have h1 := b4 (by omega)
    push_cast
    linarith only [h1, res, drop, huQ, hδW2, hδn0]
  refine ⟨?_, hgeo, htail', hearly, ?_⟩
  · push_cast
    have h1 : X' + 7 / 3 * t' + 10 / 3 * H' ≤ (1 + 2 * δ) * (X + 10 / 3 * (H + 7 / 10 * t)) := by
      have h2 : uD * (X + t' + g) ≤ δ * (X + 10 / 3 * (H + 7 / 10 * t)) := by
        have h3 : X + t' + g ≤ X + 10 / 3 * (H + 7 / 10 * t) := by linarith
        exact le_trans (mul_le_mul_of_nonneg_left h3 (by norm_num)) (mul_le_mul_of_nonneg_right (by linarith) (by linarith))
      have h4 : 0 ≤ δ * X := mul_nonneg hδ0 X0
      have e1 : δ * (X + 10 / 3 * (H + 7 / 10 * t)) = δ * X + 10 / 3 * (δ * (H + 7 / 10 * t)) := by ring
      have e2 : (1 + 2 * δ) * (X + 10 / 3 * (H + 7 / 10 * t)) = X + 10 / 3 * (H + 7 / 10 * t) +
        2 * (δ * X + 10 / 3 * (δ * (H + 7 / 10 * t))) := by ring
      have e3 : (1 + uD) * (X + t' + g) = X + t' + g + uD * (X + t' + g) := by ring
      rw [e1] at h2
      rw [e3] at rank
      rw [e2]
      linarith only [rank, h2, h4, mass', t0', g0, H0']
    have h2 := mul_le_mul_of_nonneg_left hM (show (0 : Rat) ≤ 1 + 2 * δ by linarith)
    have h3 : (1 + 2 * δ) * (1 + 4 * (δ * k)) ≤ 1 + 4 * (δ * (k + 1)) := by
      have e : (1 + 2 * δ) * (1 + 4 * (δ * k)) = 1 + 2 * δ + 4 * (δ * k) + 8 * (δ * (δ * k)) := by ring
      have e2 := mul_le_mul_of_nonneg_left hδk hδ0
      rw [e]
      linarith
    have h4 := mul_le_mul_of_nonneg_left h3 (show (0 : Rat) ≤ 1001 / 1000 * n by linarith only [hn0])
    linarith only [h1, h2, h4]
  · intro h
    rcases Nat.lt_or_ge k 51 with h1 | h1
    · obtain rfl : k = 50 := by omega
      have h2 := hearly (by omega)
      have h3 := htail' (by omega)
      push_cast at h2 h3 ⊢
      linarith only [h2, h3]
    · have h2 := b5 h1
      have h3 := htail h1
      have hk51 : (51 : Rat) ≤ k := by exact_mod_cast h1
      have h4 : t + H ≤ 2 * (n * tE) := by
        linarith only [b3 h1, hk51]
      have h5 : δ * (H + 7 / 10 * t) ≤ 2 * (δ * (n * tE)) := by
        have := mul_le_mul_of_nonneg_left (show H + 7 / 10 * t ≤ 2 * (n * tE) by linarith only [h4, t0]) hδ0
        linarith only [this]
      push_cast
      have h6 : 0 ≤ δ * (n * tE) := by positivity
      have h7 : (0 : Rat) ≤ n * uD := by positivity
      linarith only [h2, h3, h5, huQ2, res, mass', h7, h6]

/-- The error left at the end. -/
theorem DpfBounds.err {n k : Nat} {δ X t H R : Rat} (hδ0 : 0 ≤ δ) (hδn : δ * ((n : Rat) + 1) ≤ 1 / 512)
    (hk : k ≤ 51 + 7 * n) (hb : DpfBounds n δ k X t H R) (ht0 : 0 ≤ t) (hH0 : 0 ≤ H) :
    R ≤ n * (uD + 102 * δ + 372 / 10 * tE + 252 / 10 * (n * uD)) := by
  have hn0 : (0 : Rat) ≤ n := by positivity
  have hk' : (k : Rat) ≤ 51 + 7 * n := by exact_mod_cast hk
  have hδn0 : 0 ≤ δ * n := mul_nonneg hδ0 hn0
  have hδn' : δ * n ≤ 1 / 512 := by nlinarith
  rcases Nat.lt_or_ge k 51 with h | h
  · have h1 := hb.early (by omega)
    have h2 : (k : Rat) ≤ 51 := by exact_mod_cast (Nat.le_of_lt h)
    have h3 := mul_le_mul_of_nonneg_right h2 (show 0 ≤ 2 * (δ * n) + 7 / 10 * ((n : Rat) * tE) by positivity)
    have h4 : (0 : Rat) ≤ n * (n * uD) := by positivity
    nlinarith
  · have h1 := hb.late h
    have h3 := mul_le_mul_of_nonneg_right (show (k : Rat) - 51 ≤ 7 * n by linarith)
      (show 0 ≤ 34 / 10 * (δ * (n * tE)) + 36 / 10 * ((n : Rat) * uD) by positivity)
    have h4 : 7 * (n : Rat) * (34 / 10 * (δ * (n * tE))) ≤ 7 * n * (34 / 10 * (1 / 512 * tE)) := by
      have : δ * (n * tE) ≤ 1 / 512 * tE := by nlinarith
      have := mul_le_mul_of_nonneg_left this (show (0 : Rat) ≤ 7 * n * (34 / 10) by positivity)
      linarith
    have h5 : (0 : Rat) ≤ n * tE := by positivity
    nlinarith

/-- Ranks that miss the PageRank equation by little in total are near every solution. -/
theorem near_pagerank_sum {n : Nat} {es : List (Edge E)} (hv : ∀ e ∈ es, e.Valid n) {x y : Nat → Rat}
    (hy : IsPageRank es n y) :
    vsum n (fun v => |x v - y v|) ≤ 10 / 3 * vsum n (fun v => |x v - prRhs es x v|) := by
  have h1 : ∀ v, 1 ≤ v → v ≤ n → |x v - y v| ≤ |x v - prRhs es x v| + 7 / 10 * flowIn es (fun u => |x u - y u|) v := by
    intro v v1 v2
    have e2 := hy v v1 v2
    have e3 : prRhs es x v - prRhs es y v = 7 / 10 * flowIn es (fun u => x u - y u) v := by
      unfold prRhs; rw [flowIn_sub]; ring
    have e4 := abs_flowIn es (fun u => x u - y u) v
    have e5 : x v - y v = (x v - prRhs es x v) + 7 / 10 * flowIn es (fun u => x u - y u) v := by
      rw [← e3, e2.symm]; ring
    rw [e5]
    refine le_trans (abs_add_le _ _) ?_
    rw [abs_mul, abs_of_pos (by norm_num : (0 : Rat) < 7 / 10)]
    linarith
  have h2 := vsum_le h1
  rw [vsum_add, vsum_mul] at h2
  have h3 : vsum n (flowIn es (fun u => |x u - y u|)) ≤ vsum n (fun u => |x u - y u|) :=
    flowIn_total hv (fun _ _ _ => abs_nonneg _)
  have h4 : vsum n (fun v => flowIn es (fun u => |x u - y u|) v) ≤ vsum n (fun u => |x u - y u|) := h3
  linarith

end GraphMat

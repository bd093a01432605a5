import Verif.Lemmas.Float
import Verif.Spec.Float
import Mathlib.Tactic.Linarith
import Mathlib.Tactic.Positivity
import Mathlib.Tactic.Ring

/-!
# Rounding is to nearest
-/
namespace GraphMat

theorem roundEven_nearest (q : Rat) (k : Int) : |q - roundEven q| ≤ |q - k| := by
  have h := roundEven_err q
  rw [abs_sub_comm] at h
  obtain ⟨f1, f2⟩ := floor_bounds q
  rcases roundEven_cases q with ⟨a, b⟩ | ⟨a, b⟩
  · rw [a] at h ⊢
    rw [abs_of_nonneg (by linarith)]
    rcases Int.lt_or_le q.floor k with hk | hk
    · have : ((q.floor + 1 : Int) : Rat) ≤ k := by exact_mod_cast hk
      push_cast at this
      rw [abs_of_nonpos (by linarith)]; linarith
    · have : (k : Rat) ≤ q.floor := by exact_mod_cast hk
      rw [abs_of_nonneg (by linarith)]; linarith
  · rw [a] at h ⊢
    push_cast at h ⊢
    rw [abs_of_nonpos (by linarith)]
    rcases Int.lt_or_le q.floor k with hk | hk
    · have : ((q.floor + 1 : Int) : Rat) ≤ k := by exact_mod_cast hk
      push_cast at this
      rw [abs_of_nonpos (by linarith)]; linarith
    · have : (k : Rat) ≤ q.floor := by exact_mod_cast hk
      rw [abs_of_nonneg (by linarith)]; linarith

/-- Between two integers the even one is taken. -/
theorem roundEven_tie {q : Rat} {k : Int} (hk : k ≠ roundEven q) (h : |q - roundEven q| = |q - k|) : roundEven q % 2 = 0 := by
  obtain ⟨f1, f2⟩ := floor_bounds q
  have key : q - q.floor = 1 / 2 := by
    rcases roundEven_cases q with ⟨a, b⟩ | ⟨a, b⟩
    · rw [a] at h hk
      rw [abs_of_nonneg (by linarith)] at h
      rcases Int.lt_or_le q.floor k with hk' | hk'
      · have : ((q.floor + 1 : Int) : Rat) ≤ k := by exact_mod_cast hk'
        push_cast at this
        rw [abs_of_nonpos (by linarith)] at h; linarith
      · have : (k : Rat) ≤ ((q.floor - 1 : Int) : Rat) := by exact_mod_cast (by omega)
        push_cast at this
        rw [abs_of_nonneg (by linarith)] at h; linarith
    · rw [a] at h hk
      push_cast at h
      rw [abs_of_nonpos (by linarith)] at h
      rcases Int.lt_or_le q.floor k with hk' | hk'
      · have : ((q.floor + 2 : Int) : Rat) ≤ k := by exact_mod_cast (by omega)
        push_cast at this
        rw [abs_of_nonpos (by linarith)] at h; linarith
      · have : (k : Rat) ≤ q.floor := by exact_mod_cast hk'
        rw [abs_of_nonneg (by linarith)] at h; linarith
  unfold roundEven
  rw [key, if_neg (by norm_num), if_neg (by norm_num)]
  split_ifs with h3
  · exact h3
  · omega

namespace FloatFmt

/-- The exponent used for the result. -/
def exp (f : FloatFmt) (x : Rat) : Int := max (expo (mag x)) f.emin

theorem ulp_exp (f : FloatFmt) (x : Rat) : f.ulp x = pow2 (f.exp x - (f.prec - 1)) := rfl

theorem exp_top (f : FloatFmt) {x : Rat} (h : f.emin < f.exp x) (hx : x ≠ 0) : pow2 (f.exp x) ≤ |x| := by
  unfold exp at h ⊢
  have h2 : max (expo (mag x)) f.emin = expo (mag x) := by omega
  rw [h2, mag_eq]
  exact (expo_spec (abs_pos.mpr hx)).1

theorem exp_lt (f : FloatFmt) {x : Rat} (hx : x ≠ 0) : |x| < pow2 (f.exp x + 1) := by
  refine lt_of_lt_of_le (expo_spec (abs_pos.mpr hx)).2 (pow2_le ?_)
  unfold exp
  rw [mag_eq]
  omega

/-- The significand. -/
theorem near_sig (f : FloatFmt) {x : Rat} (hx : x ≠ 0) : |roundEven (x / f.ulp x)| ≤ 2 ^ f.prec := by
  have hu := f.ulp_pos x
  have h1 : |x / f.ulp x| < ((2 ^ f.prec : Int) : Rat) := by
    rw [abs_div, abs_of_pos hu, div_lt_iff₀ hu, ulp_exp]
    have : ((2 ^ f.prec : Int) : Rat) = pow2 f.prec := by rw [pow2_nat]; push_cast; rfl
    rw [this, ← pow2_add, show (f.prec : Int) + (f.exp x - (f.prec - 1)) = f.exp x + 1 by ring]
    exact f.exp_lt hx
  rw [abs_lt] at h1
  rw [abs_le]
  constructor
  · have := roundEven_mono (x := ((-2 ^ f.prec : Int) : Rat)) (y := x / f.ulp x) (by push_cast at h1 ⊢; exact le_of_lt h1.1)
    rwa [roundEven_int] at this
  · have := roundEven_mono (y := ((2 ^ f.prec : Int) : Rat)) (x := x / f.ulp x) (le_of_lt h1.2)
    rwa [roundEven_int] at this

theorem sig_full (f : FloatFmt) (hp : 1 ≤ f.prec) {x : Rat} (hx : x ≠ 0) (h : f.emin < f.exp x) :
    2 ^ (f.prec - 1) ≤ |roundEven (x / f.ulp x)| := by
  have hu := f.ulp_pos x
  have h1 : ((2 ^ (f.prec - 1) : Int) : Rat) ≤ |x / f.ulp x| := by
    rw [abs_div, abs_of_pos hu, le_div_iff₀ hu, ulp_exp]
    have : ((2 ^ (f.prec - 1) : Int) : Rat) = pow2 ((f.prec - 1 : Nat) : Int) := by rw [pow2_nat]; push_cast; rfl
    rw [this, ← pow2_add, show ((f.prec - 1 : Nat) : Int) + (f.exp x - (f.prec - 1)) = f.exp x by omega]
    exact f.exp_top h hx
  rw [le_abs] at h1 ⊢
  rcases h1 with h1 | h1
  · left
    have := roundEven_mono h1
    rwa [roundEven_int] at this
  · right
    have := roundEven_mono (x := x / f.ulp x) (y := ((-2 ^ (f.prec - 1) : Int) : Rat)) (by push_cast at h1 ⊢; linarith)
    rw [roundEven_int] at this
    omega

/-- No multiple of the last place is nearer. -/
theorem near_best (f : FloatFmt) (x : Rat) (k : Int) : |x - f.near x| ≤ |x - k * f.ulp x| := by
  have hu := f.ulp_pos x
  have h := roundEven_nearest (x / f.ulp x) k
  have e : ∀ m : Int, |x - m * f.ulp x| = |x / f.ulp x - m| * f.ulp x := by
    intro m
    rw [← abs_of_pos hu, ← abs_mul, abs_of_pos hu, sub_mul, div_mul_cancel₀ _ (ne_of_gt hu)]
  rw [near_def, e, e]
  exact mul_le_mul_of_nonneg_right h (le_of_lt hu)

theorem pow2_ulp (f : FloatFmt) (x : Rat) {e : Int} (he : f.exp x ≤ e) (m : Int) :
    ∃ k : Int, (m : Rat) * pow2 (e - (f.prec - 1)) = k * f.ulp x := by
  refine ⟨m * 2 ^ (e - f.exp x).toNat, ?_⟩
  rw [ulp_exp]
  push_cast
  rw [mul_assoc, show (2 : Rat) ^ (e - f.exp x).toNat = pow2 ((e - f.exp x).toNat : Int) by rw [pow2_nat]; push_cast; rfl,
    ← pow2_add]
  congr 2
  omega

theorem round_inv {f : FloatFmt} {x y : Rat} (h : f.round x = some y) : y = f.near x ∧ |f.near x| < pow2 (f.emax + 1) := by
  unfold round at h
  split_ifs at h with h1
  · rw [mag_eq] at h1
    injection h with h
    exact ⟨h.symm, h1⟩

theorem exp_le_emax (f : FloatFmt) (hp : 1 ≤ f.prec) (he : f.emin ≤ f.emax) {x : Rat} (hx : x ≠ 0)
    (h : |f.near x| < pow2 (f.emax + 1)) : f.exp x ≤ f.emax ∧ (|roundEven (x / f.ulp x)| = 2 ^ f.prec → f.exp x < f.emax) := by
  have hu := f.ulp_pos x
  have hn : |f.near x| = ((|roundEven (x / f.ulp x)| : Int) : Rat) * f.ulp x := by
    rw [near_def, abs_mul, abs_of_pos hu, Int.cast_abs]
  rw [hn] at h
  constructor
  · by_contra hc
    have hs := f.sig_full hp hx (by omega)
    have hs' : pow2 ((f.prec - 1 : Nat) : Int) ≤ ((|roundEven (x / f.ulp x)| : Int) : Rat) := by
      rw [pow2_nat]; exact_mod_cast hs
    have := mul_le_mul_of_nonneg_right hs' (le_of_lt (pow2_pos (f.exp x - (f.prec - 1))))
    rw [← pow2_add, show ((f.prec - 1 : Nat) : Int) + (f.exp x - (f.prec - 1)) = f.exp x by omega] at this
    have := pow2_lt_iff.mp (lt_of_le_of_lt this h)
    omega
  · intro hs
    rw [hs, ulp_exp, show ((2 ^ f.prec : Int) : Rat) = pow2 f.prec by rw [pow2_nat]; push_cast; rfl, ← pow2_add] at h
    have := pow2_lt_iff.mp h
    omega

theorem near_rep (f : FloatFmt) (hp : 2 ≤ f.prec) (he : f.emin ≤ f.emax) {x : Rat} (hx : x ≠ 0)
    (h : |f.near x| < pow2 (f.emax + 1)) : ∃ m e : Int, f.emin ≤ e ∧ e ≤ f.emax ∧ FloatRep f.prec m e (f.near x) ∧
      (e = f.emin ∨ 2 ^ (f.prec - 1) ≤ |m|) ∧ (roundEven (x / f.ulp x) % 2 = 0 → m % 2 = 0) := by
  obtain ⟨a1, a2⟩ := f.exp_le_emax (by omega) he hx h
  have hsig := f.near_sig hx
  have hmin : f.emin ≤ f.exp x := by unfold exp; omega
  obtain ⟨p, hp'⟩ : ∃ p, f.prec = p + 2 := ⟨f.prec - 2, by omega⟩
  rcases lt_or_eq_of_le hsig with hlt | heq
  · refine ⟨roundEven (x / f.ulp x), f.exp x, hmin, a1, ⟨hlt, ?_⟩, ?_, id⟩
    · rw [near_def, ulp_exp, pow2_eq]
    · rcases lt_or_eq_of_le hmin with hh | hh
      · exact .inr (f.sig_full (by omega) hx hh)
      · exact .inl hh.symm
  · have hpow : (2 : Int) ^ f.prec = 2 * 2 ^ (f.prec - 1) := by rw [hp']; simp [pow_succ]; ring
    have hpos : (0 : Int) < 2 ^ (f.prec - 1) := by positivity
    have heven : (2 : Int) ^ (f.prec - 1) % 2 = 0 := by rw [hp']; simp [pow_succ]
    have hval : ∀ m : Int, roundEven (x / f.ulp x) = 2 * m → f.near x = m * 2 ^ (f.exp x + 1 - ((f.prec : Int) - 1)) := by
      intro m hm
      rw [near_def, hm, ulp_exp, ← pow2_eq, show f.exp x + 1 - ((f.prec : Int) - 1) = 1 + (f.exp x - (f.prec - 1)) by ring,
        pow2_add, show pow2 1 = 2 by norm_num [pow2]]
      push_cast; ring
    have hcase : roundEven (x / f.ulp x) = 2 * 2 ^ (f.prec - 1) ∨ roundEven (x / f.ulp x) = 2 * -2 ^ (f.prec - 1) := by
      rw [hpow] at heq
      rcases abs_eq (by positivity) |>.mp heq with h1 | h1
      · exact .inl h1
      · exact .inr (by omega)
    rcases hcase with h1 | h1
    · refine ⟨2 ^ (f.prec - 1), f.exp x + 1, by omega, by have := a2 heq; omega, ⟨?_, hval _ h1⟩, .inr ?_, fun _ => heven⟩
      · rw [abs_of_pos hpos]; omega
      · rw [abs_of_pos hpos]
    · refine ⟨-2 ^ (f.prec - 1), f.exp x + 1, by omega, by have := a2 heq; omega, ⟨?_, hval _ h1⟩, .inr ?_, fun _ => by omega⟩
      · rw [abs_neg, abs_of_pos hpos]; omega
      · rw [abs_neg, abs_of_pos hpos]

/-- Numbers of the format with smaller exponents are all nearer to zero. -/
theorem small_rep {f : FloatFmt} {x z : Rat} {m e : Int} (hz : FloatRep f.prec m e z) (he : e < f.exp x) :
    |z| < pow2 (f.exp x) := by
  obtain ⟨z1, rfl⟩ := hz
  rw [← pow2_eq, abs_mul, abs_of_pos (pow2_pos _)]
  have z1' : |(m : Rat)| < pow2 f.prec := by
    rw [pow2_nat, ← Int.cast_abs]; exact_mod_cast z1
  have := mul_lt_mul_of_pos_right z1' (pow2_pos (e - (f.prec - 1)))
  rw [← pow2_add] at this
  refine lt_of_lt_of_le this (pow2_le (by omega))

theorem near_nearest (f : FloatFmt) (hp : 1 ≤ f.prec) {x z : Rat} (hx : x ≠ 0) {m e : Int} (hmin : f.emin ≤ e)
    (hz : FloatRep f.prec m e z) : |x - f.near x| ≤ |x - z| := by
  rcases Int.lt_or_le e (f.exp x) with he | he
  · have hs := small_rep hz he
    have ht := f.exp_top (by omega) hx
    obtain ⟨k, hk⟩ := f.pow2_ulp x (Int.le_refl _) (2 ^ (f.prec - 1))
    have hk' : pow2 (f.exp x) = k * f.ulp x := by
      rw [← hk, show (((2 : Int) ^ (f.prec - 1) : Int) : Rat) = pow2 ((f.prec - 1 : Nat) : Int) by rw [pow2_nat]; push_cast; rfl,
        ← pow2_add]
      congr 1
      omega
    have hb : |x - f.near x| ≤ |x| - pow2 (f.exp x) := by
      rcases lt_or_ge x 0 with hneg | hpos
      · have := f.near_best x (-k)
        push_cast at this
        rw [neg_mul, ← hk'] at this
        refine le_trans this ?_
        rw [abs_of_neg hneg] at ht ⊢
        rw [abs_of_nonpos (by linarith)]; linarith
      · have := f.near_best x k
        rw [← hk'] at this
        refine le_trans this ?_
        rw [abs_of_nonneg hpos] at ht ⊢
        rw [abs_of_nonneg (by linarith)]
    have := abs_sub_abs_le_abs_sub x z
    linarith
  · obtain ⟨k, hk⟩ := f.pow2_ulp x he m
    have : z = k * f.ulp x := by rw [← hk, pow2_eq]; exact hz.2
    rw [this]
    exact f.near_best x k

theorem near_tie (f : FloatFmt) (hp : 1 ≤ f.prec) {x z : Rat} (hx : x ≠ 0) {m e : Int} (hmin : f.emin ≤ e)
    (hz : FloatRep f.prec m e z) (hne : z ≠ f.near x) (h : |x - f.near x| = |x - z|) : roundEven (x / f.ulp x) % 2 = 0 := by
  have hu := f.ulp_pos x
  rcases Int.lt_or_le e (f.exp x) with he | he
  · exfalso
    have hs := small_rep hz he
    have ht := f.exp_top (by omega) hx
    obtain ⟨k, hk⟩ := f.pow2_ulp x (Int.le_refl _) (2 ^ (f.prec - 1))
    have hk' : pow2 (f.exp x) = k * f.ulp x := by
      rw [← hk, show (((2 : Int) ^ (f.prec - 1) : Int) : Rat) = pow2 ((f.prec - 1 : Nat) : Int) by rw [pow2_nat]; push_cast; rfl,
        ← pow2_add]
      congr 1
      omega
    have hb : |x - f.near x| ≤ |x| - pow2 (f.exp x) := by
      rcases lt_or_ge x 0 with hneg | hpos
      · have := f.near_best x (-k)
        push_cast at this
        rw [neg_mul, ← hk'] at this
        refine le_trans this ?_
        rw [abs_of_neg hneg] at ht ⊢
        rw [abs_of_nonpos (by linarith)]; linarith
      · have := f.near_best x k
        rw [← hk'] at this
        refine le_trans this ?_
        rw [abs_of_nonneg hpos] at ht ⊢
        rw [abs_of_nonneg (by linarith)]
    have := abs_sub_abs_le_abs_sub x z
    linarith
  · obtain ⟨k, hk⟩ := f.pow2_ulp x he m
    have hzk : z = k * f.ulp x := by rw [← hk, pow2_eq]; exact hz.2
    have e' : ∀ m : Int, |x - m * f.ulp x| = |x / f.ulp x - m| * f.ulp x := by
      intro m
      rw [← abs_of_pos hu, ← abs_mul, abs_of_pos hu, sub_mul, div_mul_cancel₀ _ (ne_of_gt hu)]
    rw [hzk, near_def, e', e'] at h
    refine roundEven_tie (k := k) ?_ (mul_right_cancel₀ (ne_of_gt hu) h)
    rintro rfl
    exact hne (by rw [hzk, near_def])

/-- The result is a number of the format, and none of the others is nearer; of two equally near ones it is the one
whose last digit is 0. -/
theorem round_spec (f : FloatFmt) (hp : 2 ≤ f.prec) (he : f.emin ≤ f.emax) {x y : Rat} (h : f.round x = some y) :
    IsFloat f.prec f.emin f.emax y ∧
      (∀ z, IsFloat f.prec f.emin f.emax z → |x - y| ≤ |x - z| ∧
        (z ≠ y → |x - y| = |x - z| → EvenFloat f.prec f.emin f.emax y)) := by
  obtain ⟨rfl, h2⟩ := round_inv h
  by_cases hx : x = 0
  · subst hx
    rw [near_zero]
    have hpos : (0 : Int) < 2 ^ f.prec := by positivity
    refine ⟨⟨0, f.emin, le_refl _, he, ?_, ?_⟩, fun z _ => ⟨?_, fun hz heq => ?_⟩⟩
    · simp
    · simp
    · simp
    · simp at heq
      exact absurd heq.symm (by simpa using hz)
  · obtain ⟨m, e, m1, m2, m3, m4, m5⟩ := f.near_rep hp he hx h2
    refine ⟨⟨m, e, m1, m2, m3⟩, ?_⟩
    rintro z ⟨m', e', z1, z2, z3⟩
    refine ⟨f.near_nearest (by omega) hx z1 z3, fun hz heq => ⟨m, e, m1, m2, m3, m4, m5 ?_⟩⟩
    exact f.near_tie (by omega) hx z1 z3 hz heq

/-- A number of the format is unchanged. -/
theorem round_fix (f : FloatFmt) (hp : 2 ≤ f.prec) {x : Rat} (hx : IsFloat f.prec f.emin f.emax x) : f.round x = some x := by
  obtain ⟨m, e, m1, m2, m3⟩ := hx
  have hn : f.near x = x := by
    by_cases h0 : x = 0
    · rw [h0, near_zero]
    · have := f.near_nearest (by omega) h0 m1 m3
      rw [sub_self, abs_zero] at this
      have := abs_nonpos_iff.mp this
      linarith
  have hlt : |x| < pow2 (f.emax + 1) := by
    obtain ⟨z1, rfl⟩ := m3
    rw [← pow2_eq, abs_mul, abs_of_pos (pow2_pos _)]
    have z1' : |(m : Rat)| < pow2 f.prec := by
      rw [pow2_nat, ← Int.cast_abs]; exact_mod_cast z1
    have := mul_lt_mul_of_pos_right z1' (pow2_pos (e - (f.prec - 1)))
    rw [← pow2_add] at this
    exact lt_of_lt_of_le this (pow2_le (by omega))
  unfold round
  rw [hn, mag_eq, if_pos hlt]

/-- A result beyond the format: no number of the format reaches the exact value, and the value is at least half a
place above the largest one. -/
theorem round_over (f : FloatFmt) (he : f.emin ≤ f.emax) {x : Rat} (h : f.round x = none) :
    pow2 (f.emax + 1) - pow2 (f.emax - f.prec) ≤ |x| := by
  unfold round at h
  split_ifs at h with h1
  rw [mag_eq, not_lt] at h1
  by_contra hc
  rw [not_le] at hc
  have hx : x ≠ 0 := by
    rintro rfl
    rw [near_zero, abs_zero] at h1
    exact absurd h1 (not_le.mpr (pow2_pos _))
  have hlt : |x| < pow2 (f.emax + 1) := by have := pow2_pos (f.emax - f.prec); linarith
  have hexp : f.exp x ≤ f.emax := by
    have := (expo_spec (abs_pos.mpr hx)).1
    have := pow2_lt_iff.mp (lt_of_le_of_lt this hlt)
    unfold exp
    rw [mag_eq]; omega
  have hu : f.ulp x ≤ pow2 (f.emax - (f.prec - 1)) := by rw [ulp_exp]; exact pow2_le (by omega)
  have herr := f.near_err x
  have h3 : |f.near x| - |x| ≤ |f.near x - x| := abs_sub_abs_le_abs_sub _ _
  have h4 : pow2 (f.emax - (f.prec - 1)) = 2 * pow2 (f.emax - f.prec) := by
    rw [show f.emax - ((f.prec : Int) - 1) = 1 + (f.emax - f.prec) by ring, pow2_add, show pow2 1 = 2 by norm_num [pow2]]
  linarith

/-- From half a place above the largest number on the result overflows. -/
theorem round_none (f : FloatFmt) (hp : 2 ≤ f.prec) (he : f.emin ≤ f.emax) {x : Rat}
    (h : pow2 (f.emax + 1) - pow2 (f.emax - f.prec) ≤ |x|) : f.round x = none := by
  cases hr : f.round x with
  | none => rfl
  | some y =>
    exfalso
    obtain ⟨rfl, h2⟩ := round_inv hr
    have htop : pow2 f.emax ≤ |x| := by
      have a : pow2 (f.emax + 1) = 2 * pow2 f.emax := by
        rw [show f.emax + 1 = 1 + f.emax by ring, pow2_add, show pow2 1 = 2 by norm_num [pow2]]
      have b : pow2 (f.emax - f.prec) ≤ pow2 f.emax := pow2_le (by omega)
      linarith
    have hx : x ≠ 0 := by
      rintro rfl
      rw [abs_zero] at htop
      exact absurd htop (not_le.mpr (pow2_pos _))
    obtain ⟨a1, a2⟩ := f.exp_le_emax (by omega) he hx h2
    have hexp : f.exp x = f.emax := by
      have := pow2_lt_iff.mp (lt_of_le_of_lt htop (f.exp_lt hx))
      omega
    have hu := f.ulp_pos x
    have hsig : |roundEven (x / f.ulp x)| ≤ 2 ^ f.prec - 1 := by
      have := f.near_sig hx
      have h3 : |roundEven (x / f.ulp x)| ≠ 2 ^ f.prec := fun h => by have := a2 h; omega
      omega
    have hq : (2 : Rat) ^ f.prec - 1 / 2 ≤ |x / f.ulp x| := by
      rw [abs_div, abs_of_pos hu, le_div_iff₀ hu, ulp_exp, hexp, sub_mul,
        show (2 : Rat) ^ f.prec = pow2 f.prec by rw [pow2_nat]; push_cast; rfl, ← pow2_add,
        show (1 / 2 : Rat) = pow2 (-1) by norm_num [pow2], ← pow2_add]
      refine le_trans (le_of_eq ?_) h
      congr 2 <;> ring
    have herr := roundEven_err (x / f.ulp x)
    have hodd : ∀ m : Int, m % 2 = 0 → |m| ≠ 2 ^ f.prec - 1 := by
      intro m hm hh
      have hev : (2 : Int) ^ f.prec % 2 = 0 := by
        obtain ⟨p, hp'⟩ : ∃ p, f.prec = p + 1 := ⟨f.prec - 1, by omega⟩
        rw [hp']; simp [pow_succ]
      rcases abs_choice m with h' | h' <;> rw [h'] at hh <;> omega
    generalize hgq : x / f.ulp x = q at *
    generalize hgm : roundEven q = m at *
    have hsig' : |(m : Rat)| ≤ 2 ^ f.prec - 1 := by
      rw [← Int.cast_abs]; exact_mod_cast hsig
    rw [abs_le] at herr hsig'
    obtain ⟨k, k1, k2, k3⟩ : ∃ k : Int, k ≠ m ∧ |q - m| = |q - k| ∧ |m| = 2 ^ f.prec - 1 := by
      rcases le_abs.mp hq with h3 | h3
      · have e1 : (m : Rat) = 2 ^ f.prec - 1 := by linarith
        have e2 : q = 2 ^ f.prec - 1 / 2 := by linarith
        have e3 : m = 2 ^ f.prec - 1 := by exact_mod_cast e1
        refine ⟨2 ^ f.prec, by omega, ?_, ?_⟩
        · rw [e1, e2]; push_cast
          rw [show (2 : Rat) ^ f.prec - 1 / 2 - (2 ^ f.prec - 1) = 1 / 2 by ring,
            show (2 : Rat) ^ f.prec - 1 / 2 - 2 ^ f.prec = -(1 / 2) by ring, abs_neg]
        · rw [e3, abs_of_nonneg]
          have : (0 : Int) < 2 ^ f.prec := by positivity
          omega
      · have e1 : (m : Rat) = -(2 ^ f.prec - 1) := by linarith
        have e2 : q = -(2 ^ f.prec - 1 / 2) := by linarith
        have e3 : m = -(2 ^ f.prec - 1) := by exact_mod_cast e1
        refine ⟨-2 ^ f.prec, by omega, ?_, ?_⟩
        · rw [e1, e2]; push_cast
          rw [show -((2 : Rat) ^ f.prec - 1 / 2) - -(2 ^ f.prec - 1) = -(1 / 2) by ring,
            show -((2 : Rat) ^ f.prec - 1 / 2) - -2 ^ f.prec = 1 / 2 by ring, abs_neg]
        · rw [e3, abs_neg, abs_of_nonneg]
          have : (0 : Int) < 2 ^ f.prec := by positivity
          omega
    rw [← hgm] at k1 k2
    have := roundEven_tie k1 k2
    rw [hgm] at this
    exact hodd m this k3

end FloatFmt

end GraphMat

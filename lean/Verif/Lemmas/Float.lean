import Verif.Model.FloatPr
import Mathlib.Algebra.Order.Field.Rat
import Mathlib.Algebra.Order.Field.Power
import Mathlib.Algebra.Order.Archimedean.Basic
import Mathlib.Algebra.Order.Floor.Ring
import Mathlib.Data.Rat.Floor
import Mathlib.Tactic.Linarith
import Mathlib.Tactic.Ring
import Mathlib.Tactic.NormNum
import Mathlib.Tactic.Positivity
import Mathlib.Tactic.FieldSimp
import Mathlib.Tactic.SplitIfs

namespace GraphMat

theorem pow2_eq (e : Int) : pow2 e = (2 : Rat) ^ e := by
  unfold pow2
  split_ifs with h
  · obtain ⟨k, rfl⟩ := Int.eq_ofNat_of_zero_le h
    simp
  · obtain ⟨k, hk⟩ := Int.eq_ofNat_of_zero_le (show 0 ≤ -e by omega)
    obtain rfl : e = -(k : Int) := by omega
    simp

theorem pow2_pos (e : Int) : 0 < pow2 e := by rw [pow2_eq]; positivity

theorem pow2_add (a b : Int) : pow2 (a + b) = pow2 a * pow2 b := by
  rw [pow2_eq, pow2_eq, pow2_eq, zpow_add₀ (by norm_num)]

theorem pow2_le {a b : Int} (h : a ≤ b) : pow2 a ≤ pow2 b := by
  rw [pow2_eq, pow2_eq]; exact zpow_le_zpow_right₀ (by norm_num) h

theorem pow2_lt {a b : Int} (h : a < b) : pow2 a < pow2 b := by
  rw [pow2_eq, pow2_eq]; exact zpow_lt_zpow_right₀ (by norm_num) h

theorem pow2_lt_iff {a b : Int} : pow2 a < pow2 b ↔ a < b :=
  ⟨fun h => not_le.mp (fun hh => not_le.mpr h (pow2_le hh)), pow2_lt⟩

theorem pow2_nat (k : Nat) : pow2 k = ((2 ^ k : Nat) : Rat) := by rw [pow2_eq]; simp

theorem mag_eq (x : Rat) : mag x = |x| := by
  unfold mag
  split_ifs with h
  · rw [abs_of_neg h]
  · rw [abs_of_nonneg (not_lt.mp h)]

/-- The exponent brackets the number. -/
theorem expo_spec {q : Rat} (hq : 0 < q) : pow2 (expo q) ≤ q ∧ q < pow2 (expo q + 1) := by
  have hn : 0 < q.num := Rat.num_pos.mpr hq
  have hN : q.num.natAbs ≠ 0 := by omega
  have hD : q.den ≠ 0 := q.den_nz
  have a1 := Nat.log2_self_le hN
  have a2 := Nat.lt_log2_self (n := q.num.natAbs)
  have b1 := Nat.log2_self_le hD
  have b2 := Nat.lt_log2_self (n := q.den)
  generalize hA : Nat.log2 q.num.natAbs = A at *
  generalize hB : Nat.log2 q.den = B at *
  have hqe : q = (q.num.natAbs : Rat) / (q.den : Rat) := by
    conv_lhs => rw [← Rat.num_div_den q]
    congr 1
    have : (q.num.natAbs : Int) = q.num := by omega
    rw [← Int.cast_natCast, this]
  have hex : expo q = if pow2 ((A : Int) - B) ≤ q then (A : Int) - B else (A : Int) - B - 1 := by
    unfold expo
    rw [hA, hB]
  clear hA hB
  generalize q.num.natAbs = N at *
  generalize hDD : q.den = D at *
  have hDp : (0 : Rat) < D := by exact_mod_cast Nat.pos_of_ne_zero hD
  have a1' : pow2 A ≤ N := by rw [pow2_nat]; exact_mod_cast a1
  have a2' : (N : Rat) < pow2 (A + 1) := by
    have := pow2_nat (A + 1); push_cast at this ⊢; rw [this]; exact_mod_cast a2
  have b1' : pow2 B ≤ D := by rw [pow2_nat]; exact_mod_cast b1
  have b2' : (D : Rat) < pow2 (B + 1) := by
    have := pow2_nat (B + 1); push_cast at this ⊢; rw [this]; exact_mod_cast b2
  have hlow : pow2 ((A : Int) - B - 1) ≤ q := by
    rw [hqe, le_div_iff₀ hDp]
    have : pow2 ((A : Int) - B - 1) * pow2 (B + 1) = pow2 A := by rw [← pow2_add]; congr 1; omega
    have h0 := pow2_pos ((A : Int) - B - 1)
    nlinarith
  have hhigh : q < pow2 ((A : Int) - B + 1) := by
    rw [hqe, div_lt_iff₀ hDp]
    have : pow2 ((A : Int) - B + 1) * pow2 B = pow2 (A + 1) := by rw [← pow2_add]; congr 1; omega
    have h0 := pow2_pos ((A : Int) - B + 1)
    nlinarith
  rw [hex]
  split_ifs with h
  · exact ⟨h, hhigh⟩
  · exact ⟨hlow, by rw [sub_add_cancel]; exact not_le.mp h⟩

theorem expo_unique {q : Rat} {e : Int} (h1 : pow2 e ≤ q) (h2 : q < pow2 (e + 1)) : expo q = e := by
  obtain ⟨a, b⟩ := expo_spec (lt_of_lt_of_le (pow2_pos e) h1)
  have := pow2_lt_iff.mp (lt_of_le_of_lt a h2)
  have := pow2_lt_iff.mp (lt_of_le_of_lt h1 b)
  omega

theorem expo_mono {x y : Rat} (hx : 0 < x) (h : x ≤ y) : expo x ≤ expo y := by
  have a := (expo_spec hx).1
  have b := (expo_spec (lt_of_lt_of_le hx h)).2
  have := pow2_lt_iff.mp (lt_of_le_of_lt (le_trans a h) b)
  omega

/-! ### Rounding to an integer -/

theorem floor_bounds (q : Rat) : (q.floor : Rat) ≤ q ∧ q < q.floor + 1 := by
  constructor
  · exact Int.floor_le q
  · exact Int.lt_floor_add_one q

theorem roundEven_cases (q : Rat) : (roundEven q = q.floor ∧ q - q.floor ≤ 1 / 2) ∨
    (roundEven q = q.floor + 1 ∧ 1 / 2 ≤ q - q.floor) := by
  unfold roundEven
  split_ifs with h1 h2 h3
  · exact .inl ⟨rfl, le_of_lt h1⟩
  · exact .inr ⟨rfl, le_of_lt h2⟩
  · exact .inl ⟨rfl, not_lt.mp h2⟩
  · exact .inr ⟨rfl, not_lt.mp h1⟩

theorem roundEven_err (q : Rat) : |(roundEven q : Rat) - q| ≤ 1 / 2 := by
  obtain ⟨f1, f2⟩ := floor_bounds q
  rw [abs_le]
  rcases roundEven_cases q with ⟨h, h'⟩ | ⟨h, h'⟩ <;> rw [h] <;> push_cast <;> constructor <;> linarith

theorem floor_unique {q : Rat} {k : Int} (h1 : (k : Rat) ≤ q) (h2 : q < k + 1) : q.floor = k := by
  obtain ⟨f1, f2⟩ := floor_bounds q
  have a : (q.floor : Rat) < k + 1 := by linarith
  have b : (k : Rat) < q.floor + 1 := by linarith
  have a' : q.floor < k + 1 := by exact_mod_cast a
  have b' : k < q.floor + 1 := by exact_mod_cast b
  omega

theorem roundEven_int (k : Int) : roundEven (k : Rat) = k := by
  have h : ((k : Rat)).floor = k := floor_unique (le_refl _) (by linarith)
  unfold roundEven
  rw [h, if_pos (by norm_num)]

theorem roundEven_mono {x y : Rat} (h : x ≤ y) : roundEven x ≤ roundEven y := by
  obtain ⟨f1, f2⟩ := floor_bounds x
  obtain ⟨g1, g2⟩ := floor_bounds y
  have hle : x.floor ≤ y.floor := by
    have : (x.floor : Rat) < y.floor + 1 := by linarith
    have : x.floor < y.floor + 1 := by exact_mod_cast this
    omega
  rcases Int.lt_or_eq_of_le hle with hlt | heq
  · rcases roundEven_cases x with ⟨a, _⟩ | ⟨a, _⟩ <;> rcases roundEven_cases y with ⟨b, _⟩ | ⟨b, _⟩ <;> omega
  · unfold roundEven
    rw [← heq] at *
    split_ifs <;> first | omega | (exfalso; linarith)

/-! ### Rounding to a format -/

/-- The distance between two neighbours of `x`. -/
def FloatFmt.ulp (f : FloatFmt) (x : Rat) : Rat := pow2 (max (expo (mag x)) f.emin - (f.prec - 1))

theorem FloatFmt.near_def (f : FloatFmt) (x : Rat) : f.near x = roundEven (x / f.ulp x) * f.ulp x := rfl

theorem FloatFmt.ulp_pos (f : FloatFmt) (x : Rat) : 0 < f.ulp x := pow2_pos _

theorem FloatFmt.near_err (f : FloatFmt) (x : Rat) : |f.near x - x| ≤ f.ulp x / 2 := by
  have h := roundEven_err (x / f.ulp x)
  have hu := f.ulp_pos x
  have e : f.near x - x = ((roundEven (x / f.ulp x) : Rat) - x / f.ulp x) * f.ulp x := by
    rw [near_def, sub_mul, div_mul_cancel₀ _ (ne_of_gt hu)]
  rw [e, abs_mul, abs_of_pos hu]
  nlinarith

theorem FloatFmt.near_zero (f : FloatFmt) : f.near 0 = 0 := by
  rw [near_def, zero_div]
  have : roundEven 0 = 0 := by simpa using roundEven_int 0
  rw [this]; simp

theorem FloatFmt.near_nonneg (f : FloatFmt) {x : Rat} (h : 0 ≤ x) : 0 ≤ f.near x := by
  rw [near_def]
  have hu := f.ulp_pos x
  have : (0 : Int) ≤ roundEven (x / f.ulp x) := by
    have := roundEven_mono (x := ((0 : Int) : Rat)) (y := x / f.ulp x) (by push_cast; positivity)
    rwa [roundEven_int] at this
  have : (0 : Rat) ≤ roundEven (x / f.ulp x) := by exact_mod_cast this
  positivity

/-- The relative error in the normal range. -/
theorem FloatFmt.near_rel (f : FloatFmt) {x : Rat} (h : pow2 f.emin ≤ x) : |f.near x - x| ≤ pow2 (-f.prec) * x := by
  have hx : 0 < x := lt_of_lt_of_le (pow2_pos _) h
  have hm : mag x = x := by rw [mag_eq, abs_of_pos hx]
  obtain ⟨e1, e2⟩ := expo_spec hx
  have hmax : max (expo (mag x)) f.emin = expo x := by
    rw [hm]
    have := pow2_lt_iff.mp (lt_of_le_of_lt h e2)
    omega
  have hu : f.ulp x / 2 = pow2 (-f.prec) * pow2 (expo x) := by
    unfold ulp
    rw [hmax, ← pow2_add, show expo x - ((f.prec : Int) - 1) = (-(f.prec : Int) + expo x) + 1 by omega, pow2_add _ 1]
    have : pow2 1 = 2 := by decide +kernel
    rw [this]; ring
  have h1 := f.near_err x
  rw [hu] at h1
  exact le_trans h1 (mul_le_mul_of_nonneg_left e1 (le_of_lt (pow2_pos _)))

/-- A multiple of the unit is kept. -/
theorem FloatFmt.near_fix (f : FloatFmt) {x : Rat} (k : Int) (h : x = k * f.ulp x) : f.near x = x := by
  have hu := f.ulp_pos x
  rw [near_def]
  have : x / f.ulp x = k := by rw [div_eq_iff (ne_of_gt hu)]; exact h
  rw [this, roundEven_int]
  exact h.symm

theorem FloatFmt.near_mono (f : FloatFmt) (hp : 1 ≤ f.prec) {x y : Rat} (hx : 0 ≤ x) (h : x ≤ y) : f.near x ≤ f.near y := by
  rcases eq_or_lt_of_le hx with rfl | hx
  · rw [near_zero]; exact f.near_nonneg h
  have hy : 0 < y := lt_of_lt_of_le hx h
  have hmx : mag x = x := by rw [mag_eq, abs_of_pos hx]
  have hmy : mag y = y := by rw [mag_eq, abs_of_pos hy]
  have hmono := expo_mono hx h
  by_cases heq : max (expo x) f.emin = max (expo y) f.emin
  · have hu : f.ulp x = f.ulp y := by unfold ulp; rw [hmx, hmy, heq]
    rw [near_def, near_def, hu]
    have hu := f.ulp_pos y
    have := roundEven_mono (x := x / f.ulp y) (y := y / f.ulp y) (by gcongr)
    have : (roundEven (x / f.ulp y) : Rat) ≤ roundEven (y / f.ulp y) := by exact_mod_cast this
    exact mul_le_mul_of_nonneg_right this (le_of_lt hu)
  · -- a power of two lies between
    set m := max (expo x) f.emin with hm
    have hey : m + 1 ≤ expo y := by omega
    have hmy' : max (expo y) f.emin = expo y := by omega
    have hx2 : x ≤ pow2 (m + 1) := by
      refine le_trans (le_of_lt (expo_spec hx).2) (pow2_le ?_); omega
    have hy2 : pow2 (expo y) ≤ y := (expo_spec hy).1
    have e1 : f.near x ≤ pow2 (m + 1) := by
      have hu : f.ulp x = pow2 (m - (f.prec - 1)) := by unfold ulp; rw [hmx]
      have hup := f.ulp_pos x
      have hq : pow2 (m + 1) = ((2 ^ f.prec : Nat) : Int) * f.ulp x := by
        rw [hu]; push_cast
        have := pow2_nat f.prec
        push_cast at this
        rw [← this, ← pow2_add]; congr 1; omega
      rw [near_def, hq]
      have := roundEven_mono (x := x / f.ulp x) (y := (((2 ^ f.prec : Nat) : Int) : Rat)) (by
        rw [div_le_iff₀ hup, ← hq]; exact hx2)
      rw [roundEven_int] at this
      have : (roundEven (x / f.ulp x) : Rat) ≤ (((2 ^ f.prec : Nat) : Int) : Rat) := by exact_mod_cast this
      exact mul_le_mul_of_nonneg_right this (le_of_lt hup)
    have e2 : pow2 (expo y) ≤ f.near y := by
      have hu : f.ulp y = pow2 (expo y - (f.prec - 1)) := by unfold ulp; rw [hmy, hmy']
      have hup := f.ulp_pos y
      have hq : pow2 (expo y) = ((2 ^ (f.prec - 1) : Nat) : Int) * f.ulp y := by
        rw [hu]; push_cast
        have := pow2_nat (f.prec - 1)
        push_cast at this
        rw [← this, ← pow2_add]; congr 1; omega
      rw [near_def, hq]
      have := roundEven_mono (x := (((2 ^ (f.prec - 1) : Nat) : Int) : Rat)) (y := y / f.ulp y) (by
        rw [le_div_iff₀ hup, ← hq]; exact hy2)
      rw [roundEven_int] at this
      have : (((2 ^ (f.prec - 1) : Nat) : Int) : Rat) ≤ (roundEven (y / f.ulp y) : Rat) := by exact_mod_cast this
      exact mul_le_mul_of_nonneg_right this (le_of_lt hup)
    exact le_trans e1 (le_trans (pow2_le hey) e2)

theorem FloatFmt.round_eq (f : FloatFmt) {x : Rat} (hx : 0 ≤ x) :
    f.round x = if f.near x < pow2 (f.emax + 1) then some (f.near x) else none := by
  unfold round
  rw [mag_eq, abs_of_nonneg (f.near_nonneg hx)]

end GraphMat

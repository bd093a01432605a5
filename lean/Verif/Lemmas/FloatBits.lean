import Verif.Model.FloatBits
import Verif.Lemmas.FloatText

namespace GraphMat

/-! ### Bytes -/

theorem bytesOf_length : ∀ k n, (bytesOf k n).length = k := by
  intro k
  induction k with
  | zero => intro n; rfl
  | succ k ih => intro n; simp [bytesOf, ih]

theorem numOf_bytesOf : ∀ k n, numOf (bytesOf k n) = n % 256 ^ k := by
  intro k
  induction k with
  | zero => intro n; simp [bytesOf, numOf, Nat.mod_one]
  | succ k ih =>
    intro n
    rw [bytesOf, numOf, ih, pow_succ, Nat.mul_comm (256 ^ k) 256, Nat.mod_mul]

/-! ### Bits -/

/-- The parameters of a binary interchange format. -/
structure Ieee (f : FloatFmt) (w : Nat) : Prop where
  prec : 2 ≤ f.prec
  wide : f.prec + 2 ≤ w
  emin : f.emin = 2 - 2 ^ (w - f.prec - 1)
  emax : f.emax = 2 ^ (w - f.prec - 1) - 1

theorem ieee32 : Ieee b32 32 := ⟨by decide, by decide, by decide, by decide⟩
theorem ieee64 : Ieee b64 64 := ⟨by decide, by decide, by decide, by decide⟩

theorem Ieee.le {f : FloatFmt} {w : Nat} (h : Ieee f w) : f.emin ≤ 0 ∧ 1 ≤ f.emax ∧
    f.emax - f.emin + 3 = ((2 ^ (w - f.prec) : Nat) : Int) := by
  have h1 : (2 : Int) ^ 1 ≤ 2 ^ (w - f.prec - 1) := pow_le_pow_right₀ (by norm_num) (by have := h.wide; omega)
  have h2 : ((2 ^ (w - f.prec) : Nat) : Int) = 2 * 2 ^ (w - f.prec - 1) := by
    have : w - f.prec = (w - f.prec - 1) + 1 := by have := h.wide; omega
    rw [this, pow_succ]
    push_cast
    ring
  rw [h2, h.emin, h.emax]
  norm_num at h1
  refine ⟨by linarith, by linarith, by ring⟩

theorem packBits_parts {f : FloatFmt} {w : Nat} (h : Ieee f w) (neg : Bool) {e s : Nat} (he : e < 2 ^ (w - f.prec))
    (hs : s < 2 ^ (f.prec - 1)) :
    (packBits f w neg e s).toNat % 2 ^ (f.prec - 1) = s ∧
    (packBits f w neg e s).toNat / 2 ^ (f.prec - 1) % 2 ^ (w - f.prec) = e ∧
    decide ((packBits f w neg e s).toNat / 2 ^ (w - 1) = 1) = neg := by
  have hp := h.prec
  have hw := h.wide
  have e1 : 2 ^ (w - 1) = 2 ^ (w - f.prec) * 2 ^ (f.prec - 1) := by rw [← pow_add]; congr 1; omega
  have e2 : 2 ^ w = 2 * (2 ^ (w - f.prec) * 2 ^ (f.prec - 1)) := by
    rw [← e1, ← pow_succ']; congr 1; omega
  unfold packBits
  rw [BitVec.toNat_ofNat, e1, e2]
  generalize 2 ^ (w - f.prec) = A at *
  generalize 2 ^ (f.prec - 1) = L at *
  have hA : 0 < A := by omega
  have hL : 0 < L := by omega
  have hlt : e * L + s < A * L := by
    have : (e + 1) * L ≤ A * L := Nat.mul_le_mul_right _ he
    rw [Nat.add_mul, Nat.one_mul] at this
    omega
  have hAL : 0 < A * L := Nat.mul_pos hA hL
  cases neg with
  | false =>
    simp only [Bool.false_eq_true, if_false, Nat.zero_add]
    rw [Nat.mod_eq_of_lt (show e * L + s < 2 * (A * L) by omega)]
    refine ⟨?_, ?_, ?_⟩
    · rw [Nat.mul_comm, Nat.mul_add_mod, Nat.mod_eq_of_lt hs]
    · rw [Nat.mul_comm, Nat.mul_add_div hL, Nat.div_eq_of_lt hs, Nat.add_zero, Nat.mod_eq_of_lt he]
    · rw [Nat.div_eq_of_lt hlt]; rfl
  | true =>
    simp only [if_true]
    rw [Nat.mod_eq_of_lt (show A * L + e * L + s < 2 * (A * L) by omega)]
    have e3 : A * L + e * L + s = L * (A + e) + s := by ring
    refine ⟨?_, ?_, ?_⟩
    · rw [e3, Nat.mul_add_mod, Nat.mod_eq_of_lt hs]
    · rw [e3, Nat.mul_add_div hL, Nat.div_eq_of_lt hs, Nat.add_zero, Nat.add_mod_left, Nat.mod_eq_of_lt he]
    · rw [Nat.add_assoc, Nat.add_div_left _ hAL, Nat.div_eq_of_lt hlt]; rfl

theorem bitsValue_pack {f : FloatFmt} {w : Nat} (h : Ieee f w) (neg : Bool) {e s : Nat} (he : e < 2 ^ (w - f.prec))
    (hs : s < 2 ^ (f.prec - 1)) : bitsValue f (packBits f w neg e s) =
      if e = 2 ^ (w - f.prec) - 1 then if s = 0 then .inf neg else .nan neg
      else if e = 0 then .fin neg (s * pow2 (f.emin - (f.prec - 1)))
      else .fin neg ((2 ^ (f.prec - 1) + s : Nat) * pow2 (e + f.emin - 1 - (f.prec - 1))) := by
  obtain ⟨h1, h2, h3⟩ := packBits_parts h neg he hs
  unfold bitsValue
  simp only
  rw [h1, h2, h3]

theorem floor_int (k : Int) : ((k : Rat)).floor = k := floor_unique (le_refl _) (by linarith)

/-- Storing a value and looking at it gives the value. -/
theorem bitsValue_valueBits {f : FloatFmt} {w : Nat} (h : Ieee f w) {v : FNum} (hv : IsFNum f.prec f.emin f.emax v) :
    bitsValue f (valueBits f w v) = v := by
  have hp := h.prec
  have hw := h.wide
  obtain ⟨hmin, hmax, hrange⟩ := h.le
  have hA4 : 4 ≤ 2 ^ (w - f.prec) := by
    calc 4 = 2 ^ 2 := rfl
      _ ≤ _ := Nat.pow_le_pow_right (by norm_num) (by omega)
  have hL0 : 0 < 2 ^ (f.prec - 1) := by positivity
  cases v with
  | inf neg =>
    rw [valueBits, bitsValue_pack h neg (by omega) hL0, if_pos rfl, if_pos rfl]
  | nan neg =>
    have : 2 ^ (f.prec - 2) < 2 ^ (f.prec - 1) := Nat.pow_lt_pow_right (by norm_num) (by omega)
    rw [valueBits, bitsValue_pack h neg (by omega) this, if_pos rfl, if_neg (by positivity)]
  | fin neg m =>
    obtain ⟨hm, hf⟩ := hv
    unfold valueBits
    simp only
    by_cases hsmall : m < pow2 f.emin
    · rw [if_pos hsmall]
      obtain ⟨k, hk⟩ : ∃ k : Int, m = k * pow2 (f.emin - (f.prec - 1)) := by
        obtain ⟨k, e, a1, a2, a3, a4⟩ := hf
        refine ⟨k * 2 ^ (e - f.emin).toNat, ?_⟩
        rw [a4, pow2_eq]
        push_cast
        rw [mul_assoc]
        congr 1
        rw [← zpow_natCast, ← zpow_add₀ (by norm_num : (2 : Rat) ≠ 0)]
        congr 1
        omega
      have hu := pow2_pos (f.emin - (f.prec - 1))
      have hk0 : 0 ≤ k := by
        by_contra hc
        have : (k : Rat) < 0 := by exact_mod_cast not_le.mp hc
        have := mul_neg_of_neg_of_pos this hu
        rw [← hk] at this
        linarith
      obtain ⟨j, rfl⟩ := Int.eq_ofNat_of_zero_le hk0
      have hj : j < 2 ^ (f.prec - 1) := by
        by_contra hc
        have h1 : ((2 ^ (f.prec - 1) : Nat) : Rat) ≤ (j : Rat) := by exact_mod_cast not_lt.mp hc
        have h2 := mul_le_mul_of_nonneg_right h1 hu.le
        rw [← pow2_nat, ← pow2_add] at h2
        have h3 : ((f.prec - 1 : Nat) : Int) + (f.emin - (f.prec - 1)) = f.emin := by omega
        rw [h3] at h2
        have hk' : m = (j : Rat) * pow2 (f.emin - (f.prec - 1)) := by rw [hk]; push_cast; rfl
        rw [← hk'] at h2
        linarith
      have e1 : m / pow2 (f.emin - (f.prec - 1)) = ((j : Int) : Rat) := by
        rw [hk, mul_div_assoc, div_self (ne_of_gt hu), mul_one]
      rw [e1, floor_int, Int.toNat_natCast, bitsValue_pack h neg (by omega) hj, if_neg (by omega), if_pos rfl, hk]
      push_cast
      rfl
    · rw [if_neg hsmall]
      have hge := not_lt.mp hsmall
      have hpos : 0 < m := lt_of_lt_of_le (pow2_pos _) hge
      obtain ⟨x1, x2⟩ := expo_spec hpos
      have he1 : f.emin ≤ expo m := by
        have := pow2_lt_iff.mp (lt_of_le_of_lt hge x2)
        omega
      have he2 : expo m ≤ f.emax := by
        have h1 := float_le_max hf
        have h2 : (0 : Rat) < (2 : Rat) ^ (f.emax - f.prec + 1) := by positivity
        have h3 : pow2 (expo m) < pow2 (f.emax + 1) := by rw [pow2_eq (f.emax + 1)]; linarith
        have := pow2_lt_iff.mp h3
        omega
      obtain ⟨k, hk⟩ := float_multiple (e := expo m) hf (by rw [abs_of_pos hpos, ← pow2_eq]; exact x1)
      rw [← pow2_eq] at hk
      generalize hE : expo m = e at *
      have hu := pow2_pos (e - (f.prec - 1))
      have hkL : (2 : Int) ^ (f.prec - 1) ≤ k ∧ k < 2 * 2 ^ (f.prec - 1) := by
        have e1 : pow2 e = ((2 ^ (f.prec - 1) : Int) : Rat) * pow2 (e - (f.prec - 1)) := by
          have : ((2 ^ (f.prec - 1) : Int) : Rat) = pow2 ((f.prec - 1 : Nat) : Int) := by rw [pow2_nat]; push_cast; rfl
          rw [this, ← pow2_add]
          congr 1
          omega
        constructor
        · rw [e1, hk] at x1
          have := le_of_mul_le_mul_right x1 hu
          exact_mod_cast this
        · have e2 : pow2 (e + 1) = ((2 * 2 ^ (f.prec - 1) : Int) : Rat) * pow2 (e - (f.prec - 1)) := by
            rw [pow2_add, e1]
            have : pow2 1 = 2 := by decide +kernel
            rw [this]
            push_cast
            ring
          rw [e2, hk] at x2
          have := lt_of_mul_lt_mul_right x2 hu.le
          exact_mod_cast this
      have hk0 : 0 ≤ k := le_trans (by positivity) hkL.1
      obtain ⟨j, rfl⟩ := Int.eq_ofNat_of_zero_le hk0
      have hj1 : 2 ^ (f.prec - 1) ≤ j := by exact_mod_cast hkL.1
      have hj2 : j < 2 * 2 ^ (f.prec - 1) := by exact_mod_cast hkL.2
      have e1 : m / pow2 (e - (f.prec - 1)) = ((j : Int) : Rat) := by
        rw [hk, mul_div_assoc, div_self (ne_of_gt hu), mul_one]
      have hx : (((e - f.emin + 1).toNat : Nat) : Int) = e - f.emin + 1 := by omega
      generalize hX : (e - f.emin + 1).toNat = X at *
      generalize hAA : 2 ^ (w - f.prec) = A at *
      have hXA : X < A - 1 := by
        have : ((A - 1 : Nat) : Int) = (A : Int) - 1 := by omega
        omega
      have hX0 : X ≠ 0 := by omega
      rw [e1, floor_int, Int.toNat_natCast, bitsValue_pack h neg (by rw [hAA]; omega) (by omega), hAA, if_neg (by omega), if_neg hX0, hk]
      congr 1
      rw [Nat.add_sub_of_le hj1, hx]
      have : e - f.emin + 1 + f.emin - 1 - ((f.prec : Int) - 1) = e - ((f.prec : Int) - 1) := by ring
      rw [this]
      push_cast
      rfl

/-- Every pattern of bits is a value of the type. -/
theorem isFNum_bitsValue {f : FloatFmt} {w : Nat} (h : Ieee f w) (b : BitVec w) : IsFNum f.prec f.emin f.emax (bitsValue f b) := by
  have hp := h.prec
  obtain ⟨hmin, hmax, hrange⟩ := h.le
  have hL0 : 0 < 2 ^ (f.prec - 1) := by positivity
  have hA0 : 0 < 2 ^ (w - f.prec) := by positivity
  have h1 := Nat.mod_lt b.toNat hL0
  have h2 := Nat.mod_lt (b.toNat / 2 ^ (f.prec - 1)) hA0
  have hpp : (2 : Nat) ^ f.prec = 2 * 2 ^ (f.prec - 1) := by rw [← pow_succ']; congr 1; omega
  unfold bitsValue
  simp only
  generalize b.toNat % 2 ^ (f.prec - 1) = s at *
  generalize b.toNat / 2 ^ (f.prec - 1) % 2 ^ (w - f.prec) = e at *
  split_ifs with a1 a2 a3
  · trivial
  · trivial
  · refine ⟨mul_nonneg (by positivity) (pow2_pos _).le, s, f.emin, le_refl _, by omega, ?_, ?_⟩
    · have : s < 2 ^ f.prec := by omega
      rw [Int.abs_eq_natAbs, Int.natAbs_natCast]
      exact_mod_cast this
    · rw [pow2_eq]; push_cast; rfl
  · refine ⟨mul_nonneg (by positivity) (pow2_pos _).le, (2 ^ (f.prec - 1) + s : Nat), e + f.emin - 1, by omega, by omega, ?_, ?_⟩
    · have : 2 ^ (f.prec - 1) + s < 2 ^ f.prec := by omega
      rw [Int.abs_eq_natAbs, Int.natAbs_natCast]
      exact_mod_cast this
    · rw [pow2_eq]; push_cast; rfl

end GraphMat

import Verif.Model.Bits
import Verif.Lemmas.Mem

namespace GraphMat

/-- Bit `i` of a bit vector (abstraction used in lemmas; only meaningful for `i/32 < size`). -/
def bitAt (bv : Arr Word) (i : Nat) : Bool := (bv.get (i / 32)).getLsbD (i % 32)

theorem shr5 (i : Nat) : i >>> 5 = i / 32 := by
  rw [Nat.shiftRight_eq_div_pow]

theorem and31 (i : Nat) : i &&& 0x1F = i % 32 := by
  have := Nat.and_two_pow_sub_one_eq_mod i 5
  simpa using this

theorem bitMask_getLsbD {b j : Nat} (hb : b < 32) :
    (bitMask b).getLsbD j = decide (j = b) := by
  unfold bitMask
  rw [BitVec.getLsbD_shiftLeft]
  by_cases h : j = b
  · subst h; simp [hb]
  · rw [decide_eq_false h]
    by_cases h2 : j < b
    · simp [h2]
    · by_cases h3 : j < 32
      · have : j - b ≠ 0 := by omega
        simp [BitVec.getLsbD_one, this]
      · simp [h3]

theorem and_mask_eq_zero {w : Word} {b : Nat} (hb : b < 32) :
    (w &&& bitMask b = 0#32) ↔ w.getLsbD b = false := by
  constructor
  · intro h
    have : (w &&& bitMask b).getLsbD b = false := by rw [h]; simp
    rw [BitVec.getLsbD_and, bitMask_getLsbD hb] at this
    simpa using this
  · intro h
    apply BitVec.eq_of_getLsbD_eq
    intro i hi
    rw [BitVec.getLsbD_and, bitMask_getLsbD hb]
    by_cases h2 : i = b
    · subst h2; simp [h]
    · simp [h2]

theorem getBitvector_eq {bv : Arr Word} {i : Nat} (h : i / 32 < bv.size) :
    getBitvector i bv = some (bitAt bv i) := by
  unfold getBitvector
  simp only [shr5, and31]
  rw [Arr.read_some h]
  simp only [Option.bind_eq_bind, Option.bind_some, Option.some.injEq]
  unfold bitAt
  have := and_mask_eq_zero (w := bv.get (i / 32)) (Nat.mod_lt i (by omega : 32 > 0))
  cases hb : (bv.get (i / 32)).getLsbD (i % 32) with
  | false => rw [this.mpr hb]; rfl
  | true =>
    rw [decide_eq_true_iff]
    intro h
    rw [this.mp h] at hb
    exact absurd hb (by decide)

theorem getBitvector_none {bv : Arr Word} {i : Nat} (h : ¬ i / 32 < bv.size) :
    getBitvector i bv = none := by
  unfold getBitvector
  simp only [shr5]
  unfold Arr.read
  rw [if_neg h]
  rfl

theorem idx_eq {i j : Nat} (h1 : i / 32 = j / 32) (h2 : i % 32 = j % 32) : i = j := by omega

theorem setBitvector_spec {bv : Arr Word} {i : Nat} (h : i / 32 < bv.size) :
    ∃ b, setBitvector i bv = some b ∧ b.size = bv.size ∧
      (∀ j, bitAt b j = if j = i then true else bitAt bv j) ∧
      (∀ w, w ≠ i / 32 → b.get w = bv.get w) := by
  unfold setBitvector
  simp only [shr5, and31]
  rw [Arr.read_some h]
  simp only [Option.bind_eq_bind, Option.bind_some]
  have hm : i % 32 < 32 := Nat.mod_lt i (by omega)
  split
  · rw [Arr.write_some h]
    refine ⟨_, rfl, rfl, ?_, ?_⟩
    · intro j
      unfold bitAt
      rw [Arr.upd_get]
      by_cases hd : j / 32 = i / 32
      · rw [if_pos hd, BitVec.getLsbD_or, bitMask_getLsbD hm]
        by_cases hj : j = i
        · subst hj; simp
        · rw [if_neg hj]
          have : j % 32 ≠ i % 32 := fun h => hj (idx_eq hd h)
          simp [this, hd]
      · rw [if_neg hd, if_neg (by intro h; exact hd (by rw [h]))]
    · intro w hw; exact Arr.upd_get_ne _ _ hw
  · rename_i hne
    refine ⟨bv, rfl, rfl, ?_, fun _ _ => rfl⟩
    intro j
    by_cases hj : j = i
    · subst hj
      rw [if_pos rfl]
      unfold bitAt
      cases hb : (bv.get (j / 32)).getLsbD (j % 32) with
      | false => exact absurd ((and_mask_eq_zero hm).mpr hb) hne
      | true => rfl
    · rw [if_neg hj]

theorem clearBitvector_spec {bv : Arr Word} {i : Nat} (h : i / 32 < bv.size) :
    ∃ b, clearBitvector i bv = some b ∧ b.size = bv.size ∧
      (∀ j, bitAt b j = if j = i then false else bitAt bv j) ∧
      (∀ w, w ≠ i / 32 → b.get w = bv.get w) := by
  unfold clearBitvector
  simp only [shr5, and31]
  rw [Arr.read_some h]
  simp only [Option.bind_eq_bind, Option.bind_some]
  have hm : i % 32 < 32 := Nat.mod_lt i (by omega)
  split
  · rename_i hne
    have hset : (bv.get (i / 32)).getLsbD (i % 32) = true := by
      cases hb : (bv.get (i / 32)).getLsbD (i % 32) with
      | false => exact absurd ((and_mask_eq_zero hm).mpr hb) hne
      | true => rfl
    rw [Arr.write_some h]
    refine ⟨_, rfl, rfl, ?_, ?_⟩
    · intro j
      unfold bitAt
      rw [Arr.upd_get]
      by_cases hd : j / 32 = i / 32
      · rw [if_pos hd, BitVec.getLsbD_xor, bitMask_getLsbD hm]
        by_cases hj : j = i
        · subst hj; simp [hset]
        · rw [if_neg hj]
          have : j % 32 ≠ i % 32 := fun h => hj (idx_eq hd h)
          simp [this, hd]
      · rw [if_neg hd, if_neg (by intro h; exact hd (by rw [h]))]
    · intro w hw; exact Arr.upd_get_ne _ _ hw
  · rename_i hne
    refine ⟨bv, rfl, rfl, ?_, fun _ _ => rfl⟩
    intro j
    by_cases hj : j = i
    · subst hj
      rw [if_pos rfl]
      have : bv.get (j / 32) &&& bitMask (j % 32) = 0#32 := by
        rcases Classical.em (bv.get (j / 32) &&& bitMask (j % 32) = 0#32) with h | h
        · exact h
        · exact absurd h hne
      exact (and_mask_eq_zero hm).mp this
    · rw [if_neg hj]

theorem memsetZero_spec {bv : Arr Word} {n : Nat} (h : n = bv.size) :
    ∃ b, memsetZero n bv = some b ∧ b.size = bv.size ∧
      ∀ w, w < bv.size → b.get w = 0#32 := by
  obtain ⟨b, h1, h2, h3⟩ := forLoop_fill (a := bv) (n := n) (f := fun _ => 0#32) (by omega)
  refine ⟨b, h1, h2, ?_⟩
  intro w hw
  rw [h3, if_pos (by omega)]

theorem bitAt_zero {bv : Arr Word} {i : Nat} (h : bv.get (i / 32) = 0#32) : bitAt bv i = false := by
  unfold bitAt; rw [h]; simp

end GraphMat

import Verif.Lemmas.Layout
import Verif.Spec.Tiles
import Mathlib.Data.Int.CardIntervalMod
import Mathlib.Tactic.Linarith
import Mathlib.Tactic.Ring

/-!
# Counting tiles
-/
namespace GraphMat

theorem roundSqrt_range (val m : Nat) (hm : 0 < m) :
    let s := (List.range m).foldl (fun s k => if (2 * k - 1) * (2 * k - 1) ≤ 4 * val then k else s) 0
    s < m ∧ (2 * s - 1) * (2 * s - 1) ≤ 4 * val ∧ ∀ k, k < m → (2 * k - 1) * (2 * k - 1) ≤ 4 * val → k ≤ s := by
  induction m with
  | zero => omega
  | succ m ih =>
    rw [List.range_succ, List.foldl_append, List.foldl_cons, List.foldl_nil]
    split
    · next h => exact ⟨by omega, h, fun k hk _ => by omega⟩
    · next h =>
      rcases Nat.eq_zero_or_pos m with rfl | h0
      · exact absurd (Nat.zero_le _) h
      · obtain ⟨i1, i2, i3⟩ := ih h0
        refine ⟨Nat.lt_succ_of_lt i1, i2, fun k hk hle => i3 k ?_ hle⟩
        rcases Nat.lt_or_ge k m with h' | h'
        · exact h'
        · exact absurd (by rwa [show k = m by omega] at hle) h

theorem roundSqrt_low (val : Nat) : (2 * roundSqrt val - 1) * (2 * roundSqrt val - 1) ≤ 4 * val :=
  (roundSqrt_range val (val + 1) (by omega)).2.1

/-- The divisors up to the square root are searched. -/
theorem roundSqrt_ge {val c : Nat} (h : c * c ≤ val) : c ≤ roundSqrt val := by
  rcases Nat.eq_zero_or_pos c with rfl | hc
  · omega
  · refine (roundSqrt_range val (val + 1) (by omega)).2.2 c ?_ ?_
    · have : c * 1 ≤ c * c := Nat.mul_le_mul_left _ hc
      omega
    · obtain ⟨d, rfl⟩ : ∃ d, c = d + 1 := ⟨c - 1, by omega⟩
      have e : 2 * (d + 1) - 1 = 2 * d + 1 := by omega
      rw [e]
      nlinarith

/-- How many of the first `t` numbers leave remainder `k`. -/
theorem count_mod {t m k : Nat} (hk : k < m) :
    ((Finset.range t).filter (fun x => x % m = k)).card = t / m + if k < t % m then 1 else 0 := by
  have h := Nat.count_modEq_card t (r := m) (by omega) k
  rw [Nat.count_eq_card_filter_range] at h
  simp only [Nat.ModEq, Nat.mod_eq_of_lt hk] at h
  exact h

theorem tilesOf_2d {nrank ny nx : Nat} (hf : factorizeInt nrank = some (ny, nx)) (he : ny * nx = nrank) (h : 1 ≤ nrank) {t r : Nat}
    (hr : r < nrank) : tilesOf (fun x y => partitionFn2d x y nrank) t r =
      (t / nx + if r / ny < t % nx then 1 else 0) * (t / ny + if r % ny < t % ny then 1 else 0) := by
  have hy : 0 < ny := by
    rcases Nat.eq_zero_or_pos ny with h0 | h0
    · subst h0; simp at he; omega
    · exact h0
  have hrx : r / ny < nx := by
    rw [Nat.div_lt_iff_lt_mul hy, Nat.mul_comm, he]; exact hr
  have hry : r % ny < ny := Nat.mod_lt _ hy
  unfold tilesOf
  have heq : (Finset.range t ×ˢ Finset.range t).filter (fun p => partitionFn2d p.1 p.2 nrank = some r) =
      (Finset.range t).filter (fun x => x % nx = r / ny) ×ˢ (Finset.range t).filter (fun y => y % ny = r % ny) := by
    ext ⟨x, y⟩
    simp only [Finset.mem_filter, Finset.mem_product, Finset.mem_range]
    have key : partitionFn2d x y nrank = some r ↔ x % nx = r / ny ∧ y % ny = r % ny := by
      simp only [partitionFn2d, hf, Option.bind_eq_bind, Option.bind_some, Option.some.injEq]
      have hm : y % ny < ny := Nat.mod_lt _ hy
      constructor
      · intro hh
        rw [← hh, Nat.mul_comm, Nat.add_mul_div_left _ _ hy, Nat.add_mul_mod_self_left, Nat.div_eq_of_lt hm, Nat.mod_mod]
        omega
      · rintro ⟨h1, h2⟩
        rw [h1, h2, Nat.mul_comm]
        exact Nat.mod_add_div r ny
    rw [key]
    tauto
  rw [heq, Finset.card_product, count_mod hrx, count_mod hry]

theorem tilesOf_1d {nrank t r : Nat} (h : 1 ≤ nrank) (hr : r < nrank) :
    tilesOf (fun x y => partitionFn1d x y nrank) t r = t * (t / nrank + if r < t % nrank then 1 else 0) := by
  unfold tilesOf
  have heq : (Finset.range t ×ˢ Finset.range t).filter (fun p => partitionFn1d p.1 p.2 nrank = some r) =
      Finset.range t ×ˢ (Finset.range t).filter (fun y => y % nrank = r) := by
    ext ⟨x, y⟩
    simp only [Finset.mem_filter, Finset.mem_product, Finset.mem_range, partitionFn1d, if_neg (show nrank ≠ 0 by omega),
      Option.some.injEq]
    tauto
  rw [heq, Finset.card_product, count_mod hr, Finset.card_range]

end GraphMat

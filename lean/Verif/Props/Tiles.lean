import Verif.Props.Layout
import Verif.Lemmas.Tiles

/-!
# C75: the layouts give every rank its share
-/
namespace GraphMat

/-- C75, the shape: `factorize_int` gives the two factors nearest to a square, the smaller one first. -/
theorem factorize_most_square {val : Nat} (h : 1 ≤ val) : ∃ a b, factorizeInt val = some (a, b) ∧ a * b = val ∧ a ≤ b ∧
    ∀ c d, c * d = val → c ≤ d → c ≤ a ∧ b ≤ d := by
  obtain ⟨a, b, h1, h2, h3, h4, h5⟩ := factorizeLoop_spec (val := val) (roundSqrt val) (roundSqrt_pos h)
  have hab : a ≤ b := by
    by_contra hc
    have hl := roundSqrt_low val
    have h6 : (2 * a - 1) * (2 * a - 1) ≤ 4 * val :=
      Nat.le_trans (Nat.mul_le_mul (by omega) (by omega)) hl
    obtain ⟨d, rfl⟩ : ∃ d, a = d + 1 := ⟨a - 1, by omega⟩
    have e : 2 * (d + 1) - 1 = 2 * d + 1 := by omega
    rw [e, ← h4] at h6
    have h7 : (d + 1) * b ≤ (d + 1) * d := Nat.mul_le_mul_left _ (by omega)
    nlinarith
  refine ⟨a, b, h1, h4, hab, ?_⟩
  intro c d hcd hle
  have hca : c ≤ a := by
    by_contra hc
    refine h5 c (by omega) (roundSqrt_ge ?_) ⟨d, hcd.symm⟩
    rw [← hcd]
    exact Nat.mul_le_mul_left _ hle
  refine ⟨hca, ?_⟩
  by_contra hbd
  have hb : c * d ≤ a * d := Nat.mul_le_mul_right _ hca
  have hb' : a * d < a * b := Nat.mul_lt_mul_of_pos_left (by omega) (by omega)
  omega

example : factorizeInt 12 = some (3, 4) ∧ factorizeInt 20 = some (4, 5) ∧ factorizeInt 13 = some (1, 13) := by decide

/-- C75, the shares: on any positive number of ranks, layouts 1 and 3 give every rank exactly as many tiles as there are
ranks; layout 2 makes the fewest rows and columns with which every rank has a tile of its own column, and the numbers of tiles of
two ranks differ by at most 1. -/
theorem layouts_balanced {nrank : Nat} (h : 1 ≤ nrank) :
    (∀ layout, layout = 1 ∨ layout = 3 → tilesPerDim layout nrank = some nrank ∧
      ∀ r, r < nrank → tilesOf (fun x y => layoutFn layout x y nrank) nrank r = nrank) ∧
    ∃ a b, a * b = nrank ∧ a ≤ b ∧ tilesPerDim 2 nrank = some b ∧
      (∀ r, r < nrank → b / a ≤ tilesOf (fun x y => layoutFn 2 x y nrank) b r ∧
        tilesOf (fun x y => layoutFn 2 x y nrank) b r ≤ b / a + 1 ∧ 1 ≤ tilesOf (fun x y => layoutFn 2 x y nrank) b r) ∧
      ∀ t, t < b → ∃ r, r < nrank ∧ tilesOf (fun x y => layoutFn 2 x y nrank) t r = 0 := by
  obtain ⟨a, b, h1, h2, h3, _⟩ := factorize_most_square h
  have ha : 0 < a := by
    rcases Nat.eq_zero_or_pos a with h0 | h0
    · subst h0; simp at h2; omega
    · exact h0
  have hb : 0 < b := by omega
  constructor
  · rintro layout (rfl | rfl)
    · refine ⟨rfl, fun r hr => ?_⟩
      show tilesOf (fun x y => partitionFn1d x y nrank) nrank r = nrank
      rw [tilesOf_1d h hr, Nat.div_self h, Nat.mod_self, if_neg (Nat.not_lt_zero _)]
      simp
    · refine ⟨?_, fun r hr => ?_⟩
      · simp [tilesPerDim, h1]
      · show tilesOf (fun x y => partitionFn2d x y nrank) nrank r = nrank
        rw [tilesOf_2d h1 h2 h hr]
        have e1 : nrank / b = a := by rw [← h2]; exact Nat.mul_div_cancel _ hb
        have e2 : nrank / a = b := by rw [← h2]; exact Nat.mul_div_cancel_left _ ha
        have e3 : nrank % b = 0 := by rw [← h2]; exact Nat.mul_mod_left _ _
        have e4 : nrank % a = 0 := by rw [← h2]; exact Nat.mul_mod_right _ _
        rw [e1, e2, e3, e4, if_neg (Nat.not_lt_zero _), if_neg (Nat.not_lt_zero _)]
        exact h2
  · refine ⟨a, b, h2, h3, ?_, ?_, ?_⟩
    · simp only [tilesPerDim, h1, Option.bind_eq_bind, Option.bind_some]
      rw [if_neg (by decide), if_pos trivial]
      congr 1
      split <;> omega
    · intro r hr
      show _ ≤ tilesOf (fun x y => partitionFn2d x y nrank) b r ∧ tilesOf (fun x y => partitionFn2d x y nrank) b r ≤ _ ∧
        1 ≤ tilesOf (fun x y => partitionFn2d x y nrank) b r
      rw [tilesOf_2d h1 h2 h hr, Nat.div_self hb, Nat.mod_self, if_neg (Nat.not_lt_zero _), Nat.add_zero, Nat.one_mul]
      have : 1 ≤ b / a := (Nat.one_le_div_iff ha).mpr h3
      split <;> omega
    · intro t ht
      have hlt : (b - 1) * a < nrank := by
        rw [← h2, Nat.mul_comm a b]
        exact Nat.mul_lt_mul_of_pos_right (by omega) ha
      refine ⟨(b - 1) * a, hlt, ?_⟩
      show tilesOf (fun x y => partitionFn2d x y nrank) t _ = 0
      rw [tilesOf_2d h1 h2 h hlt, Nat.mul_div_cancel _ ha, Nat.div_eq_of_lt ht, Nat.mod_eq_of_lt ht, if_neg (by omega)]
      simp

/-- Six ranks: two rows and three columns of ranks. -/
example : tilesPerDim 1 6 = some 6 ∧ tilesPerDim 2 6 = some 3 ∧ tilesPerDim 3 6 = some 6 ∧
    (List.range 6).map (fun r => tilesOf (fun x y => layoutFn 2 x y 6) 3 r) = [2, 1, 2, 1, 2, 1] ∧
    (List.range 6).map (fun r => tilesOf (fun x y => layoutFn 3 x y 6) 6 r) = [6, 6, 6, 6, 6, 6] := by decide +kernel

/-- C75, no ranks: `get_fn_and_tiles` fails for a layout other than 1, 2 and 3 and divides by zero without ranks. -/
theorem layouts_undefined (layout nrank : Nat) : tilesPerDim layout nrank = none ↔
    ¬ (layout = 1 ∨ layout = 2 ∨ layout = 3) ∨ (nrank = 0 ∧ layout ≠ 1) := by
  rcases Nat.eq_zero_or_pos nrank with rfl | h
  · unfold tilesPerDim
    rw [factorizeInt_zero]
    split_ifs <;> simp <;> omega
  · obtain ⟨a, b, h1, _⟩ := factorize_most_square h
    unfold tilesPerDim
    rw [h1]
    split_ifs <;> simp <;> omega

example : tilesPerDim 4 6 = none ∧ tilesPerDim 1 0 = some 0 := by decide

end GraphMat

import Verif.Model.IntFormats
import Verif.Lemmas.IntLayout
import Verif.Lemmas.FmtDcsr

/-!
# Checked `int` arithmetic of the other tile formats: lemmas
-/
namespace GraphMat

/-- `rows_per_partition` -/
def rowsPer (m np : Nat) : Nat := (m + np - 1) / np

/-- `rows_per_partition`, rounded -/
def rowsPer32 (m np : Nat) : Nat := ((m + np - 1) / np + 31) / 32 * 32

theorem rowsPerC_some {m np : Nat} (hnp : 0 < np) (h : m + np ≤ IMAX) : rowsPerC m np = some ((rowsPer m np : Nat) : Int) := by
  unfold rowsPerC rowsPer
  simp only [Option.bind_eq_bind]
  rw [cadd_nat h, Option.bind_some, csub_lit (b := 1) (by omega) h 1 rfl, Option.bind_some, cdiv_nat hnp (by omega)]

theorem cadd_none {a b : Nat} (h : ¬ a + b ≤ IMAX) : cadd (a : Int) (b : Int) = none := by
  unfold cadd
  apply ck_none
  unfold INT_MAX
  unfold IMAX at h
  omega

theorem cmul_none {a b : Nat} (h : ¬ a * b ≤ IMAX) : cmul (a : Int) (b : Int) = none := by
  unfold cmul
  rw [← Int.natCast_mul]
  apply ck_none
  unfold INT_MAX
  unfold IMAX at h
  generalize a * b = c at *
  omega

theorem rowsPerC_none {m np : Nat} (h : ¬ m + np ≤ IMAX) : rowsPerC m np = none := by
  unfold rowsPerC
  rw [cadd_none h]
  rfl

/-- Four partitions per thread, so at most a quarter of the rows in each. -/
theorem rowsPer_quarter {m np : Nat} (hnp : 4 ≤ np) (h : m + np ≤ IMAX) : rowsPer m np + 31 ≤ IMAX := by
  have h1 : rowsPer m np ≤ (m + np - 1) / 4 := Nat.div_le_div_left hnp (by decide)
  unfold IMAX at *
  omega

theorem rowsPer32C_some {m np : Nat} (hnp : 4 ≤ np) (h : m + np ≤ IMAX) : rowsPer32C m np = some ((rowsPer32 m np : Nat) : Int) := by
  have h2 := rowsPer_quarter hnp h
  have e : rowsPer32 m np = (rowsPer m np + 31) / 32 * 32 := rfl
  unfold rowsPer32C
  simp only [Option.bind_eq_bind]
  rw [rowsPerC_some (by omega) h, Option.bind_some, cadd_lit (b := 31) h2 31 rfl, Option.bind_some,
    cdiv_lit (b := 32) (by decide) h2 32 rfl, Option.bind_some, cmul_lit (b := 32) (by omega) 32 rfl, e]

theorem rowsPer32C_none {m np : Nat} (h : ¬ m + np ≤ IMAX) : rowsPer32C m np = none := by
  unfold rowsPer32C
  rw [rowsPerC_none h]
  rfl

theorem rowRangeC_some {m rpp p np : Nat} (hp : p < np) (hnp : np ≤ IMAX) (h : np * rpp ≤ IMAX) :
    rowRangeC m rpp p = some (((min (p * rpp) m : Nat) : Int), ((min ((p + 1) * rpp) m : Nat) : Int)) := by
  have h1 : (p + 1) * rpp ≤ np * rpp := Nat.mul_le_mul_right _ hp
  have h2 : p * rpp ≤ (p + 1) * rpp := Nat.mul_le_mul_right _ (Nat.le_succ p)
  unfold rowRangeC
  simp only [Option.bind_eq_bind]
  rw [cmul_nat (by omega), Option.bind_some, cadd_one (by omega), Option.bind_some, cmul_nat (by omega), Option.bind_some]
  generalize p * rpp = a
  generalize (p + 1) * rpp = b
  congr 2 <;> omega

theorem rowRangeC_none {m rpp np : Nat} (hnp : 0 < np) (h : ¬ np * rpp ≤ IMAX) : rowRangeC m rpp ((np - 1 : Nat) : Int) = none := by
  unfold rowRangeC
  simp only [Option.bind_eq_bind]
  cases cmul ((np - 1 : Nat) : Int) (rpp : Int) with
  | none => rfl
  | some s =>
    rw [Option.bind_some]
    by_cases h1 : np ≤ IMAX
    · rw [cadd_one (by omega), Option.bind_some, show np - 1 + 1 = np by omega, cmul_none h]
      rfl
    · have := cadd_none (a := np - 1) (b := 1) (by omega)
      rw [show cadd ((np - 1 : Nat) : Int) 1 = none from this]
      rfl

theorem forLoop_none {σ : Type} {lo hi : Nat} {f : Nat → σ → Option σ} (h : lo ≤ hi) (hf : ∀ s, f hi s = none) (s : σ) :
    forLoop lo (hi + 1) s f = none := by
  rw [forLoop_succ_right h]
  cases forLoop lo hi s f with
  | none => rfl
  | some s' => exact hf s'

theorem rowsPer_mul_le {m np : Nat} : np * rowsPer m np ≤ m + np - 1 := by
  unfold rowsPer
  exact Nat.mul_div_le _ _

theorem rowsPer32_mul_le {m np : Nat} (h : 0 < np) : np * rowsPer32 m np ≤ m + 32 * np := by
  have h1 := rowsPer_mul_le (m := m) (np := np)
  have h2 : rowsPer32 m np ≤ rowsPer m np + 31 := Nat.div_mul_le_self _ _
  have h3 : np * rowsPer32 m np ≤ np * (rowsPer m np + 31) := Nat.mul_le_mul_left _ h2
  rw [Nat.mul_add] at h3
  omega

/-- At most 32 rows are in one word. -/
theorem dcsrSkip_le {rowIds : Arr Int} {N k r r' : Nat} {x : Int} (h : dcsrSkip rowIds x k r = some r') (hk : r + k = N)
    (hpos : ∀ i, i < N → 0 ≤ rowIds.get i) (hinc : ∀ i j, i < j → j < N → rowIds.get i < rowIds.get j) : r' ≤ r + 32 := by
  obtain ⟨h1, h2, _, h4⟩ := dcsrSkip_bound h hk
  by_contra hc
  have hgrow : ∀ d, r + d < r' → rowIds.get r + d ≤ rowIds.get (r + d) := by
    intro d
    induction d with
    | zero => intro _; simp
    | succ d ih =>
      intro hd
      have a := ih (by omega)
      have b := hinc (r + d) (r + (d + 1)) (by omega) (by omega)
      omega
  have a := hgrow 32 (by omega)
  have b := h4 r (by omega) (by omega)
  have c := h4 (r + 32) (by omega) (by omega)
  have p1 := hpos r (by omega)
  have p2 := hpos (r + 32) (by omega)
  rw [Int.tdiv_eq_ediv_of_nonneg p1] at b
  rw [Int.tdiv_eq_ediv_of_nonneg p2] at c
  omega

theorem dcsrPartsC_eq {behind : Option Int} {g : Nat → Nat} {numRows threads : Nat} {rowIds : Arr Int} (ht : 0 < threads)
    (h : numRows + 33 * (threads * 4) ≤ IMAX) (hpos : ∀ i, i < numRows → 0 ≤ rowIds.get i)
    (hinc : ∀ i j, i < j → j < numRows → rowIds.get i < rowIds.get j) :
    dcsrPartsC behind g numRows threads rowIds = dcsrParts behind g numRows (threads * 4) rowIds := by
  unfold dcsrPartsC dcsrParts
  simp only [Option.bind_eq_bind]
  rw [cmul_lit (b := 4) (by omega) 4 rfl, Option.bind_some, cadd_one (by omega), Option.bind_some,
    rowsPerC_some (by omega) (by omega), Option.bind_some, if_neg (by omega), Int.toNat_natCast, Int.toNat_natCast,
    Arr.write_some (show 0 < threads * 4 + 1 by omega), Option.bind_some, Option.bind_some]
  rw [show (numRows + threads * 4 - 1) / (threads * 4) = rowsPer numRows (threads * 4) from rfl]
  have hmul := rowsPer_mul_le (m := numRows) (np := threads * 4)
  generalize hnp : threads * 4 = np at *
  generalize rowsPer numRows np = rpp at *
  refine congrArg (fun o : Option (Arr Nat) => o.bind _) (forLoop_congr_inv (fun p pp => ∀ q, q < p → pp.get q ≤ q * (rpp + 32))
    (by omega) ?_ ?_).1
  · intro q hq
    have : q = 0 := by omega
    subst this
    simp
  · intro p pp h1 h2 hi
    have key : ∀ prev, pp.read (p - 1) = some prev → prev + rpp + 32 ≤ p * (rpp + 32) := by
      intro prev hr
      have e := (Arr.read_eq_some.mp hr).2
      have := hi (p - 1) (by omega)
      rw [e] at this
      have e2 : p * (rpp + 32) = (p - 1) * (rpp + 32) + (rpp + 32) := by
        conv => lhs; rw [show p = (p - 1) + 1 by omega]
        rw [Nat.add_mul, Nat.one_mul]
      omega
    have hb : p * (rpp + 32) ≤ np * (rpp + 32) := Nat.mul_le_mul_right _ (by omega)
    rw [Nat.mul_add np] at hb
    cases hr : pp.read (p - 1) with
    | none => exact ⟨rfl, fun s' h => absurd h (by simp)⟩
    | some prev =>
      have k := key prev hr
      have hx : prev + rpp ≤ IMAX := by unfold IMAX at *; omega
      simp only [Option.bind_some]
      rw [cadd_nat hx, Option.bind_some]
      have em : (min ((prev + rpp : Nat) : Int) (numRows : Int)).toNat = min (prev + rpp) numRows := by omega
      rw [em]
      refine ⟨rfl, ?_⟩
      intro s' hs
      simp only [Option.bind_eq_some_iff] at hs
      obtain ⟨x, _, r, hsk, hw⟩ := hs
      obtain ⟨_, e2⟩ := Arr.write_eq_some.mp hw
      subst e2
      have hle := dcsrSkip_le hsk (N := numRows) (by omega) hpos hinc
      intro q hq
      by_cases he : q = p
      · subst he
        rw [Arr.upd_get_self]
        omega
      · rw [Arr.upd_get_ne _ _ he]
        exact hi q (by omega)

end GraphMat

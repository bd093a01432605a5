import Verif.Lemmas.IntFormats
import Verif.Props.IntLayout

/-!
# C69 for the other tile formats

`threads` is what `omp_get_max_threads()` returns; these formats make four partitions per thread.  `IMAX` is 2147483647.
-/
namespace GraphMat

/-- **C69** for COO and COO-SIMD tiles, exact: the division of the rows of a tile among partitions is computed without overflow, and
then as in the model without it, if and only if these two numbers fit into an `int`. -/
theorem coo_rows_exact {m threads nnz : Nat} (ht : 0 < threads) (search : Int → Option Int) (g : Nat → Nat) :
    cooPartsC search g m threads nnz =
      if m + threads * 4 ≤ IMAX ∧ threads * 4 * (((m + threads * 4 - 1) / (threads * 4) + 31) / 32 * 32) ≤ IMAX
      then cooParts search g m (threads * 4) (((m + threads * 4 - 1) / (threads * 4) + 31) / 32 * 32) nnz else none := by
  rw [show ((m + threads * 4 - 1) / (threads * 4) + 31) / 32 * 32 = rowsPer32 m (threads * 4) from rfl]
  unfold cooPartsC
  simp only [Option.bind_eq_bind]
  by_cases h4 : threads * 4 ≤ IMAX
  · rw [cmul_lit (b := 4) h4 4 rfl, Option.bind_some]
    by_cases h1 : m + threads * 4 ≤ IMAX
    · rw [rowsPer32C_some (by omega) h1, Option.bind_some, cadd_one (by unfold IMAX at *; omega), Option.bind_some,
        Int.toNat_natCast, Int.toNat_natCast]
      by_cases h2 : threads * 4 * rowsPer32 m (threads * 4) ≤ IMAX
      · rw [if_pos ⟨h1, h2⟩]
        unfold cooParts
        simp only [Option.bind_eq_bind]
        refine congrArg (fun o : Option (Arr Nat) => o.bind _) (forLoop_congr ?_)
        intro p ps _ hp
        rw [rowRangeC_some hp h4 h2, Option.bind_some, cadd_one (by omega), Option.bind_some]
        have e : ((min (p * rowsPer32 m (threads * 4)) m + 1 : Nat) : Int) =
          ((min (p * rowsPer32 m (threads * 4)) m : Nat) : Int) + 1 := by omega
        rw [e]
        refine congrArg (Option.bind _) (funext fun s => ?_)
        rw [cadd_one (by omega), Option.bind_some]
        have e : ((min ((p + 1) * rowsPer32 m (threads * 4)) m + 1 : Nat) : Int) =
          ((min ((p + 1) * rowsPer32 m (threads * 4)) m : Nat) : Int) + 1 := by omega
        rw [e]
      · rw [if_neg (fun h => h2 h.2)]
        obtain ⟨k, hk⟩ : ∃ k, threads * 4 = k + 1 := ⟨threads * 4 - 1, by omega⟩
        have hn := rowRangeC_none (m := m) (np := threads * 4) (by omega) h2
        rw [show threads * 4 - 1 = k by omega] at hn
        conv => lhs; arg 1; rw [hk]
        rw [forLoop_none (Nat.zero_le _)]
        · rfl
        · intro s
          rw [hk] at hn
          rw [hn]
          rfl
    · rw [if_neg (fun h => h1 h.1), rowsPer32C_none h1]
      rfl
  · rw [if_neg (fun h => by omega)]
    have := cmul_none (a := threads) (b := 4) h4
    rw [show cmul (threads : Int) 4 = none from this]
    rfl

/-- A sufficient condition. -/
theorem coo_rows_partial {m threads nnz : Nat} (ht : 0 < threads) (h : m + 128 * threads ≤ IMAX) (search : Int → Option Int)
    (g : Nat → Nat) : cooPartsC search g m threads nnz =
      cooParts search g m (threads * 4) (((m + threads * 4 - 1) / (threads * 4) + 31) / 32 * 32) nnz := by
  have := rowsPer32_mul_le (m := m) (np := threads * 4) (by omega)
  rw [coo_rows_exact ht, if_pos ⟨by omega, by change threads * 4 * rowsPer32 m (threads * 4) ≤ IMAX; omega⟩]

/-- A tile of 1000 rows, two threads: partitions of 128 rows; with `search x = x` their first rows are visible. -/
example : (cooPartsC some (fun _ => 0) 1000 2 5).map (fun a => (List.range 9).map a.get) =
    some [1, 129, 257, 385, 513, 641, 769, 897, 5] := by decide +kernel

/-- The largest tile with one thread, and the next one. -/
example : (4 * (((2147483520 + 4 - 1) / 4 + 31) / 32 * 32) ≤ IMAX) ∧ ¬ (4 * (((2147483521 + 4 - 1) / 4 + 31) / 32 * 32) ≤ IMAX) := by
  unfold IMAX; omega

/-- The number of blocks of 32 rows in a partition of a COO-SIMD tile. -/
theorem simd_blocks_exact {m threads p : Nat} (hp : p < threads * 4) (h1 : m + threads * 4 ≤ IMAX)
    (h2 : threads * 4 * (((m + threads * 4 - 1) / (threads * 4) + 31) / 32 * 32) ≤ IMAX) :
    ∃ rpp, rpp = ((m + threads * 4 - 1) / (threads * 4) + 31) / 32 * 32 ∧
      simdBlocksC m rpp p = some (((min ((p + 1) * rpp) m - min (p * rpp) m + 31) / 32 : Nat) : Int) := by
  refine ⟨_, rfl, ?_⟩
  have hq := rowsPer_quarter (m := m) (np := threads * 4) (by omega) h1
  have hle : rowsPer32 m (threads * 4) ≤ rowsPer m (threads * 4) + 31 := Nat.div_mul_le_self _ _
  have hq' : rowsPer m (threads * 4) ≤ (m + threads * 4 - 1) / 4 := Nat.div_le_div_left (by omega) (by decide)
  change threads * 4 * rowsPer32 m (threads * 4) ≤ IMAX at h2
  change simdBlocksC m (rowsPer32 m (threads * 4) : Nat) p =
    some (((min ((p + 1) * rowsPer32 m (threads * 4)) m - min (p * rowsPer32 m (threads * 4)) m + 31) / 32 : Nat) : Int)
  unfold simdBlocksC
  simp only [Option.bind_eq_bind]
  rw [rowRangeC_some hp (by omega) h2, Option.bind_some]
  have hm : (p + 1) * rowsPer32 m (threads * 4) = p * rowsPer32 m (threads * 4) + rowsPer32 m (threads * 4) := by
    rw [Nat.add_mul, Nat.one_mul]
  rw [hm]
  generalize rowsPer32 m (threads * 4) = rpp at *
  generalize p * rpp = a at *
  rw [csub_nat (by omega) (by omega), Option.bind_some, cadd_lit (b := 31) (by unfold IMAX at *; omega) 31 rfl, Option.bind_some,
    cdiv_lit (b := 32) (by decide) (by unfold IMAX at *; omega) 32 rfl]

example : simdBlocksC 1000 128 7 = some 4 := by decide +kernel

/-- **C69** for the product with a CSR tile, exact: the ranges of rows. -/
theorem csr_product_rows_exact {m threads : Nat} (ht : 0 < threads) :
    rowRanges32C m threads =
      if m + threads * 4 ≤ IMAX ∧ threads * 4 * (((m + threads * 4 - 1) / (threads * 4) + 31) / 32 * 32) ≤ IMAX
      then some ((List.range (threads * 4)).map (fun p =>
        (((min (p * (((m + threads * 4 - 1) / (threads * 4) + 31) / 32 * 32)) m : Nat) : Int),
          ((min ((p + 1) * (((m + threads * 4 - 1) / (threads * 4) + 31) / 32 * 32)) m : Nat) : Int)))) else none := by
  rw [show ((m + threads * 4 - 1) / (threads * 4) + 31) / 32 * 32 = rowsPer32 m (threads * 4) from rfl]
  unfold rowRanges32C
  simp only [Option.bind_eq_bind]
  by_cases h4 : threads * 4 ≤ IMAX
  · rw [cmul_lit (b := 4) h4 4 rfl, Option.bind_some]
    by_cases h1 : m + threads * 4 ≤ IMAX
    · rw [rowsPer32C_some (by omega) h1, Option.bind_some, Int.toNat_natCast]
      by_cases h2 : threads * 4 * rowsPer32 m (threads * 4) ≤ IMAX
      · rw [if_pos ⟨h1, h2⟩]
        apply mapM_some_of
        intro p hp
        exact rowRangeC_some (List.mem_range.mp hp) h4 h2
      · rw [if_neg (fun h => h2 h.2)]
        exact mapM_none_of (x := threads * 4 - 1) (List.mem_range.mpr (by omega)) (rowRangeC_none (by omega) h2)
    · rw [if_neg (fun h => h1 h.1), rowsPer32C_none h1]
      rfl
  · rw [if_neg (fun h => by omega)]
    have := cmul_none (a := threads) (b := 4) h4
    rw [show cmul (threads : Int) 4 = none from this]
    rfl

example : rowRanges32C 1000 1 = some [(0, 256), (256, 512), (512, 768), (768, 1000)] := by decide +kernel

/-- **C69** for CSR tiles, exact: the constructor computes without overflow if and only if the rows and partitions together and the
edges and one more fit into an `int`.  In particular a CSR tile cannot have 2147483647 edges. -/
theorem csr_numbers_exact {m nnz threads : Nat} (ht : 0 < threads) :
    csrNumbersC m nnz threads = if m + threads * 4 ≤ IMAX ∧ nnz + 1 ≤ IMAX
      then some (((m + 1 : Nat) : Int), (List.range (threads * 4)).map (fun p =>
        (((min (p * ((m + threads * 4 - 1) / (threads * 4))) m : Nat) : Int),
          ((min ((p + 1) * ((m + threads * 4 - 1) / (threads * 4))) m : Nat) : Int))), ((nnz + 1 : Nat) : Int)) else none := by
  rw [show (m + threads * 4 - 1) / (threads * 4) = rowsPer m (threads * 4) from rfl]
  unfold csrNumbersC
  simp only [Option.bind_eq_bind]
  by_cases h1 : m + threads * 4 ≤ IMAX
  · have hmul := rowsPer_mul_le (m := m) (np := threads * 4)
    rw [cadd_one (by omega), Option.bind_some, cmul_lit (b := 4) (by omega) 4 rfl, Option.bind_some, rowsPerC_some (by omega) h1,
      Option.bind_some, Int.toNat_natCast]
    rw [mapM_some_of (g := fun p => (((min (p * rowsPer m (threads * 4)) m : Nat) : Int),
          ((min ((p + 1) * rowsPer m (threads * 4)) m : Nat) : Int)))
      (fun p hp => rowRangeC_some (List.mem_range.mp hp) (by omega) (by omega)), Option.bind_some]
    by_cases h2 : nnz + 1 ≤ IMAX
    · rw [if_pos ⟨h1, h2⟩, cadd_one h2]
      rfl
    · rw [if_neg (fun h => h2 h.2), show cadd (nnz : Int) 1 = none from cadd_none (b := 1) h2]
      rfl
  · rw [if_neg (fun h => h1 h.1)]
    cases cadd (m : Int) 1 with
    | none => rfl
    | some a =>
      rw [Option.bind_some]
      by_cases h4 : threads * 4 ≤ IMAX
      · rw [cmul_lit (b := 4) h4 4 rfl, Option.bind_some, rowsPerC_none h1]
        rfl
      · rw [show cmul (threads : Int) 4 = none from cmul_none (b := 4) h4]
        rfl

example : csrNumbersC 10 2147483646 1 = some (11, [(0, 3), (3, 6), (6, 9), (9, 10)], 2147483647) := by decide +kernel

/-- **C69** for DCSR tiles: the partitions are computed without overflow, and then as in the model without it, if the stored rows and
33 for each partition fit into an `int`.  The rows are in ascending order (what the constructor stores, C44). -/
theorem dcsr_rows_partial {behind : Option Int} {g : Nat → Nat} {numRows threads : Nat} {rowIds : Arr Int} (ht : 0 < threads)
    (h : numRows + 33 * (threads * 4) ≤ IMAX) (hpos : ∀ i, i < numRows → 0 ≤ rowIds.get i)
    (hinc : ∀ i j, i < j → j < numRows → rowIds.get i < rowIds.get j) :
    dcsrPartsC behind g numRows threads rowIds = dcsrParts behind g numRows (threads * 4) rowIds :=
  dcsrPartsC_eq ht h hpos hinc

/-- Rows 3, 13, 23, …, one thread. -/
example : (dcsrPartsC (some 0) (fun _ => 0) 20 1 ⟨20, fun i => 10 * (i : Int) + 3⟩).map (fun a => (List.range 5).map a.get) =
    some [0, 7, 13, 19, 20] := by decide +kernel

example : dcsrPartsC (some 0) (fun _ => 0) 20 1 ⟨20, fun i => 10 * (i : Int) + 3⟩ =
    dcsrParts (some 0) (fun _ => 0) 20 4 ⟨20, fun i => 10 * (i : Int) + 3⟩ :=
  dcsr_rows_partial (by decide) (by decide) (fun i _ => by dsimp only; omega) (fun i j h _ => by dsimp only; omega)

end GraphMat

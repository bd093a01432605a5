import Verif.Lemmas.IntLayout
import Verif.Lemmas.SpMat

/-!
# C69: the `int` arithmetic of layouts and of divisions of work does not overflow
-/
namespace GraphMat

/-- **C69** for the boundaries of segments and tiles, exact: the constructors compute the boundaries of the layout (those
that all other theorems use) if these four numbers fit into an `int`, and overflow otherwise.  `IMAX` is 2147483647. -/
theorem boundaries_exact {n nseg : Nat} (hs : 0 < nseg) :
    startIdsC n nseg = if n + nseg ≤ IMAX ∧ (n + nseg - 1) / nseg + 256 ≤ IMAX ∧ segWidth n nseg * (nseg - 1) ≤ IMAX
      then some ((startIds n nseg).map (fun x : Nat => (x : Int))) else none := by
  by_cases h : n + nseg ≤ IMAX ∧ (n + nseg - 1) / nseg + 256 ≤ IMAX ∧ segWidth n nseg * (nseg - 1) ≤ IMAX
  · rw [if_pos h]
    exact startIdsC_some hs h.1 h.2.1 h.2.2
  · rw [if_neg h]
    exact startIdsC_none hs h

/-- **C69** for boundaries, as a condition on vertices and ranks.  Missing for the full property: graphs with almost
2^31 vertices, see `boundaries_overflow`. -/
theorem boundaries_partial {n nseg : Nat} (hs : 0 < nseg) (h : n + 257 * nseg ≤ IMAX) :
    startIdsC n nseg = some ((startIds n nseg).map (fun x : Nat => (x : Int))) := by
  obtain ⟨_, _, _, h4⟩ := bounds_no_overflow (n := n) (j := nseg - 1) hs (by omega)
  have := ceil_le (n := n) hs
  exact startIdsC_some hs (by omega) (by omega) (by omega)

/-- One billion vertices, 1024 ranks. -/
example : startIdsC 1000000000 1024 = some ((startIds 1000000000 1024).map (fun x : Nat => (x : Int))) :=
  boundaries_partial (by decide) (by decide)

/-- **C69 is false** near the largest `int`: with one rank, exactly the graphs with more than 2147483391 vertices
overflow; with 2147483647 - `k` vertices, `k` < nseg, every number of ranks does. -/
theorem boundaries_overflow :
    (∀ n, startIdsC n 1 = none ↔ 2147483391 < n) ∧ ∀ n nseg, 0 < nseg → IMAX < n + nseg → startIdsC n nseg = none := by
  constructor
  · intro n
    rw [boundaries_exact (by decide)]
    have e : (n + 1 - 1) / 1 = n := by rw [Nat.div_one]; omega
    rw [e, Nat.sub_self, Nat.mul_zero]
    unfold IMAX
    by_cases h : 2147483391 < n
    · rw [if_neg (by omega)]
      exact ⟨fun _ => h, fun _ => rfl⟩
    · rw [if_pos ⟨by omega, by omega, by omega⟩]
      exact ⟨fun h' => absurd h' (by simp), fun h' => absurd h' h⟩
  · intro n nseg hs h
    rw [boundaries_exact hs, if_neg (by omega)]

/-- Both occur: 2^31 - 1 vertices on one rank, and on 16. -/
example : startIdsC 2147483647 1 = none ∧ startIdsC 2147483647 16 = none :=
  ⟨(boundaries_overflow.1 _).2 (by decide), boundaries_overflow.2 _ _ (by decide) (by decide)⟩

/-- **C69** for the sizes of segments and tiles: subtracting neighbouring boundaries never overflows. -/
theorem sizes_exact {n nseg : Nat} (hs : 0 < nseg) (h : n + 257 * nseg ≤ IMAX) :
    ∃ l, startIdsC n nseg = some l ∧
      sizesC l = some ((List.range nseg).map (fun j => ((bnd n nseg (j + 1) - bnd n nseg j : Nat) : Int))) := by
  refine ⟨_, boundaries_partial hs h, ?_⟩
  unfold sizesC
  have e : (((startIds n nseg).map (fun x : Nat => (x : Int))).zip ((startIds n nseg).map (fun x : Nat => (x : Int))).tail) =
      (List.range nseg).map (fun j => (((bnd n nseg j : Nat) : Int), ((bnd n nseg (j + 1) : Nat) : Int))) := by
    rw [startIds_eq]
    apply List.ext_getElem
    · simp
    · intro j h1 h2
      simp
  rw [e, List.mapM_map]
  rw [mapM_some_of (g := fun j => ((bnd n nseg (j + 1) - bnd n nseg j : Nat) : Int))]
  intro j hj
  rw [List.mem_range] at hj
  have h1 : bnd n nseg (j + 1) ≤ n := by
    unfold bnd
    by_cases h : j + 1 < nseg
    · rw [if_pos h]; exact Nat.min_le_right _ _
    · rw [if_neg h]
  exact csub_nat (bnd_mono' (by omega)) (by omega)

/-- **C69** for the loops over partitions (`compress`, `union_compressed`): the bounds are those of the other models. -/
theorem partitions_exact {k np p : Nat} (h : k + np ≤ IMAX) (hp : p < np) :
    partBoundsC k np p = some (((partLo k np p : Nat) : Int), ((partHi k np p : Nat) : Int)) := partBoundsC_some h hp

example : partBoundsC 1000 48 47 = some (987, 1000) := by decide +kernel

/-- **C69** for `compress`: the words of a segment of any size can be divided among up to 2^20 threads. -/
theorem compress_partitions_exact {cap threads p : Nat} (hc : cap ≤ IMAX) (ht : threads ≤ 1048576) (hp : p < threads * 16) :
    partBoundsC ((cap + 31) / 32 : Nat) (threads * 16 : Nat) p =
      some (((partLo ((cap + 31) / 32) (threads * 16) p : Nat) : Int), ((partHi ((cap + 31) / 32) (threads * 16) p : Nat) : Int)) :=
  partBoundsC_some (by unfold IMAX at *; omega) hp

/-- **C69** for the loops over the bits of words, exact: the bounds of the last word of a segment fit if and only if its
size is at most 2147483616. -/
theorem words_exact {cap : Nat} (hc : 0 < cap) :
    (∀ ii, ii < (cap + 31) / 32 → wordBoundsC ii = some (((ii * 32 : Nat) : Int), (((ii + 1) * 32 : Nat) : Int))) ↔
      cap ≤ 2147483616 := by
  constructor
  · intro h
    have h1 := h ((cap + 31) / 32 - 1) (by omega)
    generalize hk : (cap + 31) / 32 - 1 = k at h1
    by_contra hcap
    unfold wordBoundsC at h1
    simp only [Option.bind_eq_bind, Option.bind_eq_some_iff] at h1
    obtain ⟨s, _, q, hq, e, he, _⟩ := h1
    have hq' := ck_elim hq
    unfold cmul at he
    rw [hq', ck_none (by unfold INT_MAX; omega)] at he
    exact absurd he (by simp)
  · intro h ii hii
    have h1 : (ii + 1) * 32 ≤ IMAX := by unfold IMAX; omega
    unfold wordBoundsC
    simp only [Option.bind_eq_bind]
    rw [cmul_lit (b := 32) (by omega) 32 rfl, Option.bind_some, cadd_one (by omega), Option.bind_some,
      cmul_lit (b := 32) h1 32 rfl, Option.bind_some]

/-- The last word of a segment with 2147483617 elements: the upper bound is 2^31. -/
example : wordBoundsC 67108863 = none ∧ wordBoundsC 67108862 = some (2147483584, 2147483616) := by decide +kernel

/-- **C69** for `decompress`: at most half of a segment is present when it is compressed, so nothing overflows. -/
theorem decompress_exact {cap nnz np : Nat} (hc : cap ≤ IMAX) (hn : 2 * nnz ≤ cap) (hp : 0 < np) (ht : np ≤ 1048576)
    (cidx : Arr Nat) :
    ∃ per, nzPerC nnz np = some ((per : Nat) : Int) ∧ per = ((nnz + np - 1) / np + 31) / 32 * 32 ∧
      decompressBoundsC cidx nnz per np 0 = decompressBounds cidx nnz per np 0 := by
  have hd := ceil_le (n := nnz) hp
  have hcap : nnz + np ≤ IMAX := by unfold IMAX at *; omega
  refine ⟨((nnz + np - 1) / np + 31) / 32 * 32, ?_, rfl, ?_⟩
  · unfold nzPerC
    simp only [Option.bind_eq_bind]
    rw [cadd_nat hcap, Option.bind_some, csub_lit (b := 1) (by omega) hcap 1 rfl, Option.bind_some,
      cdiv_nat hp (by omega), Option.bind_some]
    generalize (nnz + np - 1) / np = d at *
    unfold IMAX at *
    rw [cadd_lit (b := 31) (by unfold IMAX; omega) 31 rfl, Option.bind_some,
      cdiv_lit (b := 32) (by decide) (by unfold IMAX; omega) 32 rfl, Option.bind_some,
      cmul_lit (b := 32) (by unfold IMAX; omega) 32 rfl]
  · rcases Nat.lt_or_ge 1 np with h1 | h1
    · apply decompressBoundsC_eq _ _ _ (Nat.zero_le _)
      have : (nnz + np - 1) / np ≤ (nnz + 1) / 2 := by
        rw [Nat.div_le_iff_le_mul_add_pred hp]
        have : nnz ≤ 2 * ((nnz + 1) / 2) := by omega
        have h2 : 2 * ((nnz + 1) / 2) ≤ np * ((nnz + 1) / 2) := Nat.mul_le_mul_right _ h1
        omega
      generalize (nnz + np - 1) / np = d at *
      unfold IMAX at *
      omega
    · have : np = 1 := by omega
      subst this
      unfold decompressBoundsC decompressBounds
      simp only [Option.bind_eq_bind]
      rw [Nat.div_one, Nat.add_sub_cancel]
      have := cadd_nat (a := 0) (b := (nnz + 31) / 32 * 32) (by unfold IMAX at *; omega)
      rw [this, Option.bind_some]
      rfl

/-- The largest segment, half full, three threads. -/
example : nzPerC 1073741823 3 = some 357913952 := by decide +kernel

/-- **C69** for the division of the rows of a tile: no overflow for any number of rows. -/
theorem rows_exact (g : Nat → Nat) {m threads : Nat} (hm : m ≤ IMAX) (ht : threads ≤ 1048576) :
    staticPartitionC g m (threads * 16) = staticPartition g m (threads * 16) :=
  staticPartitionC_eq hm (by unfold IMAX; omega)

example : (staticPartitionC (fun _ => 0) 1000 16).map (fun a => (List.range 17).map a.get) =
    some [0, 64, 128, 192, 256, 320, 384, 448, 512, 576, 640, 704, 768, 832, 896, 960, 1000] := by decide +kernel

/-- **C69** for the number of stored columns of a tile, exact. -/
theorem columns_exact (ncols : List Nat) :
    totalColsC ncols = if ncols.sum + ncols.length ≤ IMAX then some ((ncols.sum + ncols.length : Nat) : Int) else none := by
  suffices h : ∀ (l : List Nat) (a : Nat), a ≤ IMAX → l.foldlM (fun (t : Int) (c : Nat) => do
      let x ← cadd c 1
      cadd t x) (a : Int) = if a + l.sum + l.length ≤ IMAX then some ((a + l.sum + l.length : Nat) : Int) else none by
    have := h ncols 0 (by decide)
    rw [Nat.zero_add] at this
    exact this
  intro l
  induction l with
  | nil =>
    intro a ha
    rw [if_pos (by simpa using ha)]
    rfl
  | cons c l ih =>
    intro a ha
    rw [List.foldlM_cons]
    simp only [Option.bind_eq_bind]
    have e : a + (c :: l).sum + (c :: l).length = a + (c + 1) + l.sum + l.length := by
      rw [List.sum_cons, List.length_cons]; omega
    rw [e]
    by_cases h1 : a + (c + 1) ≤ IMAX
    · rw [cadd_one (by omega), Option.bind_some, cadd_nat h1, Option.bind_some]
      have := ih (a + (c + 1)) h1
      simp only [Option.bind_eq_bind] at this
      exact this
    · rw [if_neg (by omega)]
      by_cases h2 : c + 1 ≤ IMAX
      · rw [cadd_one h2, Option.bind_some]
        have : cadd (a : Int) ((c + 1 : Nat) : Int) = none := by
          unfold cadd
          apply ck_none
          unfold INT_MAX
          unfold IMAX at h1
          omega
        rw [this]
        rfl
      · have : cadd (c : Int) 1 = none := by
          unfold cadd
          apply ck_none
          unfold INT_MAX
          unfold IMAX at h2
          omega
        rw [this]
        rfl

/-- Both occur. -/
example : totalColsC [3, 0, 2] = some 8 ∧ totalColsC [2147483646, 0] = none := by decide +kernel

/-- **C69** for the number of stored columns: no partition has more columns than edges, so that `nnz` edges and
`16 * threads` partitions give no overflow if together they fit into an `int`. -/
theorem columns_partial {ncols : List Nat} {nnz threads : Nat} (h1 : ncols.length = threads * 16) (h2 : ncols.sum ≤ nnz)
    (h : nnz + threads * 16 ≤ IMAX) : totalColsC ncols = some ((ncols.sum + threads * 16 : Nat) : Int) := by
  rw [columns_exact, if_pos (by omega), h1]

example : totalColsC (List.replicate 15 1 ++ [3]) = some 34 :=
  columns_partial (nnz := 20) (threads := 1) (by decide) (by decide) (by decide)

end GraphMat

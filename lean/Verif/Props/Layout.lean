import Verif.Lemmas.Layout
import Verif.Lemmas.IdMap

/-!
# C02 (every vertex has exactly one owner) and the layout part of C07
-/
namespace GraphMat

/-- `factorize_int` terminates without dividing by zero for every positive rank count and
returns a factorisation whose first factor is the largest divisor not above the rounded
square root. -/
theorem factorizeInt_correct (val : Nat) (h : 1 ≤ val) :
    ∃ a b, factorizeInt val = some (a, b) ∧ a * b = val ∧ 1 ≤ a ∧
      ∀ c, a < c → c ≤ roundSqrt val → ¬ c ∣ val := by
  obtain ⟨a, b, h1, h2, _, h4, h5⟩ := factorizeLoop_spec (roundSqrt val) (roundSqrt_pos h)
  exact ⟨a, b, h1, h4, h2, h5⟩

example : factorizeInt 24 = some (4, 6) ∧ factorizeInt 7 = some (1, 7) := by decide

/-- `factorize_int(0)` divides by zero. -/
theorem factorizeInt_zero : factorizeInt 0 = none := by decide

/-- The 2-D tile placement always names an existing rank. -/
theorem partitionFn2d_valid (tx ty nrank : Nat) (h : 1 ≤ nrank) :
    ∃ r, partitionFn2d tx ty nrank = some r ∧ r < nrank := by
  obtain ⟨a, b, h1, h2, h3, _⟩ := factorizeInt_correct nrank h
  have hb : 0 < b := by
    rcases Nat.eq_zero_or_pos b with h0 | h0
    · subst h0; simp at h2; omega
    · exact h0
  refine ⟨ty % a + tx % b * a, ?_, ?_⟩
  · simp [partitionFn2d, h1]
  · have e1 := Nat.mod_lt ty (by omega : a > 0)
    have e2 := Nat.mod_lt tx hb
    have : tx % b * a + a ≤ b * a := by
      have := Nat.mul_le_mul_right a (Nat.succ_le_of_lt e2)
      rw [Nat.succ_mul] at this; exact this
    rw [Nat.mul_comm] at h2
    omega

example : partitionFn2d 5 3 6 = some 5 := by decide

/-- The 1-D tile placement always names an existing rank. -/
theorem partitionFn1d_valid (tx ty nrank : Nat) (h : 1 ≤ nrank) :
    ∃ r, partitionFn1d tx ty nrank = some r ∧ r < nrank := by
  refine ⟨ty % nrank, ?_, Nat.mod_lt _ h⟩
  rw [partitionFn1d, if_neg (by omega)]

example : partitionFn1d 0 7 4 = some 3 := by decide

/-- Segments tile the id range: boundaries start at 0, end at `n`, never decrease, and there
are `nseg + 1` of them. -/
theorem startIds_cover (n nseg : Nat) (hs : 0 < nseg) :
    (startIds n nseg).length = nseg + 1 ∧ (startIds n nseg).head? = some 0 ∧
    (startIds n nseg).getLast? = some n ∧ (startIds n nseg).Pairwise (· ≤ ·) := by
  rw [startIds_eq]
  refine ⟨by simp, ?_, ?_, ?_⟩
  · rw [List.range_succ_eq_map]; simp [bnd_zero hs]
  · rw [List.range_succ]; simp [bnd_last]
  · rw [List.pairwise_map]
    exact List.Pairwise.imp (fun h => bnd_mono' (Nat.le_of_lt h)) List.pairwise_lt_range

example : startIds 1000 3 = [0, 512, 1000, 1000] := by decide

/-- C02: a vertex id in range lies in exactly one segment: `getPartition` finds it, and it is
the only index whose half-open interval contains the id. -/
theorem getPartition_exact (n nseg v : Nat) (hs : 0 < nseg) (h1 : 1 ≤ v) (h2 : v ≤ n) :
    ∃ p, getPartition n nseg v = some p ∧ p < nseg ∧
      ∀ q a b, (startIds n nseg)[q]? = some a → (startIds n nseg)[q + 1]? = some b →
        ((a < v ∧ v ≤ b) ↔ q = p) := by
  obtain ⟨p, hp⟩ := getPartition_total hs h1 h2
  have hp' := getPartition_some hp
  refine ⟨p, hp, hp'.1, ?_⟩
  intro q a b ha hb
  rw [startIds_eq] at ha hb
  simp only [List.getElem?_map] at ha hb
  have hq1 : q + 1 < nseg + 1 := by
    rcases Nat.lt_or_ge (q + 1) (nseg + 1) with h | h
    · exact h
    · rw [List.getElem?_eq_none (by simpa using h)] at hb; simp at hb
  rw [List.getElem?_range (by omega)] at ha
  rw [List.getElem?_range hq1] at hb
  simp at ha hb
  subst ha; subst hb
  constructor
  · intro ⟨ha, hb⟩
    exact seg_unique (fun i j hij => bnd_mono' hij) (v := (v : Int))
      (by omega) (by omega) hp'.2.1 hp'.2.2
  · intro h; subst h; exact ⟨by omega, by omega⟩

example : getPartition 1000 3 600 = some 1 := by decide

/-- C02 on internal ids: exactly one rank reports ownership, and no rank's query fails. -/
theorem nodeOwner_unique (n nseg nrank v : Nat) (hs : 0 < nseg) (hr : 0 < nrank)
    (h1 : 1 ≤ v) (h2 : v ≤ n) :
    ∃ o, o < nrank ∧ ∀ me, nodeOwner n nseg nrank me v = some (decide (me = o)) := by
  obtain ⟨p, hp⟩ := getPartition_total hs h1 h2
  refine ⟨p % nrank, Nat.mod_lt _ hr, ?_⟩
  intro me
  simp only [nodeOwner, hp, segOwner, vectorPartitionFn, Option.bind_eq_bind, Option.bind_some]
  rw [if_neg (by omega)]
  simp only [Option.bind_some, Option.some.injEq]
  rw [Bool.eq_iff_iff, beq_iff_eq, decide_eq_true_iff]
  exact eq_comm

example : nodeOwner 1000 3 3 1 600 = some true ∧ nodeOwner 1000 3 3 0 600 = some false := by
  decide

/-- C02 as the user sees it (`Graph::vertexNodeOwner`, /repo/include/Graph.h:352-355): for
every user id in `1..n`, exactly one of the `r` ranks answers `true` and all others answer
`false`; the renumbering never fails. -/
theorem vertexNodeOwner_unique (t r n v : Nat) (ht : 0 < t) (hr : 0 < r)
    (hnp : t * 16 * r ≤ 2147483647) (hn : n ≤ 2147483647) (h1 : 1 ≤ v) (h2 : v ≤ n) :
    ∃ o, o < r ∧ ∀ me,
      (do let w ← vertexToNative t r n v; nodeOwner n r r me w) = some (decide (me = o)) := by
  have hNP : 0 < t * 16 * r := Nat.mul_pos (Nat.mul_pos ht (by omega)) hr
  have hw := v2n_range (n := n) hNP h1 h2
  obtain ⟨o, ho, h⟩ := nodeOwner_unique n r r _ hr hr hw.1 hw.2
  refine ⟨o, ho, ?_⟩
  intro me
  rw [vertexToNative_eq ht hr hnp hn h1 h2]
  exact h me

example : (do let w ← vertexToNative 1 3 1000 34; nodeOwner 1000 3 3 1 w) = some true := by
  decide

/-- C07 (tile part): every edge with both ids in range falls into exactly one tile, and that
tile has exactly one owning rank. -/
theorem matPartition_exact (m n nty ntx nrank src dst : Nat) (hy : 0 < nty) (hx : 0 < ntx)
    (hr : 1 ≤ nrank) (hs1 : 1 ≤ src) (hs2 : src ≤ m) (hd1 : 1 ≤ dst) (hd2 : dst ≤ n) :
    ∃ i j, matPartition m n nty ntx src dst = some (i, j) ∧ i < nty ∧ j < ntx ∧
      (∃ r, partitionFn2d j i nrank = some r ∧ r < nrank) ∧
      getPartition m nty src = some i ∧ getPartition n ntx dst = some j := by
  obtain ⟨i, hi⟩ := getPartition_total hy hs1 hs2
  obtain ⟨j, hj⟩ := getPartition_total hx hd1 hd2
  refine ⟨i, j, ?_, (getPartition_some hi).1, (getPartition_some hj).1,
    partitionFn2d_valid j i nrank hr, hi, hj⟩
  unfold getPartition at hi hj
  simp [matPartition, hi, hj]

example : matPartition 1000 1000 3 3 600 2 = some (1, 0) := by decide

end GraphMat

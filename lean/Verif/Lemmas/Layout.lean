import Verif.Model.Layout

namespace GraphMat

/-! ### factorize_int -/

theorem roundSqrt_fold (val : Nat) (P : Nat → Prop) (l : List Nat) (s : Nat) (hs : P s)
    (hl : ∀ k ∈ l, P k) :
    P (l.foldl (fun s k => if (2 * k - 1) * (2 * k - 1) ≤ 4 * val then k else s) s) := by
  induction l generalizing s with
  | nil => exact hs
  | cons a l ih =>
    rw [List.foldl_cons]
    apply ih
    · split
      · exact hl a List.mem_cons_self
      · exact hs
    · intro k hk; exact hl k (List.mem_cons_of_mem _ hk)

theorem roundSqrt_step_pos (val : Nat) (l : List Nat) (s : Nat) (hs : 1 ≤ s)
    (hl : ∀ k ∈ l, 1 ≤ k) :
    1 ≤ l.foldl (fun s k => if (2 * k - 1) * (2 * k - 1) ≤ 4 * val then k else s) s :=
  roundSqrt_fold val (fun x => 1 ≤ x) l s hs hl

theorem roundSqrt_pos {val : Nat} (h : 1 ≤ val) : 1 ≤ roundSqrt val := by
  obtain ⟨v, rfl⟩ : ∃ v, val = v + 1 := ⟨val - 1, by omega⟩
  unfold roundSqrt
  have : List.range (v + 1 + 1) = 0 :: 1 :: (List.range v).map (· + 2) := by
    rw [List.range_succ_eq_map, List.range_succ_eq_map]
    simp [Function.comp_def]
  rw [this, List.foldl_cons, List.foldl_cons]
  apply roundSqrt_step_pos
  · rw [if_pos (by omega)]; exact Nat.le_refl 1
  · intro k hk
    simp at hk
    obtain ⟨a, _, rfl⟩ := hk
    omega

theorem roundSqrt_le (val : Nat) : roundSqrt val ≤ val := by
  unfold roundSqrt
  apply roundSqrt_fold val (fun x => x ≤ val)
  · omega
  · intro k hk; simp at hk; omega

theorem factorizeLoop_spec {val : Nat} :
    ∀ r, 1 ≤ r → ∃ a b, factorizeLoop val r = some (a, b) ∧ 1 ≤ a ∧ a ≤ r ∧ a * b = val ∧
      ∀ c, a < c → c ≤ r → ¬ c ∣ val := by
  intro r
  induction r with
  | zero => intro h; omega
  | succ r ih =>
    intro _
    by_cases h : (r + 1) * (val / (r + 1)) = val
    · refine ⟨r + 1, val / (r + 1), ?_, by omega, Nat.le_refl _, h, ?_⟩
      · rw [factorizeLoop, if_pos h]
      · intro c h1 h2; omega
    · have hr : 1 ≤ r := by
        rcases Nat.eq_zero_or_pos r with h0 | h0
        · subst h0; simp at h
        · exact h0
      obtain ⟨a, b, h1, h2, h3, h4, h5⟩ := ih hr
      refine ⟨a, b, ?_, h2, by omega, h4, ?_⟩
      · rw [factorizeLoop, if_neg h]; exact h1
      · intro c hc1 hc2
        rcases Nat.lt_or_ge c (r + 1) with hlt | hge
        · exact h5 c hc1 (by omega)
        · have : c = r + 1 := by omega
          subst this
          intro hd
          exact h (Nat.mul_div_cancel' hd)

/-! ### boundaries -/

/-- Boundary `i` of the partition of `1..n` into `nseg` segments. -/
def bnd (n nseg i : Nat) : Nat := if i < nseg then min (segWidth n nseg * i) n else n

theorem segWidth_mul {n nseg : Nat} (h : 0 < nseg) : n ≤ segWidth n nseg * nseg := by
  unfold segWidth
  have h1 : n ≤ (n + nseg - 1) / nseg * nseg := by
    have := Nat.div_add_mod (n + nseg - 1) nseg
    have h2 := Nat.mod_lt (n + nseg - 1) h
    rw [Nat.mul_comm] at this
    omega
  have h3 : (n + nseg - 1) / nseg ≤ ((n + nseg - 1) / nseg + 256 - 1) / 256 * 256 := by omega
  exact Nat.le_trans h1 (Nat.mul_le_mul_right _ h3)

theorem bnd_mono {n nseg i : Nat} : bnd n nseg i ≤ bnd n nseg (i + 1) := by
  unfold bnd
  split <;> split
  · have : segWidth n nseg * i ≤ segWidth n nseg * (i + 1) :=
      Nat.mul_le_mul_left _ (by omega)
    omega
  · exact Nat.min_le_right _ _
  · omega
  · exact Nat.le_refl _

theorem bnd_mono' {n nseg i j : Nat} (h : i ≤ j) : bnd n nseg i ≤ bnd n nseg j := by
  induction h with
  | refl => exact Nat.le_refl _
  | step _ ih => exact Nat.le_trans ih bnd_mono

theorem bnd_zero {n nseg : Nat} (h : 0 < nseg) : bnd n nseg 0 = 0 := by
  unfold bnd; rw [if_pos h]; simp

theorem bnd_last {n nseg : Nat} : bnd n nseg nseg = n := by
  unfold bnd; rw [if_neg (by omega)]

theorem bnd_le {n nseg i : Nat} : bnd n nseg i ≤ n := by
  unfold bnd; split
  · exact Nat.min_le_right _ _
  · exact Nat.le_refl _

theorem startIds_eq (n nseg : Nat) :
    startIds n nseg = (List.range (nseg + 1)).map (bnd n nseg) := by
  unfold startIds
  rw [List.range_succ, List.map_append, List.map_singleton, bnd_last]
  congr 1
  apply List.map_congr_left
  intro a ha
  simp at ha
  simp [bnd, ha]

theorem segWidth_dvd (n nseg : Nat) : 256 ∣ segWidth n nseg := by
  unfold segWidth; exact Nat.dvd_mul_left _ _

/-- Interior boundaries are multiples of 32 (or equal to `n`). -/
theorem bnd_dvd (n nseg i : Nat) : 32 ∣ bnd n nseg i ∨ bnd n nseg i = n := by
  unfold bnd
  split
  · rcases Nat.le_total (segWidth n nseg * i) n with h | h
    · left
      rw [Nat.min_eq_left h]
      exact Nat.dvd_trans (Nat.dvd_trans (by decide) (segWidth_dvd n nseg)) (Nat.dvd_mul_right _ _)
    · right; exact Nat.min_eq_right h
  · right; rfl

theorem getPartitionAux_some {src : Int} {f : Nat → Nat} :
    ∀ (k i p : Nat), getPartitionAux src ((List.range' i (k + 1)).map f) i = some p →
      i ≤ p ∧ p < i + k ∧ (f p : Int) < src ∧ src ≤ f (p + 1) := by
  intro k
  induction k with
  | zero => intro i p h; simp [List.range'_succ, getPartitionAux] at h
  | succ k ih =>
    intro i p h
    rw [List.range'_succ, List.range'_succ, List.map_cons, List.map_cons, getPartitionAux] at h
    split at h
    · rename_i hc
      have : p = i := by injection h with h; exact h.symm
      subst this
      exact ⟨Nat.le_refl _, by omega, hc.1, hc.2⟩
    · have := ih (i + 1) p (by rw [List.range'_succ]; exact h)
      omega

theorem getPartitionAux_none {src : Int} {f : Nat → Nat} :
    ∀ (k i : Nat), getPartitionAux src ((List.range' i (k + 1)).map f) i = none →
      ∀ p, i ≤ p → p < i + k → ¬ ((f p : Int) < src ∧ src ≤ f (p + 1)) := by
  intro k
  induction k with
  | zero => intro i _ p h1 h2; omega
  | succ k ih =>
    intro i h p h1 h2
    rw [List.range'_succ, List.range'_succ, List.map_cons, List.map_cons, getPartitionAux] at h
    split at h
    · simp at h
    · rename_i hc
      rcases Nat.eq_or_lt_of_le h1 with he | hl
      · subst he; intro hx; exact hc ⟨hx.1, hx.2⟩
      · exact ih (i + 1) (by rw [List.range'_succ]; exact h) p (by omega) (by omega)

theorem getPartition_eq (n nseg : Nat) (src : Int) :
    getPartition n nseg src = getPartitionAux src ((List.range' 0 (nseg + 1)).map (bnd n nseg)) 0 := by
  unfold getPartition
  rw [startIds_eq, List.range_eq_range']

theorem getPartition_some {n nseg p : Nat} {src : Int} (h : getPartition n nseg src = some p) :
    p < nseg ∧ (bnd n nseg p : Int) < src ∧ src ≤ bnd n nseg (p + 1) := by
  rw [getPartition_eq] at h
  have := getPartitionAux_some _ _ _ h
  exact ⟨by omega, this.2.2⟩

/-- Discrete intermediate value: an id strictly above boundary 0 and at most boundary `k`
lies in some segment. -/
theorem exists_seg (f : Nat → Nat) (v : Nat) :
    ∀ k, f 0 < v → v ≤ f k → ∃ p, p < k ∧ f p < v ∧ v ≤ f (p + 1) := by
  intro k
  induction k with
  | zero => intro h1 h2; omega
  | succ k ih =>
    intro h1 h2
    rcases Nat.lt_or_ge (f k) v with h | h
    · exact ⟨k, by omega, h, h2⟩
    · obtain ⟨p, hp, h3⟩ := ih h1 h
      exact ⟨p, by omega, h3⟩

theorem getPartition_total {n nseg v : Nat} (hs : 0 < nseg) (h1 : 1 ≤ v) (h2 : v ≤ n) :
    ∃ p, getPartition n nseg v = some p := by
  cases h : getPartition n nseg v with
  | some p => exact ⟨p, rfl⟩
  | none =>
    exfalso
    rw [getPartition_eq] at h
    have hn := getPartitionAux_none _ _ h
    obtain ⟨p, hp, h3, h4⟩ := exists_seg (bnd n nseg) v nseg
      (by rw [bnd_zero hs]; omega) (by rw [bnd_last]; exact h2)
    exact hn p (by omega) (by omega) ⟨by omega, by omega⟩

theorem seg_unique {f : Nat → Nat} (hm : ∀ i j, i ≤ j → f i ≤ f j) {p q : Nat} {v : Int}
    (h1 : (f p : Int) < v) (h2 : v ≤ f (p + 1)) (h3 : (f q : Int) < v) (h4 : v ≤ f (q + 1)) :
    p = q := by
  rcases Nat.lt_trichotomy p q with h | h | h
  · have := hm (p + 1) q h; omega
  · exact h
  · have := hm (q + 1) p h; omega

theorem getPartition_iff {n nseg p : Nat} {src : Int} :
    getPartition n nseg src = some p ↔
      p < nseg ∧ (bnd n nseg p : Int) < src ∧ src ≤ bnd n nseg (p + 1) := by
  constructor
  · exact getPartition_some
  · intro ⟨hp, h1, h2⟩
    cases h : getPartition n nseg src with
    | none =>
      exfalso
      rw [getPartition_eq] at h
      exact getPartitionAux_none _ _ h p (by omega) (by omega) ⟨h1, h2⟩
    | some q =>
      have hq := getPartition_some h
      rw [seg_unique (fun i j hij => bnd_mono' hij) h1 h2 hq.2.1 hq.2.2]

/-- Segment lengths never exceed the width. -/
theorem bnd_diff_le {n nseg i : Nat} (hs : 0 < nseg) :
    bnd n nseg (i + 1) - bnd n nseg i ≤ segWidth n nseg := by
  have hw := segWidth_mul (n := n) hs
  unfold bnd
  by_cases h1 : i + 1 < nseg
  · rw [if_pos h1, if_pos (by omega)]
    have : segWidth n nseg * (i + 1) = segWidth n nseg * i + segWidth n nseg := Nat.mul_succ _ _
    omega
  · rw [if_neg h1]
    by_cases h2 : i < nseg
    · rw [if_pos h2]
      have hi : nseg = i + 1 := by omega
      have : segWidth n nseg * nseg = segWidth n nseg * i + segWidth n nseg := by
        conv => lhs; rhs; rw [hi]
        exact Nat.mul_succ _ _
      omega
    · rw [if_neg h2]; omega

/-- No 32-bit overflow in the boundary computation when `n + 257*nseg` fits in an `int`:
every intermediate value of /repo/include/GMDP/vectors/SpVec.h:79-89 is at most that. -/
theorem bounds_no_overflow {n nseg j : Nat} (hs : 0 < nseg) (hj : j < nseg) :
    n + nseg - 1 ≤ n + 257 * nseg ∧
    (n + nseg - 1) / nseg + 256 - 1 ≤ n + 257 * nseg ∧
    segWidth n nseg ≤ n + 257 * nseg ∧ segWidth n nseg * j ≤ n + 257 * nseg := by
  have hd : (n + nseg - 1) / nseg ≤ n := by
    rcases Nat.eq_zero_or_pos n with h0 | h0
    · subst h0
      rw [Nat.div_eq_of_lt (by omega)]; exact Nat.le_refl 0
    · apply Nat.div_le_of_le_mul
      have : nseg * n = n + (nseg - 1) * n := by
        conv => lhs; rw [show nseg = 1 + (nseg - 1) by omega]
        rw [Nat.add_mul, Nat.one_mul]
      have h2 : nseg - 1 ≤ (nseg - 1) * n := Nat.le_mul_of_pos_right _ h0
      omega
  have hdm : (n + nseg - 1) / nseg * nseg ≤ n + nseg - 1 := Nat.div_mul_le_self _ _
  have hw : segWidth n nseg ≤ (n + nseg - 1) / nseg + 255 := by
    unfold segWidth; generalize (n + nseg - 1) / nseg = d; omega
  have hwj : segWidth n nseg * j ≤ ((n + nseg - 1) / nseg + 255) * nseg :=
    Nat.mul_le_mul hw (by omega)
  rw [Nat.add_mul] at hwj
  generalize (n + nseg - 1) / nseg = d at *
  refine ⟨by omega, by omega, by omega, by omega⟩

end GraphMat

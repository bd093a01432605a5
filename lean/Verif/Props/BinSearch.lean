import Verif.Model.BinSearch
import Verif.Lemmas.Mem

/-!
# C42: sorted-array searches are exact and stay in bounds
-/
namespace GraphMat

/-- The first `n` elements are sorted (a statement on the contents only). -/
def SortedArr (v : Arr Int) (n : Nat) : Prop := ∀ i j, i ≤ j → j < n → v.get i ≤ v.get j

theorem readI_nat {v : Arr Int} {i : Int} (h0 : 0 ≤ i) (h : i < v.size) :
    readI v i = some (v.get i.toNat) := by
  unfold readI
  rw [if_pos h0, Arr.read_some (by omega)]

/-- `r` is the first index of `val` in the first `n` elements. -/
def IsFirst (v : Arr Int) (n : Nat) (val : Int) (r : Nat) : Prop :=
  r < n ∧ v.get r = val ∧ ∀ i, i < r → v.get i ≠ val

/-- `r` is the last index of `val` in the first `n` elements. -/
def IsLast (v : Arr Int) (n : Nat) (val : Int) (r : Nat) : Prop :=
  r < n ∧ v.get r = val ∧ ∀ i, r < i → i < n → v.get i ≠ val

/-- **C42** left border: any range `0 ≤ start`, `fin ≤ len`: never reads outside the array and
terminates (recursion depth at most the size of the range); a non-negative result is the first index
of the key and lies in the range; `-1` means that the first index of the key, if any, is outside the
range. -/
theorem leftBorder_spec (v : Arr Int) (val : Int) (fuel : Nat) :
    ∀ (s f : Int), SortedArr v v.size → 0 ≤ s → f ≤ v.size → (f - s + 1).toNat < fuel →
    ∃ r, leftBorder v val v.size fuel s f = some r ∧
      ((r = -1 ∧ ∀ i, IsFirst v v.size val i → ¬ (s ≤ i ∧ (i : Int) ≤ f)) ∨
       ∃ k : Nat, r = k ∧ IsFirst v v.size val k ∧ s ≤ k ∧ (k : Int) ≤ f) := by
  induction fuel with
  | zero => intro s f _ _ _ h; omega
  | succ fuel ih =>
    intro s f hv hs hf hfuel
    unfold leftBorder
    by_cases h0 : (v.size : Int) = 0
    · rw [if_pos h0]
      exact ⟨-1, rfl, Or.inl ⟨rfl, fun i hi => by have := hi.1; omega⟩⟩
    rw [if_neg h0]
    by_cases h1 : f < s
    · rw [if_pos h1]
      exact ⟨-1, rfl, Or.inl ⟨rfl, fun i hi => by omega⟩⟩
    rw [if_neg h1]
    by_cases h2 : s ≥ v.size
    · rw [if_pos h2]
      exact ⟨-1, rfl, Or.inl ⟨rfl, fun i hi => by have := hi.1; omega⟩⟩
    rw [if_neg h2, if_neg (by omega)]
    have hmid : (f - s).tdiv 2 = (f - s) / 2 := Int.tdiv_eq_ediv_of_nonneg (by omega)
    simp only [hmid]
    obtain ⟨mid, hm⟩ : ∃ mid, mid = s + (f - s) / 2 := ⟨_, rfl⟩
    rw [← hm]
    have m1 : s ≤ mid := by omega
    have m2 : mid ≤ f := by omega
    have m3 : mid < v.size := by omega
    rw [if_neg (by omega), readI_nat (by omega) m3]
    simp only [Option.bind_eq_bind, Option.bind_some]
    by_cases hx : v.get mid.toNat = val
    · rw [if_pos hx]
      by_cases hm0 : mid ≤ 0
      · rw [if_pos hm0]
        refine ⟨mid, rfl, Or.inr ⟨mid.toNat, by omega, ⟨by omega, hx, fun i hi => by omega⟩, by omega, by omega⟩⟩
      · rw [if_neg hm0, readI_nat (by omega) (by omega)]
        simp only [Option.bind_some]
        by_cases hy : v.get (mid - 1).toNat = v.get mid.toNat
        · rw [if_neg (by simpa using hy)]
          obtain ⟨r, hr, hcase⟩ := ih s (mid - 1) hv hs (by omega) (by omega)
          refine ⟨r, hr, ?_⟩
          rcases hcase with ⟨h, h'⟩ | ⟨k, h, h', h''⟩
          · refine Or.inl ⟨h, fun i hi hc => ?_⟩
            apply h' i hi
            refine ⟨hc.1, ?_⟩
            rcases Int.lt_or_le (mid - 1) i with hlt | hge
            · exact absurd (hy.trans hx) (hi.2.2 _ (by omega))
            · exact hge
          · exact Or.inr ⟨k, h, h', h''.1, by omega⟩
        · rw [if_pos (by simpa using hy)]
          refine ⟨mid, rfl, Or.inr ⟨mid.toNat, by omega, ⟨by omega, hx, ?_⟩, by omega, by omega⟩⟩
          intro i hi he
          have a1 := hv i (mid - 1).toNat (by omega) (by omega)
          have a2 := hv (mid - 1).toNat mid.toNat (by omega) (by omega)
          omega
    · rw [if_neg hx]
      by_cases hlt : val < v.get mid.toNat
      · rw [if_pos hlt]
        obtain ⟨r, hr, hcase⟩ := ih s (mid - 1) hv hs (by omega) (by omega)
        refine ⟨r, hr, ?_⟩
        rcases hcase with ⟨h, h'⟩ | ⟨k, h, h', h''⟩
        · refine Or.inl ⟨h, fun i hi hc => ?_⟩
          apply h' i hi
          refine ⟨hc.1, ?_⟩
          rcases Int.lt_or_le (mid - 1) i with hl | hge
          · have := hv mid.toNat i (by omega) hi.1
            have := hi.2.1
            omega
          · exact hge
        · exact Or.inr ⟨k, h, h', h''.1, by omega⟩
      · rw [if_neg hlt]
        obtain ⟨r, hr, hcase⟩ := ih (mid + 1) f hv (by omega) hf (by omega)
        refine ⟨r, hr, ?_⟩
        rcases hcase with ⟨h, h'⟩ | ⟨k, h, h', h''⟩
        · refine Or.inl ⟨h, fun i hi hc => ?_⟩
          apply h' i hi
          refine ⟨?_, hc.2⟩
          rcases Int.lt_or_le i (mid + 1) with hl | hge
          · have := hv i mid.toNat (by omega) (by omega)
            have := hi.2.1
            omega
          · exact hge
        · exact Or.inr ⟨k, h, h', by omega, h''.2⟩

/-- **C42** right border, as for the left border. -/
theorem rightBorder_spec (v : Arr Int) (val : Int) (fuel : Nat) :
    ∀ (s f : Int), SortedArr v v.size → 0 ≤ s → f ≤ v.size → (f - s + 1).toNat < fuel →
    ∃ r, rightBorder v val v.size fuel s f = some r ∧
      ((r = -1 ∧ ∀ i, IsLast v v.size val i → ¬ (s ≤ i ∧ (i : Int) ≤ f)) ∨
       ∃ k : Nat, r = k ∧ IsLast v v.size val k ∧ s ≤ k ∧ (k : Int) ≤ f) := by
  induction fuel with
  | zero => intro s f _ _ _ h; omega
  | succ fuel ih =>
    intro s f hv hs hf hfuel
    unfold rightBorder
    by_cases h0 : (v.size : Int) = 0
    · rw [if_pos h0]
      exact ⟨-1, rfl, Or.inl ⟨rfl, fun i hi => by have := hi.1; omega⟩⟩
    rw [if_neg h0]
    by_cases h1 : f < s
    · rw [if_pos h1]
      exact ⟨-1, rfl, Or.inl ⟨rfl, fun i hi => by omega⟩⟩
    rw [if_neg h1]
    by_cases h2 : s ≥ v.size
    · rw [if_pos h2]
      exact ⟨-1, rfl, Or.inl ⟨rfl, fun i hi => by have := hi.1; omega⟩⟩
    rw [if_neg h2, if_neg (by omega)]
    have hmid : (f - s).tdiv 2 = (f - s) / 2 := Int.tdiv_eq_ediv_of_nonneg (by omega)
    simp only [hmid]
    obtain ⟨mid, hm⟩ : ∃ mid, mid = s + (f - s) / 2 := ⟨_, rfl⟩
    rw [← hm]
    have m1 : s ≤ mid := by omega
    have m2 : mid ≤ f := by omega
    have m3 : mid < v.size := by omega
    rw [if_neg (by omega), readI_nat (by omega) m3]
    simp only [Option.bind_eq_bind, Option.bind_some]
    by_cases hx : v.get mid.toNat = val
    · rw [if_pos hx]
      by_cases hm0 : mid ≥ v.size - 1
      · rw [if_pos hm0]
        refine ⟨mid, rfl, Or.inr ⟨mid.toNat, by omega, ⟨by omega, hx, fun i hi => by omega⟩, by omega, by omega⟩⟩
      · rw [if_neg hm0, readI_nat (by omega) (by omega)]
        simp only [Option.bind_some]
        by_cases hy : v.get (mid + 1).toNat = v.get mid.toNat
        · rw [if_neg (by simpa using hy)]
          obtain ⟨r, hr, hcase⟩ := ih (mid + 1) f hv (by omega) hf (by omega)
          refine ⟨r, hr, ?_⟩
          rcases hcase with ⟨h, h'⟩ | ⟨k, h, h', h''⟩
          · refine Or.inl ⟨h, fun i hi hc => ?_⟩
            apply h' i hi
            refine ⟨?_, hc.2⟩
            rcases Int.lt_or_le i (mid + 1) with hlt | hge
            · exact absurd (hy.trans hx) (hi.2.2 _ (by omega) (by omega))
            · exact hge
          · exact Or.inr ⟨k, h, h', by omega, h''.2⟩
        · rw [if_pos (by simpa using hy)]
          refine ⟨mid, rfl, Or.inr ⟨mid.toNat, by omega, ⟨by omega, hx, ?_⟩, by omega, by omega⟩⟩
          intro i hi hi2 he
          have a1 := hv (mid + 1).toNat i (by omega) (by omega)
          have a2 := hv mid.toNat (mid + 1).toNat (by omega) (by omega)
          omega
    · rw [if_neg hx]
      by_cases hlt : val < v.get mid.toNat
      · rw [if_pos hlt]
        obtain ⟨r, hr, hcase⟩ := ih s (mid - 1) hv hs (by omega) (by omega)
        refine ⟨r, hr, ?_⟩
        rcases hcase with ⟨h, h'⟩ | ⟨k, h, h', h''⟩
        · refine Or.inl ⟨h, fun i hi hc => ?_⟩
          apply h' i hi
          refine ⟨hc.1, ?_⟩
          rcases Int.lt_or_le (mid - 1) i with hl | hge
          · have := hv mid.toNat i (by omega) hi.1
            have := hi.2.1
            omega
          · exact hge
        · exact Or.inr ⟨k, h, h', h''.1, by omega⟩
      · rw [if_neg hlt]
        obtain ⟨r, hr, hcase⟩ := ih (mid + 1) f hv (by omega) hf (by omega)
        refine ⟨r, hr, ?_⟩
        rcases hcase with ⟨h, h'⟩ | ⟨k, h, h', h''⟩
        · refine Or.inl ⟨h, fun i hi hc => ?_⟩
          apply h' i hi
          refine ⟨?_, hc.2⟩
          rcases Int.lt_or_le i (mid + 1) with hl | hge
          · have := hv i mid.toNat (by omega) (by omega)
            have := hi.2.1
            omega
          · exact hge
        · exact Or.inr ⟨k, h, h', by omega, h''.2⟩

/-- **C42**, as called in the code base (`start = 0`, `end = len`, so that `end` itself is not an
index): the exact first index, or `-1` if the key does not occur. -/
theorem leftBorder_full (v : Arr Int) (val : Int) (hv : SortedArr v v.size) :
    ∃ r, leftBorder v val v.size (v.size + 2) 0 v.size = some r ∧
      ((r = -1 ∧ ∀ i, i < v.size → v.get i ≠ val) ∨ ∃ k : Nat, r = k ∧ IsFirst v v.size val k) := by
  obtain ⟨r, h1, h2⟩ := leftBorder_spec v val (v.size + 2) 0 v.size hv (by omega) (by omega) (by omega)
  refine ⟨r, h1, ?_⟩
  rcases h2 with ⟨h, h'⟩ | ⟨k, h, h', _⟩
  · refine Or.inl ⟨h, ?_⟩
    have key : ∀ n, ∀ i, i < n → i < v.size → v.get i ≠ val := by
      intro n
      induction n with
      | zero => intro i hi; omega
      | succ n ih =>
        intro i hi hi2 he
        exact h' i ⟨hi2, he, fun j hj => ih j (by omega) (by omega)⟩ ⟨by omega, by omega⟩
    exact fun i hi => key (i + 1) i (by omega) hi
  · exact Or.inr ⟨k, h, h'⟩

/-- **C42**, as called in the code base: the exact last index, or `-1`. -/
theorem rightBorder_full (v : Arr Int) (val : Int) (hv : SortedArr v v.size) :
    ∃ r, rightBorder v val v.size (v.size + 2) 0 v.size = some r ∧
      ((r = -1 ∧ ∀ i, i < v.size → v.get i ≠ val) ∨ ∃ k : Nat, r = k ∧ IsLast v v.size val k) := by
  obtain ⟨r, h1, h2⟩ := rightBorder_spec v val (v.size + 2) 0 v.size hv (by omega) (by omega) (by omega)
  refine ⟨r, h1, ?_⟩
  rcases h2 with ⟨h, h'⟩ | ⟨k, h, h', _⟩
  · refine Or.inl ⟨h, ?_⟩
    have key : ∀ n, ∀ i, v.size ≤ i + n → i < v.size → v.get i ≠ val := by
      intro n
      induction n with
      | zero => intro i hi; omega
      | succ n ih =>
        intro i hi hi2 he
        exact h' i ⟨hi2, he, fun j hj hj2 => ih j (by omega) hj2⟩ ⟨by omega, by omega⟩
    exact fun i hi => key v.size i (by omega) hi
  · exact Or.inr ⟨k, h, h'⟩

/-- A concrete sorted array for the theorems above (the array of test_binary_search.cpp). -/
example : SortedArr (Arr.ofList 0 [1, 1, 2, 2, 2, 5, 5, 5, 5]) 9 ∧
    rightBorder (Arr.ofList 0 [1, 1, 2, 2, 2, 5, 5, 5, 5]) 2 9 11 0 9 = some 4 ∧
    leftBorder (Arr.ofList 0 [1, 1, 2, 2, 2, 5, 5, 5, 5]) 5 9 11 0 9 = some 5 ∧
    leftBorder (Arr.ofList 0 [1, 1, 2, 2, 2, 5, 5, 5, 5]) 3 9 11 0 9 = some (-1) := by
  refine ⟨?_, by decide, by decide, by decide⟩
  have : ∀ j, j < 9 → ∀ i, i < j + 1 → (Arr.ofList (0 : Int) [1, 1, 2, 2, 2, 5, 5, 5, 5]).get i ≤
      (Arr.ofList (0 : Int) [1, 1, 2, 2, 2, 5, 5, 5, 5]).get j := by decide
  exact fun i j hij hj => this j hj i (by omega)

/-- A proper sub-range can hide a key: `-1` although the key occurs inside the range. -/
theorem leftBorder_subrange_misses :
    leftBorder (Arr.ofList 0 [2, 2]) 2 2 4 1 1 = some (-1) := by decide

/-! ### l_linear_search -/

/-- `r` is the first index below `n` whose element is at least `item`, or `n`. -/
def IsCross (v : Arr Int) (n : Nat) (item : Int) (r : Nat) : Prop :=
  r ≤ n ∧ (∀ i, i < r → v.get i < item) ∧ (r < n → item ≤ v.get r)

theorem lLinearLoop_spec (v : Arr Int) (item : Int) (n : Nat) (hn : n ≤ v.size) (fuel : Nat) :
    ∀ i : Nat, i < n → n - i < fuel + 1 → (∀ j, j ≤ i → v.get j < item) →
    ∃ r : Nat, lLinearLoop v item n (fuel + 1) i = some (r : Int) ∧ IsCross v n item r := by
  induction fuel with
  | zero => intro i h1 h2; omega
  | succ fuel ih =>
    intro i h1 h2 h3
    unfold lLinearLoop
    by_cases h : (i : Int) < n - 1
    · rw [if_pos h, readI_nat (by omega) (by omega)]
      simp only [Option.bind_eq_bind, Option.bind_some]
      rw [if_pos (by simpa using h3 i (Nat.le_refl _)), readI_nat (by omega) (by omega)]
      simp only [Option.bind_some]
      have e : ((i : Int) + 1).toNat = i + 1 := by omega
      rw [e]
      by_cases hb : v.get (i + 1) ≥ item
      · rw [if_pos hb]
        exact ⟨i + 1, by simp, by omega, fun j hj => h3 j (by omega), fun _ => hb⟩
      · rw [if_neg hb]
        have := ih (i + 1) (by omega) (by omega) (by
          intro j hj
          rcases Nat.lt_or_ge j (i + 1) with hl | hg
          · exact h3 j (by omega)
          · have : j = i + 1 := by omega
            subst this; omega)
        simpa using this
    · rw [if_neg h]
      exact ⟨n, rfl, by omega, fun j hj => h3 j (by omega), fun h => by omega⟩

/-- **C42** linear search as called in the code base (`start = 0`): for every non-empty array (sorted or
not) the first index with an element at least `item`, or `end`; no read outside. -/
theorem lLinearSearch_spec (v : Arr Int) (item : Int) (n : Nat) (h0 : 0 < n) (hn : n ≤ v.size) :
    ∃ r : Nat, lLinearSearch (n + 1) 0 n v item = some (r : Int) ∧ IsCross v n item r := by
  unfold lLinearSearch
  rw [readI_nat (by omega) (by omega)]
  simp only [Option.bind_eq_bind, Option.bind_some]
  by_cases h : v.get (0 : Int).toNat ≥ item
  · rw [if_pos h]
    exact ⟨0, rfl, by omega, fun j hj => by omega, fun _ => h⟩
  · rw [if_neg h]
    exact lLinearLoop_spec v item n hn n 0 h0 (by omega) (by
      intro j hj
      have : j = 0 := by omega
      subst this; simpa using h)

/-- On an empty array the linear search reads `v[0]`, which does not exist. -/
theorem lLinearSearch_empty_out_of_bounds (g : Nat → Int) (item : Int) (fuel : Nat) :
    lLinearSearch fuel 0 0 ⟨0, g⟩ item = none := by
  simp [lLinearSearch, readI, Arr.read]

example : lLinearSearch 10 0 9 (Arr.ofList 0 [1, 1, 2, 2, 2, 5, 5, 5, 5]) 4 = some 5 := by decide

/-! ### l_binary_search -/

theorem lBinaryLoop_spec (v : Arr Int) (item : Int) (n : Nat) (hv : SortedArr v (n + 1))
    (hn : n < v.size) (fuel : Nat) :
    ∀ (e1 e2 : Int) (eh : Option Int), 0 ≤ e1 → e1 ≤ e2 → e2 ≤ n → (e2 - e1 + 2).toNat < fuel →
      (∀ i : Nat, (i : Int) < e1 → v.get i < item) →
      (e2 = n ∨ item ≤ v.get e2.toNat) →
    ∃ r : Nat, lBinaryLoop v item fuel e1 e2 eh = some (r : Int) ∧ r ≤ n ∧
      (∀ i, i < r → v.get i < item) ∧ (item ≤ v.get r ∨ r = n) := by
  induction fuel with
  | zero => intro e1 e2 eh _ _ _ h; omega
  | succ fuel ih =>
    intro e1 e2 eh h0 h12 h2n hf hlo hhi
    unfold lBinaryLoop
    rw [if_pos (by omega)]
    have hdiv : (e2 - e1).tdiv 2 = (e2 - e1) / 2 := Int.tdiv_eq_ediv_of_nonneg (by omega)
    simp only [hdiv]
    obtain ⟨m, hm⟩ : ∃ m, m = e2 - (e2 - e1) / 2 := ⟨_, rfl⟩
    rw [← hm]
    have m1 : e1 ≤ m := by omega
    have m2 : m ≤ e2 := by omega
    by_cases hz : m = 0
    · rw [if_pos hz]
      refine ⟨0, by rw [hz]; rfl, by omega, fun i hi => by omega, ?_⟩
      have : e2 = 0 := by omega
      subst this
      rcases hhi with h | h
      · exact Or.inr (by omega)
      · exact Or.inl h
    rw [if_neg hz, readI_nat (by omega) (by omega), readI_nat (by omega) (by omega)]
    simp only [Option.bind_eq_bind, Option.bind_some]
    have hs := hv (m - 1).toNat m.toNat (by omega) (by omega)
    by_cases ha : v.get (m - 1).toNat < item
    · rw [if_pos ha]
      have below : ∀ i, i < m.toNat → v.get i < item := by
        intro i hi
        have := hv i (m - 1).toNat (by omega) (by omega)
        omega
      by_cases hb : v.get m.toNat ≥ item
      · rw [if_pos hb]
        exact ⟨m.toNat, by rw [Int.toNat_of_nonneg (by omega)], by omega, below, Or.inl hb⟩
      · rw [if_neg hb]
        by_cases he : e2 = m
        · have hmn : m = n := by
            rcases hhi with h | h
            · omega
            · rw [he] at h; omega
          cases fuel with
          | zero => omega
          | succ fuel =>
            unfold lBinaryLoop
            rw [if_neg (by omega)]
            exact ⟨n, by rw [hmn], by omega, fun i hi => below i (by omega), Or.inr rfl⟩
        · refine ih (m + 1) e2 (some m) (by omega) (by omega) h2n (by omega) ?_ hhi
          intro i hi
          rcases Nat.lt_or_ge i m.toNat with h | h
          · exact below i h
          · have : i = m.toNat := by omega
            subst this; omega
    · rw [if_neg ha, if_pos (by omega)]
      have : e1 ≤ m - 1 := by
        rcases Int.lt_or_le (m - 1) e1 with h | h
        · exact absurd (hlo (m - 1).toNat (by omega)) ha
        · exact h
      exact ih e1 (m - 1) (some m) h0 this (by omega) (by omega) hlo (Or.inr (by omega))

/-- **C42** for `l_binary_search`, partial: if the position `end` is itself a readable, sorted element
(`end < size`), the search returns the first index in `0..end` whose element is at least `item`, or
`end` if there is none, without reading outside the array.  What is missing: COOTile.h:179-180 calls
it with `end` = the length, for which the claim is false, see
`lBinarySearch_out_of_bounds`. -/
theorem lBinarySearch_spec_partial (v : Arr Int) (item : Int) (n : Nat) (hv : SortedArr v (n + 1))
    (hn : n < v.size) :
    ∃ r : Nat, lBinarySearch (n + 3) 0 n v item = some (r : Int) ∧ r ≤ n ∧
      (∀ i, i < r → v.get i < item) ∧ (item ≤ v.get r ∨ r = n) :=
  lBinaryLoop_spec v item n hv hn (n + 3) 0 n none (by omega) (by omega) (by omega) (by omega)
    (fun i hi => by omega) (Or.inl rfl)

example : SortedArr (Arr.ofList 0 [1, 2, 2, 5]) 4 ∧
    lBinarySearch 6 0 3 (Arr.ofList 0 [1, 2, 2, 5]) 2 = some 1 := by
  refine ⟨?_, by decide⟩
  have : ∀ j, j < 4 → ∀ i, i < j + 1 → (Arr.ofList (0 : Int) [1, 2, 2, 5]).get i ≤
      (Arr.ofList (0 : Int) [1, 2, 2, 5]).get j := by decide
  exact fun i j hij hj => this j hj i (by omega)

/-- Refutation of C42 for `l_binary_search` called with `end` = number of elements (as in
COOTile.h:179-180): an array of one element is always read at index 1, for every contents, key and
any amount of fuel. -/
theorem lBinarySearch_out_of_bounds (g : Nat → Int) (item : Int) (fuel : Nat) :
    lBinarySearch fuel 0 1 ⟨1, g⟩ item = none := by
  cases fuel with
  | zero => rfl
  | succ fuel =>
    unfold lBinarySearch lBinaryLoop
    simp only [ge_iff_le, Int.zero_le_ofNat, if_true]
    simp [readI, Arr.read]

/-- The value found at the position behind the array decides the answer: with the same one-element
array `[7]` and key 3 (whose correct position is 0), garbage 0 behind the array makes the search
return 1. -/
theorem lBinarySearch_garbage_decides :
    lBinarySearch 4 0 1 (Arr.ofList 0 [7, 0]) 3 = some 1 ∧
    lBinarySearch 4 0 1 (Arr.ofList 0 [7, 9]) 3 = some 0 := by decide

end GraphMat

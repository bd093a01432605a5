import Verif.Model.TestSearch
import Verif.Props.BinSearch

/-!
# C42: the test of the searches, and which calls of `l_binary_search` read behind the array
-/
namespace GraphMat

theorem lBinaryLoop_behind {v : Arr Int} {item : Int} (h0 : 0 < v.size) (hlt : ∀ i, i < v.size → v.get i < item) (fuel : Nat) :
    ∀ (e1 : Int) (eh : Option Int), 0 ≤ e1 → e1 ≤ v.size → lBinaryLoop v item fuel e1 v.size eh = none := by
  induction fuel with
  | zero => intro _ _ _ _; rfl
  | succ fuel ih =>
    intro e1 eh h1 h2
    unfold lBinaryLoop
    rw [if_pos h2]
    have hdiv : ((v.size : Int) - e1).tdiv 2 = ((v.size : Int) - e1) / 2 := Int.tdiv_eq_ediv_of_nonneg (by omega)
    simp only [hdiv]
    obtain ⟨m, hm⟩ : ∃ m, m = (v.size : Int) - ((v.size : Int) - e1) / 2 := ⟨_, rfl⟩
    rw [← hm, if_neg (by omega), readI_nat (by omega) (by omega)]
    simp only [Option.bind_eq_bind, Option.bind_some]
    rw [if_pos (hlt _ (by omega))]
    by_cases e : m = v.size
    · rw [e]
      unfold readI Arr.read
      rw [if_pos (by omega), if_neg (by omega)]
      rfl
    · rw [readI_nat (by omega) (by omega)]
      simp only [Option.bind_some]
      have := hlt m.toNat (by omega)
      rw [if_neg (by omega)]
      exact ih _ _ (by omega) (by omega)

/-- C42, refutation: called with `end` = number of elements, `l_binary_search` reads behind every non-empty array whose elements
are all below the key, whatever the amount of fuel. -/
theorem lBinarySearch_reads_behind {v : Arr Int} {item : Int} (h0 : 0 < v.size) (hlt : ∀ i, i < v.size → v.get i < item)
    (fuel : Nat) : lBinarySearch fuel 0 v.size v item = none :=
  lBinaryLoop_behind h0 hlt fuel 0 none (by omega) (by omega)

example : 0 < (Arr.ofList (0 : Int) testVec).size ∧ ∀ i, i < (Arr.ofList (0 : Int) testVec).size →
    (Arr.ofList (0 : Int) testVec).get i < 7 := by
  refine ⟨by decide, ?_⟩
  show ∀ i, i < 9 → _
  decide

/-- A section succeeds exactly if every call has the expected result. -/
theorem requireResults_iff (l : List (Int × Option Int)) : requireResults l = some true ↔ ∀ p ∈ l, p.2 = some p.1 := by
  induction l with
  | nil => simp [requireResults]
  | cons p l ih =>
    obtain ⟨e, o⟩ := p
    rw [List.forall_mem_cons, ← ih]
    show (o.bind fun r => (requireResults l).bind fun b => some (decide (e = r) && b)) = some true ↔ o = some e ∧ _
    cases o with
    | none => simp
    | some r =>
      cases requireResults l with
      | none => simp
      | some b => simp [eq_comm (a := e)]

example : requireResults [(1, some 1), (2, some 2)] = some true ∧ requireResults [(1, some 1), (2, some 3)] = some false := by decide

/-- The sections of the test on the borders and on the linear search succeed.  The section on `l_binary_search` reads behind its
array (in the call with 7). -/
theorem test_searches :
    testRightBorder 11 = some true ∧ testLeftBorder 11 = some true ∧ testLinearSearch 11 = some true ∧
    ∀ fuel, testBinarySearch fuel [] = none := by
  refine ⟨by decide, by decide, by decide, ?_⟩
  intro fuel
  have h : lBinarySearch fuel 0 9 (Arr.ofList 0 (testVec ++ [])) 7 = none :=
    lBinarySearch_reads_behind (v := Arr.ofList 0 (testVec ++ [])) (by decide) (by
      show ∀ i, i < 9 → _
      decide) fuel
  have hn : ∀ (l l' : List (Int × Option Int)) (e : Int), requireResults (l ++ (e, none) :: l') = none := by
    intro l l' e
    induction l with
    | nil => rfl
    | cons a l ih =>
      obtain ⟨e, o⟩ := a
      show (o.bind fun r => (requireResults (l ++ _)).bind fun b => _) = none
      rw [ih]
      cases o <;> rfl
  unfold testBinarySearch
  simp only
  rw [h]
  exact hn [_, _, _, _, _] [] 9

theorem readI_extend {v w : Arr Int} (hs : v.size ≤ w.size) (hg : ∀ i, i < v.size → w.get i = v.get i) {i x : Int}
    (h : readI v i = some x) : readI w i = some x := by
  unfold readI Arr.read at h ⊢
  split at h
  · rename_i hi
    rw [if_pos hi]
    split at h
    · rename_i hl
      rw [if_pos (by omega), hg _ hl]
      exact h
    · exact nomatch h
  · exact nomatch h

theorem lBinaryLoop_extend {v w : Arr Int} (hs : v.size ≤ w.size) (hg : ∀ i, i < v.size → w.get i = v.get i) {item : Int}
    (k : Nat) (fuel : Nat) : ∀ (e1 e2 : Int) (eh : Option Int) (r : Int), lBinaryLoop v item fuel e1 e2 eh = some r →
      lBinaryLoop w item (fuel + k) e1 e2 eh = some r := by
  induction fuel with
  | zero => intro _ _ _ _ h; exact nomatch h
  | succ fuel ih =>
    intro e1 e2 eh r h
    rw [Nat.add_right_comm]
    unfold lBinaryLoop at h ⊢
    split at h
    · rename_i h1
      rw [if_pos h1]
      simp only at h ⊢
      split at h
      · rename_i h2
        rw [if_pos h2]
        exact h
      · rename_i h2
        rw [if_neg h2]
        obtain ⟨a, ha, h⟩ := Option.bind_eq_some_iff.mp h
        show Option.bind _ _ = _
        rw [readI_extend hs hg ha, Option.bind_some]
        split at h
        · rename_i h3
          rw [if_pos h3]
          obtain ⟨b, hb, h⟩ := Option.bind_eq_some_iff.mp h
          show Option.bind _ _ = _
          rw [readI_extend hs hg hb, Option.bind_some]
          split at h
          · rename_i h4
            rw [if_pos h4]
            exact h
          · rename_i h4
            rw [if_neg h4]
            exact ih _ _ _ _ h
        · rename_i h3
          rw [if_neg h3]
          obtain ⟨b, hb, h⟩ := Option.bind_eq_some_iff.mp h
          show Option.bind _ _ = _
          rw [readI_extend hs hg hb, Option.bind_some]
          split at h
          · rename_i h4
            rw [if_pos h4]
            exact ih _ _ _ _ h
          · rename_i h4
            rw [if_neg h4]
            exact ih _ _ _ _ h
    · rename_i h1
      rw [if_neg h1]
      exact h

/-- Where the memory behind the array can be read, the section on `l_binary_search` succeeds whatever it holds: this is why the
test does not find the error. -/
theorem test_binary_search_hides (x : Int) : testBinarySearch 11 [x] = some true := by
  have h : ∀ item r : Int, lBinarySearch 11 0 9 (Arr.ofList 0 testVec) item = some r →
      lBinarySearch 11 0 9 (Arr.ofList 0 (testVec ++ [x])) item = some r := by
    intro item r hr
    refine lBinaryLoop_extend (v := Arr.ofList 0 testVec) (by show 9 ≤ 10; decide) ?_ 0 11 0 9 none r hr
    intro i hi
    show (testVec ++ [x]).getD i 0 = testVec.getD i 0
    rw [List.getD_eq_getElem?_getD, List.getD_eq_getElem?_getD, List.getElem?_append_left hi]
  have h7 : lBinarySearch 11 0 9 (Arr.ofList 0 (testVec ++ [x])) 7 = some 9 := by
    simp [lBinarySearch, lBinaryLoop, readI, Arr.read, Arr.ofList, testVec]
  unfold testBinarySearch
  simp only
  rw [h 1 0 (by decide), h 2 2 (by decide), h 0 0 (by decide), h 4 5 (by decide), h 5 5 (by decide), h7]
  decide

/-- C42 for `l_binary_search` called with `end` = number of elements, as COOTile.h:179-180 does: a call that does not read behind
the array returns the first index whose element is at least the key. -/
theorem lBinarySearch_sound {v : Arr Int} (hv : SortedArr v v.size) {item : Int} {fuel : Nat} {r : Int} (h0 : 0 < v.size)
    (h : lBinarySearch fuel 0 v.size v item = some r) :
    ∃ k : Nat, r = k ∧ k < v.size ∧ (∀ i, i < k → v.get i < item) ∧ item ≤ v.get k := by
  have hlast : ¬ v.get (v.size - 1) < item := by
    intro hl
    rw [lBinarySearch_reads_behind h0 (fun i hi => Int.lt_of_le_of_lt (hv i (v.size - 1) (by omega) (by omega)) hl)] at h
    exact nomatch h
  have hw : SortedArr ⟨v.size + 1, fun i => if i < v.size then v.get i else v.get (v.size - 1)⟩ (v.size + 1) := by
    intro i j hij hj
    show (if i < v.size then _ else _) ≤ (if j < v.size then _ else _)
    split
    · split
      · exact hv i j hij (by assumption)
      · exact hv i _ (by omega) (by omega)
    · rw [if_neg (by omega)]
      exact Int.le_refl _
  obtain ⟨k, hk, hkn, hlo, hhi⟩ := lBinarySearch_spec_partial _ item v.size hw (by show v.size < v.size + 1; omega)
  have e1 := lBinaryLoop_extend (v := v) (w := ⟨v.size + 1, fun i => if i < v.size then v.get i else v.get (v.size - 1)⟩)
    (by show v.size ≤ v.size + 1; omega) (fun i hi => if_pos hi) (v.size + 3) fuel 0 v.size none r h
  have e2 := lBinaryLoop_extend (v := ⟨v.size + 1, fun i => if i < v.size then v.get i else v.get (v.size - 1)⟩)
    (w := ⟨v.size + 1, fun i => if i < v.size then v.get i else v.get (v.size - 1)⟩)
    (Nat.le_refl _) (fun i hi => rfl) fuel (v.size + 3) 0 v.size none k hk
  rw [Nat.add_comm (v.size + 3) fuel] at e2
  have er : r = k := Option.some.inj (e1.symm.trans e2)
  have hkl : k < v.size := by
    rcases Nat.lt_or_ge k v.size with hk' | hk'
    · exact hk'
    · have hx := hlo (v.size - 1) (by omega)
      simp only [if_pos (Nat.sub_lt h0 Nat.one_pos)] at hx
      exact absurd hx hlast
  refine ⟨k, er, hkl, ?_, ?_⟩
  · intro i hi
    have hx := hlo i hi
    simp only [if_pos (Nat.lt_trans hi hkl)] at hx
    exact hx
  · rcases hhi with hx | hx
    · simp only [if_pos hkl] at hx
      exact hx
    · omega

example : SortedArr (Arr.ofList 0 [1, 2, 2, 5]) 4 ∧ lBinarySearch 8 0 4 (Arr.ofList 0 [1, 2, 2, 5]) 2 = some 1 := by
  refine ⟨?_, by decide⟩
  have : ∀ j, j < 4 → ∀ i, i < j + 1 → (Arr.ofList (0 : Int) [1, 2, 2, 5]).get i ≤
      (Arr.ofList (0 : Int) [1, 2, 2, 5]).get j := by decide
  exact fun i j hij hj => this j hj i (by omega)

theorem lBinaryLoop_inside {v : Arr Int} {item : Int} {n : Nat} (hs : v.size = n + 2) (hv : SortedArr v v.size) (hi : item ≤ v.get n)
    (fuel : Nat) : ∀ (e1 : Int) (eh : Option Int), 0 ≤ e1 → e1 ≤ n → (n + 2 - e1 + 2).toNat < fuel →
      (∀ i : Nat, (i : Int) < e1 → v.get i < item) → ∃ r : Nat, lBinaryLoop v item fuel e1 v.size eh = some (r : Int) := by
  induction fuel with
  | zero => intro _ _ _ _ h; omega
  | succ fuel ih =>
    intro e1 eh h1 h2 hf hlo
    unfold lBinaryLoop
    rw [if_pos (by omega)]
    have hdiv : ((v.size : Int) - e1).tdiv 2 = ((v.size : Int) - e1) / 2 := Int.tdiv_eq_ediv_of_nonneg (by omega)
    simp only [hdiv]
    obtain ⟨m, hm⟩ : ∃ m, m = (v.size : Int) - ((v.size : Int) - e1) / 2 := ⟨_, rfl⟩
    rw [← hm, if_neg (by omega), readI_nat (by omega) (by omega), readI_nat (i := m) (by omega) (by omega)]
    simp only [Option.bind_eq_bind, Option.bind_some]
    have hmono : v.get (m - 1).toNat ≤ v.get m.toNat := hv _ _ (by omega) (by omega)
    split
    · split
      · exact ⟨m.toNat, by congr 1; omega⟩
      · rename_i hb
        have hmn : m < n := by
          rcases Int.lt_or_le m n with h | h
          · exact h
          · have := hv n m.toNat (by omega) (by omega)
            omega
        refine ih (m + 1) (some m) (by omega) (by omega) (by omega) (fun i hi' => ?_)
        have := hv i m.toNat (by omega) (by omega)
        omega
    · rename_i ha
      rw [if_pos (by omega)]
      have he : e1 ≤ m - 1 := by
        rcases Int.lt_or_le (m - 1) e1 with h | h
        · exact absurd (hlo (m - 1).toNat (by omega)) ha
        · exact h
      obtain ⟨r, hr, _⟩ := lBinaryLoop_spec v item (n + 1) (hs ▸ hv) (by omega) fuel e1 (m - 1) (some m) h1 he (by omega) (by omega)
        hlo (Or.inr (by omega))
      exact ⟨r, hr⟩

/-- Such calls exist: with at least two elements, every key that is not above the last but one element is found without reading
behind the array. -/
theorem lBinarySearch_inside {v : Arr Int} (hv : SortedArr v v.size) {item : Int} (h2 : 2 ≤ v.size) (hi : item ≤ v.get (v.size - 2)) :
    ∃ k : Nat, lBinarySearch (v.size + 3) 0 v.size v item = some (k : Int) ∧ k < v.size ∧ (∀ i, i < k → v.get i < item) ∧
      item ≤ v.get k := by
  obtain ⟨n, hn⟩ : ∃ n, v.size = n + 2 := ⟨v.size - 2, by omega⟩
  have en : v.size - 2 = n := by omega
  obtain ⟨r, hr⟩ := lBinaryLoop_inside hn hv (en ▸ hi) (v.size + 3) 0 none (by omega) (by omega) (by omega) (fun i hi => by omega)
  obtain ⟨k, e, h⟩ := lBinarySearch_sound hv (by omega) hr
  exact ⟨k, by rw [← e]; exact hr, h⟩

example : (2 : Int) ≤ (Arr.ofList (0 : Int) [1, 2, 2, 5]).get (4 - 2) := by decide

/-- Between the last two elements it depends on the number of elements: with four the key of the last element is not found. -/
theorem lBinarySearch_last_fails :
    lBinarySearch 8 0 4 (Arr.ofList 0 [1, 2, 2, 5]) 5 = none ∧ lBinarySearch 8 0 3 (Arr.ofList 0 [1, 2, 5]) 5 = some 2 := by decide

end GraphMat

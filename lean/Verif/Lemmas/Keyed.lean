import Verif.Props.BinSearch
import Verif.Lemmas.TileRep
import Verif.Lemmas.VecList
import Verif.Lemmas.Compress
import Verif.Model.SpMat

/-! Lists sorted by a key: the border searches, and the slices between borders. -/
namespace GraphMat

variable {α κ : Type}

/-- Number of keys below `k`. -/
def below (A : List Nat) (k : Nat) : Nat := A.countP (fun a => decide (a < k))

theorem below_le (A : List Nat) (k : Nat) : below A k ≤ A.length := List.countP_le_length

theorem below_mono (A : List Nat) {j k : Nat} (h : j ≤ k) : below A j ≤ below A k := by
  apply List.countP_mono_left
  intro a _ ha
  simp at *; omega

theorem below_zero (A : List Nat) : below A 0 = 0 := by
  unfold below
  rw [List.countP_eq_zero]
  intro a _; simp

theorem below_notMem {A : List Nat} {k : Nat} (h : k ∉ A) : below A (k + 1) = below A k := by
  unfold below
  apply List.countP_congr
  intro a ha
  have : a ≠ k := fun e => h (e ▸ ha)
  simp; omega

theorem ofList_get (A : List Nat) {i : Nat} (h : i < A.length) :
    (Arr.ofList (0 : Int) (A.map Int.ofNat)).get i = (A[i] : Int) := by
  unfold Arr.ofList
  simp [List.getD, h]

theorem sortedArr_of {A : List Nat} (hA : A.Pairwise (· ≤ ·)) :
    SortedArr (Arr.ofList (0 : Int) (A.map Int.ofNat)) A.length := by
  intro i j hij hj
  rw [ofList_get A hj, ofList_get A (by omega)]
  rcases Nat.eq_or_lt_of_le hij with h | h
  · subst h; exact Int.le_refl _
  · have := List.pairwise_iff_getElem.mp hA i j (by omega) hj h
    omega

/-- The right border of a key in a sorted array. -/
theorem rightBorder_below {A : List Nat} (hA : A.Pairwise (· ≤ ·)) (k : Nat) :
    ∃ r, rightBorder (Arr.ofList (0 : Int) (A.map Int.ofNat)) (k : Int) A.length (A.length + 2) 0 A.length = some r ∧
      ((r = -1 ∧ k ∉ A) ∨ (0 ≤ r ∧ r + 1 = (below A (k + 1) : Int) ∧ k ∈ A)) := by
  have hsz : (Arr.ofList (0 : Int) (A.map Int.ofNat)).size = A.length := by simp
  have hs := sortedArr_of hA
  have := rightBorder_full (Arr.ofList (0 : Int) (A.map Int.ofNat)) (k : Int) (by rw [hsz]; exact hs)
  rw [hsz] at this
  obtain ⟨r, h1, h2⟩ := this
  refine ⟨r, h1, ?_⟩
  rcases h2 with ⟨h, h'⟩ | ⟨q, h, hq1, hq2, hq3⟩
  · refine Or.inl ⟨h, fun hm => ?_⟩
    obtain ⟨i, hi, he⟩ := List.getElem_of_mem hm
    have := h' i hi
    rw [ofList_get A hi] at this
    omega
  · refine Or.inr ⟨by omega, ?_, ?_⟩
    · have hc : below A (k + 1) = q + 1 := by
        unfold below
        rw [ofList_get A hq1] at hq2
        refine countP_split (by omega) ?_ ?_
        · intro j hj hjq
          have := hs j q (by omega) hq1
          rw [ofList_get A hj, ofList_get A hq1] at this
          simp; omega
        · intro j hj hjq
          have h3 := hq3 j (by omega) hj
          have := hs q j (by omega) hj
          rw [ofList_get A hj] at h3 this
          rw [ofList_get A hq1] at this
          simp; omega
      rw [hc, h]; simp
    · rw [ofList_get A hq1] at hq2
      have : A[q] = k := by omega
      rw [← this]; exact List.getElem_mem _

/-- The left border of a key in a sorted array. -/
theorem leftBorder_below {A : List Nat} (hA : A.Pairwise (· ≤ ·)) (k : Nat) :
    ∃ r, leftBorder (Arr.ofList (0 : Int) (A.map Int.ofNat)) (k : Int) A.length (A.length + 2) 0 A.length = some r ∧
      ((r = -1 ∧ k ∉ A) ∨ (r = (below A k : Int) ∧ k ∈ A)) := by
  have hsz : (Arr.ofList (0 : Int) (A.map Int.ofNat)).size = A.length := by simp
  have hs := sortedArr_of hA
  have := leftBorder_full (Arr.ofList (0 : Int) (A.map Int.ofNat)) (k : Int) (by rw [hsz]; exact hs)
  rw [hsz] at this
  obtain ⟨r, h1, h2⟩ := this
  refine ⟨r, h1, ?_⟩
  rcases h2 with ⟨h, h'⟩ | ⟨q, h, hq1, hq2, hq3⟩
  · refine Or.inl ⟨h, fun hm => ?_⟩
    obtain ⟨i, hi, he⟩ := List.getElem_of_mem hm
    have := h' i hi
    rw [ofList_get A hi] at this
    omega
  · refine Or.inr ⟨?_, ?_⟩
    · have hc : below A k = q := by
        unfold below
        rw [ofList_get A hq1] at hq2
        refine countP_split (by omega) ?_ ?_
        · intro j hj hjq
          have h3 := hq3 j hjq
          have := hs j q (by omega) hq1
          rw [ofList_get A hj] at h3 this
          rw [ofList_get A hq1] at this
          simp; omega
        · intro j hj hjq
          have := hs q j (by omega) hj
          rw [ofList_get A hj, ofList_get A hq1] at this
          simp; omega
      rw [hc, h]
    · rw [ofList_get A hq1] at hq2
      have : A[q] = k := by omega
      rw [← this]; exact List.getElem_mem _

/-- The elements with key `k` are contiguous in a sorted list. -/
theorem slice_below {L : List (α × Nat)} (hL : L.Pairwise (fun a b => a.2 ≤ b.2)) (k : Nat) :
    sliceOf (L.map (·.1)) (below (L.map (·.2)) k) (below (L.map (·.2)) (k + 1) - below (L.map (·.2)) k) =
      some ((L.filter (fun a => decide (a.2 = k))).map (·.1)) := by
  have hlen : ∀ j, below (L.map (·.2)) j = (L.filter (fun a => decide (a.2 < j))).length := by
    intro j
    unfold below
    rw [List.countP_map, List.countP_eq_length_filter]
    rfl
  have hm := below_mono (L.map (·.2)) (show k ≤ k + 1 by omega)
  have hl := below_le (L.map (·.2)) (k + 1)
  unfold sliceOf
  rw [List.length_map] at hl ⊢
  rw [if_pos (by omega), ← List.map_drop, ← List.map_take]
  congr 2
  have e1 := sorted_filter_append hL k
  have e2 := sorted_filter_append (f := fun a : α × Nat => a.2)
    (l := L.filter (fun a => decide (k ≤ a.2))) (hL.sublist List.filter_sublist) (k + 1)
  have e3 : (L.filter (fun a => decide (k ≤ a.2))).filter (fun a => decide (a.2 < k + 1)) =
      L.filter (fun a => decide (a.2 = k)) := by
    rw [List.filter_filter]
    apply List.filter_congr
    intro a _
    rw [Bool.eq_iff_iff]; simp; omega
  rw [e3] at e2
  have e4 : (L.filter (fun a => decide (a.2 < k + 1))).length =
      (L.filter (fun a => decide (a.2 < k))).length + (L.filter (fun a => decide (a.2 = k))).length := by
    rw [← List.countP_eq_length_filter, ← List.countP_eq_length_filter, ← List.countP_eq_length_filter]
    clear hL e1 e2 e3 hm hl hlen
    induction L with
    | nil => rfl
    | cons a l ih =>
      simp only [List.countP_cons, decide_eq_true_eq]
      by_cases h1 : a.2 < k
      · rw [if_pos h1, if_pos (by omega), if_neg (by omega)]; omega
      · by_cases h2 : a.2 = k
        · rw [if_neg h1, if_pos (by omega), if_pos h2]; omega
        · rw [if_neg h1, if_neg (by omega), if_neg h2]; omega
  rw [hlen, hlen, e4]
  have e5 : L.drop (L.filter (fun a => decide (a.2 < k))).length = L.filter (fun a => decide (k ≤ a.2)) := by
    have : L.drop (L.filter (fun a => decide (a.2 < k))).length =
        (L.filter (fun a => decide (a.2 < k)) ++ L.filter (fun a => decide (k ≤ a.2))).drop
          (L.filter (fun a => decide (a.2 < k))).length := by rw [e1]
    rw [this, List.drop_left]
  rw [e5, Nat.add_sub_cancel_left, ← e2, List.take_left]

/-- The send plan: contiguous slices, one per rank. -/
theorem sendPlan_spec {A : List Nat} (hA : A.Pairwise (· ≤ ·)) (nrank : Nat) :
    sendPlan A nrank = some ((List.range nrank).map (fun i => (below A i, below A (i + 1) - below A i))) := by
  unfold sendPlan
  simp only [Option.bind_eq_bind]
  have : forLoop 0 nrank ((0 : Nat), ([] : List (Nat × Nat))) (fun i st => do
      let point ← rightBorder (Arr.ofList 0 (A.map Int.ofNat)) (i : Int) A.length (A.length + 2) 0 A.length
      if point = -1 then some (st.1, st.2 ++ [(st.1, 0)])
      else if point + 1 < (st.1 : Int) then none
      else some ((point + 1).toNat, st.2 ++ [(st.1, (point + 1).toNat - st.1)])) =
      some (below A nrank, (List.range nrank).map (fun i => (below A i, below A (i + 1) - below A i))) := by
    obtain ⟨s, hs, h1⟩ := forLoop_inv (lo := 0) (hi := nrank) (s := ((0 : Nat), ([] : List (Nat × Nat))))
      (body := fun i st => do
        let point ← rightBorder (Arr.ofList 0 (A.map Int.ofNat)) (i : Int) A.length (A.length + 2) 0 A.length
        if point = -1 then some (st.1, st.2 ++ [(st.1, 0)])
        else if point + 1 < (st.1 : Int) then none
        else some ((point + 1).toNat, st.2 ++ [(st.1, (point + 1).toNat - st.1)]))
      (fun i st => st = (below A i, (List.range i).map (fun i => (below A i, below A (i + 1) - below A i))))
      (Nat.zero_le _) (by rw [below_zero]; rfl) (by
        intro i st _ hi hst
        subst hst
        obtain ⟨r, hr, h2⟩ := rightBorder_below hA i
        rw [hr]
        simp only [Option.bind_eq_bind, Option.bind_some]
        have hm := below_mono A (show i ≤ i + 1 by omega)
        rcases h2 with ⟨h, hn⟩ | ⟨h0, h, _⟩
        · rw [if_pos h]
          refine ⟨_, rfl, ?_⟩
          rw [List.range_succ, List.map_append, below_notMem hn]
          simp [below_notMem hn]
        · rw [if_neg (by omega), if_neg (by omega)]
          refine ⟨_, rfl, ?_⟩
          rw [h, List.range_succ, List.map_append]
          simp)
    rw [hs, h1]
  simp only [Option.bind_eq_bind] at this
  rw [this]
  rfl

theorem filter_append_perm' (l : List α) (p : α → Bool) :
    (l.filter p ++ l.filter (fun a => !p a)).Perm l := by
  induction l with
  | nil => simp
  | cons a l ih =>
    by_cases h : p a = true
    · rw [List.filter_cons_of_pos h, List.filter_cons_of_neg (by simp [h]), List.cons_append]
      exact ih.cons a
    · rw [List.filter_cons_of_neg h, List.filter_cons_of_pos (by simp [h])]
      exact List.perm_middle.trans (ih.cons a)

/-- Splitting a list by a key and concatenating is a permutation. -/
theorem bucket_perm [DecidableEq κ] (key : α → κ) (ks : List κ) (hk : ks.Nodup) :
    ∀ l : List α, (∀ a ∈ l, key a ∈ ks) →
      (ks.flatMap (fun k => l.filter (fun a => decide (key a = k)))).Perm l := by
  induction ks with
  | nil =>
    intro l h
    cases l with
    | nil => simp
    | cons a l => exact absurd (h a List.mem_cons_self) (by simp)
  | cons k ks ih =>
    intro l h
    rw [List.nodup_cons] at hk
    rw [List.flatMap_cons]
    have h1 := ih hk.2 (l.filter (fun a => !decide (key a = k))) (by
      intro a ha
      rw [List.mem_filter] at ha
      have := h a ha.1
      rw [List.mem_cons] at this
      rcases this with e | e
      · rw [e] at ha; simp at ha
      · exact e)
    have h2 : ks.flatMap (fun k' => l.filter (fun a => decide (key a = k'))) =
        ks.flatMap (fun k' => (l.filter (fun a => !decide (key a = k))).filter (fun a => decide (key a = k'))) := by
      apply flatMap_ext
      intro k' hk'
      rw [List.filter_filter]
      apply List.filter_congr
      intro a _
      have : k' ≠ k := fun e => hk.1 (e ▸ hk')
      rw [Bool.eq_iff_iff]
      simp
      intro e
      rw [e]; exact this
    rw [h2]
    exact (List.Perm.append_left _ h1).trans (filter_append_perm' l _)

theorem flatMap_perm {l : List κ} {f g : κ → List α} (h : ∀ k ∈ l, (f k).Perm (g k)) :
    (l.flatMap f).Perm (l.flatMap g) := by
  induction l with
  | nil => simp
  | cons a l ih =>
    rw [List.flatMap_cons, List.flatMap_cons]
    exact (h a List.mem_cons_self).append (ih (fun k hk => h k (List.mem_cons_of_mem _ hk)))

end GraphMat

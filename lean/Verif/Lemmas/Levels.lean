import Verif.Lemmas.Paths

/-!
# Longest incoming walks
-/
namespace GraphMat

variable {E : Type} {es : List (Edge E)} {n : Nat}

theorem Walk.append {s u v i j : Nat} (h1 : Walk es s u i) (h2 : Walk es u v j) : Walk es s v (i + j) := by
  induction h2 with
  | refl => exact h1
  | step e _ he hs hd ih => rw [← Nat.add_assoc]; exact .step e ih he hs hd

/-- The vertices visited by a walk. -/
theorem Walk.trace {s v k : Nat} (h : Walk es s v k) :
    ∃ f : Nat → Nat, f 0 = s ∧ f k = v ∧ ∀ i j, i ≤ j → j ≤ k → Walk es (f i) (f j) (j - i) := by
  induction h with
  | refl => refine ⟨fun _ => s, rfl, rfl, ?_⟩
            intro i j hi hj
            obtain rfl : j = 0 := by omega
            rw [Nat.zero_sub]; exact .refl
  | step e hw0 he hs hd ih =>
    rename_i u v k
    obtain ⟨f, f0, fk, hf⟩ := ih
    refine ⟨fun i => if i ≤ k then f i else v, by simp [f0], by simp, ?_⟩
    intro i j hi hj
    rcases Nat.lt_or_ge k j with h | h
    · obtain rfl : j = k + 1 := by omega
      simp only [if_neg (show ¬ k + 1 ≤ k by omega)]
      by_cases hik : i ≤ k
      · rw [if_pos hik, show k + 1 - i = (k - i) + 1 by omega]
        have := hf i k hik (Nat.le_refl _)
        rw [fk] at this
        exact .step e this he hs hd
      · rw [if_neg hik, show k + 1 - i = 0 by omega]; exact .refl
    · simp only [if_pos h, if_pos (show i ≤ k by omega)]
      exact hf i j hi h

/-- All walks that end in `v` have fewer than `k` edges. -/
def Settled (es : List (Edge E)) (k v : Nat) : Prop := ∀ u j, Walk es u v j → j < k

theorem Settled.not_zero {v : Nat} : ¬ Settled es 0 v := fun h => absurd (h v 0 .refl) (by omega)

theorem Settled.mono {k k' v : Nat} (h : Settled es k v) (hk : k ≤ k') : Settled es k' v :=
  fun u j hw => Nat.lt_of_lt_of_le (h u j hw) hk

theorem settled_succ {k v : Nat} :
    Settled es (k + 1) v ↔ ∀ e ∈ es, ∀ u : Nat, e.src = (u : Int) → e.dst = (v : Int) → Settled es k u := by
  constructor
  · intro h e he u h1 h2 w j hw
    have := h w (j + 1) (.step e hw he h1 h2)
    omega
  · intro h u j hw
    cases hw with
    | refl => omega
    | step e hw he h1 h2 => have := h e he _ h1 h2 _ _ hw; omega

theorem longestIn_iff {k v : Nat} : LongestIn es v k ↔ Settled es (k + 1) v ∧ ¬ Settled es k v := by
  constructor
  · rintro ⟨⟨u, h1⟩, h2⟩
    exact ⟨fun u j hw => Nat.lt_succ_of_le (h2 u j hw), fun h => by have := h u k h1; omega⟩
  · rintro ⟨h1, h2⟩
    refine ⟨?_, fun u j hw => Nat.le_of_lt_succ (h1 u j hw)⟩
    apply Classical.byContradiction
    intro hn
    apply h2
    intro u j hw
    have := h1 u j hw
    have : j ≠ k := by rintro rfl; exact hn ⟨u, hw⟩
    omega

theorem LongestIn.unique {v i j : Nat} (h1 : LongestIn es v i) (h2 : LongestIn es v j) : i = j := by
  obtain ⟨⟨u, a⟩, b⟩ := h1
  obtain ⟨⟨w, c⟩, d⟩ := h2
  have := b w j c
  have := d u i a
  omega

theorem Settled.longest {k v : Nat} (h : Settled es k v) : ∃ j, j < k ∧ LongestIn es v j := by
  induction k with
  | zero => exact absurd h Settled.not_zero
  | succ k ih =>
    by_cases hk : Settled es k v
    · obtain ⟨j, h1, h2⟩ := ih hk; exact ⟨j, by omega, h2⟩
    · exact ⟨k, by omega, longestIn_iff.mpr ⟨h, hk⟩⟩

/-- Going around a cycle. -/
theorem Walk.pump {u k : Nat} (h : Walk es u u (k + 1)) (m : Nat) : Walk es u u (m * (k + 1)) := by
  induction m with
  | zero => rw [Nat.zero_mul]; exact .refl
  | succ m ih => rw [Nat.succ_mul]; exact ih.append h

theorem BehindCycle.not_settled {v : Nat} (h : BehindCycle es v) (k : Nat) : ¬ Settled es k v := by
  obtain ⟨u, i, j, h1, h2⟩ := h
  intro hs
  have := hs u _ ((h1.pump k).append h2)
  have : k ≤ k * (i + 1) := Nat.le_mul_of_pos_right _ (by omega)
  omega

/-- A walk of `n` edges contains a cycle. -/
theorem Walk.behindCycle {s v k : Nat} (hv : ∀ e ∈ es, e.Valid n) (h1 : 1 ≤ v) (h2 : v ≤ n) (h : Walk es s v k)
    (hk : n ≤ k) : BehindCycle es v := by
  obtain ⟨f, f0, fk, hf⟩ := h.trace
  have hr : ∀ j : Fin (n + 1), 1 ≤ f j ∧ f j ≤ n := by
    intro j
    rcases Nat.lt_or_ge j.val k with hj | hj
    · have hw := hf j.val (j.val + 1) (by omega) (by omega)
      rw [show j.val + 1 - j.val = 0 + 1 by omega] at hw
      generalize f (j.val + 1) = x at hw
      generalize f j.val = y at hw ⊢
      cases hw with
      | step e hw he a b =>
        cases hw with
        | refl => obtain ⟨x1, x2, _, _⟩ := hv e he; omega
    · rw [show j.val = k by omega, fk]; exact ⟨h1, h2⟩
  obtain ⟨i, j, hij, he⟩ := Fintype.exists_ne_map_eq_of_card_lt
    (fun j : Fin (n + 1) => (⟨f j - 1, by have := hr j; omega⟩ : Fin n)) (by simp)
  have e1 : f i - 1 = f j - 1 := congrArg Fin.val he
  have e2 : f i = f j := by have := hr i; have := hr j; omega
  have cut : ∀ i j : Nat, i < j → j ≤ n → f i = f j → BehindCycle es v := by
    intro i j hlt hj hfe
    have w1 := hf i j (by omega) (by omega)
    rw [← hfe, show j - i = (j - i - 1) + 1 by omega] at w1
    have w2 := hf i k (by omega) (by omega)
    rw [fk] at w2
    exact ⟨f i, _, _, w1, w2⟩
  rcases Nat.lt_or_ge i.val j.val with h | h
  · exact cut i j h (by omega) e2
  · exact cut j i (by have : i.val ≠ j.val := fun h => hij (Fin.ext h)
                      omega) (by omega) e2.symm

theorem settled_of_not_behindCycle {v : Nat} (hv : ∀ e ∈ es, e.Valid n) (h1 : 1 ≤ v) (h2 : v ≤ n)
    (h : ¬ BehindCycle es v) : Settled es n v := by
  intro u j hw
  apply Classical.byContradiction
  intro hn
  exact h (hw.behindCycle hv h1 h2 (by omega))

/-- A vertex is either behind a cycle or has a longest incoming walk, of fewer than `n` edges. -/
theorem behindCycle_or_longest {v : Nat} (hv : ∀ e ∈ es, e.Valid n) (h1 : 1 ≤ v) (h2 : v ≤ n) :
    (BehindCycle es v ∧ ∀ k, ¬ LongestIn es v k) ∨ (¬ BehindCycle es v ∧ ∃ k, k < n ∧ LongestIn es v k) := by
  by_cases h : BehindCycle es v
  · exact .inl ⟨h, fun k hk => h.not_settled _ (longestIn_iff.mp hk).1⟩
  · exact .inr ⟨h, (settled_of_not_behindCycle hv h1 h2 h).longest⟩

theorem LongestIn.lt {v k : Nat} (hv : ∀ e ∈ es, e.Valid n) (h1 : 1 ≤ v) (h2 : v ≤ n) (h : LongestIn es v k) : k < n := by
  rcases behindCycle_or_longest hv h1 h2 with ⟨_, h'⟩ | ⟨_, j, j1, j2⟩
  · exact absurd h (h' k)
  · rw [h.unique j2]; exact j1

/-- The end of an edge comes later. -/
theorem LongestIn.edge {u v i j : Nat} {e : Edge E} (he : e ∈ es) (h1 : e.src = (u : Int)) (h2 : e.dst = (v : Int))
    (hu : LongestIn es u i) (hv : LongestIn es v j) : i < j := by
  obtain ⟨w, hw⟩ := hu.1
  exact hv.2 w (i + 1) (.step e hw he h1 h2)

theorem LongestIn.pred {v k : Nat} (h : LongestIn es v (k + 1)) :
    ∃ u : Nat, ∃ e ∈ es, e.src = (u : Int) ∧ e.dst = (v : Int) ∧ LongestIn es u k := by
  obtain ⟨⟨w, hw⟩, h2⟩ := h
  cases hw with
  | step e hw he a b =>
    refine ⟨_, e, he, a, b, ⟨w, hw⟩, ?_⟩
    intro u j hj
    have := h2 u (j + 1) (.step e hj he a b)
    omega

theorem LongestIn.below {k : Nat} : ∀ {v j : Nat}, LongestIn es v k → j ≤ k → 1 ≤ v → v ≤ n → (∀ e ∈ es, e.Valid n) →
    ∃ u, 1 ≤ u ∧ u ≤ n ∧ LongestIn es u j := by
  induction k with
  | zero => intro v j h hj h1 h2 _; obtain rfl : j = 0 := by omega
            exact ⟨v, h1, h2, h⟩
  | succ k ih =>
    intro v j h hj h1 h2 hv
    rcases Nat.lt_or_ge j (k + 1) with hj | hj
    · obtain ⟨u, e, he, e1, e2, hu⟩ := h.pred
      obtain ⟨a1, a2, _, _⟩ := hv e he
      exact ih hu (by omega) (by omega) (by omega) hv
    · obtain rfl : j = k + 1 := by omega
      exact ⟨v, h1, h2, h⟩

end GraphMat

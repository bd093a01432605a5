import Verif.Spec.Paths
import Verif.Lemmas.StepRel
import Mathlib.Data.Fintype.Pigeonhole
import Mathlib.Data.Fintype.Card

namespace GraphMat

variable {E : Type} {es : List (Edge E)} {s : Nat}

theorem Walk.range {n v k : Nat} (h : Walk es s v k) (hv : ∀ e ∈ es, e.Valid n) (h1 : 1 ≤ s) (h2 : s ≤ n) :
    1 ≤ v ∧ v ≤ n := by
  cases h with
  | refl => exact ⟨h1, h2⟩
  | step e _ he _ hd =>
    obtain ⟨_, _, a, b⟩ := hv e he
    omega

theorem Walk.hops {v k : Nat} (h : Walk es s v k) : ∃ j, j ≤ k ∧ IsHops es s v j := by
  induction k using Nat.strongRecOn with
  | ind k ih =>
    by_cases hj : ∃ j, j < k ∧ Walk es s v j
    · obtain ⟨j, h1, h2⟩ := hj
      obtain ⟨i, h3, h4⟩ := ih j h1 h2
      exact ⟨i, by omega, h4⟩
    · refine ⟨k, Nat.le_refl _, h, ?_⟩
      intro j hw
      rcases Nat.lt_or_ge j k with h | h
      · exact absurd ⟨j, h, hw⟩ hj
      · exact h

theorem IsHops.unique {v j k : Nat} (h1 : IsHops es s v j) (h2 : IsHops es s v k) : j = k :=
  Nat.le_antisymm (h1.2 _ h2.1) (h2.2 _ h1.1)

theorem IsHops.zero : IsHops es s s 0 := ⟨.refl, fun _ _ => Nat.zero_le _⟩

theorem IsHops.eq_of_zero {v : Nat} (h : IsHops es s v 0) : v = s := by
  cases h.1; rfl

/-- A predecessor on a shortest walk. -/
theorem IsHops.pred {v k : Nat} (h : IsHops es s v (k + 1)) :
    ∃ u : Nat, ∃ e ∈ es, e.src = (u : Int) ∧ e.dst = (v : Int) ∧ IsHops es s u k := by
  cases h.1 with
  | step e hw he h1 h2 =>
    refine ⟨_, e, he, h1, h2, hw, ?_⟩
    intro j hj
    have := h.2 _ (.step e hj he h1 h2)
    omega

theorem IsHops.below {k : Nat} : ∀ {v j : Nat}, IsHops es s v k → j ≤ k → ∃ u, IsHops es s u j := by
  induction k with
  | zero => intro v j h hj; obtain rfl : j = 0 := by omega
            exact ⟨v, h⟩
  | succ k ih =>
    intro v j h hj
    rcases Nat.lt_or_ge j (k + 1) with h1 | h1
    · obtain ⟨u, _, _, _, _, hu⟩ := h.pred
      exact ih hu (by omega)
    · obtain rfl : j = k + 1 := by omega
      exact ⟨v, h⟩

/-- Hop distances are smaller than the number of vertices. -/
theorem IsHops.lt {n v k : Nat} (h : IsHops es s v k) (hv : ∀ e ∈ es, e.Valid n) (h1 : 1 ≤ s) (h2 : s ≤ n) : k < n := by
  apply Classical.byContradiction
  intro hn
  have hex : ∀ j : Fin (n + 1), ∃ u, IsHops es s u j.val := fun j => h.below (by omega)
  choose f hf using hex
  have hr : ∀ j, 1 ≤ f j ∧ f j ≤ n := fun j => (hf j).1.range hv h1 h2
  obtain ⟨a, b, hab, he⟩ := Fintype.exists_ne_map_eq_of_card_lt
    (fun j : Fin (n + 1) => (⟨f j - 1, by have := hr j; omega⟩ : Fin n)) (by simp)
  apply hab
  have e1 : f a - 1 = f b - 1 := congrArg Fin.val he
  have e2 : f a = f b := by have := hr a; have := hr b; omega
  have e3 := hf a
  rw [e2] at e3
  exact Fin.ext (e3.unique (hf b))

/-! ### Walks with lengths -/

variable {len : E → Nat}

theorem WWalk.range {n v k d : Nat} (h : WWalk len es s v k d) (hv : ∀ e ∈ es, e.Valid n) (h1 : 1 ≤ s) (h2 : s ≤ n) :
    1 ≤ v ∧ v ≤ n := by
  cases h with
  | refl => exact ⟨h1, h2⟩
  | step e _ he _ hd =>
    obtain ⟨_, _, a, b⟩ := hv e he
    omega

theorem WWalk.append {u v i j a b : Nat} (h1 : WWalk len es s u i a) (h2 : WWalk len es u v j b) :
    WWalk len es s v (i + j) (a + b) := by
  induction h2 with
  | refl => exact h1
  | step e _ he hs hd ih => rw [← Nat.add_assoc, ← Nat.add_assoc]; exact .step e ih he hs hd

/-- The vertices visited by a walk, with the lengths of the parts before and after them. -/
theorem WWalk.trace {v k d : Nat} (h : WWalk len es s v k d) :
    ∃ (f a : Nat → Nat), f 0 = s ∧ ∀ i, i ≤ k → WWalk len es s (f i) i (a i) ∧ a i ≤ d ∧
      WWalk len es (f i) v (k - i) (d - a i) ∧ ∀ j, j ≤ i → a j ≤ a i := by
  induction h with
  | refl =>
    refine ⟨fun _ => s, fun _ => 0, rfl, ?_⟩
    intro i hi
    obtain rfl : i = 0 := by omega
    exact ⟨.refl, Nat.le_refl _, .refl, fun _ _ => Nat.le_refl _⟩
  | step e hw he hs hd ih =>
    rename_i u v k d
    obtain ⟨f, a, h0, h⟩ := ih
    refine ⟨fun i => if i = k + 1 then v else f i, fun i => if i = k + 1 then d + len e.val else a i, ?_, ?_⟩
    · simp only []; rw [if_neg (by omega)]; exact h0
    intro i hi
    by_cases e1 : i = k + 1
    · subst e1
      simp only [if_true]
      refine ⟨.step e hw he hs hd, Nat.le_refl _, by rw [Nat.sub_self, Nat.sub_self]; exact .refl, ?_⟩
      intro j hj
      by_cases e2 : j = k + 1
      · rw [if_pos e2]
      · rw [if_neg e2]
        have := (h j (by omega)).2.1
        omega
    · simp only [if_neg e1]
      obtain ⟨b1, b2, b3, b4⟩ := h i (by omega)
      refine ⟨b1, by omega, ?_, ?_⟩
      · have := b3.step e he hs hd
        have x1 : k + 1 - i = k - i + 1 := by omega
        have x2 : d + len e.val - a i = d - a i + len e.val := by omega
        rw [x1, x2]; exact this
      · intro j hj
        rw [if_neg (by omega)]
        exact b4 j hj

/-- Cycles can be left out of a walk. -/
theorem WWalk.short {n : Nat} (hv : ∀ e ∈ es, e.Valid n) (h1 : 1 ≤ s) (h2 : s ≤ n) {v k : Nat} :
    ∀ {d}, WWalk len es s v k d → ∃ j d', j < n ∧ j ≤ k ∧ d' ≤ d ∧ WWalk len es s v j d' := by
  induction k using Nat.strongRecOn with
  | ind k ih =>
    intro d h
    rcases Nat.lt_or_ge k n with hk | hk
    · exact ⟨k, d, hk, Nat.le_refl _, Nat.le_refl _, h⟩
    obtain ⟨f, a, _, hf⟩ := h.trace
    have hr : ∀ j : Fin (n + 1), 1 ≤ f j ∧ f j ≤ n := fun j => (hf j.val (by omega)).1.range hv h1 h2
    obtain ⟨i, j, hij, he⟩ := Fintype.exists_ne_map_eq_of_card_lt
      (fun j : Fin (n + 1) => (⟨f j - 1, by have := hr j; omega⟩ : Fin n)) (by simp)
    have e1 : f i - 1 = f j - 1 := congrArg Fin.val he
    have e2 : f i = f j := by have := hr i; have := hr j; omega
    have cut : ∀ (i j : Nat), i < j → j ≤ n → f i = f j → ∃ j d', j < n ∧ j ≤ k ∧ d' ≤ d ∧ WWalk len es s v j d' := by
      intro i j hlt hj hfe
      obtain ⟨b1, _, _, _⟩ := hf i (by omega)
      obtain ⟨_, c2, c3, c4⟩ := hf j (by omega)
      rw [← hfe] at c3
      have hm := c4 i (by omega)
      obtain ⟨l, d', l1, l2, l3, l4⟩ := ih (i + (k - j)) (by omega) (b1.append c3)
      exact ⟨l, d', l1, by omega, by omega, l4⟩
    rcases Nat.lt_or_ge i.val j.val with h | h
    · exact cut i j h (by omega) e2
    · exact cut j i (by have : i.val ≠ j.val := fun h => hij (Fin.ext h)
                        omega) (by omega) e2.symm

theorem WWalk.walk {v k d : Nat} (h : WWalk len es s v k d) : Walk es s v k := by
  induction h with
  | refl => exact .refl
  | step e _ he hs hd ih => exact .step e ih he hs hd

theorem Walk.wwalk (len : E → Nat) {v k : Nat} (h : Walk es s v k) : ∃ d, WWalk len es s v k d := by
  induction h with
  | refl => exact ⟨0, .refl⟩
  | step e _ he hs hd ih =>
    obtain ⟨d, h⟩ := ih
    exact ⟨_, .step e h he hs hd⟩

theorem IsDist.unique {v d d' : Nat} (h : IsDist len es s v d) (h' : IsDist len es s v d') : d = d' := by
  obtain ⟨⟨k, hk⟩, h2⟩ := h
  obtain ⟨⟨k', hk'⟩, h2'⟩ := h'
  exact Nat.le_antisymm (h2 _ _ hk') (h2' _ _ hk)

theorem Reachable.dist (len : E → Nat) {v : Nat} (h : Reachable es s v) : ∃ d, IsDist len es s v d := by
  obtain ⟨k, hk⟩ := h
  obtain ⟨d, hd⟩ := hk.wwalk len
  have : ∀ d k, WWalk len es s v k d → ∃ d', IsDist len es s v d' := by
    intro d
    induction d using Nat.strongRecOn with
    | ind d ih =>
      intro k hk
      by_cases hx : ∃ d', d' < d ∧ ∃ k, WWalk len es s v k d'
      · obtain ⟨d', h1, k', h2⟩ := hx
        exact ih d' h1 k' h2
      · refine ⟨d, ⟨k, hk⟩, ?_⟩
        intro k' d' h'
        rcases Nat.lt_or_ge d' d with h | h
        · exact absurd ⟨d', h, k', h'⟩ hx
        · exact h
  exact this d k hd

end GraphMat

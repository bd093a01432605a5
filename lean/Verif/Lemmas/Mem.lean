import Verif.Model.Mem

namespace GraphMat

universe u v
variable {α : Type u} {σ : Type v}

theorem Arr.read_some {a : Arr α} {i : Nat} (h : i < a.size) : a.read i = some (a.get i) := by
  unfold Arr.read; rw [if_pos h]

theorem Arr.read_eq_some {a : Arr α} {i : Nat} {x : α} :
    a.read i = some x ↔ i < a.size ∧ a.get i = x := by
  unfold Arr.read
  split <;> simp [*]

/-- The array after a successful write. -/
def Arr.upd (a : Arr α) (i : Nat) (x : α) : Arr α :=
  { a with get := fun j => if j = i then x else a.get j }

theorem Arr.write_some {a : Arr α} {i : Nat} {x : α} (h : i < a.size) :
    a.write i x = some (a.upd i x) := by
  unfold Arr.write Arr.upd; rw [if_pos h]

theorem Arr.write_eq_some {a b : Arr α} {i : Nat} {x : α} :
    a.write i x = some b ↔ i < a.size ∧ b = a.upd i x := by
  unfold Arr.write Arr.upd
  split
  · simp [*, eq_comm]
  · simp [*]

@[simp] theorem Arr.upd_size (a : Arr α) (i : Nat) (x : α) : (a.upd i x).size = a.size := rfl

theorem Arr.upd_get (a : Arr α) (i j : Nat) (x : α) :
    (a.upd i x).get j = if j = i then x else a.get j := rfl

@[simp] theorem Arr.upd_get_self (a : Arr α) (i : Nat) (x : α) : (a.upd i x).get i = x := by
  simp [Arr.upd]

theorem Arr.upd_get_ne (a : Arr α) {i j : Nat} (x : α) (h : j ≠ i) :
    (a.upd i x).get j = a.get j := by
  simp [Arr.upd, h]

@[simp] theorem Arr.ofList_size (d : α) (l : List α) : (Arr.ofList d l).size = l.length := rfl

@[simp] theorem Arr.toList_length (a : Arr α) : a.toList.length = a.size := by
  simp [Arr.toList]

theorem Arr.toList_getElem? (a : Arr α) (i : Nat) : a.toList[i]? = a.read i := by
  unfold Arr.toList Arr.read
  rw [List.getElem?_map]
  split
  · rename_i h; rw [List.getElem?_range h]; rfl
  · rename_i h; rw [List.getElem?_eq_none (by simpa using h)]; rfl

/-- Hoare rule for counted loops. -/
theorem forLoop_inv {lo hi : Nat} {s : σ} {body : Nat → σ → Option σ} (Inv : Nat → σ → Prop)
    (hle : lo ≤ hi) (h0 : Inv lo s)
    (hstep : ∀ i s, lo ≤ i → i < hi → Inv i s → ∃ s', body i s = some s' ∧ Inv (i + 1) s') :
    ∃ s', forLoop lo hi s body = some s' ∧ Inv hi s' := by
  unfold forLoop
  obtain ⟨k, rfl⟩ : ∃ k, hi = lo + k := ⟨hi - lo, by omega⟩
  rw [Nat.add_sub_cancel_left]
  clear hle
  induction k generalizing lo s with
  | zero => exact ⟨s, by simp, h0⟩
  | succ k ih =>
    obtain ⟨s1, hs1, hI1⟩ := hstep lo s (Nat.le_refl _) (by omega) h0
    rw [List.range'_succ, List.foldlM_cons, hs1]
    obtain ⟨s', h1, h2⟩ := ih hI1 (fun i s h1 h2 => hstep i s (by omega) (by omega))
    refine ⟨s', ?_, ?_⟩
    · simpa using h1
    · have : lo + 1 + k = lo + (k + 1) := by omega
      rw [← this]; exact h2

theorem forLoop_empty {lo hi : Nat} {s : σ} {body : Nat → σ → Option σ} (h : hi ≤ lo) :
    forLoop lo hi s body = some s := by
  unfold forLoop
  have : hi - lo = 0 := by omega
  rw [this]; simp

theorem forLoop_succ_left {lo hi : Nat} {s : σ} {body : Nat → σ → Option σ} (h : lo < hi) :
    forLoop lo hi s body = (body lo s).bind (fun s' => forLoop (lo + 1) hi s' body) := by
  unfold forLoop
  have : hi - lo = (hi - (lo + 1)) + 1 := by omega
  rw [this, List.range'_succ, List.foldlM_cons]
  rfl

theorem forLoop_succ_right {lo hi : Nat} {s : σ} {body : Nat → σ → Option σ} (h : lo ≤ hi) :
    forLoop lo (hi + 1) s body = (forLoop lo hi s body).bind (body hi) := by
  unfold forLoop
  have : hi + 1 - lo = (hi - lo) + 1 := by omega
  rw [this, List.range'_concat, List.foldlM_append]
  have e : lo + 1 * (hi - lo) = hi := by omega
  rw [e]
  cases h : List.foldlM (fun s i => body i s) s (List.range' lo (hi - lo)) with
  | none => simp
  | some x => simp

theorem forLoop_congr {lo hi : Nat} {s : σ} {f g : Nat → σ → Option σ}
    (h : ∀ i s, lo ≤ i → i < hi → f i s = g i s) : forLoop lo hi s f = forLoop lo hi s g := by
  unfold forLoop
  have : ∀ (l : List Nat) (s : σ), (∀ i ∈ l, lo ≤ i ∧ i < hi) →
      l.foldlM (fun s i => f i s) s = l.foldlM (fun s i => g i s) s := by
    intro l
    induction l with
    | nil => intro s _; rfl
    | cons a l ih =>
      intro s hl
      rw [List.foldlM_cons, List.foldlM_cons, h a s (hl a List.mem_cons_self).1
        (hl a List.mem_cons_self).2]
      cases g a s with
      | none => rfl
      | some x => exact ih x (fun i hi => hl i (List.mem_cons_of_mem _ hi))
  apply this
  intro i hi'
  rw [List.mem_range'_1] at hi'
  omega

/-- A loop that writes `f i` to every index `i < n` of an array. -/
theorem forLoop_fill {a : Arr α} {n : Nat} {f : Nat → α} (h : n ≤ a.size) :
    ∃ b, forLoop 0 n a (fun i a => a.write i (f i)) = some b ∧ b.size = a.size ∧
      ∀ i, b.get i = if i < n then f i else a.get i := by
  obtain ⟨b, hb, h1, h2⟩ := forLoop_inv (lo := 0) (hi := n) (s := a)
    (body := fun i a => a.write i (f i))
    (fun k b => b.size = a.size ∧ ∀ i, b.get i = if i < k then f i else a.get i)
    (Nat.zero_le _) ⟨rfl, by intro i; simp⟩ (by
      intro i s _ hi ⟨hs1, hs2⟩
      refine ⟨_, Arr.write_some (by omega), by simpa using hs1, ?_⟩
      intro j
      rw [Arr.upd_get]
      by_cases hj : j = i
      · subst hj; simp
      · rw [if_neg hj, hs2]
        by_cases h3 : j < i
        · rw [if_pos h3, if_pos (by omega)]
        · rw [if_neg h3, if_neg (by omega)])
  exact ⟨b, hb, h1, h2⟩

/-- Updating every element of an array independently. -/
theorem forLoop_modify {a : Arr α} {f : Nat → α → Option α} {n : Nat} (hn : n ≤ a.size)
    {P : Nat → α → Prop} (h : ∀ i, i < n → ∃ y, f i (a.get i) = some y ∧ P i y) :
    ∃ b, forLoop 0 n a (fun i a => (a.read i).bind (fun x => (f i x).bind (fun y => a.write i y)))
        = some b ∧ b.size = a.size ∧ (∀ i, i < n → f i (a.get i) = some (b.get i) ∧ P i (b.get i)) ∧
      ∀ i, n ≤ i → b.get i = a.get i := by
  obtain ⟨b, hb, h1, h2, h3⟩ := forLoop_inv (lo := 0) (hi := n) (s := a)
    (body := fun i a => (a.read i).bind (fun x => (f i x).bind (fun y => a.write i y)))
    (fun k b => b.size = a.size ∧
      (∀ i, i < k → f i (a.get i) = some (b.get i) ∧ P i (b.get i)) ∧
      ∀ i, k ≤ i → b.get i = a.get i)
    (Nat.zero_le _) ⟨rfl, by intro i hi; omega, by intro i _; rfl⟩ (by
      intro i s _ hi ⟨hs1, hs2, hs3⟩
      obtain ⟨y, hy, hP⟩ := h i hi
      have hr : s.read i = some (a.get i) := by
        rw [Arr.read_some (by omega), hs3 i (Nat.le_refl _)]
      refine ⟨s.upd i y, ?_, by simpa using hs1, ?_, ?_⟩
      · rw [hr, Option.bind_some, hy, Option.bind_some, Arr.write_some (by omega)]
      · intro j hj
        by_cases hji : j = i
        · subst hji; rw [Arr.upd_get_self]; exact ⟨hy, hP⟩
        · rw [Arr.upd_get_ne _ _ hji]; exact hs2 j (by omega)
      · intro j hj
        rw [Arr.upd_get_ne _ _ (by omega)]; exact hs3 j (by omega))
  exact ⟨b, hb, h1, h2, h3⟩

end GraphMat

import Verif.Lemmas.Conc

/-!
# More about parallel loops

Loops with an invariant, loops over the elements of arrays, and reductions.
-/
namespace GraphMat

variable {Loc : Type} {W : Loc → Type} [DecidableEq Loc] {σ α R : Type}

/-- A sequential loop inside a task, with an invariant of the model's state. -/
theorem Does.forInv {own shared : Loc → Prop} {reg : σ → R} {mem : σ → (l : Loc) → W l} {body : Nat → R → Code Loc W R}
    {g : Nat → σ → Option σ} (Inv : Nat → σ → Prop) {lo hi : Nat} (hle : lo ≤ hi)
    (h : ∀ i, lo ≤ i → i < hi → ∀ s s', Inv i s → g i s = some s' →
      Inv (i + 1) s' ∧ Does own shared (body i (reg s)) (mem s) (reg s') (mem s'))
    {s s' : σ} (h0 : Inv lo s) (hl : forLoop lo hi s g = some s') :
    Inv hi s' ∧ Does own shared (Code.for lo hi (reg s) body) (mem s) (reg s') (mem s') := by
  unfold forLoop at hl
  unfold Code.for
  obtain ⟨n, hn⟩ : ∃ n, hi = lo + n := ⟨hi - lo, by omega⟩
  subst hn
  rw [Nat.add_sub_cancel_left] at hl ⊢
  clear hle
  induction n generalizing s lo with
  | zero =>
    injection hl with hl
    subst hl
    exact ⟨h0, Does.pure _ _⟩
  | succ n ih =>
    rw [List.range'_succ, List.foldlM_cons] at hl ⊢
    cases hg : g lo s with
    | none => rw [hg] at hl; cases hl
    | some s1 =>
      rw [hg] at hl
      obtain ⟨p1, d1⟩ := h lo (Nat.le_refl _) (by omega) s s1 h0 hg
      obtain ⟨p2, d2⟩ := ih p1 (fun i h1 h2 => h i (by omega) (by omega)) hl
      rw [show lo + 1 + n = lo + (n + 1) by omega] at p2
      exact ⟨p2, d1.bind d2⟩

/-- A task that leaves memory `m'` also leaves the equal memory `m''`. -/
theorem Does.to {own shared : Loc → Prop} {x : Code Loc W α} {m m' m'' : (l : Loc) → W l} {a : α}
    (h : Does own shared x m a m') (e : m' = m'') : Does own shared x m a m'' := e ▸ h

/-- `parFor_outcome_inv` for loops with a reduction. -/
theorem parForR_outcome {own : Nat → Loc → Prop} {shared : Loc → Prop} {mem : σ → (l : Loc) → W l} {n : Nat} {d : α}
    {body : Nat → Code Loc W α} {part : Nat → σ → Option σ} {res : Nat → α}
    (ho : ∀ i j l, i < n → j < n → own i l → own j l → i = j) (hs : ∀ i l, i < n → own i l → ¬ shared l)
    (h : ∀ p, p < n → ∀ s s', part p s = some s' → Does (own p) shared (body p) (mem s) (res p) (mem s'))
    {s s' : σ} (hl : forLoop 0 n s part = some s') :
    OneOutcome (parForR d n body) (mem s) (mem s') (fun i => if i < n then res i else d) := by
  have seq : ∀ k, k ≤ n → ∀ s1, forLoop 0 k s part = some s1 → seqMem (parForR d n body) (mem s) k = mem s1 ∧
      ∀ i, i < k → (parForR d n body i).Keeps (own i) shared (seqMem (parForR d n body) (mem s) i) ∧
        ((parForR d n body i).solo (seqMem (parForR d n body) (mem s) i)).1 = res i := by
    intro k
    induction k with
    | zero =>
      intro _ s1 h1
      injection h1 with h1
      subst h1
      exact ⟨rfl, fun i hi => by omega⟩
    | succ k ih =>
      intro hk s1 h1
      rw [forLoop_range, List.range_succ, List.foldlM_append, ← forLoop_range] at h1
      cases h0 : forLoop 0 k s part with
      | none => rw [h0] at h1; cases h1
      | some s0 =>
        rw [h0] at h1
        have h1 : part k s0 = some s1 := by simpa using h1
        obtain ⟨i1, i2⟩ := ih (by omega) s0 h0
        obtain ⟨d1, d2⟩ := h k (by omega) s0 s1 h1
        have e : parForR d n body k = body k := by unfold parForR; rw [if_pos (by omega)]
        refine ⟨?_, ?_⟩
        · show ((parForR d n body k).solo (seqMem (parForR d n body) (mem s) k)).2 = _
          rw [i1, e, d2]
        · intro i hi
          by_cases hik : i = k
          · subst hik
            rw [e, i1]; exact ⟨d1, by rw [d2]⟩
          · exact i2 i (by omega)
  obtain ⟨e1, e2⟩ := seq n (Nat.le_refl n) s' hl
  obtain ⟨o, r⟩ := oneOutcome_of_seq (own := fun i l => i < n ∧ own i l) (shared := shared) (tasks := parForR d n body)
    (m := mem s) (n := n) (fun i j l hi hj => ho i j l hi.1 hj.1 hi.2 hj.2) (fun i l hi => hs i l hi.1 hi.2)
    (fun i hi => ⟨d, by unfold parForR; rw [if_neg (by omega)]⟩)
    (fun i hi => (e2 i hi).1.mono (fun l hl => ⟨hi, hl⟩) (fun _ h => h))
  rw [e1] at o
  have hr : (fun i => ((parForR d n body i).solo (mem s)).1) = fun i => if i < n then res i else d := by
    funext i
    by_cases hi : i < n
    · rw [r i hi, (e2 i hi).2, if_pos hi]
    · rw [if_neg hi]
      unfold parForR
      rw [if_neg hi]
      rfl
  rw [hr] at o
  exact o

/-- A sum does not depend on how the iterations are divided among the threads. -/
theorem redSum_eq {n : Nat} {res : Nat → Nat} {chunks : List (List Nat)} (h : IsSplit n chunks) :
    redSum res chunks = ((List.range n).map res).sum := by
  have e : redSum res chunks = (chunks.flatten.map res).sum := by
    unfold redSum
    clear h
    induction chunks with
    | nil => rfl
    | cons c cs ih => rw [List.map_cons, List.sum_cons, ih, List.flatten_cons, List.map_append, List.sum_append_nat]
  rw [e]
  exact (h.map res).sum_nat

/-- A load from a memory of which only the loaded location is known. -/
theorem Does.rdv {K : Type} [DecidableEq K] {τ : K → Type} {own shared : K × Nat → Prop} {k : K} {i : Nat}
    (h : own (k, i) ∨ shared (k, i)) {m : (l : K × Nat) → τ l.1} {v : τ k} (hv : m (k, i) = v) :
    Does own shared (aload k i) m v m := by
  subst hv
  exact Does.rd (W := fun l : K × Nat => τ l.1) (l := (k, i)) h m

theorem Does.wrv {K : Type} [DecidableEq K] {τ : K → Type} {own shared : K × Nat → Prop} {k : K} {i : Nat}
    (h : own (k, i)) (m : (l : K × Nat) → τ l.1) (v : τ k) :
    Does own shared (astore k i v) m () (Function.update m (k, i) v) :=
  Does.wr (W := fun l : K × Nat => τ l.1) (l := (k, i)) h v m

section arrays
variable {K : Type} [DecidableEq K] {τ : K → Type}

/-- A parallel loop in which iteration `i` stores to element `i` of the arrays `out` and otherwise only loads elements of
other arrays (and element `i` of the arrays `out`). -/
theorem parFor_map {body : Nat → Code (K × Nat) (fun l => τ l.1) Unit} {A A' : (k : K) → Arr (τ k)} {n : Nat}
    (out : K → Prop) (hsame : ∀ k j, ¬ (out k ∧ j < n) → (A' k).get j = (A k).get j)
    (h : ∀ i, i < n → ∀ m : (l : K × Nat) → τ l.1, (∀ k j, ¬ out k → m (k, j) = (A k).get j) →
      (∀ k, m (k, i) = (A k).get i) → ∃ m', Does (fun l => out l.1 ∧ l.2 = i) (fun l => ¬ out l.1) (body i) m () m' ∧
        ∀ k, out k → m' (k, i) = (A' k).get i) :
    OneOutcome (parFor n body) (arrMem A) (arrMem A') (fun _ => ()) := by
  classical
  have := (parFor_outcome_inv (σ := Nat) (n := n) (body := body) (own := fun i l => out l.1 ∧ l.2 = i)
    (shared := fun l => ¬ out l.1)
    (mem := fun p (l : K × Nat) => if out l.1 ∧ l.2 < p then (A' l.1).get l.2 else (A l.1).get l.2)
    (part := fun p s => some (s + 1)) (fun p s => s = p) (fun i j l _ _ h1 h2 => h1.2.symm.trans h2.2)
    (fun i l _ h1 h2 => h2 h1.1) (by
      rintro p hp s s' rfl hg
      injection hg with hg
      subst hg
      refine ⟨rfl, ?_⟩
      obtain ⟨m', d, e⟩ := h s hp (fun l => if out l.1 ∧ l.2 < s then (A' l.1).get l.2 else (A l.1).get l.2)
        (fun k j hk => if_neg (fun h => hk h.1)) (fun k => if_neg (fun h => Nat.lt_irrefl _ h.2))
      refine d.to ?_
      funext l
      obtain ⟨k, j⟩ := l
      by_cases hk : out k ∧ j = s
      · obtain ⟨hk, rfl⟩ := hk
        rw [e k hk, if_pos ⟨hk, by show j < j + 1; omega⟩]
      · have h1 := d.1.frame (l := (k, j)) hk
        have h2 : (body s).solo _ = _ := d.2
        rw [h2] at h1
        refine Eq.trans (show m' (k, j) = _ from h1) ?_
        by_cases h3 : out k ∧ j < s
        · rw [if_pos (show out (k, j).1 ∧ (k, j).2 < s from h3),
            if_pos (show out (k, j).1 ∧ (k, j).2 < s + 1 from ⟨h3.1, by have := h3.2; show j < s + 1; omega⟩)]
        · rw [if_neg (show ¬ (out (k, j).1 ∧ (k, j).2 < s) from h3),
            if_neg (show ¬ (out (k, j).1 ∧ (k, j).2 < s + 1) from fun h4 => by
              have h5 : j < s + 1 := h4.2
              by_cases h6 : j = s
              · exact hk ⟨h4.1, h6⟩
              · exact h3 ⟨h4.1, by omega⟩)])
    (s := 0) (s' := n) rfl (by
      have : ∀ k s, forLoop 0 k s (fun _ s => some (s + 1)) = some (s + k) := by
        intro k
        induction k with
        | zero => intro s; rfl
        | succ k ih =>
          intro s
          rw [forLoop_range, List.range_succ, List.foldlM_append, ← forLoop_range, ih]
          rfl
      rw [this, Nat.zero_add])).1
  refine cast ?_ this
  congr 1
  · funext l
    rw [if_neg (by omega)]; rfl
  · funext l
    by_cases hl : out l.1 ∧ l.2 < n
    · rw [if_pos hl]; rfl
    · rw [if_neg hl]; exact (hsame l.1 l.2 hl).symm

end arrays

end GraphMat

import Verif.Model.IntLayout
import Verif.Lemmas.IdMap
import Verif.Lemmas.Layout
import Verif.Lemmas.Mem
import Mathlib.Order.Basic
import Mathlib.Algebra.Order.Group.Nat

/-!
# Checked `int` arithmetic of layouts and divisions of work: lemmas
-/
namespace GraphMat

theorem ck_none {x : Int} (h : INT_MAX < x) : ck x = none := by
  unfold ck
  rw [if_neg (by omega)]

theorem cadd_lit {a b : Nat} (h : a + b ≤ IMAX) (c : Int) (hc : c = b) : cadd (a : Int) c = some ((a + b : Nat) : Int) := by
  rw [hc]; exact cadd_nat h

theorem csub_nat {a b : Nat} (hb : b ≤ a) (h : a ≤ IMAX) : csub (a : Int) (b : Int) = some ((a - b : Nat) : Int) := by
  unfold csub
  rw [← Int.ofNat_sub hb]
  exact ck_nat (by omega)

theorem csub_lit {a b : Nat} (hb : b ≤ a) (h : a ≤ IMAX) (c : Int) (hc : c = b) :
    csub (a : Int) c = some ((a - b : Nat) : Int) := by
  rw [hc]; exact csub_nat hb h

theorem cdiv_lit {a b : Nat} (hb : 0 < b) (h : a ≤ IMAX) (c : Int) (hc : c = b) :
    cdiv (a : Int) c = some ((a / b : Nat) : Int) := by
  rw [hc]; exact cdiv_nat hb h

theorem cmul_lit {a b : Nat} (h : a * b ≤ IMAX) (c : Int) (hc : c = b) : cmul (a : Int) c = some ((a * b : Nat) : Int) := by
  rw [hc]; exact cmul_nat h

/-- The quotient in the middle of the width. -/
theorem ceil_le {n k : Nat} (hk : 0 < k) : (n + k - 1) / k ≤ n := by
  rcases Nat.eq_zero_or_pos n with h0 | h0
  · subst h0
    rw [Nat.div_eq_of_lt (by omega)]
  · apply Nat.div_le_of_le_mul
    have : k * n = n + (k - 1) * n := by
      conv => lhs; rw [show k = 1 + (k - 1) by omega]
      rw [Nat.add_mul, Nat.one_mul]
    have h2 : k - 1 ≤ (k - 1) * n := Nat.le_mul_of_pos_right _ h0
    omega

theorem segWidthC_some {n nseg : Nat} (hs : 0 < nseg) (h1 : n + nseg ≤ IMAX) (h2 : (n + nseg - 1) / nseg + 256 ≤ IMAX) :
    segWidthC n nseg = some ((segWidth n nseg : Nat) : Int) := by
  unfold segWidthC segWidth
  simp only [Option.bind_eq_bind]
  rw [cadd_nat h1, Option.bind_some, csub_lit (b := 1) (by omega) h1 1 rfl, Option.bind_some, cdiv_nat hs (by omega),
    Option.bind_some]
  generalize (n + nseg - 1) / nseg = d at *
  rw [cadd_lit (b := 256) h2 256 rfl, Option.bind_some, csub_lit (b := 1) (by omega) h2 1 rfl,
    Option.bind_some, cdiv_lit (b := 256) (by decide) (by omega) 256 rfl, Option.bind_some,
    cmul_lit (b := 256) (by omega) 256 rfl]

theorem segWidthC_none {n nseg : Nat} (hs : 0 < nseg) (h : ¬ (n + nseg ≤ IMAX ∧ (n + nseg - 1) / nseg + 256 ≤ IMAX)) :
    segWidthC n nseg = none := by
  unfold segWidthC
  simp only [Option.bind_eq_bind]
  by_cases h1 : n + nseg ≤ IMAX
  · rw [cadd_nat h1, Option.bind_some, csub_lit (b := 1) (by omega) h1 1 rfl, Option.bind_some, cdiv_nat hs (by omega),
      Option.bind_some]
    have : cadd (((n + nseg - 1) / nseg : Nat) : Int) 256 = none := by
      unfold cadd
      apply ck_none
      unfold INT_MAX
      have h2 : ¬ (n + nseg - 1) / nseg + 256 ≤ IMAX := fun h2 => h ⟨h1, h2⟩
      unfold IMAX at h2
      generalize (n + nseg - 1) / nseg = d at *
      omega
    rw [this]
    rfl
  · have : cadd (n : Int) (nseg : Int) = none := by
      unfold cadd
      apply ck_none
      unfold INT_MAX
      unfold IMAX at h1
      omega
    rw [this]
    rfl

theorem mapM_some_of {β γ : Type} {f : β → Option γ} {g : β → γ} {l : List β} (h : ∀ x ∈ l, f x = some (g x)) :
    l.mapM f = some (l.map g) := by
  induction l with
  | nil => rfl
  | cons a l ih =>
    rw [List.mapM_cons, h a (List.mem_cons_self ..), ih (fun x hx => h x (List.mem_cons_of_mem _ hx))]
    rfl

theorem mapM_none_of {β γ : Type} {f : β → Option γ} {l : List β} {x : β} (hx : x ∈ l) (h : f x = none) :
    l.mapM f = none := by
  induction l with
  | nil => exact absurd hx (by simp)
  | cons a l ih =>
    rw [List.mapM_cons]
    rcases List.mem_cons.mp hx with rfl | hx'
    · rw [h]; rfl
    · rw [ih hx']
      cases f a <;> rfl

theorem startIdsC_some {n nseg : Nat} (hs : 0 < nseg) (h1 : n + nseg ≤ IMAX) (h2 : (n + nseg - 1) / nseg + 256 ≤ IMAX)
    (h3 : segWidth n nseg * (nseg - 1) ≤ IMAX) :
    startIdsC n nseg = some ((startIds n nseg).map (fun x : Nat => (x : Int))) := by
  unfold startIdsC startIds
  rw [segWidthC_some hs h1 h2]
  simp only [Option.bind_eq_bind, Option.bind_some]
  rw [mapM_some_of (g := fun j => ((min (segWidth n nseg * j) n : Nat) : Int))]
  · rw [Option.bind_some, List.map_append, List.map_map]
    rfl
  · intro j hj
    rw [List.mem_range] at hj
    have : segWidth n nseg * j ≤ segWidth n nseg * (nseg - 1) := Nat.mul_le_mul_left _ (by omega)
    rw [cmul_nat (by omega), Option.bind_some]
    congr 1
    omega

theorem startIdsC_none {n nseg : Nat} (hs : 0 < nseg)
    (h : ¬ (n + nseg ≤ IMAX ∧ (n + nseg - 1) / nseg + 256 ≤ IMAX ∧ segWidth n nseg * (nseg - 1) ≤ IMAX)) :
    startIdsC n nseg = none := by
  unfold startIdsC
  simp only [Option.bind_eq_bind]
  by_cases h12 : n + nseg ≤ IMAX ∧ (n + nseg - 1) / nseg + 256 ≤ IMAX
  · rw [segWidthC_some hs h12.1 h12.2, Option.bind_some, mapM_none_of (x := nseg - 1)]
    · rfl
    · rw [List.mem_range]; omega
    · have : cmul ((segWidth n nseg : Nat) : Int) ((nseg - 1 : Nat) : Int) = none := by
        unfold cmul
        rw [← Int.natCast_mul]
        apply ck_none
        have h3 : ¬ segWidth n nseg * (nseg - 1) ≤ IMAX := fun h3 => h ⟨h12.1, h12.2, h3⟩
        unfold INT_MAX
        unfold IMAX at h3
        generalize segWidth n nseg * (nseg - 1) = a at *
        omega
      rw [this]
      rfl
  · rw [segWidthC_none hs h12]
    rfl

theorem partBoundsC_some {k np p : Nat} (h : k + np ≤ IMAX) (hp : p < np) :
    partBoundsC k np p = some (((partLo k np p : Nat) : Int), ((partHi k np p : Nat) : Int)) := by
  have hd : (k + np - 1) / np * np ≤ k + np - 1 := Nat.div_mul_le_self _ _
  have hm : (k + np - 1) / np * (p + 1) ≤ (k + np - 1) / np * np := Nat.mul_le_mul_left _ hp
  have hm' : (k + np - 1) / np * p ≤ (k + np - 1) / np * (p + 1) := Nat.mul_le_mul_left _ (Nat.le_succ p)
  unfold partBoundsC partLo partHi
  simp only [Option.bind_eq_bind]
  rw [cadd_nat h, Option.bind_some, csub_lit (b := 1) (by omega) h 1 rfl, Option.bind_some,
    cdiv_nat (by omega) (by omega), Option.bind_some, cmul_nat (by omega), Option.bind_some, cadd_one (by omega),
    Option.bind_some, cmul_nat (by omega), Option.bind_some]
  generalize (k + np - 1) / np * (p + 1) = e
  by_cases he : e > k
  · rw [if_pos he, if_pos (by omega)]
  · rw [if_neg he, if_neg (by omega)]

theorem skipWord_le {cidx : Arr Nat} {w : Nat} : ∀ {fuel pos m : Nat}, skipWord cidx w fuel pos = some m → m ≤ pos + fuel := by
  intro fuel
  induction fuel with
  | zero => intro pos m h; injection h with h; omega
  | succ fuel ih =>
    intro pos m h
    unfold skipWord at h
    simp only [Option.bind_eq_bind, Option.bind_eq_some_iff] at h
    obtain ⟨c, _, h⟩ := h
    by_cases hc : c / 32 = w
    · rw [if_pos hc] at h
      have := ih h
      omega
    · rw [if_neg hc] at h
      injection h with h
      omega

theorem nextBound_le {cidx : Arr Nat} {nnz per s m : Nat} (h : nextBound cidx nnz per s = some m) : m ≤ nnz := by
  unfold nextBound at h
  dsimp only at h
  generalize hm : (if s + per > nnz then nnz else s + per) = k at h
  have hk : k ≤ nnz := by
    by_cases h' : s + per > nnz
    · rw [if_pos h'] at hm; omega
    · rw [if_neg h'] at hm; omega
  by_cases h1 : k < nnz
  · rw [if_pos h1] at h
    simp only [Option.bind_eq_bind, Option.bind_eq_some_iff] at h
    obtain ⟨c, _, h⟩ := h
    have := skipWord_le h
    omega
  · rw [if_neg h1] at h
    injection h with h
    omega

theorem decompressBoundsC_eq {cidx : Arr Nat} {nnz per : Nat} (h : nnz + per ≤ IMAX) :
    ∀ (k s : Nat), s ≤ nnz → decompressBoundsC cidx nnz per k s = decompressBounds cidx nnz per k s := by
  intro k
  induction k with
  | zero => intro s _; rfl
  | succ k ih =>
    intro s hs
    unfold decompressBoundsC decompressBounds
    simp only [Option.bind_eq_bind]
    rw [cadd_nat (by omega), Option.bind_some]
    cases hm : nextBound cidx nnz per s with
    | none => rfl
    | some m =>
      rw [Option.bind_some, Option.bind_some, ih m (nextBound_le hm)]

/-- Numbers of bounds of the division of `m` rows: the steps up to partition `p` come to at most this. -/
theorem steps_le {m np p : Nat} (hp : p + 1 ≤ np) :
    32 * (max (m / 32 / np) 1 * (p + 1) + min (p + 1) (m / 32 - max (m / 32 / np) 1 * np)) ≤ max m (32 * np) := by
  by_cases h : np ≤ m / 32
  · have h1 : 1 ≤ m / 32 / np := by
      rw [Nat.le_div_iff_mul_le (by omega)]
      omega
    rw [Nat.max_eq_left h1]
    have h2 : m / 32 / np * np ≤ m / 32 := Nat.div_mul_le_self _ _
    have h3 : m / 32 / np * (p + 1) ≤ m / 32 / np * np := Nat.mul_le_mul_left _ hp
    omega
  · have h1 : m / 32 / np = 0 := Nat.div_eq_of_lt (by omega)
    rw [h1, show max 0 1 = 1 from rfl, Nat.one_mul, Nat.one_mul]
    omega

theorem forLoop_congr_inv {σ : Type} {f g : Nat → σ → Option σ} (P : Nat → σ → Prop) {lo : Nat} :
    ∀ {hi : Nat}, lo ≤ hi → ∀ {s : σ}, P lo s →
      (∀ i s, lo ≤ i → i < hi → P i s → f i s = g i s ∧ ∀ s', g i s = some s' → P (i + 1) s') →
      forLoop lo hi s f = forLoop lo hi s g ∧ ∀ s', forLoop lo hi s g = some s' → P hi s' := by
  intro hi hle
  induction hi, hle using Nat.le_induction with
  | base =>
    intro s h0 _
    rw [forLoop_empty (Nat.le_refl _), forLoop_empty (Nat.le_refl _)]
    exact ⟨rfl, fun s' h => by injection h with h; rw [← h]; exact h0⟩
  | succ hi hle ih =>
    intro s h0 step
    obtain ⟨e, inv⟩ := ih h0 (fun i s h1 h2 h3 => step i s h1 (by omega) h3)
    rw [forLoop_succ_right hle, forLoop_succ_right hle, e]
    cases hs : forLoop lo hi s g with
    | none => exact ⟨rfl, fun s' h => absurd h (by simp)⟩
    | some s1 =>
      obtain ⟨e', inv'⟩ := step hi s1 hle (by omega) (inv s1 hs)
      exact ⟨e', inv'⟩

theorem staticPartitionC_eq {g : Nat → Nat} {m np : Nat} (hm : m ≤ IMAX) (hnp : 32 * np ≤ IMAX) :
    staticPartitionC g m np = staticPartition g m np := by
  unfold staticPartitionC staticPartition
  simp only [Option.bind_eq_bind]
  by_cases h0 : np = 0
  · rw [if_pos h0, if_pos h0]
  rw [if_neg h0, if_neg h0]
  have hst : ∀ p, p + 1 ≤ np → _ := fun p hp => steps_le (m := m) hp
  generalize hN : max (m / 32 / np) 1 = N at hst
  have hNp : N * np ≤ IMAX := by
    have := hst (np - 1) (by omega)
    rw [show np - 1 + 1 = np by omega] at this
    omega
  rw [cmul_nat hNp, Option.bind_some]
  have hsub : ∃ x, csub ((m / 32 : Nat) : Int) ((N * np : Nat) : Int) = some x := by
    refine ⟨((m / 32 : Nat) : Int) - ((N * np : Nat) : Int), ck_some ?_ ?_⟩
    · unfold INT_MIN; unfold IMAX at *; omega
    · unfold INT_MAX; unfold IMAX at *; omega
  obtain ⟨x, hx⟩ := hsub
  rw [hx, Option.bind_some]
  generalize hR : m / 32 - N * np = R at hst
  by_cases h1 : ¬ R < np
  · rw [if_pos h1, if_pos h1]
  rw [if_neg h1, if_neg h1]
  cases hw : (⟨np + 1, g⟩ : Arr Nat).write 0 0 with
  | none => rfl
  | some rp =>
    rw [Arr.write_some (by show 0 < np + 1; omega)] at hw
    injection hw with hw
    rw [Option.bind_some, Option.bind_some]
    have key := forLoop_congr_inv (lo := 1) (hi := np) (s := (rp, R))
      (f := fun p (st : Arr Nat × Nat) => (st.1.read (p - 1)).bind fun prev =>
        (partStepC N st.2).bind fun step =>
        (cadd (prev : Int) step).bind fun _ =>
        (st.1.write p (prev + (if st.2 > 0 then (N + 1) * 32 else N * 32))).bind fun rp =>
        (rp.read p).bind fun x => (rp.write p (min x m)).bind fun rp => some (rp, st.2 - 1))
      (g := fun p (st : Arr Nat × Nat) => (st.1.read (p - 1)).bind fun prev =>
        (st.1.write p (prev + (if st.2 > 0 then (N + 1) * 32 else N * 32))).bind fun rp =>
        (rp.read p).bind fun x => (rp.write p (min x m)).bind fun rp => some (rp, st.2 - 1))
      (P := fun p st => st.1.size = np + 1 ∧ st.2 = R - (p - 1) ∧ st.1.get (p - 1) ≤ 32 * (N * (p - 1) + min (p - 1) R))
      (by omega) ⟨by rw [← hw]; rfl, rfl, by rw [← hw]; simp [Arr.upd]⟩ ?_
    · rw [key.1]
    · intro p st hp1 hp2 ⟨i1, i2, i3⟩
      rw [Arr.read_some (by omega), Option.bind_some, Option.bind_some]
      have hs := hst (p - 1) (by omega)
      rw [show p - 1 + 1 = p by omega] at hs
      have hN1 : N * p = N * (p - 1) + N := by
        conv => lhs; rw [show p = (p - 1) + 1 by omega]
        rw [Nat.mul_add, Nat.mul_one]
      have hbound : st.1.get (p - 1) + (if st.2 > 0 then (N + 1) * 32 else N * 32) ≤ 32 * (N * p + min p R) := by
        by_cases h : st.2 > 0
        · rw [if_pos h]; omega
        · rw [if_neg h]; omega
      constructor
      · have hstep : partStepC N st.2 = some (((if st.2 > 0 then (N + 1) * 32 else N * 32) : Nat) : Int) := by
          unfold partStepC
          simp only [Option.bind_eq_bind]
          by_cases h : st.2 > 0
          · rw [if_pos h] at hbound
            rw [if_pos h, if_pos h, cadd_one (by omega), Option.bind_some, cmul_lit (b := 32) (by omega) 32 rfl]
          · rw [if_neg h] at hbound
            rw [if_neg h, if_neg h, cmul_lit (b := 32) (by omega) 32 rfl]
        rw [hstep, Option.bind_some, cadd_nat (by omega), Option.bind_some]
      · intro s' h
        rw [Arr.write_some (by omega), Option.bind_some, Arr.read_some (by show p < st.1.size; omega), Option.bind_some,
          Arr.write_some (by show p < st.1.size; omega), Option.bind_some] at h
        injection h with h
        rw [← h]
        refine ⟨i1, by show st.2 - 1 = R - (p + 1 - 1); omega, ?_⟩
        rw [show p + 1 - 1 = p by omega]
        simp only [Arr.upd]
        exact Nat.le_trans (Nat.min_le_left _ _) hbound

end GraphMat

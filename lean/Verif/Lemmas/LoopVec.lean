import Verif.Lemmas.ConcMap
import Verif.Lemmas.Loops
import Verif.Lemmas.FmtDcsr
import Verif.Model.LoopVec

namespace GraphMat

variable {α β γ σ : Type}

/-- The loop over the words of a bit vector; `k` is the array that is written. -/
theorem wordC_outcome {k : VecArr} {shared : VecArr × Nat → Prop} (hk : ∀ i, ¬ shared (k, i))
    {mem : σ → (l : VecArr × Nat) → VecArr.Ty α β γ l.1} {load : Nat → VecCode α β γ Word} {bv : Arr Word}
    {body : Nat → VecCode α β γ Unit} {g : Nat → σ → Option σ} {n : Nat}
    (hl : ∀ ii w s (own : VecArr × Nat → Prop), bv.read ii = some w → Does own shared (load ii) (mem s) w (mem s))
    (h : ∀ i s s', g i s = some s' → Does (fun l => l = (k, i)) shared (body i) (mem s) () (mem s'))
    {s s' : σ} (hf : forBits bv 0 n s g = some s') :
    OneOutcome (parForR 0 n (wordC load body)) (mem s) (mem s') (fun ii => if ii < n then popcnt (bv.get ii) else 0) := by
  unfold forBits at hf
  refine parForR_outcome (own := fun ii l => l.1 = k ∧ l.2 / 32 = ii) (shared := shared) (mem := mem) ?_ ?_ ?_ hf
  · rintro i j l _ _ ⟨_, h1⟩ ⟨_, h2⟩
    exact h1.symm.trans h2
  · rintro i ⟨l1, l2⟩ _ ⟨h1, _⟩ hs
    simp only at h1
    subst h1
    exact hk _ hs
  · intro ii _ s s' hg
    rw [Option.bind_eq_bind, Option.bind_eq_some_iff] at hg
    obtain ⟨w, hw, hg⟩ := hg
    have e := (Arr.read_eq_some.mp hw).2
    unfold wordC
    rw [e]
    refine (hl ii w s _ hw).bind ?_
    split_ifs at hg ⊢ with hc
    · injection hg with hg
      subst hg
      rw [hc]
      exact Does.pure _ _
    · refine Does.bind (a := ()) (m1 := mem s') ?_ (Does.pure _ _)
      refine Does.forUnit (mem := mem) ?_ hg
      intro i h1 h2 s s' hg
      rw [Option.bind_eq_bind, Option.bind_eq_some_iff] at hg
      obtain ⟨b, hb, hg⟩ := hg
      refine (Does.getBit hb (fun w hw => hl _ w s _ hw)).bind ?_
      cases b with
      | true =>
        refine (h i s s' hg).mono ?_ (fun _ h => h)
        rintro l rfl
        exact ⟨rfl, by show i / 32 = ii; omega⟩
      | false =>
        injection hg with hg
        subst hg
        exact Does.pure _ _

/-- A loop in which iteration `i` stores to element `i` of `k` only. -/
theorem elemLoop {k : VecArr} {shared : VecArr × Nat → Prop} (hk : ∀ i, ¬ shared (k, i))
    {mem : σ → (l : VecArr × Nat) → VecArr.Ty α β γ l.1} {body : Nat → VecCode α β γ Unit} {g : Nat → σ → Option σ} {n : Nat}
    (h : ∀ i s s', g i s = some s' → Does (fun l => l = (k, i)) shared (body i) (mem s) () (mem s'))
    {s s' : σ} (hf : forLoop 0 n s g = some s') :
    OneOutcome (parFor n body) (mem s) (mem s') (fun _ => ()) := by
  refine parFor_outcome (own := fun i l => l = (k, i)) (shared := shared) (mem := mem) ?_ ?_ (fun p _ => h p) hf
  · rintro i j l _ _ rfl h2
    injection h2
  · rintro i l _ rfl hs
    exact hk _ hs

theorem sumPopcnt_eq {bv : Arr Word} {lo hi k : Nat} (hle : lo ≤ hi)
    (h : forLoop lo hi 0 (fun ii acc => do
      let w ← bv.read ii
      some (acc + popcnt w)) = some k) :
    k = ((List.range (hi - lo)).map (fun i => popcnt (bv.get (lo + i)))).sum := by
  have := forLoop_some_inv (fun i acc => acc = ((List.range (i - lo)).map (fun i => popcnt (bv.get (lo + i)))).sum) hle
    (by simp) (by
      intro i s s' h1 h2 hg he
      rw [Option.bind_eq_bind, Option.bind_eq_some_iff] at hg
      obtain ⟨w, hw, hg⟩ := hg
      injection hg with hg
      subst hg he
      rw [show i + 1 - lo = (i - lo) + 1 by omega, List.range_succ, List.map_append, List.sum_append_nat]
      rw [← (Arr.read_eq_some.mp hw).2]
      simp [show lo + (i - lo) = i by omega]) h
  exact this

end GraphMat

import Verif.Spec.Views
import Verif.Lemmas.Weak
import Mathlib.Tactic.Linarith

namespace GraphMat

variable {Loc : Type} {W : Loc → Type} {α : Type} [DecidableEq Loc]

/-- The run looks like one in which every store is seen at once: the newest values are the memory `mem`. -/
structure ViewsInv (thr : Nat → Nat) (own : Nat → Loc → Prop) (shared : Loc → Prop) (tasks : Nat → Code Loc W α)
    (m : (l : Loc) → W l) (n : Nat) (c : Views Loc W α) (mem : (l : Loc) → W l) (top : Loc → Rat) : Prop where
  inv : ConcInv own shared tasks m ⟨mem, c.todo⟩
  ret : ∀ i, n ≤ i → ∃ a, c.todo i = .ret a
  newest : ∀ l, c.msgs l (top l) = some (mem l)
  le : ∀ l t v, c.msgs l t = some v → t ≤ top l
  view : ∀ t l, c.view t l ≤ top l
  mine : ∀ i l, own i l → c.view (thr i) l = top l
  only : ∀ l, (∀ i, ¬ own i l) → ∀ t v, c.msgs l t = some v → t = top l

theorem ViewsInv.step {thr : Nat → Nat} {own : Nat → Loc → Prop} {shared : Loc → Prop}
    (ho : ∀ i j l, own i l → own j l → i = j) (hs : ∀ i l, own i l → ¬ shared l) {tasks : Nat → Code Loc W α}
    {m : (l : Loc) → W l} {n : Nat} {c c' : Views Loc W α} {mem : (l : Loc) → W l} {top : Loc → Rat}
    (h : ViewsInv thr own shared tasks m n c mem top) (hc : Views.Step thr c c') :
    ∃ mem' top', ViewsInv thr own shared tasks m n c' mem' top' := by
  cases hc with
  | load i l k e t v ht hv =>
    have hi : i < n := by
      by_contra hi
      obtain ⟨a, ha⟩ := h.ret i (by omega)
      rw [ha] at e; cases e
    have hk := h.inv.keeps i
    simp only [e] at hk
    have ett : t = top l := by
      rcases hk.1 with ho' | hsh
      · have := h.mine i l ho'
        have := h.le l t v hv
        linarith
      · exact h.only l (fun j hj => hs j l hj hsh) t v hv
    subst ett
    have ev : v = mem l := by
      have := h.newest l
      rw [hv] at this
      exact Option.some.inj this
    subst ev
    have st := h.inv.step ho hs i
    have es : Conc.step i (⟨mem, c.todo⟩ : Conc Loc W α) = ⟨mem, Function.update c.todo i (k (mem l))⟩ := by
      unfold Conc.step; simp only [e]
    rw [es] at st
    refine ⟨mem, top, st, fun j hj => ?_, h.newest, h.le, fun u l' => ?_, fun j l' hj => ?_, h.only⟩
    · simp only [Function.update_of_ne (show j ≠ i by omega)]; exact h.ret j hj
    · by_cases hu : u = thr i
      · subst hu
        simp only [Function.update_self]
        by_cases hl : l' = l
        · subst hl; simp
        · rw [Function.update_of_ne hl]; exact h.view _ l'
      · simp only [Function.update_of_ne hu]; exact h.view u l'
    · by_cases hu : thr j = thr i
      · simp only [hu, Function.update_self]
        by_cases hl : l' = l
        · subst hl; simp
        · rw [Function.update_of_ne hl, ← hu]; exact h.mine j l' hj
      · simp only [Function.update_of_ne hu]; exact h.mine j l' hj
  | store i l v k e t ht hv =>
    have hi : i < n := by
      by_contra hi
      obtain ⟨a, ha⟩ := h.ret i (by omega)
      rw [ha] at e; cases e
    have hk := h.inv.keeps i
    simp only [e] at hk
    have hown : own i l := hk.1
    have htop : top l < t := by rw [← h.mine i l hown]; exact ht
    have st := h.inv.step ho hs i
    have es : Conc.step i (⟨mem, c.todo⟩ : Conc Loc W α) = ⟨Function.update mem l v, Function.update c.todo i k⟩ := by
      unfold Conc.step; simp only [e]
    rw [es] at st
    refine ⟨Function.update mem l v, Function.update top l t, st, fun j hj => ?_, fun l' => ?_, fun l' u w hw => ?_,
      fun u l' => ?_, fun j l' hj => ?_, fun l' hl' u w hw => ?_⟩
    · simp only [Function.update_of_ne (show j ≠ i by omega)]; exact h.ret j hj
    · by_cases hl : l' = l
      · subst hl; simp
      · simp only [Function.update_of_ne hl]; exact h.newest l'
    · by_cases hl : l' = l
      · subst hl
        simp only [Function.update_self] at hw ⊢
        by_cases hu : u = t
        · rw [hu]
        · rw [Function.update_of_ne hu] at hw
          exact le_trans (h.le _ u w hw) (le_of_lt htop)
      · simp only [Function.update_of_ne hl] at hw ⊢; exact h.le l' u w hw
    · by_cases hl : l' = l
      · subst hl
        simp only [Function.update_self]
        by_cases hu : u = thr i
        · subst hu; simp
        · simp only [Function.update_of_ne hu]; exact le_trans (h.view u l') (le_of_lt htop)
      · simp only [Function.update_of_ne hl]
        by_cases hu : u = thr i
        · subst hu
          simp only [Function.update_self, Function.update_of_ne hl]; exact h.view _ l'
        · simp only [Function.update_of_ne hu]; exact h.view u l'
    · by_cases hl : l' = l
      · subst hl
        rw [ho j i l' hj hown]
        simp
      · simp only [Function.update_of_ne hl]
        by_cases hu : thr j = thr i
        · simp only [hu, Function.update_self, Function.update_of_ne hl]
          rw [← hu]; exact h.mine j l' hj
        · simp only [Function.update_of_ne hu]; exact h.mine j l' hj
    · have hl : l' ≠ l := by rintro rfl; exact hl' i hown
      simp only [Function.update_of_ne hl] at hw ⊢
      exact h.only l' hl' u w hw

/-- A task can be completed; the others stay where they are. -/
theorem ViewsInv.complete_one {thr : Nat → Nat} {own : Nat → Loc → Prop} {shared : Loc → Prop}
    (ho : ∀ i j l, own i l → own j l → i = j) (hs : ∀ i l, own i l → ¬ shared l) {tasks : Nat → Code Loc W α}
    {m : (l : Loc) → W l} {n : Nat} (i : Nat) {c : Views Loc W α} {mem : (l : Loc) → W l} {top : Loc → Rat}
    (h : ViewsInv thr own shared tasks m n c mem top) :
    ∃ c' mem' top', Views.Reaches thr c c' ∧ ViewsInv thr own shared tasks m n c' mem' top' ∧
      (∃ a, c'.todo i = .ret a) ∧ ∀ j, j ≠ i → c'.todo j = c.todo j := by
  generalize hx : c.todo i = x
  induction x generalizing c mem top with
  | ret a => exact ⟨c, mem, top, .refl, h, ⟨a, hx⟩, fun _ _ => rfl⟩
  | load l k ih =>
    have s := Views.Step.load (thr := thr) c i l k hx (top l) (mem l) (h.view _ l) (h.newest l)
    obtain ⟨mem', top', h'⟩ := h.step ho hs s
    obtain ⟨c'', mem'', top'', g1, g2, g3, g4⟩ := ih _ h' (Function.update_self ..)
    exact ⟨c'', mem'', top'', .head s g1, g2, g3, fun j hj => by rw [g4 j hj]; exact Function.update_of_ne hj _ _⟩
  | store l v k ih =>
    have hv : c.msgs l (top l + 1) = none := by
      cases e : c.msgs l (top l + 1) with
      | none => rfl
      | some w => have := h.le l _ w e; linarith
    have s := Views.Step.store (thr := thr) c i l v k hx (top l + 1) (by have := h.view (thr i) l; linarith) hv
    obtain ⟨mem', top', h'⟩ := h.step ho hs s
    obtain ⟨c'', mem'', top'', g1, g2, g3, g4⟩ := ih h' (Function.update_self ..)
    exact ⟨c'', mem'', top'', .head s g1, g2, g3, fun j hj => by rw [g4 j hj]; exact Function.update_of_ne hj _ _⟩

theorem ViewsInv.complete {thr : Nat → Nat} {own : Nat → Loc → Prop} {shared : Loc → Prop}
    (ho : ∀ i j l, own i l → own j l → i = j) (hs : ∀ i l, own i l → ¬ shared l) {tasks : Nat → Code Loc W α}
    {m : (l : Loc) → W l} {n : Nat} (k : Nat) {c : Views Loc W α} {mem : (l : Loc) → W l} {top : Loc → Rat}
    (h : ViewsInv thr own shared tasks m n c mem top) (hk : ∀ i, k ≤ i → ∃ a, c.todo i = .ret a) :
    ∃ c', Views.Reaches thr c c' ∧ c'.Finished := by
  induction k generalizing c mem top with
  | zero => exact ⟨c, .refl, fun i => hk i (Nat.zero_le i)⟩
  | succ k ih =>
    obtain ⟨c', mem', top', g1, g2, g3, g4⟩ := h.complete_one ho hs k
    obtain ⟨c'', k1, k2⟩ := ih g2 (by
      intro i hi
      by_cases e : i = k
      · subst e; exact g3
      · rw [g4 i e]; exact hk i (by omega))
    exact ⟨c'', g1.trans k1, k2⟩

/-- Tasks that keep to their own locations have one outcome, also when loads and stores are reordered. -/
theorem oneOutcomeViews_of_keeps (thr : Nat → Nat) {own : Nat → Loc → Prop} {shared : Loc → Prop}
    (ho : ∀ i j l, own i l → own j l → i = j) (hs : ∀ i l, own i l → ¬ shared l) {tasks : Nat → Code Loc W α}
    {m m' : (l : Loc) → W l} {n : Nat} (hn : ∀ i, n ≤ i → ∃ a, tasks i = .ret a)
    (hk : ∀ i, (tasks i).Keeps (own i) shared m) (h1 : ∀ i l, own i l → m' l = ((tasks i).solo m).2 l)
    (h2 : ∀ l, (∀ i, ¬ own i l) → m' l = m l) :
    OneOutcomeViews thr tasks m m' (fun i => ((tasks i).solo m).1) := by
  have inv : ∀ c, Views.Reaches thr (Views.start m tasks) c →
      ∃ mem top, ViewsInv thr own shared tasks m n c mem top := by
    intro c hc
    induction hc with
    | refl =>
      have z : ∀ l t v, (Views.start m tasks).msgs l t = some v → t = 0 := by
        intro l t v hv
        simp only [Views.start] at hv
        split_ifs at hv with h0
        exact h0
      exact ⟨m, fun _ => 0, ⟨hk, fun _ => rfl, fun _ _ _ => rfl, fun _ _ => rfl⟩, hn, fun l => by simp [Views.start],
        fun l t v hv => le_of_eq (z l t v hv), fun _ _ => le_refl _, fun _ _ _ => rfl, fun l _ t v hv => z l t v hv⟩
    | tail _ hc ih =>
      obtain ⟨mem, top, ih⟩ := ih
      exact ih.step ho hs hc
  constructor
  · intro c hc
    obtain ⟨mem, top, iv⟩ := inv c hc
    exact iv.complete ho hs n iv.ret
  · intro c hc hf
    obtain ⟨mem, top, iv⟩ := inv c hc
    have em : mem = m' := by
      funext l
      by_cases hl : ∃ i, own i l
      · obtain ⟨i, hi⟩ := hl
        rw [h1 i l hi, ← iv.inv.mem i l hi]
        obtain ⟨a, ha⟩ := hf i
        simp only [ha]; rfl
      · rw [not_exists] at hl
        rw [h2 l hl]
        exact iv.inv.rest l hl
    constructor
    · intro l v
      constructor
      · rintro ⟨t, hv, hle⟩
        have a := iv.le l t v hv
        have b := hle _ _ (iv.newest l)
        have : t = top l := le_antisymm a b
        subst this
        rw [iv.newest l] at hv
        rw [← em]
        exact (Option.some.inj hv).symm
      · rintro rfl
        exact ⟨top l, by rw [iv.newest l, em], fun t v hv => iv.le l t v hv⟩
    · intro i
      obtain ⟨a, ha⟩ := hf i
      have := iv.inv.res i
      simp only [ha] at this
      rw [ha, ← this]; rfl

/-- Tasks without data races have the same outcome when loads and stores are reordered. -/
theorem OneOutcome.views {tasks : Nat → Code Loc W α} {m m' : (l : Loc) → W l} {res : Nat → α}
    (h : OneOutcome tasks m m' res) (thr : Nat → Nat) : OneOutcomeViews thr tasks m m' res := by
  obtain ⟨own, shared, n, ho, hs, hn, hk, h1, h2, rfl⟩ := h.keeps
  exact oneOutcomeViews_of_keeps thr ho hs hn hk h1 h2

/-! ### A task that stores twice and one that loads twice -/

/-- What holds when every store is seen at once: location 1 is stored to after location 0, and a task that has found the
second store finds the first one too. -/
structure MpInv (c : Conc Nat (fun _ => Nat) (Nat × Nat)) : Prop where
  mem : c.mem 1 = 0 ∨ c.mem 0 = 1
  first : c.todo 0 = .store 0 1 (.store 1 1 (.ret (0, 0))) ∨
    c.mem 0 = 1 ∧ (c.todo 0 = .store 1 1 (.ret (0, 0)) ∨ c.todo 0 = .ret (0, 0))
  second : c.todo 1 = .load 1 (fun f => .load 0 (fun d => .ret (f, d))) ∨
    ∃ f, (f = 0 ∨ c.mem 0 = 1) ∧ (c.todo 1 = .load 0 (fun d => .ret (f, d)) ∨ ∃ d, c.todo 1 = .ret (f, d) ∧ (f = 0 ∨ d = 1))
  rest : ∀ i, 2 ≤ i → ∃ v, c.todo i = .ret v

theorem MpInv.step {c : Conc Nat (fun _ => Nat) (Nat × Nat)} (h : MpInv c) (i : Nat) : MpInv (c.step i) := by
  obtain ⟨hm, h1, h2, h4⟩ := h
  match i with
  | 0 =>
    rcases h1 with h1 | ⟨m1, h1 | h1⟩
    · have e : c.step 0 = ⟨Function.update c.mem 0 1, Function.update c.todo 0 (.store 1 1 (.ret (0, 0)))⟩ := by
        unfold Conc.step; rw [h1]
      rw [e]
      refine ⟨Or.inr rfl, Or.inr ⟨rfl, Or.inl rfl⟩, ?_, fun i hi => ?_⟩
      · rcases h2 with h2 | ⟨f, _, h2⟩
        · exact Or.inl h2
        · exact Or.inr ⟨f, Or.inr rfl, h2⟩
      · simp only [Function.update_of_ne (show i ≠ 0 by omega)]; exact h4 i hi
    · have e : c.step 0 = ⟨Function.update c.mem 1 1, Function.update c.todo 0 (.ret (0, 0))⟩ := by
        unfold Conc.step; rw [h1]
      rw [e]
      refine ⟨Or.inr m1, Or.inr ⟨m1, Or.inr rfl⟩, h2, fun i hi => ?_⟩
      simp only [Function.update_of_ne (show i ≠ 0 by omega)]; exact h4 i hi
    · have e : c.step 0 = c := by unfold Conc.step; rw [h1]
      rw [e]; exact ⟨hm, Or.inr ⟨m1, Or.inr h1⟩, h2, h4⟩
  | 1 =>
    rcases h2 with h2 | ⟨f, hf, h2 | ⟨d, h2, hd⟩⟩
    · have e : c.step 1 = ⟨c.mem, Function.update c.todo 1 (.load 0 (fun d => .ret (c.mem 1, d)))⟩ := by
        unfold Conc.step; rw [h2]
      rw [e]
      refine ⟨hm, h1, Or.inr ⟨c.mem 1, hm, Or.inl rfl⟩, fun i hi => ?_⟩
      simp only [Function.update_of_ne (show i ≠ 1 by omega)]; exact h4 i hi
    · have e : c.step 1 = ⟨c.mem, Function.update c.todo 1 (.ret (f, c.mem 0))⟩ := by
        unfold Conc.step; rw [h2]
      rw [e]
      refine ⟨hm, h1, Or.inr ⟨f, hf, Or.inr ⟨c.mem 0, rfl, hf⟩⟩, fun i hi => ?_⟩
      simp only [Function.update_of_ne (show i ≠ 1 by omega)]; exact h4 i hi
    · have e : c.step 1 = c := by unfold Conc.step; rw [h2]
      rw [e]; exact ⟨hm, h1, Or.inr ⟨f, hf, Or.inr ⟨d, h2, hd⟩⟩, h4⟩
  | i + 2 =>
    obtain ⟨v, hv⟩ := h4 (i + 2) (by omega)
    have e : c.step (i + 2) = c := by unfold Conc.step; rw [hv]
    rw [e]; exact ⟨hm, h1, h2, h4⟩

end GraphMat

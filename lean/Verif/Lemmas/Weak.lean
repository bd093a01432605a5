import Verif.Spec.Weak
import Verif.Lemmas.Conc

namespace GraphMat

variable {Loc : Type} {W : Loc → Type} {α : Type} [DecidableEq Loc]

/-! ### Race freedom is separation -/

/-- The accesses of a task run alone from `m`, `true` for stores. -/
def Code.trace : Code Loc W α → ((l : Loc) → W l) → List (Loc × Bool)
  | .ret _, _ => []
  | .load l k, m => (l, false) :: (k (m l)).trace m
  | .store l v k, m => (l, true) :: k.trace (Function.update m l v)

theorem Code.keeps_of_trace {own shared : Loc → Prop} (x : Code Loc W α) (m : (l : Loc) → W l)
    (h : ∀ e ∈ x.trace m, own e.1 ∨ (e.2 = false ∧ shared e.1)) : x.Keeps own shared m := by
  induction x generalizing m with
  | ret a => trivial
  | load l k ih =>
    refine ⟨(h (l, false) List.mem_cons_self).imp id And.right, ih _ _ fun e he => h e (List.mem_cons_of_mem _ he)⟩
  | store l v k ih =>
    refine ⟨?_, ih _ fun e he => h e (List.mem_cons_of_mem _ he)⟩
    rcases h (l, true) List.mem_cons_self with h | ⟨h, _⟩
    · exact h
    · cases h

theorem Code.trace_congr (x : Code Loc W α) (m m' : (l : Loc) → W l) (h : ∀ e ∈ x.trace m, m e.1 = m' e.1) :
    x.trace m' = x.trace m := by
  induction x generalizing m m' with
  | ret a => rfl
  | load l k ih =>
    have e := h (l, false) List.mem_cons_self
    simp only at e
    simp only [Code.trace]
    rw [← e, ih _ m m' fun d hd => h d (List.mem_cons_of_mem _ hd)]
  | store l v k ih =>
    simp only [Code.trace]
    rw [ih (Function.update m l v) (Function.update m' l v)]
    intro d hd
    by_cases e : d.1 = l
    · rw [e]; simp
    · rw [Function.update_of_ne e, Function.update_of_ne e]; exact h d (List.mem_cons_of_mem _ hd)

/-- No order of the accesses leads to a race. -/
def Conc.Safe (c : Conc Loc W α) : Prop := ∀ s, ¬ (Conc.run s c).Racing

theorem Conc.Safe.step {c : Conc Loc W α} (h : c.Safe) (i : Nat) : (c.step i).Safe := fun s => h (i :: s)

theorem Conc.step_other {i j : Nat} (h : j ≠ i) (c : Conc Loc W α) : (c.step i).todo j = c.todo j := by
  unfold Conc.step
  split <;> simp [Function.update_of_ne h]

/-- The next access of a task is in conflict with none of the accesses of another one. -/
theorem Conc.Safe.head {c : Conc Loc W α} (h : c.Safe) {i j : Nat} (hij : i ≠ j) {l : Loc} {a : Bool}
    (hi : (c.todo i).next = some (l, a)) : ∀ e ∈ (c.todo j).trace c.mem, e.1 = l → a = false ∧ e.2 = false := by
  generalize hx : c.todo j = x
  induction x generalizing c with
  | ret b => intro e he; cases he
  | load l' k ih =>
    intro e he hl
    rcases List.mem_cons.1 he with he | he
    · subst he
      simp only at hl
      subst hl
      by_contra hc
      refine h [] ⟨i, j, l', a, false, hij, hi, by show (c.todo j).next = _; rw [hx]; rfl, ?_⟩
      simpa using hc
    · have es : c.step j = ⟨c.mem, Function.update c.todo j (k (c.mem l'))⟩ := by unfold Conc.step; rw [hx]
      refine ih (c.mem l') (h.step j) ?_ ?_ e ?_ hl
      · rw [Conc.step_other hij]; exact hi
      · rw [es]; simp
      · rw [es]; exact he
  | store l' v k ih =>
    intro e he hl
    rcases List.mem_cons.1 he with he | he
    · subst he
      simp only at hl
      subst hl
      exact absurd ⟨i, j, l', a, true, hij, hi, by show (c.todo j).next = _; rw [hx]; rfl, Or.inr rfl⟩ (h [])
    · have es : c.step j = ⟨Function.update c.mem l' v, Function.update c.todo j k⟩ := by unfold Conc.step; rw [hx]
      refine ih (h.step j) ?_ ?_ e ?_ hl
      · rw [Conc.step_other hij]; exact hi
      · rw [es]; simp
      · rw [es]; exact he

/-- Tasks that never race, run alone, access no location in common to which one of them stores. -/
theorem Conc.Safe.apart {c : Conc Loc W α} (h : c.Safe) {i j : Nat} (hij : i ≠ j) :
    ∀ d ∈ (c.todo i).trace c.mem, ∀ e ∈ (c.todo j).trace c.mem, d.1 = e.1 → d.2 = false ∧ e.2 = false := by
  generalize hx : c.todo i = x
  induction x generalizing c with
  | ret b => intro d hd; cases hd
  | load l k ih =>
    intro d hd e he hl
    rcases List.mem_cons.1 hd with hd | hd
    · subst hd
      exact h.head hij (l := l) (a := false) (by rw [hx]; rfl) e he hl.symm
    · have es : c.step i = ⟨c.mem, Function.update c.todo i (k (c.mem l))⟩ := by unfold Conc.step; rw [hx]
      refine ih (c.mem l) (h.step i) ?_ d ?_ e ?_ hl
      · rw [es]; simp
      · rw [es]; exact hd
      · rw [Conc.step_other hij.symm, es]; exact he
  | store l v k ih =>
    intro d hd e he hl
    have hh := h.head hij (l := l) (a := true) (by rw [hx]; rfl)
    rcases List.mem_cons.1 hd with hd | hd
    · subst hd
      exact hh e he hl.symm
    · have es : c.step i = ⟨Function.update c.mem l v, Function.update c.todo i k⟩ := by unfold Conc.step; rw [hx]
      refine ih (h.step i) ?_ d ?_ e ?_ hl
      · rw [es]; simp
      · rw [es]; exact hd
      · rw [Conc.step_other hij.symm, es]
        show e ∈ (c.todo j).trace (Function.update c.mem l v)
        rw [Code.trace_congr (c.todo j) c.mem]
        · exact he
        · intro f hf
          rw [Function.update_of_ne]
          intro hfl
          exact absurd (hh f hf hfl).1 (by simp)

/-! ### Separated tasks with store buffers -/

theorem seenBy_append (m : (l : Loc) → W l) (b : List (Pending Loc W)) (e : Pending Loc W) :
    seenBy m (b ++ [e]) = Function.update (seenBy m b) e.loc e.val := by
  simp [seenBy]

theorem seenBy_of_not_mem (m : (l : Loc) → W l) (b : List (Pending Loc W)) (l : Loc) (h : ∀ e ∈ b, e.loc ≠ l) :
    seenBy m b l = m l := by
  induction b generalizing m with
  | nil => rfl
  | cons e b ih =>
    show seenBy (Function.update m e.loc e.val) b l = m l
    rw [ih _ fun d hd => h d (List.mem_cons_of_mem _ hd),
      Function.update_of_ne (fun h' => h e List.mem_cons_self h'.symm)]

/-- A store that reaches another location changes nothing here. -/
theorem seenBy_update_ne (m : (l : Loc) → W l) (b : List (Pending Loc W)) (e : Pending Loc W) (l : Loc)
    (h : l ≠ e.loc) : seenBy (Function.update m e.loc e.val) b l = seenBy m b l := by
  induction b generalizing m with
  | nil => exact Function.update_of_ne h _ _
  | cons d b ih =>
    show seenBy (Function.update (Function.update m e.loc e.val) d.loc d.val) b l
      = seenBy (Function.update m d.loc d.val) b l
    by_cases hd : d.loc = e.loc
    · obtain ⟨dl, dv⟩ := d
      obtain ⟨el, ev⟩ := e
      simp only at hd
      subst hd
      simp
    · rw [Function.update_comm (Ne.symm hd), ih]

/-- A thread does not notice that one of its stores reaches the memory. -/
theorem seenBy_flush (m : (l : Loc) → W l) (older newer : List (Pending Loc W)) (e : Pending Loc W)
    (ho : ∀ d ∈ older, d.loc ≠ e.loc) :
    seenBy (Function.update m e.loc e.val) (older ++ newer) = seenBy m (older ++ e :: newer) := by
  induction older generalizing m with
  | nil => rfl
  | cons d older ih =>
    show seenBy (Function.update (Function.update m e.loc e.val) d.loc d.val) (older ++ newer)
      = seenBy (Function.update m d.loc d.val) (older ++ e :: newer)
    rw [Function.update_comm (Ne.symm (ho d List.mem_cons_self)), ih _ fun f hf => ho f (List.mem_cons_of_mem _ hf)]

/-- The state of a run with store buffers. -/
structure WeakInv (thr : Nat → Nat) (own : Nat → Loc → Prop) (shared : Loc → Prop) (tasks : Nat → Code Loc W α)
    (m : (l : Loc) → W l) (c : Weak Loc W α) : Prop where
  keeps : ∀ i, (c.todo i).Keeps (own i) shared (seenBy c.mem (c.buf (thr i)))
  res : ∀ i, ((c.todo i).solo (seenBy c.mem (c.buf (thr i)))).1 = ((tasks i).solo m).1
  mem : ∀ i l, own i l → ((c.todo i).solo (seenBy c.mem (c.buf (thr i)))).2 l = ((tasks i).solo m).2 l
  rest : ∀ l, (∀ i, ¬ own i l) → c.mem l = m l
  pend : ∀ t, ∀ e ∈ c.buf t, ∃ i, thr i = t ∧ own i e.loc

theorem WeakInv.step {thr : Nat → Nat} {own : Nat → Loc → Prop} {shared : Loc → Prop}
    (ho : ∀ i j l, own i l → own j l → i = j) (hs : ∀ i l, own i l → ¬ shared l) {tasks : Nat → Code Loc W α}
    {m : (l : Loc) → W l} {c c' : Weak Loc W α} (h : WeakInv thr own shared tasks m c) (hc : Weak.Step thr c c') :
    WeakInv thr own shared tasks m c' := by
  cases hc with
  | load i l k e =>
    have hk := h.keeps i
    have hr := h.res i
    have hm := h.mem i
    rw [e] at hk hr hm
    constructor
    · intro j
      by_cases hj : j = i
      · subst hj; simp only [Function.update_self]; exact hk.2
      · simp only [Function.update_of_ne hj]; exact h.keeps j
    · intro j
      by_cases hj : j = i
      · subst hj; simp only [Function.update_self]; exact hr
      · simp only [Function.update_of_ne hj]; exact h.res j
    · intro j
      by_cases hj : j = i
      · subst hj; simp only [Function.update_self]; exact hm
      · simp only [Function.update_of_ne hj]; exact h.mem j
    · exact h.rest
    · exact h.pend
  | store i l v k e =>
    have hk := h.keeps i
    have hr := h.res i
    have hm := h.mem i
    rw [e] at hk hr hm
    -- what each thread sees now
    have self : seenBy c.mem (Function.update c.buf (thr i) (c.buf (thr i) ++ [⟨l, v⟩]) (thr i))
        = Function.update (seenBy c.mem (c.buf (thr i))) l v := by
      rw [Function.update_self, seenBy_append]
    have other : ∀ j, j ≠ i → ∀ l', own j l' ∨ shared l' → seenBy c.mem (c.buf (thr j)) l'
        = seenBy c.mem (Function.update c.buf (thr i) (c.buf (thr i) ++ [⟨l, v⟩]) (thr j)) l' := by
      intro j hj l' hl'
      by_cases ht : thr j = thr i
      · rw [ht, self, Function.update_of_ne]
        rintro rfl
        rcases hl' with hl' | hl'
        · exact hj (ho j i l' hl' hk.1)
        · exact hs i l' hk.1 hl'
      · rw [Function.update_of_ne ht]
    constructor
    · intro j
      by_cases hj : j = i
      · subst hj; simp only [Function.update_self (a := j) (f := c.todo), self]; exact hk.2
      · simp only [Function.update_of_ne (f := c.todo) hj]
        exact ((h.keeps j).congr (other j hj)).1
    · intro j
      by_cases hj : j = i
      · subst hj; simp only [Function.update_self (a := j) (f := c.todo), self]; exact hr
      · simp only [Function.update_of_ne (f := c.todo) hj]
        rw [((h.keeps j).congr (other j hj)).2.1]; exact h.res j
    · intro j l' hl'
      by_cases hj : j = i
      · subst hj; simp only [Function.update_self (a := j) (f := c.todo), self]; exact hm l' hl'
      · simp only [Function.update_of_ne (f := c.todo) hj]
        rw [← ((h.keeps j).congr (other j hj)).2.2 l' (Or.inl hl')]; exact h.mem j l' hl'
    · exact h.rest
    · intro t d hd
      by_cases ht : t = thr i
      · subst ht
        simp only [Function.update_self, List.mem_append, List.mem_singleton] at hd
        rcases hd with hd | rfl
        · exact h.pend _ d hd
        · exact ⟨i, rfl, hk.1⟩
      · simp only [Function.update_of_ne ht] at hd
        exact h.pend t d hd
  | flush t older newer e he hold =>
    obtain ⟨i, hti, hoi⟩ := h.pend t e (by rw [he]; simp)
    have same : seenBy (Function.update c.mem e.loc e.val) (Function.update c.buf t (older ++ newer) t)
        = seenBy c.mem (c.buf t) := by
      rw [Function.update_self, seenBy_flush _ _ _ _ hold, he]
    have agree : ∀ j l', own j l' ∨ shared l' → seenBy c.mem (c.buf (thr j)) l'
        = seenBy (Function.update c.mem e.loc e.val) (Function.update c.buf t (older ++ newer) (thr j)) l' := by
      intro j l' hl'
      by_cases ht : thr j = t
      · rw [ht, same]
      · rw [Function.update_of_ne ht, seenBy_update_ne]
        rintro rfl
        rcases hl' with hl' | hl'
        · exact ht (by rw [ho j i _ hl' hoi, hti])
        · exact hs i _ hoi hl'
    constructor
    · exact fun j => ((h.keeps j).congr (agree j)).1
    · intro j
      show ((c.todo j).solo _).1 = _
      rw [((h.keeps j).congr (agree j)).2.1]; exact h.res j
    · intro j l' hl'
      show ((c.todo j).solo _).2 l' = _
      rw [← ((h.keeps j).congr (agree j)).2.2 l' (Or.inl hl')]; exact h.mem j l' hl'
    · intro l' hl'
      show Function.update c.mem e.loc e.val l' = m l'
      rw [Function.update_of_ne (by rintro rfl; exact hl' i hoi)]
      exact h.rest l' hl'
    · intro t' d hd
      by_cases ht : t' = t
      · subst ht
        simp only [Function.update_self, List.mem_append] at hd
        refine h.pend t' d ?_
        rw [he, List.mem_append, List.mem_cons]
        exact hd.imp id Or.inr
      · simp only [Function.update_of_ne ht] at hd
        exact h.pend t' d hd

/-- A task can be completed; the others stay where they are. -/
theorem Weak.complete_one (thr : Nat → Nat) (i : Nat) (c : Weak Loc W α) :
    ∃ c', Weak.Reaches thr c c' ∧ (∃ a, c'.todo i = .ret a) ∧ (∀ j, j ≠ i → c'.todo j = c.todo j) ∧
      ∀ t, t ≠ thr i → c'.buf t = c.buf t := by
  generalize hx : c.todo i = x
  induction x generalizing c with
  | ret a => exact ⟨c, .refl, ⟨a, hx⟩, fun _ _ => rfl, fun _ _ => rfl⟩
  | load l k ih =>
    obtain ⟨c', h1, h2, h3, h4⟩ := ih (seenBy c.mem (c.buf (thr i)) l)
      { c with todo := Function.update c.todo i (k (seenBy c.mem (c.buf (thr i)) l)) } (by simp)
    refine ⟨c', .head (.load c i l k hx) h1, h2, fun j hj => ?_, h4⟩
    rw [h3 j hj]
    exact Function.update_of_ne hj _ _
  | store l v k ih =>
    obtain ⟨c', h1, h2, h3, h4⟩ := ih
      { c with todo := Function.update c.todo i k,
               buf := Function.update c.buf (thr i) (c.buf (thr i) ++ [⟨l, v⟩]) } (by simp)
    refine ⟨c', .head (.store c i l v k hx) h1, h2, fun j hj => ?_, fun t ht => ?_⟩
    · rw [h3 j hj]
      exact Function.update_of_ne hj _ _
    · rw [h4 t ht]
      exact Function.update_of_ne ht _ _

/-- The buffer of a thread can be emptied. -/
theorem Weak.drain_one (thr : Nat → Nat) (t : Nat) (c : Weak Loc W α) :
    ∃ c', Weak.Reaches thr c c' ∧ c'.todo = c.todo ∧ c'.buf t = [] ∧ ∀ u, u ≠ t → c'.buf u = c.buf u := by
  generalize hb : c.buf t = b
  induction b generalizing c with
  | nil => exact ⟨c, .refl, rfl, hb, fun _ _ => rfl⟩
  | cons e b ih =>
    obtain ⟨c', h1, h2, h3, h4⟩ := ih
      { c with mem := Function.update c.mem e.loc e.val, buf := Function.update c.buf t ([] ++ b) } (by simp)
    refine ⟨c', .head (.flush c t [] b e hb (by simp)) h1, h2, h3, fun u hu => ?_⟩
    rw [h4 u hu]
    exact Function.update_of_ne hu _ _

theorem Weak.complete (thr : Nat → Nat) {n : Nat} (c : Weak Loc W α) (h : ∀ i, n ≤ i → ∃ a, c.todo i = .ret a) :
    ∃ c', Weak.Reaches thr c c' ∧ (∀ i, ∃ a, c'.todo i = .ret a) ∧
      ∀ t, (∀ i, i < n → thr i ≠ t) → c'.buf t = c.buf t := by
  induction n generalizing c with
  | zero => exact ⟨c, .refl, fun i => h i (Nat.zero_le i), fun _ _ => rfl⟩
  | succ n ih =>
    obtain ⟨c', h1, h2, h3, h4⟩ := Weak.complete_one thr n c
    obtain ⟨c'', g1, g2, g3⟩ := ih c' (by
      intro i hi
      by_cases e : i = n
      · subst e; exact h2
      · rw [h3 i e]; exact h i (by omega))
    refine ⟨c'', h1.trans g1, g2, fun t ht => ?_⟩
    rw [g3 t fun i hi => ht i (by omega), h4 t (ht n (by omega)).symm]

theorem Weak.drain (thr : Nat → Nat) {n : Nat} (c : Weak Loc W α) (h : ∀ t, (∀ i, i < n → thr i ≠ t) → c.buf t = []) :
    ∃ c', Weak.Reaches thr c c' ∧ c'.todo = c.todo ∧ ∀ t, c'.buf t = [] := by
  induction n generalizing c with
  | zero => exact ⟨c, .refl, rfl, fun t => h t (fun i hi => by omega)⟩
  | succ n ih =>
    obtain ⟨c', h1, h2, h3, h4⟩ := Weak.drain_one thr (thr n) c
    obtain ⟨c'', g1, g2, g3⟩ := ih c' (by
      intro t ht
      by_cases e : t = thr n
      · subst e; exact h3
      · rw [h4 t e]
        refine h t fun i hi => ?_
        by_cases e' : i = n
        · subst e'; exact Ne.symm e
        · exact ht i (by omega))
    exact ⟨c'', h1.trans g1, by rw [g2, h2], g3⟩

/-- Tasks from `n` on have nothing to do, and only the threads of the others have buffered anything. -/
structure WeakFin (thr : Nat → Nat) (n : Nat) (c : Weak Loc W α) : Prop where
  ret : ∀ i, n ≤ i → ∃ a, c.todo i = .ret a
  buf : ∀ t, (∀ i, i < n → thr i ≠ t) → c.buf t = []

theorem WeakFin.step {thr : Nat → Nat} {n : Nat} {c c' : Weak Loc W α} (h : WeakFin thr n c)
    (hc : Weak.Step thr c c') : WeakFin thr n c' := by
  cases hc with
  | load i l k e =>
    have hi : i < n := by
      by_contra hi
      obtain ⟨a, ha⟩ := h.ret i (by omega)
      rw [ha] at e; cases e
    exact ⟨fun j hj => by
      simp only [Function.update_of_ne (show j ≠ i by omega)]; exact h.ret j hj, h.buf⟩
  | store i l v k e =>
    have hi : i < n := by
      by_contra hi
      obtain ⟨a, ha⟩ := h.ret i (by omega)
      rw [ha] at e; cases e
    refine ⟨fun j hj => ?_, fun t ht => ?_⟩
    · simp only [Function.update_of_ne (show j ≠ i by omega)]; exact h.ret j hj
    · simp only [Function.update_of_ne (ht i hi).symm]; exact h.buf t ht
  | flush t older newer e he hold =>
    refine ⟨h.ret, fun t' ht => ?_⟩
    by_cases e' : t' = t
    · subst e'
      have := h.buf t' ht
      rw [he] at this
      simp at this
    · simp only [Function.update_of_ne e']; exact h.buf t' ht

/-- Tasks that keep to their own locations have one outcome, also with store buffers. -/
theorem oneOutcomeWeak_of_keeps (thr : Nat → Nat) {own : Nat → Loc → Prop} {shared : Loc → Prop}
    (ho : ∀ i j l, own i l → own j l → i = j) (hs : ∀ i l, own i l → ¬ shared l) {tasks : Nat → Code Loc W α}
    {m m' : (l : Loc) → W l} {n : Nat} (hn : ∀ i, n ≤ i → ∃ a, tasks i = .ret a)
    (hk : ∀ i, (tasks i).Keeps (own i) shared m) (h1 : ∀ i l, own i l → m' l = ((tasks i).solo m).2 l)
    (h2 : ∀ l, (∀ i, ¬ own i l) → m' l = m l) :
    OneOutcomeWeak thr tasks m m' (fun i => ((tasks i).solo m).1) := by
  have inv : ∀ c, Weak.Reaches thr (Weak.start m tasks) c → WeakInv thr own shared tasks m c ∧ WeakFin thr n c := by
    intro c hc
    induction hc with
    | refl =>
      exact ⟨⟨hk, fun _ => rfl, fun _ _ _ => rfl, fun _ _ => rfl, fun t e he => by cases he⟩, ⟨hn, fun _ _ => rfl⟩⟩
    | tail _ hc ih => exact ⟨ih.1.step ho hs hc, ih.2.step hc⟩
  constructor
  · intro c hc
    obtain ⟨_, fin⟩ := inv c hc
    obtain ⟨c', g1, g2, g3⟩ := Weak.complete thr c fin.ret
    obtain ⟨c'', k1, k2, k3⟩ := Weak.drain thr (n := n) c' (fun t ht => by rw [g3 t ht]; exact fin.buf t ht)
    exact ⟨c'', g1.trans k1, ⟨by rw [k2]; exact g2, k3⟩⟩
  · intro c hc hf
    obtain ⟨iv, _⟩ := inv c hc
    constructor
    · funext l
      by_cases hl : ∃ i, own i l
      · obtain ⟨i, hi⟩ := hl
        rw [h1 i l hi, ← iv.mem i l hi]
        obtain ⟨a, ha⟩ := hf.1 i
        rw [ha, hf.2]; rfl
      · rw [not_exists] at hl
        rw [h2 l hl, iv.rest l hl]
    · intro i
      obtain ⟨a, ha⟩ := hf.1 i
      have := iv.res i
      rw [ha] at this ⊢
      rw [← this]; rfl

theorem Conc.run_other (s : List Nat) {j : Nat} (h : j ∉ s) (c : Conc Loc W α) :
    (Conc.run s c).todo j = c.todo j := by
  induction s generalizing c with
  | nil => rfl
  | cons i s ih =>
    show (Conc.run s (c.step i)).todo j = _
    rw [ih (fun hj => h (List.mem_cons_of_mem _ hj)), Conc.step_other (show j ≠ i by rintro rfl; exact h List.mem_cons_self)]

/-- Tasks that can all be completed are finitely many. -/
theorem Conc.bound (s : List Nat) : ∃ n, ∀ i, n ≤ i → i ∉ s := by
  induction s with
  | nil => exact ⟨0, fun _ _ h => by cases h⟩
  | cons a s ih =>
    obtain ⟨n, hn⟩ := ih
    refine ⟨n + a + 1, fun i hi h => ?_⟩
    rcases List.mem_cons.1 h with h | h
    · omega
    · exact hn i (by omega) h

/-- Tasks without data races can be told apart by the locations they access. -/
theorem OneOutcome.keeps {tasks : Nat → Code Loc W α} {m m' : (l : Loc) → W l} {res : Nat → α}
    (h : OneOutcome tasks m m' res) :
    ∃ (own : Nat → Loc → Prop) (shared : Loc → Prop) (n : Nat), (∀ i j l, own i l → own j l → i = j) ∧
      (∀ i l, own i l → ¬ shared l) ∧ (∀ i, n ≤ i → ∃ a, tasks i = .ret a) ∧
      (∀ i, (tasks i).Keeps (own i) shared m) ∧ (∀ i l, own i l → m' l = ((tasks i).solo m).2 l) ∧
      (∀ l, (∀ i, ¬ own i l) → m' l = m l) ∧ res = fun i => ((tasks i).solo m).1 := by
  classical
  obtain ⟨s, hs⟩ := h.completes []
  obtain ⟨n, hn⟩ := Conc.bound s
  have hret : ∀ i, n ≤ i → ∃ a, tasks i = .ret a := by
    intro i hi
    obtain ⟨a, ha⟩ := hs i
    exact ⟨a, by rw [← ha, List.nil_append, Conc.run_other s (hn i hi)]⟩
  have safe : Conc.Safe ⟨m, tasks⟩ := h.noRace
  let own : Nat → Loc → Prop := fun i l => (l, true) ∈ (tasks i).trace m
  let shared : Loc → Prop := fun l => ∀ i, ¬ own i l
  have ho : ∀ i j l, own i l → own j l → i = j := by
    intro i j l hi hj
    by_contra hij
    have := safe.apart hij (l, true) hi (l, true) hj rfl
    simp at this
  have hsh : ∀ i l, own i l → ¬ shared l := fun i l hi hsh => hsh i hi
  have hk : ∀ i, (tasks i).Keeps (own i) shared m := by
    intro i
    refine Code.keeps_of_trace _ _ fun e he => ?_
    obtain ⟨l, a⟩ := e
    cases a with
    | true => exact Or.inl he
    | false =>
      by_cases hi : own i l
      · exact Or.inl hi
      · refine Or.inr ⟨rfl, fun j hj => ?_⟩
        by_cases hij : i = j
        · subst hij; exact hi hj
        · have := safe.apart hij (l, false) he (l, true) hj rfl
          simp at this
  let m'' : (l : Loc) → W l := fun l => if hl : ∃ i, own i l then ((tasks hl.choose).solo m).2 l else m l
  have e1 : ∀ i l, own i l → m'' l = ((tasks i).solo m).2 l := by
    intro i l hi
    have hl : ∃ i, own i l := ⟨i, hi⟩
    simp only [m'', dif_pos hl]
    rw [ho _ _ l hl.choose_spec hi]
  have e2 : ∀ l, (∀ i, ¬ own i l) → m'' l = m l := by
    intro l hl
    simp only [m'']
    rw [dif_neg (fun ⟨i, hi⟩ => hl i hi)]
  have sc := oneOutcome_of_keeps ho hsh hret hk e1 e2
  obtain ⟨a1, a2⟩ := h.outcome _ hs
  obtain ⟨b1, b2⟩ := sc.outcome _ hs
  have em : m' = m'' := by rw [← a1, ← b1]
  have er : res = fun i => ((tasks i).solo m).1 := by
    funext i
    have := a2 i
    rw [b2 i] at this
    injection this with this
    exact this.symm
  rw [em]
  exact ⟨own, shared, n, ho, hsh, hret, hk, e1, e2, er⟩

/-- Tasks without data races have with store buffers the outcome they have without. -/
theorem OneOutcome.weak {tasks : Nat → Code Loc W α} {m m' : (l : Loc) → W l} {res : Nat → α}
    (h : OneOutcome tasks m m' res) (thr : Nat → Nat) : OneOutcomeWeak thr tasks m m' res := by
  obtain ⟨own, shared, n, ho, hs, hn, hk, h1, h2, rfl⟩ := h.keeps
  exact oneOutcomeWeak_of_keeps thr ho hs hn hk h1 h2

/-! ### Two tasks that store and then load -/

/-- What holds without buffers: a task that has stored sees its store in the memory, and not both have loaded 0. -/
structure SbInv (c : Conc Nat (fun _ => Nat) Nat) : Prop where
  first : c.todo 0 = .store 0 1 (.load 1 .ret) ∨ c.mem 0 = 1 ∧ (c.todo 0 = .load 1 .ret ∨ ∃ v, c.todo 0 = .ret v)
  second : c.todo 1 = .store 1 1 (.load 0 .ret) ∨ c.mem 1 = 1 ∧ (c.todo 1 = .load 0 .ret ∨ ∃ v, c.todo 1 = .ret v)
  both : ¬ (c.todo 0 = .ret 0 ∧ c.todo 1 = .ret 0)
  rest : ∀ i, 2 ≤ i → ∃ v, c.todo i = .ret v

theorem SbInv.step {c : Conc Nat (fun _ => Nat) Nat} (h : SbInv c) (i : Nat) : SbInv (c.step i) := by
  obtain ⟨h1, h2, h3, h4⟩ := h
  match i with
  | 0 =>
    rcases h1 with h1 | ⟨m1, h1 | ⟨v, h1⟩⟩
    · have e : c.step 0 = ⟨Function.update c.mem 0 1, Function.update c.todo 0 (.load 1 .ret)⟩ := by
        unfold Conc.step; rw [h1]
      rw [e]
      exact ⟨Or.inr ⟨rfl, Or.inl rfl⟩, h2, fun h => (by cases h.1), fun i hi => by
        simp only [Function.update_of_ne (show i ≠ 0 by omega)]; exact h4 i hi⟩
    · have e : c.step 0 = ⟨c.mem, Function.update c.todo 0 (.ret (c.mem 1))⟩ := by
        unfold Conc.step; rw [h1]
      rw [e]
      refine ⟨Or.inr ⟨m1, Or.inr ⟨_, rfl⟩⟩, h2, fun h => ?_, fun i hi => by
        simp only [Function.update_of_ne (show i ≠ 0 by omega)]; exact h4 i hi⟩
      have a : (Code.ret (c.mem 1) : Code Nat (fun _ => Nat) Nat) = .ret 0 := h.1
      have b : c.todo 1 = .ret 0 := h.2
      injection a with a
      rcases h2 with h2 | ⟨m2, _⟩
      · rw [h2] at b; cases b
      · omega
    · have e : c.step 0 = c := by unfold Conc.step; rw [h1]
      rw [e]; exact ⟨Or.inr ⟨m1, Or.inr ⟨v, h1⟩⟩, h2, h3, h4⟩
  | 1 =>
    rcases h2 with h2 | ⟨m2, h2 | ⟨v, h2⟩⟩
    · have e : c.step 1 = ⟨Function.update c.mem 1 1, Function.update c.todo 1 (.load 0 .ret)⟩ := by
        unfold Conc.step; rw [h2]
      rw [e]
      exact ⟨h1, Or.inr ⟨rfl, Or.inl rfl⟩, fun h => (by cases h.2), fun i hi => by
        simp only [Function.update_of_ne (show i ≠ 1 by omega)]; exact h4 i hi⟩
    · have e : c.step 1 = ⟨c.mem, Function.update c.todo 1 (.ret (c.mem 0))⟩ := by
        unfold Conc.step; rw [h2]
      rw [e]
      refine ⟨h1, Or.inr ⟨m2, Or.inr ⟨_, rfl⟩⟩, fun h => ?_, fun i hi => by
        simp only [Function.update_of_ne (show i ≠ 1 by omega)]; exact h4 i hi⟩
      have a : (Code.ret (c.mem 0) : Code Nat (fun _ => Nat) Nat) = .ret 0 := h.2
      have b : c.todo 0 = .ret 0 := h.1
      injection a with a
      rcases h1 with h1 | ⟨m1, _⟩
      · rw [h1] at b; cases b
      · omega
    · have e : c.step 1 = c := by unfold Conc.step; rw [h2]
      rw [e]; exact ⟨h1, Or.inr ⟨m2, Or.inr ⟨v, h2⟩⟩, h3, h4⟩
  | i + 2 =>
    obtain ⟨v, hv⟩ := h4 (i + 2) (by omega)
    have e : c.step (i + 2) = c := by unfold Conc.step; rw [hv]
    rw [e]; exact ⟨h1, h2, h3, h4⟩

end GraphMat

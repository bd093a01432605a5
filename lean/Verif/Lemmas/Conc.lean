import Verif.Spec.Conc
import Verif.Lemmas.TileRep

namespace GraphMat

variable {Loc : Type} {W : Loc → Type} {α β R σ : Type}

instance : LawfulMonad (Code Loc W) := LawfulMonad.mk'
  (id_map := by
    intro α x
    show Code.bind x (fun a => .ret (id a)) = x
    induction x with
    | ret a => rfl
    | load l k ih => simp only [Code.bind, ih]
    | store l v k ih => simp only [Code.bind, ih])
  (pure_bind := fun _ _ => rfl)
  (bind_assoc := by
    intro α β γ x f g
    show Code.bind (Code.bind x f) g = Code.bind x (fun a => Code.bind (f a) g)
    induction x with
    | ret a => rfl
    | load l k ih => simp only [Code.bind, ih]
    | store l v k ih => simp only [Code.bind, ih])

variable [DecidableEq Loc]

/-- A task run alone. -/
def Code.solo : Code Loc W α → ((l : Loc) → W l) → α × ((l : Loc) → W l)
  | .ret a, m => (a, m)
  | .load l k, m => (k (m l)).solo m
  | .store l v k, m => k.solo (Function.update m l v)

/-- Run alone from `m`, the task only stores to locations in `own` and only loads locations in `own` or in `shared`. -/
def Code.Keeps (own shared : Loc → Prop) : Code Loc W α → ((l : Loc) → W l) → Prop
  | .ret _, _ => True
  | .load l k, m => (own l ∨ shared l) ∧ (k (m l)).Keeps own shared m
  | .store l v k, m => own l ∧ k.Keeps own shared (Function.update m l v)

omit [DecidableEq Loc] in
theorem bind_def (x : Code Loc W α) (f : α → Code Loc W β) : x >>= f = x.bind f := rfl

theorem Code.solo_bind (x : Code Loc W α) (f : α → Code Loc W β) (m : (l : Loc) → W l) :
    (x >>= f).solo m = (f (x.solo m).1).solo (x.solo m).2 := by
  rw [bind_def]
  induction x generalizing m with
  | ret a => rfl
  | load l k ih => simp only [Code.bind, Code.solo, ih]
  | store l v k ih => simp only [Code.bind, Code.solo, ih]

theorem Code.keeps_bind {own shared : Loc → Prop} (x : Code Loc W α) (f : α → Code Loc W β) (m : (l : Loc) → W l) :
    (x >>= f).Keeps own shared m ↔ x.Keeps own shared m ∧ (f (x.solo m).1).Keeps own shared (x.solo m).2 := by
  rw [bind_def]
  induction x generalizing m with
  | ret a => simp [Code.bind, Code.Keeps, Code.solo]
  | load l k ih => simp only [Code.bind, Code.solo, Code.Keeps, ih, and_assoc]
  | store l v k ih => simp only [Code.bind, Code.solo, Code.Keeps, ih, and_assoc]

@[simp] theorem Code.solo_pure (a : α) (m : (l : Loc) → W l) : (pure a : Code Loc W α).solo m = (a, m) := rfl
@[simp] theorem Code.solo_rd (l : Loc) (m : (l : Loc) → W l) : (rdLoc l : Code Loc W (W l)).solo m = (m l, m) := rfl
@[simp] theorem Code.solo_wr (l : Loc) (v : W l) (m : (l : Loc) → W l) :
    (wrLoc l v : Code Loc W Unit).solo m = ((), Function.update m l v) := rfl
@[simp] theorem Code.keeps_pure {own shared : Loc → Prop} (a : α) (m : (l : Loc) → W l) :
    (pure a : Code Loc W α).Keeps own shared m ↔ True := Iff.rfl
@[simp] theorem Code.keeps_rd {own shared : Loc → Prop} (l : Loc) (m : (l : Loc) → W l) :
    (rdLoc l : Code Loc W (W l)).Keeps own shared m ↔ own l ∨ shared l := by
  simp [rdLoc, Code.Keeps]
@[simp] theorem Code.keeps_wr {own shared : Loc → Prop} (l : Loc) (v : W l) (m : (l : Loc) → W l) :
    (wrLoc l v : Code Loc W Unit).Keeps own shared m ↔ own l := by
  simp [wrLoc, Code.Keeps]

theorem Code.Keeps.mono {own shared own' shared' : Loc → Prop} (h1 : ∀ l, own l → own' l)
    (h2 : ∀ l, shared l → shared' l) {x : Code Loc W α} {m : (l : Loc) → W l} (h : x.Keeps own shared m) :
    x.Keeps own' shared' m := by
  induction x generalizing m with
  | ret a => trivial
  | load l k ih => exact ⟨h.1.imp (h1 l) (h2 l), ih _ h.2⟩
  | store l v k ih => exact ⟨h1 l h.1, ih h.2⟩

/-- What a task does depends only on the locations it may look at. -/
theorem Code.Keeps.congr {own shared : Loc → Prop} {x : Code Loc W α} {m m' : (l : Loc) → W l}
    (h : x.Keeps own shared m) (hm : ∀ l, own l ∨ shared l → m l = m' l) :
    x.Keeps own shared m' ∧ (x.solo m').1 = (x.solo m).1 ∧
      (∀ l, own l ∨ shared l → (x.solo m).2 l = (x.solo m').2 l) := by
  induction x generalizing m m' with
  | ret a => exact ⟨trivial, rfl, hm⟩
  | load l k ih =>
    obtain ⟨h1, h2⟩ := h
    have e := hm l h1
    obtain ⟨i1, i2, i3⟩ := ih _ h2 hm
    refine ⟨⟨h1, ?_⟩, ?_, ?_⟩
    · rw [← e]; exact i1
    · simp only [Code.solo]; rw [← e]; exact i2
    · intro l' hl'
      simp only [Code.solo]; rw [← e]; exact i3 l' hl'
  | store l v k ih =>
    obtain ⟨h1, h2⟩ := h
    obtain ⟨i1, i2, i3⟩ := ih h2 (m' := Function.update m' l v) (by
      intro l' hl'
      by_cases e : l' = l
      · subst e; simp
      · rw [Function.update_of_ne e, Function.update_of_ne e]; exact hm l' hl')
    exact ⟨⟨h1, i1⟩, i2, i3⟩

/-- A task changes only its own locations. -/
theorem Code.Keeps.frame {own shared : Loc → Prop} {x : Code Loc W α} {m : (l : Loc) → W l}
    (h : x.Keeps own shared m) {l : Loc} (hl : ¬ own l) : (x.solo m).2 l = m l := by
  induction x generalizing m with
  | ret a => rfl
  | load l' k ih => exact ih _ h.2
  | store l' v k ih =>
    show (k.solo (Function.update m l' v)).2 l = m l
    rw [ih h.2, Function.update_of_ne (by rintro rfl; exact hl h.1)]

/-- The state of a run: what every task still has to do is within its limits and leads to the same result. -/
structure ConcInv (own : Nat → Loc → Prop) (shared : Loc → Prop) (tasks : Nat → Code Loc W α) (m : (l : Loc) → W l)
    (c : Conc Loc W α) : Prop where
  keeps : ∀ i, (c.todo i).Keeps (own i) shared c.mem
  res : ∀ i, ((c.todo i).solo c.mem).1 = ((tasks i).solo m).1
  mem : ∀ i l, own i l → ((c.todo i).solo c.mem).2 l = ((tasks i).solo m).2 l
  rest : ∀ l, (∀ i, ¬ own i l) → c.mem l = m l

theorem ConcInv.step {own : Nat → Loc → Prop} {shared : Loc → Prop} (ho : ∀ i j l, own i l → own j l → i = j)
    (hs : ∀ i l, own i l → ¬ shared l) {tasks : Nat → Code Loc W α} {m : (l : Loc) → W l} {c : Conc Loc W α}
    (h : ConcInv own shared tasks m c) (i : Nat) : ConcInv own shared tasks m (c.step i) := by
  have hk := h.keeps i
  have hr := h.res i
  have hm := h.mem i
  unfold Conc.step
  split
  · exact h
  · next l k e =>
    rw [e] at hk hr hm
    constructor
    · intro j
      by_cases hj : j = i
      · subst hj; simp only [Function.update_self]; exact hk.2
      · simp only [Function.update_of_ne hj]; exact h.keeps j
    · intro j
      by_cases hj : j = i
      · subst hj; simp only [Function.update_self]; exact hr
      · simp only [Function.update_of_ne hj]; exact h.res j
    · intro j
      by_cases hj : j = i
      · subst hj; simp only [Function.update_self]; exact hm
      · simp only [Function.update_of_ne hj]; exact h.mem j
    · exact h.rest
  · next l v k e =>
    rw [e] at hk hr hm
    have other : ∀ j, j ≠ i → ∀ l', own j l' ∨ shared l' → c.mem l' = Function.update c.mem l v l' := by
      intro j hj l' hl'
      rw [Function.update_of_ne]
      rintro rfl
      rcases hl' with hl' | hl'
      · exact hj (ho j i l' hl' hk.1)
      · exact hs i l' hk.1 hl'
    constructor
    · intro j
      by_cases hj : j = i
      · subst hj; simp only [Function.update_self]; exact hk.2
      · simp only [Function.update_of_ne hj]
        exact ((h.keeps j).congr (other j hj)).1
    · intro j
      by_cases hj : j = i
      · subst hj; simp only [Function.update_self]; exact hr
      · simp only [Function.update_of_ne hj]
        rw [((h.keeps j).congr (other j hj)).2.1]; exact h.res j
    · intro j l' hl'
      by_cases hj : j = i
      · subst hj; simp only [Function.update_self]; exact hm l' hl'
      · simp only [Function.update_of_ne hj]
        rw [← ((h.keeps j).congr (other j hj)).2.2 l' (Or.inl hl')]; exact h.mem j l' hl'
    · intro l' hl'
      show Function.update c.mem l v l' = m l'
      rw [Function.update_of_ne (by rintro rfl; exact hl' i hk.1)]
      exact h.rest l' hl'

theorem ConcInv.run {own : Nat → Loc → Prop} {shared : Loc → Prop} (ho : ∀ i j l, own i l → own j l → i = j)
    (hs : ∀ i l, own i l → ¬ shared l) {tasks : Nat → Code Loc W α} {m : (l : Loc) → W l} (s : List Nat)
    {c : Conc Loc W α} (h : ConcInv own shared tasks m c) : ConcInv own shared tasks m (Conc.run s c) := by
  induction s generalizing c with
  | nil => exact h
  | cons i s ih => exact ih (h.step ho hs i)

theorem Conc.run_append (s t : List Nat) (c : Conc Loc W α) : Conc.run (s ++ t) c = Conc.run t (Conc.run s c) :=
  List.foldl_append ..

/-- A task can be completed; the others stay where they are. -/
theorem Conc.complete_one (i : Nat) (c : Conc Loc W α) :
    ∃ t, (∃ a, (Conc.run t c).todo i = .ret a) ∧ ∀ j, j ≠ i → (Conc.run t c).todo j = c.todo j := by
  generalize hx : c.todo i = x
  induction x generalizing c with
  | ret a => exact ⟨[], ⟨a, hx⟩, fun _ _ => rfl⟩
  | load l k ih =>
    have e : (c.step i) = ⟨c.mem, Function.update c.todo i (k (c.mem l))⟩ := by
      unfold Conc.step; rw [hx]
    obtain ⟨t, h1, h2⟩ := ih (c.mem l) (c.step i) (by rw [e]; simp)
    refine ⟨i :: t, h1, fun j hj => ?_⟩
    have := h2 j hj
    rw [e] at this
    rw [show Conc.run (i :: t) c = Conc.run t (c.step i) from rfl, e, this]
    simp [Function.update_of_ne hj]
  | store l v k ih =>
    have e : (c.step i) = ⟨Function.update c.mem l v, Function.update c.todo i k⟩ := by
      unfold Conc.step; rw [hx]
    obtain ⟨t, h1, h2⟩ := ih (c.step i) (by rw [e]; simp)
    refine ⟨i :: t, h1, fun j hj => ?_⟩
    have := h2 j hj
    rw [e] at this
    rw [show Conc.run (i :: t) c = Conc.run t (c.step i) from rfl, e, this]
    simp [Function.update_of_ne hj]

theorem Conc.complete {n : Nat} (c : Conc Loc W α) (h : ∀ i, n ≤ i → ∃ a, c.todo i = .ret a) :
    ∃ t, (Conc.run t c).Finished := by
  induction n generalizing c with
  | zero => exact ⟨[], fun i => h i (Nat.zero_le i)⟩
  | succ n ih =>
    obtain ⟨t, h1, h2⟩ := Conc.complete_one n c
    obtain ⟨t', h'⟩ := ih (Conc.run t c) (by
      intro i hi
      by_cases e : i = n
      · subst e; exact h1
      · rw [h2 i e]; exact h i (by omega))
    exact ⟨t ++ t', by rw [Conc.run_append]; exact h'⟩

theorem Conc.step_ret {i j : Nat} {c : Conc Loc W α} {a : α} (h : c.todo j = .ret a) : (c.step i).todo j = .ret a := by
  unfold Conc.step
  split
  · exact h
  · next l k e =>
    by_cases hj : j = i
    · subst hj; rw [h] at e; cases e
    · simp only [Function.update_of_ne hj]; exact h
  · next l v k e =>
    by_cases hj : j = i
    · subst hj; rw [h] at e; cases e
    · simp only [Function.update_of_ne hj]; exact h

theorem Conc.run_ret {j : Nat} (s : List Nat) {c : Conc Loc W α} {a : α} (h : c.todo j = .ret a) :
    (Conc.run s c).todo j = .ret a := by
  induction s generalizing c with
  | nil => exact h
  | cons i s ih => exact ih (Conc.step_ret h)

/-- Tasks that keep to their own locations have one outcome. -/
theorem oneOutcome_of_keeps {own : Nat → Loc → Prop} {shared : Loc → Prop} (ho : ∀ i j l, own i l → own j l → i = j)
    (hs : ∀ i l, own i l → ¬ shared l) {tasks : Nat → Code Loc W α} {m m' : (l : Loc) → W l} {n : Nat}
    (hn : ∀ i, n ≤ i → ∃ a, tasks i = .ret a) (hk : ∀ i, (tasks i).Keeps (own i) shared m)
    (h1 : ∀ i l, own i l → m' l = ((tasks i).solo m).2 l) (h2 : ∀ l, (∀ i, ¬ own i l) → m' l = m l) :
    OneOutcome tasks m m' (fun i => ((tasks i).solo m).1) := by
  have inv : ∀ s, ConcInv own shared tasks m (Conc.run s ⟨m, tasks⟩) := fun s =>
    ConcInv.run ho hs s ⟨hk, fun _ => rfl, fun _ _ _ => rfl, fun _ _ => rfl⟩
  refine ⟨?_, ?_, ?_⟩
  · rintro s ⟨i, j, l, a, b, hij, hi, hj, hab⟩
    have acc : ∀ i a, ((Conc.run s ⟨m, tasks⟩).todo i).next = some (l, a) → (own i l ∨ shared l) ∧ (a = true → own i l) := by
      intro i a hi
      have := (inv s).keeps i
      generalize (Conc.run s ⟨m, tasks⟩).todo i = x at hi this
      cases x with
      | ret _ => cases hi
      | load l' k =>
        injection hi with hi
        injection hi with e1 e2
        subst e1 e2
        exact ⟨this.1, fun h => by cases h⟩
      | store l' v k =>
        injection hi with hi
        injection hi with e1 e2
        subst e1
        exact ⟨Or.inl this.1, fun _ => this.1⟩
    obtain ⟨a1, a2⟩ := acc i a hi
    obtain ⟨b1, b2⟩ := acc j b hj
    rcases hab with hab | hab
    · have := a2 hab
      rcases b1 with b1 | b1
      · exact hij (ho i j l this b1)
      · exact hs i l this b1
    · have := b2 hab
      rcases a1 with a1 | a1
      · exact hij (ho i j l a1 this)
      · exact hs j l this a1
  · intro s
    obtain ⟨t, ht⟩ := Conc.complete (n := n) (Conc.run s ⟨m, tasks⟩) (by
      intro i hi
      obtain ⟨a, ha⟩ := hn i hi
      exact ⟨a, Conc.run_ret s ha⟩)
    exact ⟨t, by rw [Conc.run_append]; exact ht⟩
  · intro s hf
    have iv := inv s
    constructor
    · funext l
      by_cases hl : ∃ i, own i l
      · obtain ⟨i, hi⟩ := hl
        rw [h1 i l hi, ← iv.mem i l hi]
        obtain ⟨a, ha⟩ := hf i
        rw [ha]; rfl
      · rw [not_exists] at hl
        rw [h2 l hl, iv.rest l hl]
    · intro i
      obtain ⟨a, ha⟩ := hf i
      have := iv.res i
      rw [ha] at this ⊢
      rw [← this]; rfl

/-- Running the tasks one after the other. -/
def seqMem (tasks : Nat → Code Loc W α) (m : (l : Loc) → W l) : Nat → (l : Loc) → W l
  | 0 => m
  | n + 1 => ((tasks n).solo (seqMem tasks m n)).2

/-- What the tasks produce when run one after the other is the outcome. -/
theorem oneOutcome_of_seq {own : Nat → Loc → Prop} {shared : Loc → Prop} (ho : ∀ i j l, own i l → own j l → i = j)
    (hs : ∀ i l, own i l → ¬ shared l) {tasks : Nat → Code Loc W α} {m : (l : Loc) → W l} {n : Nat}
    (hn : ∀ i, n ≤ i → ∃ a, tasks i = .ret a)
    (hk : ∀ i, i < n → (tasks i).Keeps (own i) shared (seqMem tasks m i)) :
    OneOutcome tasks m (seqMem tasks m n) (fun i => ((tasks i).solo m).1) ∧
      ∀ i, i < n → ((tasks i).solo m).1 = ((tasks i).solo (seqMem tasks m i)).1 := by
  -- before task `i`, everything that is not owned by an earlier task is as at the beginning
  have before : ∀ k, k ≤ n → ∀ l, (∀ j, j < k → ¬ own j l) → seqMem tasks m k l = m l := by
    intro k
    induction k with
    | zero => intro _ l _; rfl
    | succ k ih =>
      intro hkn l hl
      show ((tasks k).solo (seqMem tasks m k)).2 l = m l
      rw [(hk k (by omega)).frame (hl k (by omega))]
      exact ih (by omega) l (fun j hj => hl j (by omega))
  have agree : ∀ i, i < n → ∀ l, own i l ∨ shared l → seqMem tasks m i l = m l := by
    intro i hi l hl
    refine before i (by omega) l (fun j hj hoj => ?_)
    rcases hl with hl | hl
    · have := ho i j l hl hoj; omega
    · exact hs j l hoj hl
  have hk' : ∀ i, (tasks i).Keeps (own i) shared m := by
    intro i
    by_cases hi : i < n
    · exact ((hk i hi).congr (agree i hi)).1
    · obtain ⟨a, ha⟩ := hn i (by omega)
      rw [ha]; trivial
  have after : ∀ k, k ≤ n → ∀ i, i < k → ∀ l, own i l → seqMem tasks m k l = ((tasks i).solo m).2 l := by
    intro k
    induction k with
    | zero => intro _ i hi; omega
    | succ k ih =>
      intro hkn i hi l hl
      show ((tasks k).solo (seqMem tasks m k)).2 l = _
      by_cases e : i = k
      · subst e
        exact ((hk i (by omega)).congr (agree i (by omega))).2.2 l (Or.inl hl)
      · rw [(hk k (by omega)).frame (fun h => e (ho i k l hl h))]
        exact ih (by omega) i (by omega) l hl
  refine ⟨oneOutcome_of_keeps ho hs hn hk' ?_ ?_, fun i hi => ((hk i hi).congr (agree i hi)).2.1⟩
  · intro i l hl
    by_cases hi : i < n
    · exact after n (Nat.le_refl n) i hi l hl
    · obtain ⟨a, ha⟩ := hn i (by omega)
      rw [ha]
      show _ = m l
      exact before n (Nat.le_refl n) l (fun j hj h => by have := ho i j l hl h; omega)
  · intro l hl
    exact before n (Nat.le_refl n) l (fun j _ => hl j)

/-! ### What a task does -/

/-- Run alone from `m`, the task keeps to its locations, returns `a` and leaves `m'`. -/
def Does (own shared : Loc → Prop) (x : Code Loc W α) (m : (l : Loc) → W l) (a : α) (m' : (l : Loc) → W l) : Prop :=
  x.Keeps own shared m ∧ x.solo m = (a, m')

theorem Does.pure {own shared : Loc → Prop} (a : α) (m : (l : Loc) → W l) :
    Does own shared (pure a : Code Loc W α) m a m := ⟨trivial, rfl⟩

theorem Does.rd {own shared : Loc → Prop} {l : Loc} (h : own l ∨ shared l) (m : (l : Loc) → W l) :
    Does own shared (rdLoc l : Code Loc W (W l)) m (m l) m := ⟨by simpa using h, rfl⟩

theorem Does.wr {own shared : Loc → Prop} {l : Loc} (h : own l) (v : W l) (m : (l : Loc) → W l) :
    Does own shared (wrLoc l v : Code Loc W Unit) m () (Function.update m l v) := ⟨by simpa using h, rfl⟩

theorem Does.bind {own shared : Loc → Prop} {x : Code Loc W α} {f : α → Code Loc W β} {m m1 m2 : (l : Loc) → W l} {a : α}
    {b : β} (h1 : Does own shared x m a m1) (h2 : Does own shared (f a) m1 b m2) : Does own shared (x >>= f) m b m2 := by
  obtain ⟨k1, e1⟩ := h1
  obtain ⟨k2, e2⟩ := h2
  refine ⟨?_, ?_⟩
  · rw [Code.keeps_bind, e1]; exact ⟨k1, k2⟩
  · rw [Code.solo_bind, e1]; exact e2

theorem Does.mono {own own' shared shared' : Loc → Prop} (h1 : ∀ l, own l → own' l) (h2 : ∀ l, shared l → shared' l)
    {x : Code Loc W α} {m m' : (l : Loc) → W l} {a : α} (h : Does own shared x m a m') : Does own' shared' x m a m' :=
  ⟨h.1.mono h1 h2, h.2⟩

/-- `Own s s'` are the locations that may be touched when the model goes from `s` to `s'` (related by `P`). -/
structure Grows (P : σ → σ → Prop) (Own : σ → σ → Loc → Prop) : Prop where
  refl : ∀ a, P a a
  trans : ∀ a b c, P a b → P b c → P a c
  left : ∀ a b c l, P a b → P b c → Own a b l → Own a c l
  right : ∀ a b c l, P a b → P b c → Own b c l → Own a c l

omit [DecidableEq Loc] in
theorem Grows.const (own : Loc → Prop) : Grows (fun _ _ : σ => True) (fun _ _ => own) :=
  ⟨fun _ => trivial, fun _ _ _ _ _ => trivial, fun _ _ _ _ _ _ h => h, fun _ _ _ _ _ _ h => h⟩

/-- A loop does what a sequential loop of the model does; `reg` are the private variables and `mem` is the memory. -/
theorem Does.forG {P : σ → σ → Prop} {Own : σ → σ → Loc → Prop} (G : Grows P Own) {shared : Loc → Prop} {reg : σ → R}
    {mem : σ → (l : Loc) → W l} {body : Nat → R → Code Loc W R} {g : Nat → σ → Option σ} {lo hi : Nat}
    (h : ∀ i, lo ≤ i → i < hi → ∀ s s', g i s = some s' →
      P s s' ∧ Does (Own s s') shared (body i (reg s)) (mem s) (reg s') (mem s'))
    {s s' : σ} (hl : forLoop lo hi s g = some s') :
    P s s' ∧ Does (Own s s') shared (Code.for lo hi (reg s) body) (mem s) (reg s') (mem s') := by
  unfold forLoop at hl
  unfold Code.for
  have hin : ∀ i ∈ List.range' lo (hi - lo), lo ≤ i ∧ i < hi := by
    intro i hi'
    rw [List.mem_range'_1] at hi'
    omega
  generalize List.range' lo (hi - lo) = l at hl hin
  induction l generalizing s with
  | nil =>
    injection hl with hl
    subst hl
    exact ⟨G.refl _, Does.pure _ _⟩
  | cons i l ih =>
    rw [List.foldlM_cons] at hl ⊢
    cases hg : g i s with
    | none => rw [hg] at hl; cases hl
    | some s1 =>
      rw [hg] at hl
      have hi' := hin i List.mem_cons_self
      obtain ⟨p1, d1⟩ := h i hi'.1 hi'.2 s s1 hg
      obtain ⟨p2, d2⟩ := ih hl (fun j hj => hin j (List.mem_cons_of_mem _ hj))
      exact ⟨G.trans _ _ _ p1 p2, (d1.mono (fun l => G.left _ _ _ l p1 p2) (fun _ h => h)).bind
        (d2.mono (fun l => G.right _ _ _ l p1 p2) (fun _ h => h))⟩

/-- The same without private variables and with a fixed set of locations. -/
theorem Does.forUnit {own shared : Loc → Prop} {mem : σ → (l : Loc) → W l} {body : Nat → Code Loc W Unit}
    {g : Nat → σ → Option σ} {lo hi : Nat}
    (h : ∀ i, lo ≤ i → i < hi → ∀ s s', g i s = some s' → Does own shared (body i) (mem s) () (mem s'))
    {s s' : σ} (hl : forLoop lo hi s g = some s') :
    Does own shared (Code.for lo hi () (fun i _ => body i)) (mem s) () (mem s') :=
  (Does.forG (Grows.const own) (reg := fun _ => ()) (fun i h1 h2 s s' hg => ⟨trivial, h i h1 h2 s s' hg⟩) hl).2

/-- A parallel loop whose iterations keep to their own locations and do what the iterations of a sequential loop of the
model do (whose state before iteration `p` satisfies `Inv p`) has one outcome, the result of that loop. -/
theorem parFor_outcome_inv {own : Nat → Loc → Prop} {shared : Loc → Prop} {mem : σ → (l : Loc) → W l} {n : Nat}
    {body : Nat → Code Loc W Unit} {part : Nat → σ → Option σ} (Inv : Nat → σ → Prop)
    (ho : ∀ i j l, i < n → j < n → own i l → own j l → i = j) (hs : ∀ i l, i < n → own i l → ¬ shared l)
    (h : ∀ p, p < n → ∀ s s', Inv p s → part p s = some s' →
      Inv (p + 1) s' ∧ Does (own p) shared (body p) (mem s) () (mem s'))
    {s s' : σ} (h0 : Inv 0 s) (hl : forLoop 0 n s part = some s') :
    OneOutcome (parFor n body) (mem s) (mem s') (fun _ => ()) ∧ Inv n s' := by
  have seq : ∀ k, k ≤ n → ∀ s1, forLoop 0 k s part = some s1 → Inv k s1 ∧ seqMem (parFor n body) (mem s) k = mem s1 ∧
      ∀ i, i < k → (parFor n body i).Keeps (own i) shared (seqMem (parFor n body) (mem s) i) := by
    intro k
    induction k with
    | zero =>
      intro _ s1 h1
      injection h1 with h1
      subst h1
      exact ⟨h0, rfl, fun i hi => by omega⟩
    | succ k ih =>
      intro hk s1 h1
      rw [forLoop_range, List.range_succ, List.foldlM_append, ← forLoop_range] at h1
      cases h0 : forLoop 0 k s part with
      | none => rw [h0] at h1; cases h1
      | some s0 =>
        rw [h0] at h1
        have h1 : part k s0 = some s1 := by simpa using h1
        obtain ⟨i0, i1, i2⟩ := ih (by omega) s0 h0
        obtain ⟨d0, d1, d2⟩ := h k (by omega) s0 s1 i0 h1
        have e : parFor n body k = body k := by unfold parFor; rw [if_pos (by omega)]
        refine ⟨d0, ?_, ?_⟩
        · show ((parFor n body k).solo (seqMem (parFor n body) (mem s) k)).2 = _
          rw [i1, e, d2]
        · intro i hi
          by_cases hik : i = k
          · subst hik
            rw [e, i1]; exact d1
          · exact i2 i (by omega)
  obtain ⟨e0, e1, e2⟩ := seq n (Nat.le_refl n) s' hl
  have := (oneOutcome_of_seq (own := fun i l => i < n ∧ own i l) (shared := shared) (tasks := parFor n body) (m := mem s)
    (n := n) (fun i j l hi hj => ho i j l hi.1 hj.1 hi.2 hj.2) (fun i l hi => hs i l hi.1 hi.2)
    (fun i hi => ⟨(), by unfold parFor; rw [if_neg (by omega)]⟩)
    (fun i hi => (e2 i hi).mono (fun l hl => ⟨hi, hl⟩) (fun _ h => h))).1
  rw [e1] at this
  exact ⟨this, e0⟩

theorem parFor_outcome {own : Nat → Loc → Prop} {shared : Loc → Prop} {mem : σ → (l : Loc) → W l} {n : Nat}
    {body : Nat → Code Loc W Unit} {part : Nat → σ → Option σ}
    (ho : ∀ i j l, i < n → j < n → own i l → own j l → i = j) (hs : ∀ i l, i < n → own i l → ¬ shared l)
    (h : ∀ p, p < n → ∀ s s', part p s = some s' → Does (own p) shared (body p) (mem s) () (mem s'))
    {s s' : σ} (hl : forLoop 0 n s part = some s') :
    OneOutcome (parFor n body) (mem s) (mem s') (fun _ => ()) :=
  (parFor_outcome_inv (fun _ _ => True) ho hs (fun p hp s s' _ hg => ⟨trivial, h p hp s s' hg⟩) trivial hl).1

/-! ### Arrays -/

section arrays
variable {K : Type} [DecidableEq K] {τ : K → Type}

/-- The memory consisting of the contents of some arrays. -/
def arrMem (A : (k : K) → Arr (τ k)) : (l : K × Nat) → τ l.1 := fun l => (A l.1).get l.2

theorem arrMem_upd (A A' : (k : K) → Arr (τ k)) (k : K) (i : Nat) (v : τ k) (h1 : (A' k).get = ((A k).upd i v).get)
    (h2 : ∀ k', k' ≠ k → (A' k').get = (A k').get) :
    Function.update (arrMem A) (k, i) v = arrMem A' := by
  funext l
  obtain ⟨k', j⟩ := l
  by_cases hk : k' = k
  · subst hk
    by_cases hj : j = i
    · subst hj
      rw [Function.update_self]
      show v = (A' k').get j
      rw [h1]; simp
    · rw [Function.update_of_ne (by simpa using hj)]
      show (A k').get j = (A' k').get j
      rw [h1, Arr.upd_get_ne _ _ hj]
  · rw [Function.update_of_ne (by simpa using fun h _ => hk h)]
    show (A k').get j = (A' k').get j
    rw [h2 k' hk]

theorem Does.ld {own shared : K × Nat → Prop} {k : K} {i : Nat} (h : own (k, i) ∨ shared (k, i)) (A : (k : K) → Arr (τ k))
    {v : τ k} (hv : (A k).read i = some v) :
    Does own shared (aload k i) (arrMem A) v (arrMem A) := by
  rw [Arr.read_eq_some] at hv
  have := Does.rd (W := fun l : K × Nat => τ l.1) (l := (k, i)) h (arrMem A)
  rw [show arrMem A (k, i) = v from hv.2] at this
  exact this

theorem Does.st {own shared : K × Nat → Prop} {k : K} {i : Nat} (h : own (k, i)) {A A' : (k : K) → Arr (τ k)} {v : τ k}
    (hv : (A k).write i v = some (A' k)) (h2 : ∀ k', k' ≠ k → A' k' = A k') :
    Does own shared (astore k i v) (arrMem A) () (arrMem A') := by
  rw [Arr.write_eq_some] at hv
  rw [← arrMem_upd A A' k i v (by rw [hv.2]) (fun k' hk => by rw [h2 k' hk])]
  exact Does.wr (W := fun l : K × Nat => τ l.1) (l := (k, i)) h v (arrMem A)

end arrays

end GraphMat

import Verif.Spec.Par

namespace GraphMat

variable {Loc : Type} [DecidableEq Loc] {W : Loc → Type} {L : Type}

theorem parRun_append (s t : List (Nat × Act Loc W L)) (st : ParState Loc W L) :
    parRun (s ++ t) st = parRun t (parRun s st) := List.foldl_append ..

omit [DecidableEq Loc] in
theorem proj_append (i : Nat) (s t : List (Nat × Act Loc W L)) : proj i (s ++ t) = proj i s ++ proj i t :=
  List.filterMap_append ..

omit [DecidableEq Loc] in
theorem proj_cons (i : Nat) (x : Nat × Act Loc W L) (s : List (Nat × Act Loc W L)) :
    proj i (x :: s) = if x.1 = i then x.2 :: proj i s else proj i s := by
  unfold proj
  rw [List.filterMap_cons]
  by_cases h : x.1 = i
  · simp only [if_pos h]
  · simp only [if_neg h]

omit [DecidableEq Loc] in
theorem mem_proj {i : Nat} {s : List (Nat × Act Loc W L)} {a : Act Loc W L} : a ∈ proj i s ↔ (i, a) ∈ s := by
  unfold proj
  rw [List.mem_filterMap]
  constructor
  · rintro ⟨⟨j, b⟩, h1, h2⟩
    by_cases h : j = i
    · rw [if_pos h] at h2
      injection h2 with h2
      subst h h2
      exact h1
    · rw [if_neg h] at h2; cases h2
  · intro h
    exact ⟨(i, a), h, by rw [if_pos rfl]⟩

/-- Accesses of different tasks that do not conflict can be exchanged. -/
theorem parStep_comm {i j : Nat} (hij : i ≠ j) {a b : Act Loc W L} (h : ¬ Conflict a b) (st : ParState Loc W L) :
    parStep (parStep st (i, a)) (j, b) = parStep (parStep st (j, b)) (i, a) := by
  obtain ⟨m, s⟩ := st
  have hji := hij.symm
  unfold Conflict at h
  cases a with
  | read c l f =>
    cases b with
    | read c' l' f' =>
      simp only [parStep, Act.exec, Function.update_of_ne hij, Function.update_of_ne hji]
      rw [Function.update_comm hij]
    | write c' l' f' =>
      simp only [Act.loc, Act.isWrite, or_true, and_true] at h
      simp only [parStep, Act.exec, Function.update_of_ne hij, Function.update_of_ne hji]
      rw [Function.update_comm hij]
      by_cases hc : c' (s j) = true
      · rw [if_pos hc, Function.update_of_ne h]
      · rw [if_neg hc]
  | write c l f =>
    cases b with
    | read c' l' f' =>
      simp only [Act.loc, Act.isWrite, true_or, and_true] at h
      simp only [parStep, Act.exec, Function.update_of_ne hij, Function.update_of_ne hji]
      rw [Function.update_comm hij]
      by_cases hc : c (s i) = true
      · rw [if_pos hc, Function.update_of_ne (fun e => h e.symm)]
      · rw [if_neg hc]
    | write c' l' f' =>
      simp only [Act.loc, Act.isWrite, true_or, and_true] at h
      simp only [parStep, Act.exec, Function.update_of_ne hij, Function.update_of_ne hji]
      rw [Function.update_comm hij]
      by_cases hc : c (s i) = true
      · by_cases hc' : c' (s j) = true
        · simp only [if_pos hc, if_pos hc']; rw [Function.update_comm h]
        · simp only [if_pos hc, if_neg hc']
      · by_cases hc' : c' (s j) = true
        · simp only [if_neg hc, if_pos hc']
        · simp only [if_neg hc, if_neg hc']

/-- An access can be moved before accesses of other tasks. -/
theorem parRun_move {i : Nat} {a : Act Loc W L} {u : List (Nat × Act Loc W L)}
    (h : ∀ x ∈ u, x.1 ≠ i ∧ ¬ Conflict x.2 a) (st : ParState Loc W L) :
    parRun (u ++ [(i, a)]) st = parRun ((i, a) :: u) st := by
  induction u generalizing st with
  | nil => rfl
  | cons x u ih =>
    have e1 : parRun ((x :: u) ++ [(i, a)]) st = parRun (u ++ [(i, a)]) (parStep st x) := rfl
    rw [e1, ih (fun y hy => h y (List.mem_cons_of_mem _ hy))]
    have e2 : parRun ((i, a) :: u) (parStep st x) = parRun u (parStep (parStep st x) (i, a)) := rfl
    have e3 : parRun ((i, a) :: x :: u) st = parRun u (parStep (parStep st (i, a)) x) := rfl
    rw [e2, e3]
    obtain ⟨j, b⟩ := x
    have := h (j, b) (by simp)
    rw [parStep_comm this.1 this.2]

omit [DecidableEq Loc] in
theorem proj_split {i : Nat} {a : Act Loc W L} {l : List (Act Loc W L)} {s : List (Nat × Act Loc W L)}
    (h : proj i s = a :: l) : ∃ u w, s = u ++ (i, a) :: w ∧ ∀ x ∈ u, x.1 ≠ i := by
  induction s with
  | nil => cases h
  | cons x s ih =>
    rw [proj_cons] at h
    by_cases hx : x.1 = i
    · rw [if_pos hx] at h
      injection h with h1 h2
      obtain ⟨j, b⟩ := x
      subst hx h1
      exact ⟨[], s, rfl, by simp⟩
    · rw [if_neg hx] at h
      obtain ⟨u, w, h1, h2⟩ := ih h
      refine ⟨x :: u, w, by rw [h1]; rfl, ?_⟩
      intro y hy
      rcases List.mem_cons.mp hy with rfl | hy
      · exact hx
      · exact h2 y hy

theorem parRun_unique (s : List (Nat × Act Loc W L)) : ∀ (t : List (Nat × Act Loc W L)),
    (∀ i, proj i s = proj i t) → (∀ x ∈ s, ∀ y ∈ s, x.1 ≠ y.1 → ¬ Conflict x.2 y.2) →
    ∀ st : ParState Loc W L, parRun s st = parRun t st := by
  induction s with
  | nil =>
    intro t h _ st
    cases t with
    | nil => rfl
    | cons x t =>
      have := h x.1
      rw [proj_cons, if_pos rfl] at this
      cases this
  | cons x s ih =>
    intro t h hc st
    obtain ⟨i, a⟩ := x
    have hi := h i
    rw [proj_cons, if_pos rfl] at hi
    obtain ⟨u, w, rfl, hu⟩ := proj_split hi.symm
    have hmem : ∀ x ∈ u, x ∈ (i, a) :: s := by
      intro x hx
      have h1 : x.2 ∈ proj x.1 (u ++ (i, a) :: w) := mem_proj.mpr (List.mem_append_left _ hx)
      rw [← h x.1] at h1
      exact mem_proj.mp h1
    have e1 : parRun (u ++ (i, a) :: w) st = parRun w (parRun (u ++ [(i, a)]) st) := by
      rw [← parRun_append]
      congr 1
      simp
    rw [e1, parRun_move (fun x hx => ⟨hu x hx, hc x (hmem x hx) (i, a) (by simp) (hu x hx)⟩)]
    have e2 : parRun w (parRun ((i, a) :: u) st) = parRun (u ++ w) (parStep st (i, a)) := by
      rw [parRun_append]; rfl
    rw [e2]
    refine ih (u ++ w) ?_ (fun x hx y hy => hc x (List.mem_cons_of_mem _ hx) y (List.mem_cons_of_mem _ hy)) _
    intro j
    have hj := h j
    rw [proj_append, proj_cons, proj_cons] at hj
    rw [proj_append]
    by_cases hij : i = j
    · subst hij
      rw [if_pos rfl, if_pos rfl] at hj
      have hnil : proj i u = [] := by
        apply List.eq_nil_iff_forall_not_mem.mpr
        intro b hb
        exact hu (i, b) (mem_proj.mp hb) rfl
      rw [hnil] at hj ⊢
      injection hj
    · rw [if_neg hij, if_neg hij] at hj
      exact hj

/-- The iterations one after the other. -/
def seqSchedule (n : Nat) (tasks : Nat → List (Act Loc W L)) : List (Nat × Act Loc W L) :=
  (List.range n).flatMap (fun i => (tasks i).map (fun a => (i, a)))

omit [DecidableEq Loc] in
theorem proj_task (i j : Nat) (l : List (Act Loc W L)) :
    proj i (l.map (fun a => (j, a))) = if j = i then l else [] := by
  induction l with
  | nil => by_cases h : j = i <;> simp [proj, h]
  | cons a l ih =>
    rw [List.map_cons, proj_cons, ih]
    by_cases h : j = i
    · simp only [if_pos h]
    · simp only [if_neg h]

omit [DecidableEq Loc] in
theorem seqSchedule_isSchedule {n : Nat} {tasks : Nat → List (Act Loc W L)} (h : ∀ i, n ≤ i → tasks i = []) :
    IsSchedule tasks (seqSchedule n tasks) := by
  have key : ∀ n i, proj i (seqSchedule n tasks) = if i < n then tasks i else [] := by
    intro n
    induction n with
    | zero => intro i; rfl
    | succ n ih =>
      intro i
      have e : seqSchedule (n + 1) tasks = seqSchedule n tasks ++ (tasks n).map (fun a => (n, a)) := by
        unfold seqSchedule
        rw [List.range_succ, List.flatMap_append]
        simp
      rw [e, proj_append, ih, proj_task]
      by_cases h1 : n = i
      · subst h1
        rw [if_neg (Nat.lt_irrefl _), if_pos rfl, if_pos (Nat.lt_succ_self _)]; rfl
      · rw [if_neg h1, List.append_nil]
        by_cases h2 : i < n
        · rw [if_pos h2, if_pos (by omega)]
        · rw [if_neg h2, if_neg (by omega)]
  intro i
  rw [key]
  by_cases hi : i < n
  · rw [if_pos hi]
  · rw [if_neg hi, h i (by omega)]

/-- Running a task within a schedule is running it alone, on its own variables. -/
theorem parRun_task (i : Nat) (l : List (Act Loc W L)) (st : ParState Loc W L) :
    parRun (l.map (fun a => (i, a))) st =
      ((runActs l (st.1, st.2 i)).1, Function.update st.2 i (runActs l (st.1, st.2 i)).2) := by
  induction l generalizing st with
  | nil =>
    show st = (st.1, Function.update st.2 i (st.2 i))
    rw [Function.update_eq_self]
  | cons a l ih =>
    have : parRun ((a :: l).map (fun a => (i, a))) st = parRun (l.map (fun a => (i, a))) (parStep st (i, a)) := rfl
    rw [this, ih]
    simp only [parStep, Function.update_self, Function.update_idem]
    rfl

theorem runActs_append (l l' : List (Act Loc W L)) (st : ((l : Loc) → W l) × L) :
    runActs (l ++ l') st = runActs l' (runActs l st) := List.foldl_append ..

end GraphMat

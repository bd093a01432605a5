import Verif.Lemmas.Par
import Verif.Lemmas.ApplyStep
import Verif.Lemmas.TileMul
import Verif.Model.Tasks

namespace GraphMat

variable {σ κ : Type} {E T U V : Type}

section generic
variable {Loc : Type} [DecidableEq Loc] {W : Loc → Type} {L : Type}

theorem parRun_seq_succ (n : Nat) (tasks : Nat → List (Act Loc W L)) (st : ParState Loc W L) :
    parRun (seqSchedule (n + 1) tasks) st =
      ((runActs (tasks n) ((parRun (seqSchedule n tasks) st).1, (parRun (seqSchedule n tasks) st).2 n)).1,
        Function.update (parRun (seqSchedule n tasks) st).2 n
          (runActs (tasks n) ((parRun (seqSchedule n tasks) st).1, (parRun (seqSchedule n tasks) st).2 n)).2) := by
  have e : seqSchedule (n + 1) tasks = seqSchedule n tasks ++ (tasks n).map (fun a => (n, a)) := by
    unfold seqSchedule
    rw [List.range_succ, List.flatMap_append]; simp
  rw [e, parRun_append, parRun_task]

theorem race_free_schedule {tasks : Nat → List (Act Loc W L)} (rf : RaceFree tasks) {s t : List (Nat × Act Loc W L)}
    (hs : IsSchedule tasks s) (ht : IsSchedule tasks t) (st : ParState Loc W L) : parRun s st = parRun t st := by
  apply parRun_unique s t (fun i => by rw [hs i, ht i])
  intro x hx y hy hne
  apply rf x.1 y.1 hne
  · rw [← hs x.1]; exact mem_proj.mpr hx
  · rw [← hs y.1]; exact mem_proj.mpr hy

theorem runActs_items {mem : σ → (l : Loc) → W l} {g : κ → σ → Option σ} {acts : κ → List (Act Loc W L)}
    {c : σ → Bool} {obs : L → Bool}
    (sim : ∀ k st st' s, g k st = some st' → (runActs (acts k) (mem st, s)).1 = mem st' ∧
      ∃ b, c st' = (c st && b) ∧ obs (runActs (acts k) (mem st, s)).2 = (obs s && b))
    (l : List κ) (st st' : σ) (s : L) (h : l.foldlM (fun st k => g k st) st = some st') :
    (runActs (l.flatMap acts) (mem st, s)).1 = mem st' ∧
      ∃ b, c st' = (c st && b) ∧ obs (runActs (l.flatMap acts) (mem st, s)).2 = (obs s && b) := by
  induction l generalizing st s with
  | nil =>
    injection h with h
    subst h
    exact ⟨rfl, true, by simp, by simp [runActs]⟩
  | cons k l ih =>
    rw [List.foldlM_cons] at h
    cases hg : g k st with
    | none => rw [hg] at h; cases h
    | some st1 =>
      rw [hg] at h
      obtain ⟨e1, b1, f1, f2⟩ := sim k st st1 s hg
      rw [List.flatMap_cons, runActs_append]
      obtain ⟨e2, b2, g1, g2⟩ := ih st1 (runActs (acts k) (mem st, s)).2 h
      have e : runActs (acts k) (mem st, s) = (mem st1, (runActs (acts k) (mem st, s)).2) := by rw [← e1]
      rw [e]
      refine ⟨e2, b1 && b2, ?_, ?_⟩
      · rw [g1, f1, Bool.and_assoc]
      · rw [g2, f2, Bool.and_assoc]

/-- A race-free loop whose accesses simulate a sequential program gives its result under every schedule. -/
theorem schedule_simulates {mem : σ → (l : Loc) → W l} {n : Nat} {g : Nat → κ → σ → Option σ}
    {acts : Nat → κ → List (Act Loc W L)} {c : σ → Bool} {obs : L → Bool}
    (sim : ∀ i k st st' s, g i k st = some st' → (runActs (acts i k) (mem st, s)).1 = mem st' ∧
      ∃ b, c st' = (c st && b) ∧ obs (runActs (acts i k) (mem st, s)).2 = (obs s && b))
    {items : Nat → List κ} {tasks : Nat → List (Act Loc W L)}
    (htasks : ∀ i, tasks i = if i < n then (items i).flatMap (acts i) else [])
    {st st' : σ}
    (h : (List.range n).foldlM (fun st i => (items i).foldlM (fun st k => g i k st) st) st = some st')
    (rf : RaceFree tasks) {s : List (Nat × Act Loc W L)} (hs : IsSchedule tasks s) (loc : Nat → L)
    (hloc : ∀ i, obs (loc i) = true) :
    (parRun s (mem st, loc)).1 = mem st' ∧
      (c st' = true ↔ c st = true ∧ ∀ i, i < n → obs ((parRun s (mem st, loc)).2 i) = true) := by
  have ht : IsSchedule tasks (seqSchedule n tasks) :=
    seqSchedule_isSchedule (fun i hi => by rw [htasks, if_neg (by omega)])
  rw [race_free_schedule rf hs ht]
  have key : ∀ m, m ≤ n → ∀ st', (List.range m).foldlM (fun st i => (items i).foldlM (fun st k => g i k st) st) st = some st' →
      (parRun (seqSchedule m tasks) (mem st, loc)).1 = mem st' ∧
      (c st' = true ↔ c st = true ∧ ∀ i, i < m → obs ((parRun (seqSchedule m tasks) (mem st, loc)).2 i) = true) ∧
      (∀ i, m ≤ i → (parRun (seqSchedule m tasks) (mem st, loc)).2 i = loc i) := by
    intro m
    induction m with
    | zero =>
      intro _ st' h
      injection h with h
      subst h
      exact ⟨rfl, by simp, fun i _ => rfl⟩
    | succ m ih =>
      intro hm st' h
      rw [List.range_succ, List.foldlM_append] at h
      cases h1 : (List.range m).foldlM (fun st i => (items i).foldlM (fun st k => g i k st) st) st with
      | none => rw [h1] at h; cases h
      | some st1 =>
        rw [h1] at h
        obtain ⟨i1, i2, i3⟩ := ih (by omega) st1 h1
        have h : (items m).foldlM (fun st k => g m k st) st1 = some st' := by
          simpa using h
        obtain ⟨e1, b, f1, f2⟩ := runActs_items (sim m) (items m) st1 st' (loc m) h
        rw [parRun_seq_succ, htasks m, if_pos (by omega), i1, i3 m (Nat.le_refl m)]
        refine ⟨e1, ?_, ?_⟩
        · rw [f1, Bool.and_eq_true, i2]
          rw [hloc, Bool.true_and] at f2
          constructor
          · rintro ⟨⟨a1, a2⟩, a3⟩
            refine ⟨a1, fun i hi => ?_⟩
            by_cases him : i = m
            · subst him
              simp only [Function.update_self]
              rw [f2, a3]
            · simp only [Function.update_of_ne him]
              exact a2 i (by omega)
          · rintro ⟨a1, a2⟩
            refine ⟨⟨a1, fun i hi => ?_⟩, ?_⟩
            · have := a2 i (by omega)
              simpa only [Function.update_of_ne (show i ≠ m by omega)] using this
            · have := a2 m (by omega)
              simp only [Function.update_self] at this
              rw [← f2, this]
        · intro i hi
          simp only [Function.update_of_ne (show i ≠ m by omega)]
          exact i3 i (by omega)
  obtain ⟨k1, k2, _⟩ := key n (Nat.le_refl n) st' h
  exact ⟨k1, k2⟩

end generic

/-! ### The product loops -/

theorem foldlM_items {body : Nat → σ → Option σ} {it : Nat → Option (List κ)} {g : σ → κ → Option σ}
    (hb : ∀ i st, body i st = (it i).bind (fun l => l.foldlM g st)) (is : List Nat) (st : σ) :
    is.foldlM (fun st i => body i st) st = (is.mapM it).bind (fun ls => ls.flatten.foldlM g st) := by
  induction is generalizing st with
  | nil => rfl
  | cons i is ih =>
    rw [List.foldlM_cons, hb, List.mapM_cons]
    cases hi : it i with
    | none => rfl
    | some l =>
      simp only [Option.bind_some, Option.bind_eq_bind, Option.pure_def]
      simp only [ih]
      cases hm : is.mapM it with
      | none =>
        simp only [Option.bind_none]
        cases l.foldlM g st <;> rfl
      | some ls =>
        simp only [Option.bind_some, List.flatten_cons, List.foldlM_append]
        rfl

theorem Tile.walkPart_visits (t : Tile E) (xv : Arr T) (xb : Arr Word) (f : Nat → Nat → Nat → E → T → σ → Option σ)
    (p : Nat) (st : σ) :
    t.walkPart xv xb f p st =
      (t.visits xv xb p).bind (fun l => l.foldlM (fun st v => f p v.1 v.2.1 v.2.2.1 v.2.2.2 st) st) := by
  unfold Tile.walkPart Tile.visits
  simp only [Option.bind_eq_bind]
  cases t.cs.read p with
  | none => rfl
  | some c0 =>
  cases t.ep.read p with
  | none => rfl
  | some e0 =>
  cases t.cs.read (p + 1) with
  | none => rfl
  | some c1 =>
  simp only [Option.bind_some]
  unfold forLoop
  rw [foldlM_items (g := fun st (v : Nat × Nat × E × T) => f p v.1 v.2.1 v.2.2.1 v.2.2.2 st)
    (it := fun j => (t.colIdx.read (c0 + j)).bind fun col => (getBitvector col xb).bind fun bit =>
      if bit = true then (xv.read col).bind fun x => (t.colPtrs.read (c0 + j)).bind fun a =>
        (t.colPtrs.read (c0 + j + 1)).bind fun b => (List.range' a (b - a)).mapM (fun nz =>
          (t.rowInds.read (e0 + nz)).bind fun row => (t.vals.read (e0 + nz)).bind fun v => some (nz, row, v, x))
      else some [])]
  · rw [Option.bind_assoc]
    rfl
  · intro j st
    cases t.colIdx.read (c0 + j) with
    | none => rfl
    | some col =>
    simp only [Option.bind_some]
    cases getBitvector col xb with
    | none => rfl
    | some bit =>
    simp only [Option.bind_some]
    cases bit with
    | false => rfl
    | true =>
    simp only [if_true]
    cases xv.read col with
    | none => rfl
    | some x =>
    cases t.colPtrs.read (c0 + j) with
    | none => rfl
    | some a =>
    cases t.colPtrs.read (c0 + j + 1) with
    | none => rfl
    | some b =>
    simp only [Option.bind_some]
    rw [foldlM_items (g := fun st (v : Nat × Nat × E × T) => f p v.1 v.2.1 v.2.2.1 v.2.2.2 st)
      (it := fun nz => ((t.rowInds.read (e0 + nz)).bind fun row => (t.vals.read (e0 + nz)).bind fun v =>
        some (nz, row, v, x)).map (fun v => [v]))]
    · have : ∀ (is : List Nat) (q : Nat → Option (Nat × Nat × E × T)),
          (is.mapM (fun nz => (q nz).map (fun v => [v]))).map List.flatten = is.mapM q := by
        intro is q
        induction is with
        | nil => rfl
        | cons i is ih =>
          rw [List.mapM_cons, List.mapM_cons, ← ih]
          cases q i with
          | none => rfl
          | some v =>
            cases is.mapM (fun nz => (q nz).map (fun v => [v])) <;> rfl
      rw [← this]
      cases (List.range' a (b - a)).mapM (fun nz => ((t.rowInds.read (e0 + nz)).bind fun row =>
        (t.vals.read (e0 + nz)).bind fun v => some (nz, row, v, x)).map (fun v => [v])) <;> rfl
    · intro nz st
      cases t.rowInds.read (e0 + nz) with
      | none => rfl
      | some row =>
      cases t.vals.read (e0 + nz) with
      | none => rfl
      | some v => 
        simp only [Option.bind_some, Option.map_some]
        show _ = (f p nz row v x st).bind some
        cases f p nz row v x st <;> rfl

theorem yMem_val (v : Arr U) (b : Arr Word) (i : Nat) (x : U) :
    yMem (v.upd i x, b) = Function.update (yMem (v, b)) (.val i) x := by
  funext l
  cases l with
  | val j =>
    by_cases h : j = i
    · subst h; simp [yMem]
    · rw [Function.update_of_ne (by simpa using h)]
      simp [yMem, Arr.upd, h]
  | word j => rw [Function.update_of_ne (by simp)]; rfl

theorem yMem_word (v : Arr U) (b : Arr Word) (i : Nat) (x : Word) :
    yMem (v, b.upd i x) = Function.update (yMem (v, b)) (.word i) x := by
  funext l
  cases l with
  | word j =>
    by_cases h : j = i
    · subst h; simp [yMem]
    · rw [Function.update_of_ne (by simpa using h)]
      simp [yMem, Arr.upd, h]
  | val j => rw [Function.update_of_ne (by simp)]; rfl

theorem setBitvector_eq_some {i : Nat} {b b' : Arr Word} (h : setBitvector i b = some b') :
    b' = if b.get (i >>> 5) &&& bitMask (i &&& 0x1F) = 0#32 then b.upd (i >>> 5) (b.get (i >>> 5) ||| bitMask (i &&& 0x1F))
      else b := by
  unfold setBitvector at h
  simp only [Option.bind_eq_bind] at h
  by_cases hb : i >>> 5 < b.size
  · rw [Arr.read_some hb, Option.bind_some] at h
    split_ifs at h ⊢ with hc
    · rw [Arr.write_some hb] at h
      injection h with h; exact h.symm
    · injection h with h; exact h.symm
  · unfold Arr.read at h
    rw [if_neg hb] at h; cases h

theorem mulAdd_sim {mul : E → T → U → U} {add : U → U → U} {old : U} {row : Nat} {a : E} {x : T}
    {st st' : Arr U × Arr Word} (s : YReg U) (h : mulAdd mul add old row a x st = some st') :
    (runActs (mulAddActs add (mul a x old) row) (yMem st, s)).1 = yMem st' := by
  obtain ⟨v, b⟩ := st
  unfold mulAdd getBitvector at h
  simp only [Option.bind_eq_bind] at h
  by_cases hb : row >>> 5 < b.size
  · by_cases hv : row < v.size
    · rw [Arr.read_some hb, Option.bind_some, Option.bind_some, Arr.read_some hv] at h
      simp only [Option.bind_some, Arr.write_some hv] at h
      by_cases hc : b.get (row >>> 5) &&& bitMask (row &&& 0x1F) = 0#32
      · simp only [hc, ne_eq, not_true, decide_false, Bool.false_eq_true, if_false] at h
        cases hs : setBitvector row b with
        | none => rw [hs] at h; cases h
        | some b' =>
          rw [hs] at h
          injection h with h
          subst h
          have := setBitvector_eq_some hs
          rw [if_pos hc] at this
          subst this
          rw [yMem_word, yMem_val]
          have e : yMem (v, b) (.word (row >>> 5)) = b.get (row >>> 5) := rfl
          simp [runActs, mulAddActs, Act.exec, YReg.hit, e, hc]
      · simp only [hc, ne_eq, not_false_eq_true, decide_true, if_true] at h
        injection h with h
        subst h
        rw [yMem_val]
        have e : yMem (v, b) (.word (row >>> 5)) = b.get (row >>> 5) := rfl
        have e' : yMem (v, b) (.val row) = v.get row := rfl
        simp [runActs, mulAddActs, Act.exec, YReg.hit, e, e', hc]
    · rw [Arr.read_some hb, Option.bind_some, Option.bind_some] at h
      unfold Arr.read Arr.write at h
      simp [hv] at h
  · unfold Arr.read at h
    simp [hb] at h

theorem mulAdd3_sim {mul : E → T → V → U → U} {add : U → U → U} {old : U} {vv : Arr V} {vb : Arr Word} {row : Nat}
    {a : E} {x : T} {st st' : Arr U × Arr Word} (s : YReg U) (h : mulAdd3 mul add old vv vb row a x st = some st') :
    (runActs (mulAdd3Acts (mul a x (vv.get row)) add old row) (yMem st, s)).1 = yMem st' := by
  obtain ⟨v, b⟩ := st
  unfold mulAdd3 at h
  simp only [Option.bind_eq_bind] at h
  cases hvb : getBitvector row vb with
  | none => rw [hvb] at h; cases h
  | some vbit =>
  rw [hvb, Option.bind_some] at h
  cases vbit with
  | false => cases h
  | true =>
  simp only [Bool.not_true, Bool.false_eq_true, if_false] at h
  unfold getBitvector at h
  simp only [Option.bind_eq_bind] at h
  by_cases hb : row >>> 5 < b.size
  · by_cases hv : row < v.size
    · by_cases hvv : row < vv.size
      · rw [Arr.read_some hb, Option.bind_some, Option.bind_some, Arr.read_some hv, Arr.read_some hvv] at h
        simp only [Option.bind_some, Arr.write_some hv] at h
        by_cases hc : b.get (row >>> 5) &&& bitMask (row &&& 0x1F) = 0#32
        · simp only [hc, ne_eq, not_true, decide_false, Bool.false_eq_true, if_false] at h
          cases hs : setBitvector row b with
          | none => rw [hs] at h; cases h
          | some b' =>
            rw [hs] at h
            injection h with h
            subst h
            have := setBitvector_eq_some hs
            rw [if_pos hc] at this
            subst this
            rw [yMem_word, yMem_val]
            have e : yMem (v, b) (.word (row >>> 5)) = b.get (row >>> 5) := rfl
            have e' : yMem (v, b) (.val row) = v.get row := rfl
            simp [runActs, mulAdd3Acts, Act.exec, YReg.hit, e, e', hc]
        · simp only [hc, ne_eq, not_false_eq_true, decide_true, if_true] at h
          injection h with h
          subst h
          rw [yMem_val]
          have e : yMem (v, b) (.word (row >>> 5)) = b.get (row >>> 5) := rfl
          have e' : yMem (v, b) (.val row) = v.get row := rfl
          simp [runActs, mulAdd3Acts, Act.exec, YReg.hit, e, e', hc]
      · rw [Arr.read_some hb, Option.bind_some, Option.bind_some] at h
        unfold Arr.read at h
        simp [hvv] at h
    · rw [Arr.read_some hb, Option.bind_some, Option.bind_some] at h
      cases hr : vv.read row with
      | none => rw [hr] at h; cases h
      | some q =>
        unfold Arr.read at h
        simp [hv] at h
  · unfold Arr.read at h
    simp [hb] at h

/-- If every access of task `i` is to a location that only task `i` may own, there is no race. -/
theorem raceFree_of_own {Loc : Type} {W : Loc → Type} {L : Type} {tasks : Nat → List (Act Loc W L)}
    (own : Loc → Nat → Prop) (h1 : ∀ i, ∀ a ∈ tasks i, own a.loc i) (h2 : ∀ l i j, own l i → own l j → i = j) :
    RaceFree tasks := by
  intro i j hij a ha b hb hc
  exact hij (h2 a.loc i j (h1 i a ha) (by rw [hc.1]; exact h1 j b hb))

theorem Tile.Rep.visits_rows {t : Tile E} {P : Nat → List (Col E)} (h : t.Rep P) {xs : Arr T × Arr Word}
    (hx : POk t.n xs) {p : Nat} (hp : p < t.np) {l : List (Nat × Nat × E × T)} (hl : t.visits xs.1 xs.2 p = some l) :
    ∀ v ∈ l, t.rp.get p ≤ v.2.1 ∧ v.2.1 < t.rp.get (p + 1) := by
  have e1 := t.walkPart_visits xs.1 xs.2 (fun _ _ row _ _ (acc : List Nat) => some (acc ++ [row])) p []
  rw [hl, Option.bind_some, foldlM_snoc,
    h.walkPart hx (F := fun row _ _ (acc : List Nat) => some (acc ++ [row])) (fun _ _ _ _ _ _ => rfl) hp] at e1
  have key : ∀ (fl : List (Nat × Nat × E)) (acc out : List Nat),
      fl.foldlM (fun (st : List Nat) x => match pview t.n xs x.2.1 with
        | some _ => some (st ++ [x.1])
        | none => some st) acc = some out → ∀ r ∈ out, r ∈ acc ∨ ∃ x ∈ fl, x.1 = r := by
    intro fl
    induction fl with
    | nil =>
      intro acc out ho r hr
      injection ho with ho
      subst ho
      exact Or.inl hr
    | cons x fl ih =>
      intro acc out ho r hr
      rw [List.foldlM_cons] at ho
      cases hx : pview t.n xs x.2.1 with
      | none =>
        rw [hx] at ho
        rcases ih acc out ho r hr with h | ⟨y, hy, e⟩
        · exact Or.inl h
        · exact Or.inr ⟨y, List.mem_cons_of_mem _ hy, e⟩
      | some m =>
        rw [hx] at ho
        rcases ih (acc ++ [x.1]) out ho r hr with h | ⟨y, hy, e⟩
        · rcases List.mem_append.mp h with h | h
          · exact Or.inl h
          · rw [List.mem_singleton] at h
            exact Or.inr ⟨x, List.mem_cons_self, h.symm⟩
        · exact Or.inr ⟨y, List.mem_cons_of_mem _ hy, e⟩
  intro v hv
  rcases key _ _ _ e1 v.2.1 (by rw [List.nil_append]; exact List.mem_map.mpr ⟨v, hv, rfl⟩) with h' | ⟨x, hx, e⟩
  · cases h'
  · obtain ⟨c, hc, e', he', rfl⟩ := mem_flat.mp hx
    rw [← e]
    exact h.rows p hp c hc e' he'

theorem Tile.Rep.rp_le {t : Tile E} {P : Nat → List (Col E)} (h : t.Rep P) {p q : Nat} (hpq : p ≤ q) (hq : q ≤ t.np) :
    t.rp.get p ≤ t.rp.get q := by
  obtain ⟨k, rfl⟩ : ∃ k, q = p + k := ⟨q - p, by omega⟩
  clear hpq
  induction k with
  | zero => exact Nat.le_refl _
  | succ k ih => exact Nat.le_trans (ih (by omega)) (h.mono _ (by omega))

/-- The locations that belong to partition `p` of a tile. -/
def partOwns (t : Tile E) (l : YLoc) (p : Nat) : Prop :=
  p < t.np ∧ ∃ row, t.rp.get p ≤ row ∧ row < t.rp.get (p + 1) ∧ (l = .val row ∨ l = .word (row >>> 5))

theorem Tile.Rep.partOwns_unique {t : Tile E} {P : Nat → List (Col E)} (h : t.Rep P) (l : YLoc) (p q : Nat)
    (h1 : partOwns t l p) (h2 : partOwns t l q) : p = q := by
  have main : ∀ p q, p < q → partOwns t l p → partOwns t l q → False := by
    intro p q hpq ⟨hp, r1, a1, a2, a3⟩ ⟨hq, r2, b1, b2, b3⟩
    have hle := h.rp_le (show p + 1 ≤ q by omega) (by omega)
    have hm := h.rp_le (show q + 1 ≤ t.np by omega) (Nat.le_refl _)
    rw [h.final (by omega)] at hm
    have hw : r1 / 32 ≠ r2 / 32 := by
      rcases h.align q (by omega) (by omega) with hd | hd
      · omega
      · omega
    rcases a3 with a3 | a3 <;> rcases b3 with b3 | b3 <;> rw [a3] at b3
    · injection b3 with b3
      omega
    · cases b3
    · cases b3
    · injection b3 with b3
      rw [shr5, shr5] at b3
      exact hw b3
  rcases Nat.lt_trichotomy p q with hlt | heq | hgt
  · exact (main p q hlt h1 h2).elim
  · exact heq
  · exact (main q p hgt h2 h1).elim

theorem mulAddActs_loc {add : U → U → U} {temp : U} {row : Nat} {a : Act YLoc (YLoc.W U) (YReg U)}
    (h : a ∈ mulAddActs add temp row) : a.loc = .val row ∨ a.loc = .word (row >>> 5) := by
  simp only [mulAddActs, List.mem_cons, List.not_mem_nil, or_false] at h
  rcases h with rfl | rfl | rfl | rfl | rfl <;> simp [Act.loc]

theorem mulAdd3Acts_loc {mul : U → U} {add : U → U → U} {old : U} {row : Nat} {a : Act YLoc (YLoc.W U) (YReg U)}
    (h : a ∈ mulAdd3Acts mul add old row) : a.loc = .val row ∨ a.loc = .word (row >>> 5) := by
  simp only [mulAdd3Acts, List.mem_cons, List.not_mem_nil, or_false] at h
  rcases h with rfl | rfl | rfl | rfl | rfl <;> simp [Act.loc]

theorem Tile.Rep.raceFree {t : Tile E} {P : Nat → List (Col E)} (h : t.Rep P) {xs : Arr T × Arr Word}
    (hx : POk t.n xs) {tasks : Nat → List (Act YLoc (YLoc.W U) (YReg U))}
    {acts : Nat → Nat × Nat × E × T → List (Act YLoc (YLoc.W U) (YReg U))}
    (htasks : ∀ p, tasks p = if p < t.np then ((t.visits xs.1 xs.2 p).getD []).flatMap (acts p) else [])
    (hacts : ∀ p v, ∀ a ∈ acts p v, a.loc = .val v.2.1 ∨ a.loc = .word (v.2.1 >>> 5)) : RaceFree tasks := by
  refine raceFree_of_own (partOwns t) ?_ h.partOwns_unique
  intro p a ha
  rw [htasks] at ha
  by_cases hp : p < t.np
  · rw [if_pos hp, List.mem_flatMap] at ha
    obtain ⟨v, hv, ha⟩ := ha
    cases hl : t.visits xs.1 xs.2 p with
    | none => rw [hl] at hv; cases hv
    | some l =>
      rw [hl] at hv
      obtain ⟨r1, r2⟩ := h.visits_rows hx hp hl v hv
      exact ⟨hp, v.2.1, r1, r2, hacts p v a ha⟩
  · rw [if_neg hp] at ha; cases ha

/-- The sequential product as a fold over the visits of each partition. -/
theorem Tile.walk_visits {t : Tile E} {xv : Arr T} {xb : Arr Word} {f : Nat → Nat → Nat → E → T → σ → Option σ}
    {st st' : σ} (h : t.walk xv xb f st = some st') :
    (List.range t.np).foldlM (fun st p => ((t.visits xv xb p).getD []).foldlM
      (fun st v => f p v.1 v.2.1 v.2.2.1 v.2.2.2 st) st) st = some st' := by
  unfold Tile.walk at h
  rw [forLoop_range] at h
  generalize List.range t.np = l at h ⊢
  induction l generalizing st with
  | nil => exact h
  | cons p l ih =>
    rw [List.foldlM_cons, t.walkPart_visits] at h
    rw [List.foldlM_cons]
    cases hv : t.visits xv xb p with
    | none => rw [hv] at h; cases h
    | some vs =>
      rw [hv, Option.bind_some] at h
      rw [Option.getD_some]
      cases hf : vs.foldlM (fun st v => f p v.1 v.2.1 v.2.2.1 v.2.2.2 st) st with
      | none => rw [hf] at h; cases h
      | some st1 =>
        rw [hf] at h
        exact ih h

/-! ### Loops over the words of a bit vector -/

theorem scanBits_words {bv : Arr Word} {ni : Nat} (hsz : ni ≤ bv.size) (s : σ) (body : Nat → σ → Option σ) :
    scanBits bv ni s body =
      (List.range ni).foldlM (fun s i => (wordBits (bv.get i) i).foldlM (fun s idx => body idx s) s) s := by
  unfold scanBits
  rw [forLoop_range]
  apply foldlM_ext
  intro i hi s
  rw [List.mem_range] at hi
  rw [Arr.read_some (by omega)]
  simp only [Option.bind_eq_bind, Option.bind_some]
  rw [scanWord_eq _ _ _ (by
    have := List.length_filter_le (fun j => (bv.get i).getLsbD j) (List.range 32)
    rw [List.length_range] at this
    omega)]
  unfold wordBits
  rw [foldlM_map]

theorem forBits_words {bv : Arr Word} {ni : Nat} (hsz : ni ≤ bv.size) (s : σ) (body : Nat → σ → Option σ) :
    forBits bv 0 ni s body =
      (List.range ni).foldlM (fun s i => (wordBits (bv.get i) i).foldlM (fun s idx => body idx s) s) s := by
  rw [← scanBits_words hsz, forBits_eq (Nat.zero_le _) hsz, scanBits_eq hsz]

theorem mem_wordBits {w : Word} {i idx : Nat} (h : idx ∈ wordBits w i) : idx / 32 = i := by
  unfold wordBits at h
  rw [List.mem_map] at h
  obtain ⟨j, hj, rfl⟩ := h
  rw [List.mem_filter, List.mem_range] at hj
  omega

theorem aMem_prop (v : Arr V) (f : Arr Bool) (b : Arr Word) (c c' : Bool) (i : Nat) (x : V) :
    aMem (v.upd i x, f, b, c) = Function.update (aMem (v, f, b, c')) (.prop i) x := by
  funext l
  cases l with
  | prop j =>
    by_cases h : j = i
    · subst h; simp [aMem]
    · rw [Function.update_of_ne (by simpa using h)]
      simp [aMem, Arr.upd, h]
  | flag j => rw [Function.update_of_ne (by simp)]; rfl
  | word j => rw [Function.update_of_ne (by simp)]; rfl

theorem aMem_flag (v : Arr V) (f : Arr Bool) (b : Arr Word) (c c' : Bool) (i : Nat) (x : Bool) :
    aMem (v, f.upd i x, b, c) = Function.update (aMem (v, f, b, c')) (.flag i) x := by
  funext l
  cases l with
  | flag j =>
    by_cases h : j = i
    · subst h; simp [aMem]
    · rw [Function.update_of_ne (by simpa using h)]
      simp [aMem, Arr.upd, h]
  | prop j => rw [Function.update_of_ne (by simp)]; rfl
  | word j => rw [Function.update_of_ne (by simp)]; rfl

theorem aMem_word (v : Arr V) (f : Arr Bool) (b : Arr Word) (c c' : Bool) (i : Nat) (x : Word) :
    aMem (v, f, b.upd i x, c) = Function.update (aMem (v, f, b, c')) (.word i) x := by
  funext l
  cases l with
  | word j =>
    by_cases h : j = i
    · subst h; simp [aMem]
    · rw [Function.update_of_ne (by simpa using h)]
      simp [aMem, Arr.upd, h]
  | prop j => rw [Function.update_of_ne (by simp)]; rfl
  | flag j => rw [Function.update_of_ne (by simp)]; rfl

theorem applyOne_sim {gp : GProg T U V E} {yv : Arr U} {idx : Nat} {st st' : Arr V × Arr Bool × Arr Word × Bool}
    (s : AReg V) (h : applyOne gp yv idx st = some st') :
    (runActs (applyActs gp (yv.get idx) idx) (aMem st, s)).1 = aMem st' ∧
      ∃ b, st'.2.2.2 = (st.2.2.2 && b) ∧
        (runActs (applyActs gp (yv.get idx) idx) (aMem st, s)).2.conv = (s.conv && b) := by
  obtain ⟨v, f, w, c⟩ := st
  unfold applyOne at h
  simp only [Option.bind_eq_bind] at h
  by_cases hv : idx < v.size
  · by_cases hy : idx < yv.size
    · rw [Arr.read_some hv, Option.bind_some, Arr.read_some hy, Option.bind_some, Arr.write_some hv, Option.bind_some] at h
      have e : aMem (v, f, w, c) (.prop idx) = v.get idx := rfl
      have e2 : aMem (v, f, w, c) (.word (idx >>> 5)) = w.get (idx >>> 5) := rfl
      by_cases hne : gp.ne (v.get idx) (gp.apply (yv.get idx) (v.get idx)) = true
      · rw [if_pos hne] at h
        cases hf : f.write idx true with
        | none => rw [hf] at h; cases h
        | some f' =>
          rw [hf, Option.bind_some] at h
          rw [Arr.write_eq_some] at hf
          obtain ⟨_, rfl⟩ := hf
          cases hb : setBitvector idx w with
          | none => rw [hb] at h; cases h
          | some w' =>
            rw [hb, Option.bind_some] at h
            injection h with h
            subst h
            have hw := setBitvector_eq_some hb
            constructor
            · by_cases hc : w.get (idx >>> 5) &&& bitMask (idx &&& 0x1F) = 0#32
              · rw [if_pos hc] at hw
                subst hw
                rw [aMem_word _ _ _ _ c, aMem_flag _ _ _ _ c, aMem_prop _ _ _ _ c]
                simp [runActs, applyActs, Act.exec, e, e2, hne, hc]
              · rw [if_neg hc] at hw
                subst hw
                rw [aMem_flag _ _ _ _ c, aMem_prop _ _ _ _ c]
                simp [runActs, applyActs, Act.exec, e, e2, hne, hc]
            · refine ⟨false, by simp, ?_⟩
              simp [runActs, applyActs, Act.exec, e, hne]
      · rw [if_neg hne] at h
        injection h with h
        subst h
        constructor
        · rw [aMem_prop _ _ _ _ c]
          simp [runActs, applyActs, Act.exec, e, hne]
        · refine ⟨true, by simp, ?_⟩
          simp [runActs, applyActs, Act.exec, e, hne]
    · rw [Arr.read_some hv, Option.bind_some] at h
      unfold Arr.read at h
      simp [hy] at h
  · unfold Arr.read at h
    simp [hv] at h

theorem applyActs_loc {gp : GProg T U V E} {u : U} {idx : Nat} {a : Act ALoc (ALoc.W V) (AReg V)}
    (h : a ∈ applyActs gp u idx) : a.loc = .prop idx ∨ a.loc = .flag idx ∨ a.loc = .word (idx >>> 5) := by
  simp only [applyActs, List.mem_cons, List.not_mem_nil, or_false] at h
  rcases h with rfl | rfl | rfl | rfl | rfl | rfl <;> simp [Act.loc]

theorem applyTasks_raceFree (gp : GProg T U V E) (yv : Arr U) (yb : Arr Word) (ni : Nat) :
    RaceFree (applyTasks gp yv yb ni) := by
  refine raceFree_of_own (fun l i => match l with
    | .prop k => k / 32 = i
    | .flag k => k / 32 = i
    | .word k => k = i) ?_ ?_
  · intro i a ha
    unfold applyTasks at ha
    split at ha
    · rw [List.mem_flatMap] at ha
      obtain ⟨idx, h1, h2⟩ := ha
      have := mem_wordBits h1
      rcases applyActs_loc h2 with e | e | e <;> rw [e]
      · exact this
      · exact this
      · rw [shr5]; exact this
    · cases ha
  · intro l i j h1 h2
    cases l <;> exact h1.symm.trans h2

theorem combineTasks_raceFree (f : Word → Word → Word) (bv1 bv2 : Arr Word) (ni : Nat) :
    RaceFree (combineTasks (U := U) f bv1 bv2 ni) := by
  refine raceFree_of_own (fun l i => l = .word i) ?_ ?_
  · intro i a ha
    unfold combineTasks at ha
    split at ha
    · rw [List.mem_singleton] at ha
      subst ha; rfl
    · cases ha
  · intro l i j h1 h2
    rw [h1] at h2; injection h2

theorem intersectTasks_raceFree (op : Nat → U → U) (bv3 : Arr Word) (ni : Nat) :
    RaceFree (intersectTasks op bv3 ni) := by
  refine raceFree_of_own (fun l i => match l with
    | .val k => k / 32 = i
    | .word k => k = i) ?_ ?_
  · intro i a ha
    unfold intersectTasks at ha
    split at ha
    · rw [List.mem_flatMap] at ha
      obtain ⟨idx, h1, h2⟩ := ha
      have := mem_wordBits h1
      simp only [List.mem_cons, List.not_mem_nil, or_false] at h2
      rcases h2 with rfl | rfl <;> exact this
    · cases ha
  · intro l i j h1 h2
    cases l <;> exact h1.symm.trans h2

/-! ### `set` -/

theorem bufMem_ext {b b' : Buffer V} (h1 : b.value.get = b'.value.get) (h2 : b.bits.get = b'.bits.get) (h3 : b.nnz = b'.nnz)
    (h4 : b.uninit = b'.uninit) : bufMem b = bufMem b' := by
  funext l
  cases l with
  | val i => exact congrFun h1 i
  | word i => exact congrFun h2 i
  | nnz => exact h3
  | uninit => exact h4

/-- `set` on an initialised segment is the task `setActs` run alone. -/
theorem Segment.set_sim {g : Fresh V} {i : Nat} {v : V} {s : Segment V} {b : Buffer V} (hb : s.props = some b)
    (hu : b.uninit = false) {s' : Segment V} (h : s.set g ((i : Int) + 1) v = some s') (r : SReg) :
    ∃ b', s'.props = some b' ∧ (runActs (setActs v i) (bufMem b, r)).1 = bufMem b' := by
  unfold Segment.set at h
  have ea : s.alloc g = s := by unfold Segment.alloc; rw [hb]
  have ei : s.initialize = some s := by
    unfold Segment.initialize
    rw [hb]
    obtain ⟨c, n, p, rc, pl⟩ := s
    simp only at hb
    subst hb
    cases b
    simp only at hu
    subst hu
    rfl
  rw [ea, ei] at h
  simp only [Option.bind_eq_bind, Option.bind_some] at h
  rw [hb, Option.bind_some] at h
  have en : natIdx ((i : Int) + 1 - 1) = some i := by
    unfold natIdx
    rw [if_pos (by omega)]
    congr 1
    omega
  rw [en, Option.bind_some] at h
  unfold getBitvector at h
  simp only [Option.bind_eq_bind] at h
  by_cases hw : i >>> 5 < b.bits.size
  · rw [Arr.read_some hw, Option.bind_some, Option.bind_some] at h
    cases hv : b.value.write i v with
    | none => rw [hv] at h; cases h
    | some vv =>
      rw [hv, Option.bind_some] at h
      rw [Arr.write_eq_some] at hv
      obtain ⟨_, rfl⟩ := hv
      cases hs : setBitvector i b.bits with
      | none => rw [hs] at h; cases h
      | some bb =>
        rw [hs, Option.bind_some] at h
        injection h with h
        subst h
        refine ⟨_, rfl, ?_⟩
        have hbb := setBitvector_eq_some hs
        have e1 : bufMem b (.word (i >>> 5)) = b.bits.get (i >>> 5) := rfl
        have e2 : bufMem b .nnz = b.nnz := rfl
        funext l
        by_cases hc : b.bits.get (i >>> 5) &&& bitMask (i &&& 0x1F) = 0#32
        · rw [if_pos hc] at hbb
          subst hbb
          cases l with
          | val j =>
            by_cases hj : j = i
            · subst hj; simp [runActs, setActs, Act.exec, bufMem, hc]
            · simp [runActs, setActs, Act.exec, bufMem, hc, hj, Arr.upd]
          | word j =>
            by_cases hj : j = i >>> 5
            · subst hj; simp [runActs, setActs, Act.exec, bufMem, hc]
            · simp [runActs, setActs, Act.exec, bufMem, hc, hj, Arr.upd]
          | nnz => simp [runActs, setActs, Act.exec, bufMem, hc]
          | uninit => simp [runActs, setActs, Act.exec, bufMem, hc]
        · rw [if_neg hc] at hbb
          subst hbb
          cases l with
          | val j =>
            by_cases hj : j = i
            · subst hj; simp [runActs, setActs, Act.exec, bufMem, hc]
            · simp [runActs, setActs, Act.exec, bufMem, hc, hj, Arr.upd]
          | word j => simp [runActs, setActs, Act.exec, bufMem, hc]
          | nnz => simp [runActs, setActs, Act.exec, bufMem, hc]
          | uninit => simp [runActs, setActs, Act.exec, bufMem, hc]
  · unfold Arr.read at h
    simp [hw] at h

end GraphMat

import Verif.Lemmas.TileMemFmt

namespace GraphMat

/-! ### Matrices -/

theorem runs_mapM {α β : Type} {f : α → HeapM β} {blk : β → List (Nat × Alloc)} {G : β → Prop} {P : α → Prop}
    (hf : ∀ a L, P a → Runs (f a) L (fun b X => G b ∧ X.Perm (blk b ++ L))) :
    ∀ (as : List α) (_ : ∀ a ∈ as, P a) (L : List (Nat × Alloc)),
      Runs (as.mapM f) L (fun bs X => (∀ b ∈ bs, G b) ∧ X.Perm (bs.flatMap blk ++ L)) := by
  intro as
  induction as with
  | nil =>
    intro _ L
    rw [List.mapM_nil]
    exact Runs.pure ⟨by simp, List.Perm.refl _⟩
  | cons a as ih =>
    intro hP L
    rw [List.mapM_cons]
    refine (hf a L (hP a List.mem_cons_self)).bind ?_
    rintro b X ⟨hb, hX⟩
    refine (ih (fun c hc => hP c (List.mem_cons_of_mem _ hc)) X).bind ?_
    rintro bs Y ⟨hbs, hY⟩
    refine Runs.pure ⟨?_, ?_⟩
    · intro c hc
      rcases List.mem_cons.1 hc with rfl | hc
      · exact hb
      · exact hbs c hc
    · rw [List.flatMap_cons]
      refine hY.trans ((hX.append_left _).trans ?_)
      perm_parts

theorem runs_mapM_each {α β : Type} {f : α → HeapM β} {L : List (Nat × Alloc)} :
    ∀ (as : List α) (_ : ∀ a ∈ as, Runs (f a) L (fun _ X => X.Perm L)), Runs (as.mapM f) L (fun _ X => X.Perm L) := by
  intro as
  induction as with
  | nil =>
    intro _
    rw [List.mapM_nil]
    exact Runs.pure (List.Perm.refl _)
  | cons a as ih =>
    intro hf
    rw [List.mapM_cons]
    refine (hf a List.mem_cons_self).bind ?_
    intro b X hX
    refine ((ih (fun c hc => hf c (List.mem_cons_of_mem _ hc))).perm hX).bind ?_
    intro bs Y hY
    exact Runs.pure hY

theorem runs_mapM_free {α β : Type} {f : α → HeapM β} {blk : α → List (Nat × Alloc)} {G : α → Prop}
    (hf : ∀ a L, G a → Runs (f a) (blk a ++ L) (fun _ X => X.Perm L)) :
    ∀ (as : List α) (_ : ∀ a ∈ as, G a) (L : List (Nat × Alloc)),
      Runs (as.mapM f) (as.flatMap blk ++ L) (fun _ X => X.Perm L) := by
  intro as
  induction as with
  | nil =>
    intro _ L
    rw [List.mapM_nil]
    exact Runs.pure (List.Perm.refl _)
  | cons a as ih =>
    intro hg L
    rw [List.mapM_cons, List.flatMap_cons, List.append_assoc]
    refine (hf a _ (hg a List.mem_cons_self)).bind ?_
    intro b X hX
    refine ((ih (fun c hc => hg c (List.mem_cons_of_mem _ hc)) L).perm hX).bind ?_
    intro bs Y hY
    exact Runs.pure hY

variable {T : Type} {C : TileClass T} {blocks : T → List (Nat × Alloc)} {Good : T → Prop} {ok : Nat → Prop}

/-- the blocks of one place of a matrix -/
def placeBlocks (blocks : T → List (Nat × Alloc)) : Option (Ptr × T × Nat) → List (Nat × Alloc)
  | none => []
  | some t => own .newObj t.1 ++ blocks t.2.1

/-- the invariant of one place -/
def PlaceGood (Good : T → Prop) : Option (Ptr × T × Nat) → Prop
  | none => True
  | some t => IsBlock t.1 ∧ Good t.2.1

/-- the blocks of a matrix -/
def matBlocks (blocks : T → List (Nat × Alloc)) (m : Ptr × MatMem T) : List (Nat × Alloc) :=
  own .newObj m.1 ++ m.2.flatMap (placeBlocks blocks)

/-- the invariant of a matrix -/
def MatGood (Good : T → Prop) (m : Ptr × MatMem T) : Prop := IsBlock m.1 ∧ ∀ t ∈ m.2, PlaceGood Good t

theorem newTile_runs (hC : TileContract C blocks Good ok) (c : Option Nat) (L : List (Nat × Alloc)) :
    Runs (newTile C c) L (fun t X => PlaceGood Good t ∧ X.Perm (placeBlocks blocks t ++ L)) := by
  match c with
  | none => exact Runs.pure ⟨trivial, List.Perm.refl _⟩
  | some 0 =>
    refine (runs_allocate _ _).bind ?_
    rintro p _ ⟨hp, rfl⟩
    refine Runs.pure ⟨⟨hp, hC.empty.1⟩, ?_⟩
    show (own .newObj p ++ L).Perm ((own .newObj p ++ blocks C.empty) ++ L)
    rw [hC.empty.2, List.append_nil]
  | some (k + 1) =>
    refine (runs_allocate _ _).bind ?_
    rintro p _ ⟨hp, rfl⟩
    refine (hC.make (k + 1) _ (Nat.succ_pos k)).bind ?_
    rintro t X ⟨ht, hX⟩
    refine Runs.pure ⟨⟨hp, ht⟩, hX.trans ?_⟩
    show (blocks t ++ (own .newObj p ++ L)).Perm ((own .newObj p ++ blocks t) ++ L)
    perm_parts

theorem exchangeMem_runs (nrank : Nat) (L : List (Nat × Alloc)) :
    Runs (exchangeMem nrank) L (fun p X => IsBlock p ∧ X = own .newArr p ++ L) := by
  unfold exchangeMem
  split
  · exact runs_allocate _ _
  · refine (runs_allocate _ _).bind ?_
    rintro tedges _ ⟨hte, rfl⟩
    refine (runs_allocate _ _).bind ?_
    rintro asg _ ⟨has, rfl⟩
    refine (runs_release (L' := own .newArr asg ++ L) hte (by perm_parts)).bind ?_
    rintro _ _ rfl
    refine (runs_allocate _ _).bind ?_
    rintro pos _ ⟨hpos, rfl⟩
    refine (runs_allocate _ _).bind ?_
    rintro cnt _ ⟨hcnt, rfl⟩
    refine (runs_allocate _ _).bind ?_
    rintro rpos _ ⟨hrpos, rfl⟩
    refine (runs_allocate _ _).bind ?_
    rintro rcnt _ ⟨hrcnt, rfl⟩
    refine (runs_release (L' := own .newArr rcnt ++ (own .newArr rpos ++ (own .newArr cnt ++ (own .newArr pos ++ L)))) has
      (by perm_parts)).bind ?_
    rintro _ _ rfl
    refine (runs_allocate _ _).bind ?_
    rintro req _ ⟨hreq, rfl⟩
    refine (runs_allocate _ _).bind ?_
    rintro sta _ ⟨hsta, rfl⟩
    refine (runs_allocate _ _).bind ?_
    rintro rec _ ⟨hrec, rfl⟩
    refine (runs_release (L' := own .newArr rec ++ (own .newArr req ++ (own .newArr rcnt ++ (own .newArr rpos ++
      (own .newArr cnt ++ (own .newArr pos ++ L)))))) hsta (by perm_parts)).bind ?_
    rintro _ _ rfl
    refine (runs_release (L' := own .newArr rec ++ (own .newArr rcnt ++ (own .newArr rpos ++
      (own .newArr cnt ++ (own .newArr pos ++ L))))) hreq (by perm_parts)).bind ?_
    rintro _ _ rfl
    refine (runs_release (L' := own .newArr rec ++ (own .newArr rcnt ++ (own .newArr rpos ++
      (own .newArr cnt ++ L)))) hpos (by perm_parts)).bind ?_
    rintro _ _ rfl
    refine (runs_release (L' := own .newArr rec ++ (own .newArr rcnt ++ (own .newArr rpos ++ L))) hcnt (by perm_parts)).bind ?_
    rintro _ _ rfl
    refine (runs_release (L' := own .newArr rec ++ (own .newArr rcnt ++ L)) hrpos (by perm_parts)).bind ?_
    rintro _ _ rfl
    refine (runs_release (L' := own .newArr rec ++ L) hrcnt (by perm_parts)).bind ?_
    rintro _ _ rfl
    exact Runs.pure ⟨hrec, rfl⟩

theorem makeMat_runs (hC : TileContract C blocks Good ok) (nrank : Nat) (cs : List (Option Nat)) (L : List (Nat × Alloc)) :
    Runs (makeMat C nrank cs) L (fun m X => MatGood Good m ∧ X.Perm (matBlocks blocks m ++ L)) := by
  unfold makeMat
  refine (runs_allocate _ _).bind ?_
  rintro p _ ⟨hp, rfl⟩
  refine (exchangeMem_runs _ _).bind ?_
  rintro rec _ ⟨hrec, rfl⟩
  refine (runs_allocate _ _).bind ?_
  rintro te _ ⟨hte, rfl⟩
  refine (runs_allocate _ _).bind ?_
  rintro asg _ ⟨hasg, rfl⟩
  refine (runs_release (L' := own .newArr asg ++ (own .newArr rec ++ (own .newObj p ++ L))) hte (by perm_parts)).bind ?_
  rintro _ _ rfl
  refine (runs_touch_mem (k := .newArr) hrec (fun x hx => by simp only [List.mem_append]; tauto)).bind ?_
  rintro _ _ rfl
  refine (runs_mapM (P := fun _ => True) (fun c L _ => newTile_runs hC c L) cs (fun _ _ => trivial) _).bind ?_
  rintro ts X ⟨hts, hX⟩
  refine (runs_release (L' := own .newArr rec ++ (own .newObj p ++ (ts.flatMap (placeBlocks blocks) ++ L))) hasg
    (hX.trans (by perm_parts))).bind ?_
  rintro _ _ rfl
  refine (runs_release (L' := own .newObj p ++ (ts.flatMap (placeBlocks blocks) ++ L)) hrec (by perm_parts)).bind ?_
  rintro _ _ rfl
  refine Runs.pure ⟨⟨hp, hts⟩, ?_⟩
  unfold matBlocks
  perm_parts

theorem loadTile_runs (hC : TileContract C blocks Good ok) (c : Option Nat) (L : List (Nat × Alloc))
    (hc : ∀ k, c = some k → ok k) :
    Runs (loadTile C c) L (fun t X => PlaceGood Good t ∧ X.Perm (placeBlocks blocks t ++ L)) := by
  match c with
  | none => exact Runs.pure ⟨trivial, List.Perm.refl _⟩
  | some k =>
    refine (runs_allocate _ _).bind ?_
    rintro p _ ⟨hp, rfl⟩
    refine (hC.load k _ (hc k rfl)).bind ?_
    rintro t X ⟨ht, hX⟩
    refine Runs.pure ⟨⟨hp, ht⟩, hX.trans ?_⟩
    show (blocks t ++ (own .newObj p ++ L)).Perm ((own .newObj p ++ blocks t) ++ L)
    perm_parts

theorem loadMat_runs (hC : TileContract C blocks Good ok) (cs : List (Option Nat)) (hcs : ∀ k, some k ∈ cs → ok k)
    (L : List (Nat × Alloc)) :
    Runs (loadMat C cs) L (fun m X => MatGood Good m ∧ X.Perm (matBlocks blocks m ++ L)) := by
  unfold loadMat
  refine (runs_allocate _ _).bind ?_
  rintro p _ ⟨hp, rfl⟩
  refine (runs_mapM (P := fun c => ∀ k, c = some k → ok k) (fun c L hc => loadTile_runs hC c L hc) cs
    (fun c hc k e => hcs k (e ▸ hc)) _).bind ?_
  rintro ts X ⟨hts, hX⟩
  refine Runs.pure ⟨⟨hp, hts⟩, hX.trans ?_⟩
  unfold matBlocks
  perm_parts

/-- the archives that a step loads are allowed -/
def MatOp.Allowed (ok : Nat → Prop) : MatOp → Prop
  | .restore cs => ∀ k, some k ∈ cs → ok k
  | _ => True

theorem deleteTile_runs (hC : TileContract C blocks Good ok) (t : Option (Ptr × T × Nat)) (L : List (Nat × Alloc))
    (ht : PlaceGood Good t) : Runs (deleteTile C t) (placeBlocks blocks t ++ L) (fun _ X => X.Perm L) := by
  match t with
  | none =>
    intro h hh
    exact ⟨(), h, L, rfl, hh, List.Perm.refl _⟩
  | some t =>
    show Runs (deleteTile C (some t)) ((own .newObj t.1 ++ blocks t.2.1) ++ L) (fun _ X => X.Perm L)
    unfold deleteTile
    refine (runs_touch_mem (k := .newObj) ht.1 (fun x hx => by simp only [List.mem_append]; tauto)).bind ?_
    rintro _ _ rfl
    refine ((hC.destroy t.2.1 (own .newObj t.1 ++ L) ht.2).perm (by perm_parts)).bind ?_
    intro _ X hX
    exact (runs_release (L' := L) ht.1 hX).mono (by rintro _ _ rfl; exact List.Perm.refl _)

theorem deleteMat_runs (hC : TileContract C blocks Good ok) (m : Ptr × MatMem T) (L : List (Nat × Alloc))
    (hm : MatGood Good m) : Runs (deleteMat C m) (matBlocks blocks m ++ L) (fun _ X => X.Perm L) := by
  unfold deleteMat matBlocks
  refine (runs_touch_mem (k := .newObj) hm.1 (fun x hx => by simp only [List.mem_append]; tauto)).bind ?_
  rintro _ _ rfl
  refine ((runs_mapM_free (fun t L ht => deleteTile_runs hC t L ht) m.2 hm.2 (own .newObj m.1 ++ L)).perm (by perm_parts)).bind ?_
  intro _ X hX
  exact (runs_release (L' := L) hm.1 hX).mono (by rintro _ _ rfl; exact List.Perm.refl _)

theorem flatMap_split {α : Type} (f : α → List (Nat × Alloc)) (l : List α) (a : α) (h : a ∈ l) :
    ∃ R, (l.flatMap f).Perm (f a ++ R) := by
  obtain ⟨i, hi⟩ := List.mem_iff_getElem?.1 h
  exact ⟨_, flatMap_at f l i a hi⟩

theorem useTile_runs (hC : TileContract C blocks Good ok) (t : Option (Ptr × T × Nat)) (L R : List (Nat × Alloc))
    (ht : PlaceGood Good t) (hL : L.Perm (placeBlocks blocks t ++ R)) : Runs (useTile C t) L (fun _ X => X.Perm L) := by
  match t with
  | none => exact Runs.pure (List.Perm.refl _)
  | some t =>
    refine Runs.perm ?_ hL
    show Runs (useTile C (some t)) ((own .newObj t.1 ++ blocks t.2.1) ++ R) (fun _ X => X.Perm L)
    unfold useTile
    refine (runs_touch_mem (k := .newObj) ht.1 (fun x hx => by simp only [List.mem_append]; tauto)).bind ?_
    rintro _ _ rfl
    refine ((hC.use t.2.1 (own .newObj t.1 ++ R) ht.2).perm (by perm_parts)).mono ?_
    rintro _ _ rfl
    refine List.Perm.trans ?_ hL.symm
    show (blocks t.2.1 ++ (own .newObj t.1 ++ R)).Perm ((own .newObj t.1 ++ blocks t.2.1) ++ R)
    perm_parts

theorem matEdges_runs (hC : TileContract C blocks Good ok) (m : Ptr × MatMem T) (L : List (Nat × Alloc))
    (hm : MatGood Good m) :
    Runs (matEdges C m) (matBlocks blocks m ++ L)
      (fun el X => (0 < el.1 → IsBlock el.2) ∧
        X.Perm ((if 0 < el.1 then own .mm el.2 else []) ++ (matBlocks blocks m ++ L))) := by
  unfold matEdges
  refine (runs_touch_mem (k := .newObj) hm.1 (fun x hx => by unfold matBlocks; simp only [List.mem_append]; tauto)).bind ?_
  rintro _ _ rfl
  dsimp only
  split
  · rename_i hk
    refine (runs_allocate _ _).bind ?_
    rintro e _ ⟨he, rfl⟩
    refine Runs.bind (Q := fun _ X => X.Perm (own .mm e ++ (matBlocks blocks m ++ L))) ?_ ?_
    · refine runs_mapM_each m.2 (fun t ht => ?_)
      obtain ⟨R, hR⟩ := flatMap_split (placeBlocks blocks) m.2 t ht
      refine useTile_runs hC t _ (own .mm e ++ (own .newObj m.1 ++ (R ++ L))) (hm.2 t ht) ?_
      unfold matBlocks
      refine List.perm_iff_count.2 (fun x => ?_)
      have := List.perm_iff_count.1 hR x
      simp only [List.count_append] at this ⊢
      omega
    · intro _ X hX
      refine Runs.pure ⟨fun _ => he, ?_⟩
      rw [if_pos hk]
      exact hX
  · rename_i hk
    refine Runs.pure ⟨fun h => absurd h hk, ?_⟩
    rw [if_neg hk]
    exact List.Perm.refl _

theorem transposeMem_runs (hC : TileContract C blocks Good ok) (nrank : Nat) (cs : List (Option Nat)) (m : Ptr × MatMem T)
    (L : List (Nat × Alloc)) (hm : MatGood Good m) :
    Runs (transposeMem C nrank cs m) (matBlocks blocks m ++ L)
      (fun mt X => MatGood Good mt ∧ X.Perm (matBlocks blocks mt ++ (matBlocks blocks m ++ L))) := by
  unfold transposeMem
  refine (matEdges_runs hC m L hm).bind ?_
  rintro el X ⟨hel, hX⟩
  refine (makeMat_runs hC nrank cs X).bind ?_
  rintro mt Y ⟨hmt, hY⟩
  split
  · rename_i hk
    rw [if_pos hk] at hX
    refine (runs_release (L' := matBlocks blocks mt ++ (matBlocks blocks m ++ L)) (hel hk) ?_).bind ?_
    · refine hY.trans ((hX.append_left _).trans ?_)
      perm_parts
    · rintro _ _ rfl
      exact Runs.pure ⟨hmt, List.Perm.refl _⟩
  · rename_i hk
    rw [if_neg hk] at hX
    exact Runs.pure ⟨hmt, hY.trans (hX.append_left _)⟩

theorem matStep_runs (hC : TileContract C blocks Good ok) (nrank : Nat) (op : MatOp) (hop : op.Allowed ok) (ms : List (Ptr × MatMem T))
    (hms : ∀ m ∈ ms, MatGood Good m) (L : List (Nat × Alloc)) :
    Runs (op.run C nrank ms) (ms.flatMap (matBlocks blocks) ++ L)
      (fun ms' X => (∀ m ∈ ms', MatGood Good m) ∧ X.Perm (ms'.flatMap (matBlocks blocks) ++ L)) := by
  have hcons : ∀ m : Ptr × MatMem T, MatGood Good m → ∀ m' ∈ m :: ms, MatGood Good m' := by
    intro m hm m' hm'
    rcases List.mem_cons.1 hm' with rfl | h
    · exact hm
    · exact hms _ h
  cases op with
  | make cs =>
    refine (makeMat_runs hC nrank cs _).bind ?_
    rintro m X ⟨hm, hX⟩
    refine Runs.pure ⟨hcons m hm, ?_⟩
    rw [List.flatMap_cons, List.append_assoc]
    exact hX
  | restore cs =>
    refine (loadMat_runs hC cs hop _).bind ?_
    rintro m X ⟨hm, hX⟩
    refine Runs.pure ⟨hcons m hm, ?_⟩
    rw [List.flatMap_cons, List.append_assoc]
    exact hX
  | edges i =>
    cases hi : ms[i]? with
    | none =>
      simp only [MatOp.run, hi]
      exact Runs.pure ⟨hms, List.Perm.refl _⟩
    | some m =>
      simp only [MatOp.run, hi]
      have hm := hms m (List.mem_of_getElem? hi)
      have hp := (flatMap_at (matBlocks blocks) ms i m hi).append_right L
      rw [List.append_assoc] at hp
      refine ((matEdges_runs hC m _ hm).perm hp).bind ?_
      rintro el X ⟨hel, hX⟩
      split
      · rename_i hk
        rw [if_pos hk] at hX
        refine (runs_release (hel hk) hX).bind ?_
        rintro _ _ rfl
        exact Runs.pure ⟨hms, hp.symm⟩
      · rename_i hk
        rw [if_neg hk] at hX
        exact Runs.pure ⟨hms, hX.trans hp.symm⟩
  | transpose i cs =>
    cases hi : ms[i]? with
    | none =>
      simp only [MatOp.run, hi]
      exact Runs.pure ⟨hms, List.Perm.refl _⟩
    | some m =>
      simp only [MatOp.run, hi]
      have hm := hms m (List.mem_of_getElem? hi)
      have hp := (flatMap_at (matBlocks blocks) ms i m hi).append_right L
      rw [List.append_assoc] at hp
      refine ((transposeMem_runs hC nrank cs m _ hm).perm hp).bind ?_
      rintro mt X ⟨hmt, hX⟩
      refine Runs.pure ⟨hcons mt hmt, ?_⟩
      rw [List.flatMap_cons, List.append_assoc]
      exact hX.trans (hp.symm.append_left _)
  | delete i =>
    cases hi : ms[i]? with
    | none =>
      simp only [MatOp.run, hi]
      exact Runs.pure ⟨hms, List.Perm.refl _⟩
    | some m =>
      simp only [MatOp.run, hi]
      have hm := hms m (List.mem_of_getElem? hi)
      have hp := (flatMap_at (matBlocks blocks) ms i m hi).append_right L
      rw [List.append_assoc] at hp
      refine ((deleteMat_runs hC m _ hm).perm hp).bind ?_
      intro _ X hX
      exact Runs.pure ⟨fun u hu => hms u (List.mem_of_mem_eraseIdx hu), hX⟩

theorem matSteps_runs (hC : TileContract C blocks Good ok) (nrank : Nat) (ops : List MatOp)
    (hops : ∀ op ∈ ops, op.Allowed ok) :
    ∀ (ms : List (Ptr × MatMem T)), (∀ m ∈ ms, MatGood Good m) → ∀ L,
      Runs (runMatOps C nrank ops ms) (ms.flatMap (matBlocks blocks) ++ L)
        (fun ms' X => (∀ m ∈ ms', MatGood Good m) ∧ X.Perm (ms'.flatMap (matBlocks blocks) ++ L)) := by
  induction ops with
  | nil => exact fun ms hms L => Runs.pure ⟨hms, List.Perm.refl _⟩
  | cons op ops ih =>
    intro ms hms L
    refine (matStep_runs hC nrank op (hops _ List.mem_cons_self) ms hms L).bind ?_
    rintro ms' X ⟨hg, hX⟩
    exact (ih (fun o ho => hops o (List.mem_cons_of_mem _ ho)) ms' hg L).perm hX

theorem deleteMats_runs (hC : TileContract C blocks Good ok) :
    ∀ (ms : List (Ptr × MatMem T)), (∀ m ∈ ms, MatGood Good m) → ∀ L,
      Runs (deleteMats C ms) (ms.flatMap (matBlocks blocks) ++ L) (fun _ X => X.Perm L) := by
  intro ms
  induction ms with
  | nil => exact fun _ L => Runs.pure (List.Perm.refl _)
  | cons m ms ih =>
    intro hms L
    rw [List.flatMap_cons, List.append_assoc]
    refine (deleteMat_runs hC m _ (hms m List.mem_cons_self)).bind ?_
    intro _ X hX
    exact (ih (fun u hu => hms u (List.mem_cons_of_mem _ hu)) L).perm hX

theorem TileContract.mats (hC : TileContract C blocks Good ok) (nrank : Nat) (ops : List MatOp)
    (hops : ∀ op ∈ ops, op.Allowed ok) :
    Balanced (matLives C nrank ops) := by
  refine Runs.balanced (fun L => ?_)
  refine (matSteps_runs hC nrank ops hops [] (by simp) L).bind ?_
  rintro ms X ⟨hg, hX⟩
  exact (deleteMats_runs hC ms hg L).perm hX

/-! ### What fails -/

/-- `p` has undefined behaviour on every heap with the blocks `L` -/
def Fails {α : Type} (p : HeapM α) (L : List (Nat × Alloc)) : Prop := ∀ h : Heap, h.Has L → p h = none

theorem Fails.bind {α β : Type} {p : HeapM α} {f : α → HeapM β} {L : List (Nat × Alloc)} (hp : Fails p L) :
    Fails (p >>= f) L := by
  intro h hh
  show (p h).bind (fun x => f x.1 x.2) = none
  rw [hp h hh]
  rfl

theorem Runs.fails {α β : Type} {p : HeapM α} {f : α → HeapM β} {L : List (Nat × Alloc)}
    {Q : α → List (Nat × Alloc) → Prop} (hp : Runs p L Q) (hf : ∀ a L', Q a L' → Fails (f a) L') : Fails (p >>= f) L := by
  intro h hh
  obtain ⟨a, h1, L1, e1, hh1, q⟩ := hp h hh
  show (p h).bind (fun x => f x.1 x.2) = none
  rw [e1]
  exact hf a L1 q h1 hh1

theorem fails_garbage (k : Alloc) (L : List (Nat × Alloc)) : Fails (release k .garbage) L := fun _ _ => rfl

theorem keys_unique : ∀ (l : List (Nat × Alloc)), (l.map Prod.fst).Nodup → ∀ b k k', (b, k) ∈ l → (b, k') ∈ l → k = k' := by
  intro l
  induction l with
  | nil => intro _ b k k' h
           cases h
  | cons x l ih =>
    intro hn b k k' h h'
    rw [List.map_cons, List.nodup_cons] at hn
    rcases List.mem_cons.1 h with e | h1 <;> rcases List.mem_cons.1 h' with e' | h1'
    · exact (Prod.mk.inj (e.trans e'.symm)).2
    · exact absurd (List.mem_map.2 ⟨_, h1', by rw [← e]⟩) hn.1
    · exact absurd (List.mem_map.2 ⟨_, h1, by rw [← e']⟩) hn.1
    · exact ih hn.2 b k k' h1 h1'

theorem fails_kind {k k' : Alloc} {p : Ptr} {L : List (Nat × Alloc)} (hk : k ≠ k') (hp : IsBlock p)
    (hL : ∀ x ∈ own k' p, x ∈ L) : Fails (release k p) L := by
  obtain ⟨b, rfl⟩ := hp
  intro h hh
  have hm : (b, k') ∈ h.live := hh.2.mem_iff.2 (hL _ (by simp [own]))
  show (if (b, k) ∈ h.live then _ else none) = none
  rw [if_neg]
  intro hm'
  exact hk (keys_unique _ hh.1.1 b k k' hm' hm)

/-- what a release leaves -/
theorem release_live {k : Alloc} {p : Ptr} {h h' : Heap} (e : release k p h = some ((), h')) : h'.live.Sublist h.live := by
  cases p with
  | garbage => cases e
  | null =>
    have : h = h' := congrArg Prod.snd (Option.some.inj e)
    rw [this]
  | block b =>
    have e' : (if (b, k) ∈ h.live then some ((), { h with live := h.live.erase (b, k) }) else none) = some ((), h') := e
    split at e'
    · have : { h with live := h.live.erase (b, k) } = h' := congrArg Prod.snd (Option.some.inj e')
      rw [← this]
      exact List.erase_sublist
    · cases e'

theorem release_gone {k : Alloc} {b : Nat} {h h' : Heap} (hh : h.Ok) (e : release k (.block b) h = some ((), h')) :
    b ∉ h'.live.map Prod.fst := by
  have e' : (if (b, k) ∈ h.live then some ((), { h with live := h.live.erase (b, k) }) else none) = some ((), h') := e
  split at e'
  · rename_i hm
    have : { h with live := h.live.erase (b, k) } = h' := congrArg Prod.snd (Option.some.inj e')
    rw [← this]
    show b ∉ (h.live.erase (b, k)).map Prod.fst
    have hp := List.perm_cons_erase hm
    have hn := (hp.map Prod.fst).nodup_iff.1 hh.1
    rw [List.map_cons, List.nodup_cons] at hn
    exact hn.1
  · cases e'

/-- a program that does not bring blocks to life -/
def Shrinks {α : Type} (p : HeapM α) : Prop := ∀ h a h', p h = some (a, h') → h'.live.Sublist h.live

theorem shrinks_release (k : Alloc) (p : Ptr) : Shrinks (release k p) := fun _ _ _ e => release_live e

theorem Shrinks.bind {α β : Type} {p : HeapM α} {f : α → HeapM β} (hp : Shrinks p) (hf : ∀ a, Shrinks (f a)) :
    Shrinks (p >>= f) := by
  intro h a h' e
  have e' : (p h).bind (fun x => f x.1 x.2) = some (a, h') := e
  cases hq : p h with
  | none => rw [hq] at e'; cases e'
  | some x =>
    rw [hq] at e'
    exact (hf _ _ _ _ e').trans (hp _ _ _ hq)

theorem shrinks_pure {α : Type} (a : α) : Shrinks (pure a : HeapM α) := by
  intro h b h' e
  have : h = h' := congrArg Prod.snd (Option.some.inj e)
  rw [this]

/-- after releasing a block and more, a program that needs the block fails -/
theorem twice_none {α β γ : Type} {k : Alloc} {p : Ptr} (hp : p ≠ .null) {rest : HeapM α} (hr : Shrinks rest)
    {again : α → HeapM β} {f : α → β → HeapM γ}
    (ha : ∀ a b h, p = .block b → b ∉ h.live.map Prod.fst → again a h = none) (h : Heap) (hh : h.Ok) :
    (do
      release k p
      let a ← rest
      let b ← again a
      f a b : HeapM γ) h = none := by
  show (release k p h).bind (fun x => (rest >>= fun a => again a >>= fun b => f a b) x.2) = none
  cases hq : release k p h with
  | none => rfl
  | some x =>
    show ((rest x.2).bind (fun y => (again y.1 >>= fun b => f y.1 b) y.2)) = none
    cases hq2 : rest x.2 with
    | none => rfl
    | some y =>
      show ((again y.1 y.2).bind (fun z => f y.1 z.1 z.2)) = none
      cases p with
      | garbage => cases hq
      | null => exact absurd rfl hp
      | block b =>
        rw [ha y.1 b y.2 rfl]
        · rfl
        · intro hm
          exact release_gone hh hq ((hr _ _ _ hq2).map Prod.fst |>.subset hm)

theorem release_dead {k : Alloc} {b : Nat} {h : Heap} (hb : b ∉ h.live.map Prod.fst) : release k (.block b) h = none := by
  show (if (b, k) ∈ h.live then _ else none) = none
  rw [if_neg]
  exact fun hm => hb (List.mem_map.2 ⟨_, hm, rfl⟩)

theorem touch_dead {b : Nat} {h : Heap} (hb : b ∉ h.live.map Prod.fst) : touch (.block b) h = none := by
  show (if b ∈ h.live.map Prod.fst then _ else none) = none
  rw [if_neg hb]

/-- assignment by a parameter that is destroyed, then something that needs the first block of the tile -/
theorem assign_dead {T : Type} {k : Alloc} {p : Ptr} (hp : p ≠ .null) {rest : HeapM Unit} (hr : Shrinks rest) (t : T)
    (q : T → HeapM Unit) (hq : ∀ b g, p = .block b → b ∉ g.live.map Prod.fst → q t g = none) (h : Heap) (hh : h.Ok) :
    (((release k p >>= fun _ => rest) >>= fun _ => pure t) >>= q) h = none := by
  have := twice_none (k := k) hp hr (again := fun _ => q t) (f := fun _ _ => pure ()) (fun _ b g e hb => hq b g e hb) h hh
  simp only [bind_assoc, pure_bind]
  simpa using this

/-- the same for the right hand side -/
theorem assign_dead' {T : Type} {k : Alloc} {p : Ptr} (hp : p ≠ .null) {rest : HeapM Unit} (hr : Shrinks rest) (t : T)
    (q : HeapM Unit) (hq : ∀ b g, p = .block b → b ∉ g.live.map Prod.fst → q g = none) (h : Heap) (hh : h.Ok) :
    (((release k p >>= fun _ => rest) >>= fun _ => pure t) >>= fun _ => q) h = none :=
  assign_dead hp hr t (fun _ => q) hq h hh

theorem touch_dead_bind {α : Type} {b : Nat} {h : Heap} (hb : b ∉ h.live.map Prod.fst) (f : Unit → HeapM α) :
    (touch (.block b) >>= f) h = none := by
  show (touch (.block b) h).bind _ = none
  rw [touch_dead hb]
  rfl

theorem release_dead_bind {α : Type} {k : Alloc} {b : Nat} {h : Heap} (hb : b ∉ h.live.map Prod.fst) (f : Unit → HeapM α) :
    (release k (.block b) >>= f) h = none := by
  show (release k (.block b) h).bind _ = none
  rw [release_dead hb]
  rfl

end GraphMat

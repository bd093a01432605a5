import Verif.Lemmas.SegMem

namespace GraphMat

variable {N : Nat}

/-- blocks of a segment in a vector -/
def slotBlocks (s : Bool × Ptr × SegMem) : List (Nat × Alloc) := segBlocks s.2

def SlotGood (N : Nat) (s : Bool × Ptr × SegMem) : Prop := IsBlock s.2.1 ∧ s.2.2.Idle N

/-- blocks of a vector -/
def vecBlocks (v : Ptr × VecMem) : List (Nat × Alloc) := own .newObj v.1 ++ v.2.flatMap slotBlocks

def VecGood (N : Nat) (v : Ptr × VecMem) : Prop := IsBlock v.1 ∧ ∀ s ∈ v.2, SlotGood N s

theorem newVec_runs (N : Nat) (mine : List Bool) (L : List (Nat × Alloc)) :
    Runs (newVec mine) L (fun v X => VecGood N v ∧ X.Perm (vecBlocks v ++ L)) := by
  unfold newVec
  refine (runs_allocate _ _).bind ?_
  rintro p _ ⟨hp, rfl⟩
  refine (runs_mapM (blk := slotBlocks) (G := SlotGood N) (P := fun _ => True) ?_ mine (fun _ _ => trivial) _).bind ?_
  · intro m L _
    refine (newSeg_runs N L).bind ?_
    rintro s _ ⟨hs, he, hi, rfl⟩
    refine Runs.pure ⟨⟨hs, hi⟩, ?_⟩
    unfold slotBlocks segBlocks SegMem.blocks
    dsimp only
    rw [he]
    simp only [Option.elim, List.flatMap_nil, List.append_nil]
    exact List.Perm.refl _
  · rintro ss X ⟨hss, hX⟩
    refine Runs.pure ⟨⟨hp, hss⟩, hX.trans ?_⟩
    unfold vecBlocks
    perm_parts

theorem loadVec_runs {threads k : Nat} (hN : N ≤ threads * 16) (hk : N ≤ k) (mine : List (Bool × Bool)) (L : List (Nat × Alloc)) :
    Runs (loadVec threads k mine) L (fun v X => VecGood N v ∧ X.Perm (vecBlocks v ++ L)) := by
  unfold loadVec
  refine (runs_allocate _ _).bind ?_
  rintro p _ ⟨hp, rfl⟩
  refine (runs_mapM (blk := slotBlocks) (G := SlotGood N) (P := fun _ => True) ?_ mine (fun _ _ => trivial) _).bind ?_
  · intro m L _
    refine (loadSeg_runs hN hk m.2 L).bind ?_
    rintro s X ⟨hs, hi, hX⟩
    exact Runs.pure ⟨⟨hs, hi⟩, hX⟩
  · rintro ss X ⟨hss, hX⟩
    refine Runs.pure ⟨⟨hp, hss⟩, hX.trans ?_⟩
    unfold vecBlocks
    perm_parts

theorem deleteVec_runs {v : Ptr × VecMem} (hv : VecGood N v) (L : List (Nat × Alloc)) :
    Runs (deleteVec v) (vecBlocks v ++ L) (fun _ X => X.Perm L) := by
  unfold deleteVec vecBlocks
  refine (ptr_touch (k := .newObj) hv.1 (fun x hx => by simp only [List.mem_append]; tauto)).bind ?_
  rintro _ _ rfl
  have hp : (own .newObj v.1 ++ v.2.flatMap slotBlocks ++ L).Perm (v.2.flatMap slotBlocks ++ (own .newObj v.1 ++ L)) := by
    perm_parts
  refine ((runs_mapM_free (blk := slotBlocks) (G := SlotGood N) (fun s L hs => deleteSeg_runs hs.1 hs.2.good L) _ hv.2
    _).perm hp).bind ?_
  intro _ X hX
  exact (runs_release (L' := L) hv.1 hX).mono (by rintro _ _ rfl; exact List.Perm.refl _)

/-- a loop over the segments that changes them -/
theorem runs_mapM_upd {α β : Type} {f : α → HeapM β} {blk : α → List (Nat × Alloc)} {blk' : β → List (Nat × Alloc)}
    {G : α → Prop} {G' : β → Prop}
    (hf : ∀ a L, G a → Runs (f a) (blk a ++ L) (fun b X => G' b ∧ X.Perm (blk' b ++ L))) :
    ∀ (as : List α) (_ : ∀ a ∈ as, G a) (L : List (Nat × Alloc)),
      Runs (as.mapM f) (as.flatMap blk ++ L) (fun bs X => (∀ b ∈ bs, G' b) ∧ X.Perm (bs.flatMap blk' ++ L)) := by
  intro as
  induction as with
  | nil =>
    intro _ L
    rw [List.mapM_nil]
    exact Runs.pure ⟨by simp, List.Perm.refl _⟩
  | cons a as ih =>
    intro hg L
    rw [List.mapM_cons, List.flatMap_cons, List.append_assoc]
    refine (hf a _ (hg a List.mem_cons_self)).bind ?_
    rintro b X ⟨hb, hX⟩
    have hX' : X.Perm (as.flatMap blk ++ (blk' b ++ L)) := hX.trans (by perm_parts)
    refine ((ih (fun c hc => hg c (List.mem_cons_of_mem _ hc)) _).perm hX').bind ?_
    rintro bs Y ⟨hbs, hY⟩
    refine Runs.pure ⟨?_, hY.trans ?_⟩
    · intro c hc
      rcases List.mem_cons.1 hc with rfl | hc
      · exact hb
      · exact hbs c hc
    · rw [List.flatMap_cons]
      perm_parts

theorem slot_write {threads : Nat} (hN : N ≤ threads * 16) (s : Bool × Ptr × SegMem) (c : Bool) (hs : SlotGood N s)
    (L : List (Nat × Alloc)) :
    Runs (if c then do
      let t ← s.2.2.write threads
      pure (s.1, s.2.1, t)
    else pure s) (slotBlocks s ++ L) (fun r X => SlotGood N r ∧ X.Perm (slotBlocks r ++ L)) := by
  cases c with
  | false => exact Runs.pure ⟨hs, List.Perm.refl _⟩
  | true =>
    rw [if_pos rfl]
    have hp : (slotBlocks s ++ L).Perm (s.2.2.blocks ++ (own .newObj s.2.1 ++ L)) := by
      unfold slotBlocks segBlocks
      perm_parts
    refine ((SegMem.write_runs hN hs.2.good _).perm hp).bind ?_
    rintro r X ⟨hr, hX, e1, e2, e3, e4⟩
    refine Runs.pure ⟨⟨hs.1, hs.2.keeps hr e1 e2⟩, hX.trans ?_⟩
    unfold slotBlocks segBlocks
    dsimp only
    perm_parts

theorem vecSetAll_runs {threads : Nat} (hN : N ≤ threads * 16) {v : Ptr × VecMem} (hv : VecGood N v) (L : List (Nat × Alloc)) :
    Runs (vecSetAll threads v) (vecBlocks v ++ L) (fun w X => VecGood N w ∧ X.Perm (vecBlocks w ++ L)) := by
  unfold vecSetAll vecBlocks
  refine (ptr_touch (k := .newObj) hv.1 (fun x hx => by simp only [List.mem_append]; tauto)).bind ?_
  rintro _ _ rfl
  have hp : (own .newObj v.1 ++ v.2.flatMap slotBlocks ++ L).Perm (v.2.flatMap slotBlocks ++ (own .newObj v.1 ++ L)) := by
    perm_parts
  refine ((runs_mapM_upd (blk := slotBlocks) (blk' := slotBlocks) (G := SlotGood N) (G' := SlotGood N)
    (fun s L hs => slot_write hN s s.1 hs L) _ hv.2 _).perm hp).bind ?_
  rintro ss X ⟨hss, hX⟩
  refine Runs.pure ⟨⟨hv.1, hss⟩, hX.trans ?_⟩
  dsimp only
  perm_parts

theorem vecEdges_runs {v : Ptr × VecMem} (hv : VecGood N v) (k : Nat) {L : List (Nat × Alloc)} (hL : ∀ x ∈ vecBlocks v, x ∈ L) :
    Runs (vecEdges k v) L (fun p X => if 0 < k then IsBlock p ∧ X = own .mm p ++ L else X = L) := by
  unfold vecEdges
  have h1 : ∀ x ∈ own .newObj v.1, x ∈ L := fun x hx => hL x (List.mem_append_left _ hx)
  refine (ptr_touch (k := .newObj) hv.1 h1).bind ?_
  rintro _ L rfl
  refine (runs_mapM_same _ ?_).bind ?_
  · intro s hs
    split
    · refine SegMem.read_runs (hv.2 s hs).2.good (fun x hx => hL x ?_)
      unfold vecBlocks slotBlocks segBlocks
      exact List.mem_append_right _ (List.mem_flatMap.2 ⟨s, hs, List.mem_append_right _ hx⟩)
    · exact Runs.pure rfl
  rintro _ L rfl
  split
  · exact runs_allocate _ _
  · exact Runs.pure rfl

theorem set_good {α : Type} {P : α → Prop} {l : List α} {i : Nat} {b : α} (hl : ∀ x ∈ l, P x) (hb : P b) : ∀ x ∈ l.set i b, P x := by
  intro x hx
  rcases List.mem_or_eq_of_mem_set hx with h | h
  · exact hl x h
  · exact h ▸ hb

theorem flatMap_set {α : Type} (f : α → List (Nat × Alloc)) (l : List α) (i : Nat) (a b : α) (h : l[i]? = some a) :
    ((l.set i b).flatMap f).Perm (f b ++ (l.eraseIdx i).flatMap f) := by
  have hi : i < l.length := by
    rcases Nat.lt_or_ge i l.length with h' | h'
    · exact h'
    · rw [List.getElem?_eq_none h'] at h; cases h
  have := flatMap_at f (l.set i b) i b (by rw [List.getElem?_set_self hi])
  rwa [List.eraseIdx_set_eq] at this

theorem vecStep_runs {threads : Nat} (hN : N ≤ threads * 16) (op : VecStep) (hop : op.Fits N) (vs : List (Ptr × VecMem))
    (hvs : ∀ v ∈ vs, VecGood N v) (L : List (Nat × Alloc)) :
    Runs (op.run threads vs) (vs.flatMap vecBlocks ++ L)
      (fun ws X => (∀ v ∈ ws, VecGood N v) ∧ X.Perm (ws.flatMap vecBlocks ++ L)) := by
  have hcons : ∀ v, VecGood N v → ∀ w ∈ v :: vs, VecGood N w := by
    intro v hv w hw
    rcases List.mem_cons.1 hw with rfl | hw
    · exact hv
    · exact hvs w hw
  cases op with
  | new mine =>
    refine (newVec_runs N mine _).bind ?_
    rintro v X ⟨hv, hX⟩
    refine Runs.pure ⟨hcons v hv, ?_⟩
    rw [List.flatMap_cons, List.append_assoc]
    exact hX
  | restore mine k =>
    refine (loadVec_runs hN hop mine _).bind ?_
    rintro v X ⟨hv, hX⟩
    refine Runs.pure ⟨hcons v hv, ?_⟩
    rw [List.flatMap_cons, List.append_assoc]
    exact hX
  | setAll i =>
    cases hi : vs[i]? with
    | none =>
      simp only [VecStep.run, hi]
      exact Runs.pure ⟨hvs, List.Perm.refl _⟩
    | some v =>
      simp only [VecStep.run, hi]
      have hp := (flatMap_at vecBlocks vs i v hi).append_right L
      rw [List.append_assoc] at hp
      refine ((vecSetAll_runs hN (hvs v (List.mem_of_getElem? hi)) _).perm hp).bind ?_
      rintro w X ⟨hw, hX⟩
      refine Runs.pure ⟨set_good hvs hw, hX.trans ?_⟩
      have hq := (flatMap_set vecBlocks vs i v w hi).append_right L
      rw [List.append_assoc] at hq
      exact hq.symm
  | act i j a =>
    cases hi : vs[i]? with
    | none =>
      simp only [VecStep.run, hi]
      exact Runs.pure ⟨hvs, List.Perm.refl _⟩
    | some v =>
      cases hj : v.2[j]? with
      | none =>
        simp only [VecStep.run, hi, hj]
        exact Runs.pure ⟨hvs, List.Perm.refl _⟩
      | some s =>
        simp only [VecStep.run, hi, hj]
        have hv := hvs v (List.mem_of_getElem? hi)
        have hs := hv.2 s (List.mem_of_getElem? hj)
        have hp := flatMap_at vecBlocks vs i v hi
        have hq := flatMap_at slotBlocks v.2 j s hj
        have hall : (vs.flatMap vecBlocks ++ L).Perm (s.2.2.blocks ++ (own .newObj s.2.1 ++ (own .newObj v.1 ++
            ((v.2.eraseIdx j).flatMap slotBlocks ++ ((vs.eraseIdx i).flatMap vecBlocks ++ L))))) := by
          refine (hp.append_right L).trans ?_
          have e : (vecBlocks v).Perm (own .newObj v.1 ++ (slotBlocks s ++ (v.2.eraseIdx j).flatMap slotBlocks)) :=
            hq.append_left _
          refine ((e.append_right _).append_right L).trans ?_
          unfold slotBlocks segBlocks
          perm_parts
        refine (ptr_touch (k := .newObj) hv.1 (fun x hx => hall.mem_iff.2 (by simp only [List.mem_append]; tauto))).bind ?_
        rintro _ _ rfl
        refine (ptr_touch (k := .newObj) hs.1 (fun x hx => hall.mem_iff.2 (by simp only [List.mem_append]; tauto))).bind ?_
        rintro _ _ rfl
        refine ((SegAct.runs hN a hop hs.2 _).perm hall).bind ?_
        rintro t X ⟨ht, hX, -, -⟩
        refine Runs.pure ⟨set_good hvs ⟨hv.1, set_good hv.2 ⟨hs.1, ht⟩⟩, hX.trans ?_⟩
        refine List.Perm.symm ?_
        refine ((flatMap_set vecBlocks vs i v _ hi).append_right L).trans ?_
        have e : (vecBlocks (v.1, v.2.set j (s.1, s.2.1, t))).Perm
            (own .newObj v.1 ++ (slotBlocks (s.1, s.2.1, t) ++ (v.2.eraseIdx j).flatMap slotBlocks)) :=
          (flatMap_set slotBlocks v.2 j s _ hj).append_left _
        refine ((e.append_right _).append_right L).trans ?_
        conv => lhs; unfold slotBlocks segBlocks
        conv => rhs; unfold slotBlocks segBlocks
        dsimp only
        perm_parts
  | edges i k =>
    cases hi : vs[i]? with
    | none =>
      simp only [VecStep.run, hi]
      exact Runs.pure ⟨hvs, List.Perm.refl _⟩
    | some v =>
      simp only [VecStep.run, hi]
      have hv := hvs v (List.mem_of_getElem? hi)
      refine (vecEdges_runs hv k (L := vs.flatMap vecBlocks ++ L) (fun x hx => List.mem_append_left _
        (List.mem_flatMap.2 ⟨v, List.mem_of_getElem? hi, hx⟩))).bind ?_
      intro p X hX
      split
      · rename_i hk
        rw [if_pos hk] at hX
        obtain ⟨hp, rfl⟩ := hX
        refine (runs_release hp (List.Perm.refl _)).bind ?_
        rintro _ _ rfl
        exact Runs.pure ⟨hvs, List.Perm.refl _⟩
      · rename_i hk
        rw [if_neg hk] at hX
        subst hX
        exact Runs.pure ⟨hvs, List.Perm.refl _⟩
  | delete i =>
    cases hi : vs[i]? with
    | none =>
      simp only [VecStep.run, hi]
      exact Runs.pure ⟨hvs, List.Perm.refl _⟩
    | some v =>
      simp only [VecStep.run, hi]
      have hp := (flatMap_at vecBlocks vs i v hi).append_right L
      rw [List.append_assoc] at hp
      refine ((deleteVec_runs (hvs v (List.mem_of_getElem? hi)) _).perm hp).bind ?_
      intro _ X hX
      exact Runs.pure ⟨fun u hu => hvs u (List.mem_of_mem_eraseIdx hu), hX⟩

theorem vecSteps_runs {threads : Nat} (hN : N ≤ threads * 16) (ops : List VecStep) (hops : ∀ op ∈ ops, op.Fits N) :
    ∀ (vs : List (Ptr × VecMem)), (∀ v ∈ vs, VecGood N v) → ∀ L,
      Runs (runVecSteps threads ops vs) (vs.flatMap vecBlocks ++ L)
        (fun ws X => (∀ v ∈ ws, VecGood N v) ∧ X.Perm (ws.flatMap vecBlocks ++ L)) := by
  induction ops with
  | nil => exact fun vs hvs L => Runs.pure ⟨hvs, List.Perm.refl _⟩
  | cons op ops ih =>
    intro vs hvs L
    refine (vecStep_runs hN op (hops _ List.mem_cons_self) vs hvs L).bind ?_
    rintro ws X ⟨hg, hX⟩
    exact (ih (fun o ho => hops o (List.mem_cons_of_mem _ ho)) ws hg L).perm hX

theorem deleteVecs_runs : ∀ (vs : List (Ptr × VecMem)), (∀ v ∈ vs, VecGood N v) → ∀ L,
      Runs (deleteVecs vs) (vs.flatMap vecBlocks ++ L) (fun _ X => X.Perm L) := by
  intro vs
  induction vs with
  | nil => exact fun _ L => Runs.pure (List.Perm.refl _)
  | cons v vs ih =>
    intro hvs L
    rw [List.flatMap_cons, List.append_assoc]
    refine (deleteVec_runs (hvs v List.mem_cons_self) _).bind ?_
    intro _ X hX
    exact (ih (fun u hu => hvs u (List.mem_cons_of_mem _ hu)) L).perm hX

/-- the blocks `vecIngest` leaves behind -/
theorem vecIngest_runs {threads : Nat} (hN : N ≤ threads * 16) (nrank k : Nat) (hit : Nat → Bool) {v : Ptr × VecMem}
    (hv : VecGood N v) (L : List (Nat × Alloc)) :
    Runs (vecIngest threads nrank k hit v) (vecBlocks v ++ L) (fun w X => VecGood N w ∧ ∃ M : List (Nat × Alloc),
      X.Perm (vecBlocks w ++ (M ++ L)) ∧ M.length = if 0 < k then 1 else 3) := by
  generalize hn : (if 0 < k then 1 else 3) = n
  unfold vecIngest
  refine (ptr_touch (k := .newObj) hv.1 (fun x hx => by unfold vecBlocks; simp only [List.mem_append]; tauto)).bind ?_
  rintro _ _ rfl
  refine (runs_allocate _ _).bind ?_
  rintro asg _ ⟨hasg, rfl⟩
  refine (runs_allocate _ _).bind ?_
  rintro cnt _ ⟨hcnt, rfl⟩
  refine (runs_allocate _ _).bind ?_
  rintro rc _ ⟨hrc, rfl⟩
  refine (runs_allocate _ _).bind ?_
  rintro req _ ⟨hreq, rfl⟩
  refine (runs_allocate _ _).bind ?_
  rintro st _ ⟨hst, rfl⟩
  refine (runs_allocate _ _).bind ?_
  rintro msg _ ⟨hmsg, rfl⟩
  refine (runs_allocate _ _).bind ?_
  rintro off _ ⟨hoff, rfl⟩
  refine (runs_mapM (blk := own .newArr) (G := IsBlock) (P := fun _ => True) (fun _ L _ => (runs_allocate .newArr L).mono
    (by rintro p _ ⟨hp, rfl⟩; exact ⟨hp, List.Perm.refl _⟩)) _ (fun _ _ => trivial) _).bind ?_
  rintro msgs X ⟨hmsgs, hX⟩
  refine (runs_allocate _ _).bind ?_
  rintro hist _ ⟨hhist, rfl⟩
  refine (runs_allocate _ _).bind ?_
  rintro fin _ ⟨hfin, rfl⟩
  have h1 : (own .mm fin ++ (own .newArr hist ++ X)).Perm (msgs.flatMap (own .newArr) ++ (own .mm fin ++ (own .newArr hist ++
      (own .newArr off ++ (own .newArr msg ++ (own .newArr st ++ (own .newArr req ++ (own .newArr rc ++ (own .newArr cnt ++
        (own .newArr asg ++ (vecBlocks v ++ L))))))))))) := by
    refine ((hX.append_left _).append_left _).trans ?_
    perm_parts
  refine ((runs_mapM_free (blk := own .newArr) (G := IsBlock) (fun p L hp => (runs_release (L' := L) hp (List.Perm.refl _)).mono
    (by rintro _ _ rfl; exact List.Perm.refl _)) _ hmsgs _).perm h1).bind ?_
  intro _ Y hY
  refine ((runs_release (L' := own .mm fin ++ (own .newArr hist ++ (own .newArr off ++ (own .newArr st ++ (own .newArr req ++
    (own .newArr rc ++ (own .newArr cnt ++ (own .newArr asg ++ (vecBlocks v ++ L))))))))) hmsg (by perm_parts)).perm hY).bind ?_
  rintro _ _ rfl
  refine (runs_release (L' := own .mm fin ++ (own .newArr off ++ (own .newArr st ++ (own .newArr req ++
    (own .newArr rc ++ (own .newArr cnt ++ (own .newArr asg ++ (vecBlocks v ++ L)))))))) hhist (by perm_parts)).bind ?_
  rintro _ _ rfl
  refine (runs_release (L' := own .mm fin ++ (own .newArr st ++ (own .newArr req ++
    (own .newArr rc ++ (own .newArr cnt ++ (own .newArr asg ++ (vecBlocks v ++ L))))))) hoff (by perm_parts)).bind ?_
  rintro _ _ rfl
  refine (runs_release (L' := own .mm fin ++ (own .newArr st ++ (own .newArr req ++
    (own .newArr rc ++ (own .newArr asg ++ (vecBlocks v ++ L)))))) hcnt (by perm_parts)).bind ?_
  rintro _ _ rfl
  refine (runs_release (L' := own .mm fin ++ (own .newArr st ++ (own .newArr req ++
    (own .newArr asg ++ (vecBlocks v ++ L))))) hrc (by perm_parts)).bind ?_
  rintro _ _ rfl
  refine (runs_release (L' := own .mm fin ++ (own .newArr st ++ (own .newArr asg ++ (vecBlocks v ++ L)))) hreq
    (by perm_parts)).bind ?_
  rintro _ _ rfl
  refine (runs_release (L' := own .mm fin ++ (own .newArr asg ++ (vecBlocks v ++ L))) hst (by perm_parts)).bind ?_
  rintro _ _ rfl
  refine (runs_allocate _ _).bind ?_
  rintro edges _ ⟨hedges, rfl⟩
  refine (runs_allocate _ _).bind ?_
  rintro part _ ⟨hpart, rfl⟩
  refine (runs_allocate _ _).bind ?_
  rintro counts _ ⟨hcounts, rfl⟩
  refine (runs_allocate _ _).bind ?_
  rintro starts _ ⟨hstarts, rfl⟩
  have hrest : ∀ (M X : List (Nat × Alloc)), M.length = n →
      X.Perm (v.2.flatMap slotBlocks ++ (own .newObj v.1 ++ (M ++ (own .mm starts ++ (own .mm counts ++ (own .mm edges ++ L)))))) →
      Runs (v.2.zipIdx.mapM (fun s => do
        if s.1.1 && hit s.2 then do
          let t ← s.1.2.2.write threads
          pure (s.1.1, s.1.2.1, t)
        else pure s.1) >>= fun ss => release .mm counts >>= fun _ => release .mm starts >>= fun _ => release .mm edges >>=
          fun _ => Pure.pure (v.1, ss)) X (fun w X => VecGood N w ∧ ∃ M : List (Nat × Alloc),
      X.Perm (vecBlocks w ++ (M ++ L)) ∧ M.length = n) := by
    intro M X hM hX
    have hz : v.2.flatMap slotBlocks = v.2.zipIdx.flatMap (fun s => slotBlocks s.1) := by
      conv => lhs; rw [← List.zipIdx_map_fst 0 v.2]
      rw [List.flatMap_map]
    rw [hz] at hX
    refine ((runs_mapM_upd (blk := fun s : (Bool × Ptr × SegMem) × Nat => slotBlocks s.1) (blk' := slotBlocks)
      (G := fun s => SlotGood N s.1) (G' := SlotGood N) (fun s L hs => slot_write hN s.1 (s.1.1 && hit s.2) hs L) _
      (fun s hs => hv.2 s.1 (List.fst_mem_of_mem_zipIdx hs)) _).perm hX).bind ?_
    rintro ss Y ⟨hss, hY⟩
    refine (runs_release (L' := ss.flatMap slotBlocks ++ (own .newObj v.1 ++ (M ++ (own .mm starts ++ (own .mm edges ++ L)))))
      hcounts (hY.trans (by perm_parts))).bind ?_
    rintro _ _ rfl
    refine (runs_release (L' := ss.flatMap slotBlocks ++ (own .newObj v.1 ++ (M ++ (own .mm edges ++ L))))
      hstarts (by perm_parts)).bind ?_
    rintro _ _ rfl
    refine (runs_release (L' := ss.flatMap slotBlocks ++ (own .newObj v.1 ++ (M ++ L)))
      hedges (by perm_parts)).bind ?_
    rintro _ _ rfl
    refine Runs.pure ⟨⟨hv.1, hss⟩, M, ?_, hM⟩
    unfold vecBlocks
    dsimp only
    perm_parts
  dsimp only
  split
  · rename_i hk
    refine (runs_release (L' := own .mm starts ++ (own .mm counts ++ (own .mm part ++ (own .mm edges ++
      (own .newArr asg ++ (vecBlocks v ++ L)))))) hfin (by perm_parts)).bind ?_
    rintro _ _ rfl
    refine (runs_release (L' := own .mm starts ++ (own .mm counts ++ (own .mm edges ++
      (own .newArr asg ++ (vecBlocks v ++ L))))) hpart (by perm_parts)).bind ?_
    rintro _ _ rfl
    refine hrest (own .newArr asg) _ (by rw [if_pos hk] at hn; rw [own_length hasg, hn]) ?_
    unfold vecBlocks
    perm_parts
  · rename_i hk
    refine hrest (own .mm part ++ (own .mm fin ++ own .newArr asg)) _ (by
      rw [if_neg hk] at hn; rw [List.length_append, List.length_append, own_length hasg, own_length hpart, own_length hfin, ← hn]) ?_
    unfold vecBlocks
    perm_parts

end GraphMat

import Verif.Lemmas.TileMem

namespace GraphMat

/-! ### CSR -/

def CsrMem.blocks (t : CsrMem) : List (Nat × Alloc) :=
  if 0 < t.nnz then own .mm t.a ++ (own .mm t.ja ++ own .mm t.ia) else []

def CsrMem.Good (t : CsrMem) : Prop := 0 < t.nnz → IsBlock t.a ∧ IsBlock t.ja ∧ IsBlock t.ia

theorem CsrMem.make_runs (k : Nat) (L : List (Nat × Alloc)) :
    Runs (CsrMem.make k) L (fun t X => (t.nnz = k ∧ t.Good) ∧ X.Perm (t.blocks ++ L)) := by
  unfold CsrMem.make
  by_cases hk : 0 < k
  · rw [if_pos hk]
    refine (runs_allocate _ _).bind ?_
    rintro a _ ⟨ha, rfl⟩
    refine (runs_allocate _ _).bind ?_
    rintro ja _ ⟨hja, rfl⟩
    refine (runs_allocate _ _).bind ?_
    rintro jia _ ⟨hjia, rfl⟩
    refine (runs_allocate _ _).bind ?_
    rintro ia _ ⟨hia, rfl⟩
    refine (runs_release (L' := own .mm ia ++ (own .mm ja ++ (own .mm a ++ L))) hjia (by perm_parts)).bind ?_
    rintro _ _ rfl
    refine Runs.pure ⟨⟨rfl, fun _ => ⟨ha, hja, hia⟩⟩, ?_⟩
    unfold CsrMem.blocks
    rw [if_pos hk]
    perm_parts
  · rw [if_neg hk]
    refine Runs.pure ⟨⟨rfl, fun h => absurd h hk⟩, ?_⟩
    unfold CsrMem.blocks
    rw [if_neg hk]
    exact List.Perm.refl _

theorem CsrMem.load_runs (k : Nat) (t : CsrMem) (L : List (Nat × Alloc)) :
    Runs (CsrMem.load k t) L (fun t X => t.Good ∧ X.Perm (t.blocks ++ L)) := by
  unfold CsrMem.load
  by_cases hk : 0 < k
  · rw [if_pos hk]
    refine (runs_allocate _ _).bind ?_
    rintro a _ ⟨ha, rfl⟩
    refine (runs_allocate _ _).bind ?_
    rintro ja _ ⟨hja, rfl⟩
    refine (runs_allocate _ _).bind ?_
    rintro ia _ ⟨hia, rfl⟩
    refine Runs.pure ⟨fun _ => ⟨ha, hja, hia⟩, ?_⟩
    unfold CsrMem.blocks
    rw [if_pos hk]
    perm_parts
  · rw [if_neg hk]
    refine Runs.pure ⟨fun h => absurd h hk, ?_⟩
    unfold CsrMem.blocks
    rw [if_neg hk]
    exact List.Perm.refl _

theorem CsrMem.use_runs (t : CsrMem) (L : List (Nat × Alloc)) (h : t.Good) :
    Runs t.use (t.blocks ++ L) (fun _ X => X = t.blocks ++ L) := by
  unfold CsrMem.use CsrMem.blocks
  by_cases hk : 0 < t.nnz
  · obtain ⟨ha, hja, hia⟩ := h hk
    rw [if_pos hk, if_pos hk]
    refine (runs_touch (k := .mm) (L' := own .mm t.ja ++ (own .mm t.ia ++ L)) ha (by perm_parts)).bind ?_
    rintro _ _ rfl
    refine (runs_touch (k := .mm) (L' := own .mm t.a ++ (own .mm t.ia ++ L)) hja (by perm_parts)).bind ?_
    rintro _ _ rfl
    exact runs_touch (k := .mm) (L' := own .mm t.a ++ (own .mm t.ja ++ L)) hia (by perm_parts)
  · rw [if_neg hk, if_neg hk]
    exact Runs.pure rfl

theorem CsrMem.destroy_runs (t : CsrMem) (L : List (Nat × Alloc)) (h : t.Good) :
    Runs t.destroy (t.blocks ++ L) (fun _ X => X.Perm L) := by
  unfold CsrMem.destroy CsrMem.blocks
  by_cases hk : 0 < t.nnz
  · obtain ⟨ha, hja, hia⟩ := h hk
    rw [if_pos hk, if_pos hk]
    refine (runs_release (L' := own .mm t.ja ++ (own .mm t.ia ++ L)) ha (by perm_parts)).bind ?_
    rintro _ _ rfl
    refine (runs_release (L' := own .mm t.ia ++ L) hja (by perm_parts)).bind ?_
    rintro _ _ rfl
    exact (runs_release (L' := L) hia (by perm_parts)).mono (by rintro _ _ rfl; exact List.Perm.refl _)
  · rw [if_neg hk, if_neg hk]
    exact Runs.pure (List.Perm.refl _)

theorem csr_contract : TileContract csrClass CsrMem.blocks CsrMem.Good (fun _ => True) where
  empty := ⟨fun h => absurd h (Nat.lt_irrefl 0), rfl⟩
  make k L _ := (CsrMem.make_runs k L).mono (fun _ _ h => ⟨h.1.2, h.2⟩)
  make0 L := (CsrMem.make_runs 0 L).mono (fun _ _ h => ⟨h.1.2, h.2⟩)
  load k L _ := CsrMem.load_runs k _ L
  use := CsrMem.use_runs
  destroy := CsrMem.destroy_runs

/-! ### COO -/

def CooMem.blocks (t : CooMem) : List (Nat × Alloc) :=
  if 0 < t.nnz then own .mm t.a ++ (own .mm t.ja ++ (own .mm t.ia ++ own .newArr t.start)) else []

def CooMem.Good (t : CooMem) : Prop := 0 < t.nnz → IsBlock t.a ∧ IsBlock t.ja ∧ IsBlock t.ia ∧ IsBlock t.start

theorem CooMem.make_runs (k : Nat) (L : List (Nat × Alloc)) :
    Runs (CooMem.make k) L (fun t X => t.Good ∧ X.Perm (t.blocks ++ L)) := by
  unfold CooMem.make
  by_cases hk : 0 < k
  · rw [if_pos hk]
    refine (runs_allocate _ _).bind ?_
    rintro a _ ⟨ha, rfl⟩
    refine (runs_allocate _ _).bind ?_
    rintro ja _ ⟨hja, rfl⟩
    refine (runs_allocate _ _).bind ?_
    rintro ia _ ⟨hia, rfl⟩
    refine (runs_allocate _ _).bind ?_
    rintro st _ ⟨hst, rfl⟩
    refine Runs.pure ⟨fun _ => ⟨ha, hja, hia, hst⟩, ?_⟩
    unfold CooMem.blocks
    rw [if_pos hk]
    perm_parts
  · rw [if_neg hk]
    refine Runs.pure ⟨fun h => absurd h hk, ?_⟩
    unfold CooMem.blocks
    rw [if_neg hk]
    exact List.Perm.refl _

theorem CooMem.use_runs (t : CooMem) (L : List (Nat × Alloc)) (h : t.Good) :
    Runs t.use (t.blocks ++ L) (fun _ X => X = t.blocks ++ L) := by
  unfold CooMem.use CooMem.blocks
  by_cases hk : 0 < t.nnz
  · obtain ⟨ha, hja, hia, hst⟩ := h hk
    rw [if_pos hk, if_pos hk]
    refine (runs_touch (k := .mm) (L' := own .mm t.ja ++ (own .mm t.ia ++ (own .newArr t.start ++ L))) ha
      (by perm_parts)).bind ?_
    rintro _ _ rfl
    refine (runs_touch (k := .mm) (L' := own .mm t.a ++ (own .mm t.ia ++ (own .newArr t.start ++ L))) hja
      (by perm_parts)).bind ?_
    rintro _ _ rfl
    refine (runs_touch (k := .mm) (L' := own .mm t.a ++ (own .mm t.ja ++ (own .newArr t.start ++ L))) hia
      (by perm_parts)).bind ?_
    rintro _ _ rfl
    exact runs_touch (k := .newArr) (L' := own .mm t.a ++ (own .mm t.ja ++ (own .mm t.ia ++ L))) hst (by perm_parts)
  · rw [if_neg hk, if_neg hk]
    exact Runs.pure rfl

theorem CooMem.destroy_runs (t : CooMem) (L : List (Nat × Alloc)) (h : t.Good) :
    Runs t.destroy (t.blocks ++ L) (fun _ X => X.Perm L) := by
  unfold CooMem.destroy CooMem.blocks
  by_cases hk : 0 < t.nnz
  · obtain ⟨ha, hja, hia, hst⟩ := h hk
    rw [if_pos hk, if_pos hk]
    refine (runs_release (L' := own .mm t.ja ++ (own .mm t.ia ++ (own .newArr t.start ++ L))) ha (by perm_parts)).bind ?_
    rintro _ _ rfl
    refine (runs_release (L' := own .mm t.ia ++ (own .newArr t.start ++ L)) hja (by perm_parts)).bind ?_
    rintro _ _ rfl
    refine (runs_release (L' := own .newArr t.start ++ L) hia (by perm_parts)).bind ?_
    rintro _ _ rfl
    exact (runs_release (L' := L) hst (by perm_parts)).mono (by rintro _ _ rfl; exact List.Perm.refl _)
  · rw [if_neg hk, if_neg hk]
    exact Runs.pure (List.Perm.refl _)

theorem coo_contract : TileContract cooClass CooMem.blocks CooMem.Good (fun k => k = 0) where
  empty := ⟨fun h => absurd h (Nat.lt_irrefl 0), rfl⟩
  make k L _ := CooMem.make_runs k L
  make0 L := CooMem.make_runs 0 L
  load k L hk := by
    subst hk
    exact Runs.pure ⟨fun h => absurd h (Nat.lt_irrefl 0), List.Perm.refl _⟩
  use := CooMem.use_runs
  destroy := CooMem.destroy_runs

/-! ### COO-SIMD -/

def SimdMem.blocks (t : SimdMem) : List (Nat × Alloc) :=
  if 0 < t.nnz then
    own .mm t.a ++ (own .mm t.ja ++ (own .mm t.ia ++ (own .newArr t.start ++ own .newArr t.simd)))
  else []

def SimdMem.Good (t : SimdMem) : Prop :=
  0 < t.nnz → IsBlock t.a ∧ IsBlock t.ja ∧ IsBlock t.ia ∧ IsBlock t.start ∧ IsBlock t.simd

theorem bordersRounds_runs (k : Nat) (L : List (Nat × Alloc)) : Runs (bordersRounds k) L (fun _ X => X = L) := by
  induction k with
  | zero => exact Runs.pure rfl
  | succ k ih =>
    refine (runs_allocate _ _).bind ?_
    rintro b _ ⟨hb, rfl⟩
    refine (runs_release (L' := L) hb (List.Perm.refl _)).bind ?_
    rintro _ _ rfl
    exact ih

theorem SimdMem.make_runs (threads k : Nat) (L : List (Nat × Alloc)) :
    Runs (SimdMem.make threads k) L (fun t X => (t.nnz = k ∧ t.Good) ∧ X.Perm (t.blocks ++ L)) := by
  unfold SimdMem.make
  by_cases hk : 0 < k
  · rw [if_pos hk]
    refine (runs_allocate _ _).bind ?_
    rintro a _ ⟨ha, rfl⟩
    refine (runs_allocate _ _).bind ?_
    rintro ja _ ⟨hja, rfl⟩
    refine (runs_allocate _ _).bind ?_
    rintro ia _ ⟨hia, rfl⟩
    refine (runs_allocate _ _).bind ?_
    rintro tmp _ ⟨htmp, rfl⟩
    refine (runs_allocate _ _).bind ?_
    rintro st _ ⟨hst, rfl⟩
    refine (runs_allocate _ _).bind ?_
    rintro sm _ ⟨hsm, rfl⟩
    refine (bordersRounds_runs _ _).bind ?_
    rintro _ _ rfl
    refine (runs_release (L' := own .newArr sm ++ (own .newArr st ++ (own .mm ia ++ (own .mm ja ++ (own .mm a ++ L))))) htmp
      (by perm_parts)).bind ?_
    rintro _ _ rfl
    refine Runs.pure ⟨⟨rfl, fun _ => ⟨ha, hja, hia, hst, hsm⟩⟩, ?_⟩
    unfold SimdMem.blocks
    rw [if_pos hk]
    perm_parts
  · rw [if_neg hk]
    refine Runs.pure ⟨⟨rfl, fun h => absurd h hk⟩, ?_⟩
    unfold SimdMem.blocks
    rw [if_neg hk]
    exact List.Perm.refl _

theorem SimdMem.use_runs (t : SimdMem) (L : List (Nat × Alloc)) (h : t.Good) :
    Runs t.use (t.blocks ++ L) (fun _ X => X = t.blocks ++ L) := by
  unfold SimdMem.use SimdMem.blocks
  by_cases hk : 0 < t.nnz
  · obtain ⟨ha, hja, hia, hst, hsm⟩ := h hk
    rw [if_pos hk, if_pos hk]
    refine (runs_touch (k := .mm)
      (L' := own .mm t.ja ++ (own .mm t.ia ++ (own .newArr t.start ++ (own .newArr t.simd ++ L)))) ha
      (by perm_parts)).bind ?_
    rintro _ _ rfl
    refine (runs_touch (k := .mm)
      (L' := own .mm t.a ++ (own .mm t.ia ++ (own .newArr t.start ++ (own .newArr t.simd ++ L)))) hja
      (by perm_parts)).bind ?_
    rintro _ _ rfl
    refine (runs_touch (k := .mm)
      (L' := own .mm t.a ++ (own .mm t.ja ++ (own .newArr t.start ++ (own .newArr t.simd ++ L)))) hia
      (by perm_parts)).bind ?_
    rintro _ _ rfl
    refine (runs_touch (k := .newArr)
      (L' := own .mm t.a ++ (own .mm t.ja ++ (own .mm t.ia ++ (own .newArr t.simd ++ L)))) hst
      (by perm_parts)).bind ?_
    rintro _ _ rfl
    exact runs_touch (k := .newArr)
      (L' := own .mm t.a ++ (own .mm t.ja ++ (own .mm t.ia ++ (own .newArr t.start ++ L)))) hsm (by perm_parts)
  · rw [if_neg hk, if_neg hk]
    exact Runs.pure rfl

theorem SimdMem.destroy_runs (t : SimdMem) (L : List (Nat × Alloc)) (h : t.Good) :
    Runs t.destroy (t.blocks ++ L) (fun _ X => X.Perm L) := by
  unfold SimdMem.destroy SimdMem.blocks
  by_cases hk : 0 < t.nnz
  · obtain ⟨ha, hja, hia, hst, hsm⟩ := h hk
    rw [if_pos hk, if_pos hk]
    refine (runs_release (L' := own .mm t.ja ++ (own .mm t.ia ++ (own .newArr t.start ++ (own .newArr t.simd ++ L)))) ha
      (by perm_parts)).bind ?_
    rintro _ _ rfl
    refine (runs_release (L' := own .mm t.ia ++ (own .newArr t.start ++ (own .newArr t.simd ++ L))) hja
      (by perm_parts)).bind ?_
    rintro _ _ rfl
    refine (runs_release (L' := own .newArr t.start ++ (own .newArr t.simd ++ L)) hia (by perm_parts)).bind ?_
    rintro _ _ rfl
    refine (runs_release (L' := own .newArr t.simd ++ L) hst (by perm_parts)).bind ?_
    rintro _ _ rfl
    exact (runs_release (L' := L) hsm (by perm_parts)).mono (by rintro _ _ rfl; exact List.Perm.refl _)
  · rw [if_neg hk, if_neg hk]
    exact Runs.pure (List.Perm.refl _)

theorem simd_contract (threads : Nat) :
    TileContract (simdClass threads) SimdMem.blocks SimdMem.Good (fun k => k = 0) where
  empty := ⟨fun h => absurd h (Nat.lt_irrefl 0), rfl⟩
  make k L _ := (SimdMem.make_runs threads k L).mono (fun _ _ h => ⟨h.1.2, h.2⟩)
  make0 L := (SimdMem.make_runs threads 0 L).mono (fun _ _ h => ⟨h.1.2, h.2⟩)
  load k L hk := by
    subst hk
    exact Runs.pure ⟨fun h => absurd h (Nat.lt_irrefl 0), List.Perm.refl _⟩
  use := SimdMem.use_runs
  destroy := SimdMem.destroy_runs

/-! ### DCSR -/

def DcsrMem.blocks (t : DcsrMem) : List (Nat × Alloc) :=
  if 0 < t.nnz then
    own .mm t.a ++ (own .mm t.ja ++ (own .mm t.ia ++ (own .mm t.rows ++ own .newArr t.parts)))
  else []

def DcsrMem.Good (t : DcsrMem) : Prop :=
  0 < t.nnz → IsBlock t.a ∧ IsBlock t.ja ∧ IsBlock t.ia ∧ IsBlock t.rows ∧ IsBlock t.parts

theorem DcsrMem.make_runs (k : Nat) (L : List (Nat × Alloc)) :
    Runs (DcsrMem.make k) L (fun t X => (t.nnz = k ∧ t.Good) ∧ X.Perm (t.blocks ++ L)) := by
  unfold DcsrMem.make
  by_cases hk : 0 < k
  · rw [if_pos hk]
    refine (runs_allocate _ _).bind ?_
    rintro tmp _ ⟨htmp, rfl⟩
    refine (runs_allocate _ _).bind ?_
    rintro rows _ ⟨hrows, rfl⟩
    refine (runs_allocate _ _).bind ?_
    rintro ia _ ⟨hia, rfl⟩
    refine (runs_release (L' := own .mm ia ++ (own .mm rows ++ L)) htmp (by perm_parts)).bind ?_
    rintro _ _ rfl
    refine (runs_allocate _ _).bind ?_
    rintro parts _ ⟨hparts, rfl⟩
    refine (runs_allocate _ _).bind ?_
    rintro ja _ ⟨hja, rfl⟩
    refine (runs_allocate _ _).bind ?_
    rintro a _ ⟨ha, rfl⟩
    refine Runs.pure ⟨⟨rfl, fun _ => ⟨ha, hja, hia, hrows, hparts⟩⟩, ?_⟩
    unfold DcsrMem.blocks
    rw [if_pos hk]
    perm_parts
  · rw [if_neg hk]
    refine Runs.pure ⟨⟨rfl, fun h => absurd h hk⟩, ?_⟩
    unfold DcsrMem.blocks
    rw [if_neg hk]
    exact List.Perm.refl _

theorem DcsrMem.use_runs (t : DcsrMem) (L : List (Nat × Alloc)) (h : t.Good) :
    Runs t.use (t.blocks ++ L) (fun _ X => X = t.blocks ++ L) := by
  unfold DcsrMem.use DcsrMem.blocks
  by_cases hk : 0 < t.nnz
  · obtain ⟨ha, hja, hia, hst, hsm⟩ := h hk
    rw [if_pos hk, if_pos hk]
    refine (runs_touch (k := .mm)
      (L' := own .mm t.ja ++ (own .mm t.ia ++ (own .mm t.rows ++ (own .newArr t.parts ++ L)))) ha
      (by perm_parts)).bind ?_
    rintro _ _ rfl
    refine (runs_touch (k := .mm)
      (L' := own .mm t.a ++ (own .mm t.ia ++ (own .mm t.rows ++ (own .newArr t.parts ++ L)))) hja
      (by perm_parts)).bind ?_
    rintro _ _ rfl
    refine (runs_touch (k := .mm)
      (L' := own .mm t.a ++ (own .mm t.ja ++ (own .mm t.rows ++ (own .newArr t.parts ++ L)))) hia
      (by perm_parts)).bind ?_
    rintro _ _ rfl
    refine (runs_touch (k := .mm)
      (L' := own .mm t.a ++ (own .mm t.ja ++ (own .mm t.ia ++ (own .newArr t.parts ++ L)))) hst
      (by perm_parts)).bind ?_
    rintro _ _ rfl
    exact runs_touch (k := .newArr)
      (L' := own .mm t.a ++ (own .mm t.ja ++ (own .mm t.ia ++ (own .mm t.rows ++ L)))) hsm (by perm_parts)
  · rw [if_neg hk, if_neg hk]
    exact Runs.pure rfl

theorem DcsrMem.destroy_runs (t : DcsrMem) (L : List (Nat × Alloc)) (h : t.Good) :
    Runs t.destroy (t.blocks ++ L) (fun _ X => X.Perm L) := by
  unfold DcsrMem.destroy DcsrMem.blocks
  by_cases hk : 0 < t.nnz
  · obtain ⟨ha, hja, hia, hst, hsm⟩ := h hk
    rw [if_pos hk, if_pos hk]
    refine (runs_release (L' := own .mm t.ja ++ (own .mm t.ia ++ (own .mm t.rows ++ (own .newArr t.parts ++ L)))) ha
      (by perm_parts)).bind ?_
    rintro _ _ rfl
    refine (runs_release (L' := own .mm t.ia ++ (own .mm t.rows ++ (own .newArr t.parts ++ L))) hja
      (by perm_parts)).bind ?_
    rintro _ _ rfl
    refine (runs_release (L' := own .mm t.rows ++ (own .newArr t.parts ++ L)) hia (by perm_parts)).bind ?_
    rintro _ _ rfl
    refine (runs_release (L' := own .newArr t.parts ++ L) hst (by perm_parts)).bind ?_
    rintro _ _ rfl
    exact (runs_release (L' := L) hsm (by perm_parts)).mono (by rintro _ _ rfl; exact List.Perm.refl _)
  · rw [if_neg hk, if_neg hk]
    exact Runs.pure (List.Perm.refl _)

theorem dcsr_contract : TileContract dcsrClass DcsrMem.blocks DcsrMem.Good (fun k => k = 0) where
  empty := ⟨fun h => absurd h (Nat.lt_irrefl 0), rfl⟩
  make k L _ := (DcsrMem.make_runs k L).mono (fun _ _ h => ⟨h.1.2, h.2⟩)
  make0 L := (DcsrMem.make_runs 0 L).mono (fun _ _ h => ⟨h.1.2, h.2⟩)
  load k L hk := by
    subst hk
    exact Runs.pure ⟨fun h => absurd h (Nat.lt_irrefl 0), List.Perm.refl _⟩
  use := DcsrMem.use_runs
  destroy := DcsrMem.destroy_runs

/-! ### DCSC -/

def DcscMem.blocks (t : DcscMem) : List (Nat × Alloc) :=
  if 0 < t.nnz then
    own .mm t.rowInds ++ (own .mm t.colPtrs ++ (own .mm t.colIndices ++ (own .mm t.vals ++
      (own .mm t.rowPointers ++ (own .mm t.edgePointers ++ own .mm t.colStarts)))))
  else []

def DcscMem.Good (t : DcscMem) : Prop :=
  0 < t.nnz → IsBlock t.rowInds ∧ IsBlock t.colPtrs ∧ IsBlock t.colIndices ∧ IsBlock t.vals ∧ IsBlock t.rowPointers ∧
    IsBlock t.edgePointers ∧ IsBlock t.colStarts

theorem DcscMem.make_runs (k : Nat) (L : List (Nat × Alloc)) :
    Runs (DcscMem.make k) L (fun t X => t.Good ∧ X.Perm (t.blocks ++ L)) := by
  unfold DcscMem.make
  by_cases hk : 0 < k
  · rw [if_pos hk]
    refine (runs_allocate _ _).bind ?_
    rintro rp _ ⟨hrp, rfl⟩
    refine (runs_allocate _ _).bind ?_
    rintro pe _ ⟨hpe, rfl⟩
    refine (runs_allocate _ _).bind ?_
    rintro ep _ ⟨hep, rfl⟩
    refine (runs_allocate _ _).bind ?_
    rintro nc _ ⟨hnc, rfl⟩
    refine (runs_allocate _ _).bind ?_
    rintro cs _ ⟨hcs, rfl⟩
    refine (runs_allocate _ _).bind ?_
    rintro vs _ ⟨hvs, rfl⟩
    refine (runs_allocate _ _).bind ?_
    rintro ri _ ⟨hri, rfl⟩
    refine (runs_allocate _ _).bind ?_
    rintro ci _ ⟨hci, rfl⟩
    refine (runs_allocate _ _).bind ?_
    rintro cp _ ⟨hcp, rfl⟩
    refine (runs_release (L' := own .mm cp ++ (own .mm ci ++ (own .mm ri ++ (own .mm vs ++ (own .mm cs ++ (own .mm nc ++
      (own .mm ep ++ (own .mm rp ++ L)))))))) hpe (by perm_parts)).bind ?_
    rintro _ _ rfl
    refine (runs_release (L' := own .mm cp ++ (own .mm ci ++ (own .mm ri ++ (own .mm vs ++ (own .mm cs ++
      (own .mm ep ++ (own .mm rp ++ L))))))) hnc (by perm_parts)).bind ?_
    rintro _ _ rfl
    refine Runs.pure ⟨fun _ => ⟨hri, hcp, hci, hvs, hrp, hep, hcs⟩, ?_⟩
    unfold DcscMem.blocks
    rw [if_pos hk]
    perm_parts
  · rw [if_neg hk]
    refine Runs.pure ⟨fun h => absurd h hk, ?_⟩
    unfold DcscMem.blocks
    rw [if_neg hk]
    exact List.Perm.refl _

theorem DcscMem.load_runs (k : Nat) (t : DcscMem) (L : List (Nat × Alloc)) :
    Runs (DcscMem.load k t) L (fun t X => t.Good ∧ X.Perm (t.blocks ++ L)) := by
  unfold DcscMem.load
  by_cases hk : 0 < k
  · rw [if_pos hk]
    refine (runs_allocate _ _).bind ?_
    rintro vs _ ⟨hvs, rfl⟩
    refine (runs_allocate _ _).bind ?_
    rintro ri _ ⟨hri, rfl⟩
    refine (runs_allocate _ _).bind ?_
    rintro rp _ ⟨hrp, rfl⟩
    refine (runs_allocate _ _).bind ?_
    rintro ep _ ⟨hep, rfl⟩
    refine (runs_allocate _ _).bind ?_
    rintro cs _ ⟨hcs, rfl⟩
    refine (runs_allocate _ _).bind ?_
    rintro cp _ ⟨hcp, rfl⟩
    refine (runs_allocate _ _).bind ?_
    rintro ci _ ⟨hci, rfl⟩
    refine Runs.pure ⟨fun _ => ⟨hri, hcp, hci, hvs, hrp, hep, hcs⟩, ?_⟩
    unfold DcscMem.blocks
    rw [if_pos hk]
    perm_parts
  · rw [if_neg hk]
    refine Runs.pure ⟨fun h => absurd h hk, ?_⟩
    unfold DcscMem.blocks
    rw [if_neg hk]
    exact List.Perm.refl _

/-- following a pointer whose block is among the blocks of the heap -/
theorem runs_touch_mem {k : Alloc} {p : Ptr} {L : List (Nat × Alloc)} (hp : IsBlock p) (hL : ∀ x ∈ own k p, x ∈ L) :
    Runs (touch p) L (fun _ X => X = L) := by
  obtain ⟨b, rfl⟩ := hp
  intro h hh
  have hm : (b, k) ∈ h.live := hh.2.mem_iff.2 (hL _ (by simp [own]))
  refine ⟨(), h, L, ?_, hh, rfl⟩
  show (if b ∈ h.live.map Prod.fst then _ else none) = _
  rw [if_pos (List.mem_map.2 ⟨_, hm, rfl⟩)]

theorem DcscMem.use_runs (t : DcscMem) (L : List (Nat × Alloc)) (h : t.Good) :
    Runs t.use (t.blocks ++ L) (fun _ X => X = t.blocks ++ L) := by
  unfold DcscMem.use DcscMem.blocks
  by_cases hk : 0 < t.nnz
  · obtain ⟨hri, hcp, hci, hvs, hrp, hep, hcs⟩ := h hk
    rw [if_pos hk, if_pos hk]
    refine (runs_touch_mem (k := .mm) hvs (fun x hx => by simp only [List.mem_append]; tauto)).bind ?_
    rintro _ _ rfl
    refine (runs_touch_mem (k := .mm) hri (fun x hx => by simp only [List.mem_append]; tauto)).bind ?_
    rintro _ _ rfl
    refine (runs_touch_mem (k := .mm) hcp (fun x hx => by simp only [List.mem_append]; tauto)).bind ?_
    rintro _ _ rfl
    refine (runs_touch_mem (k := .mm) hci (fun x hx => by simp only [List.mem_append]; tauto)).bind ?_
    rintro _ _ rfl
    refine (runs_touch_mem (k := .mm) hrp (fun x hx => by simp only [List.mem_append]; tauto)).bind ?_
    rintro _ _ rfl
    refine (runs_touch_mem (k := .mm) hep (fun x hx => by simp only [List.mem_append]; tauto)).bind ?_
    rintro _ _ rfl
    exact runs_touch_mem (k := .mm) hcs (fun x hx => by simp only [List.mem_append]; tauto)
  · rw [if_neg hk, if_neg hk]
    exact Runs.pure rfl

theorem DcscMem.destroy_runs (t : DcscMem) (L : List (Nat × Alloc)) (h : t.Good) :
    Runs t.destroy (t.blocks ++ L) (fun _ X => X.Perm L) := by
  unfold DcscMem.destroy DcscMem.blocks
  by_cases hk : 0 < t.nnz
  · obtain ⟨hri, hcp, hci, hvs, hrp, hep, hcs⟩ := h hk
    rw [if_pos hk, if_pos hk]
    refine (runs_release (L' := own .mm t.colPtrs ++ (own .mm t.colIndices ++ (own .mm t.vals ++
      (own .mm t.rowPointers ++ (own .mm t.edgePointers ++ (own .mm t.colStarts ++ L)))))) hri (by perm_parts)).bind ?_
    rintro _ _ rfl
    refine (runs_release (L' := own .mm t.colIndices ++ (own .mm t.vals ++
      (own .mm t.rowPointers ++ (own .mm t.edgePointers ++ (own .mm t.colStarts ++ L))))) hcp (by perm_parts)).bind ?_
    rintro _ _ rfl
    refine (runs_release (L' := own .mm t.vals ++
      (own .mm t.rowPointers ++ (own .mm t.edgePointers ++ (own .mm t.colStarts ++ L)))) hci (by perm_parts)).bind ?_
    rintro _ _ rfl
    refine (runs_release (L' := own .mm t.rowPointers ++ (own .mm t.edgePointers ++ (own .mm t.colStarts ++ L))) hvs
      (by perm_parts)).bind ?_
    rintro _ _ rfl
    refine (runs_release (L' := own .mm t.edgePointers ++ (own .mm t.colStarts ++ L)) hrp (by perm_parts)).bind ?_
    rintro _ _ rfl
    refine (runs_release (L' := own .mm t.colStarts ++ L) hep (by perm_parts)).bind ?_
    rintro _ _ rfl
    exact (runs_release (L' := L) hcs (by perm_parts)).mono (by rintro _ _ rfl; exact List.Perm.refl _)
  · rw [if_neg hk, if_neg hk]
    exact Runs.pure (List.Perm.refl _)

theorem dcsc_contract : TileContract dcscClass DcscMem.blocks DcscMem.Good (fun _ => True) where
  empty := ⟨fun h => absurd h (Nat.lt_irrefl 0), rfl⟩
  make k L _ := DcscMem.make_runs k L
  make0 L := DcscMem.make_runs 0 L
  load k L _ := DcscMem.load_runs k _ L
  use := DcscMem.use_runs
  destroy := DcscMem.destroy_runs

end GraphMat

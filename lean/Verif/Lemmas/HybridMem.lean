import Verif.Lemmas.MatMem

namespace GraphMat

/-- the pointer points to one of the blocks -/
def LiveIn (p : Ptr) (K : List (Nat × Alloc)) : Prop := ∃ b k, p = .block b ∧ (b, k) ∈ K

theorem LiveIn.of_own {k : Alloc} {p : Ptr} {K : List (Nat × Alloc)} (hp : IsBlock p) (hK : ∀ x ∈ own k p, x ∈ K) :
    LiveIn p K := by
  obtain ⟨b, rfl⟩ := hp
  exact ⟨b, k, rfl, hK _ (by simp [own])⟩

theorem LiveIn.mono {p : Ptr} {K K' : List (Nat × Alloc)} (h : LiveIn p K) (hK : ∀ x ∈ K, x ∈ K') : LiveIn p K' := by
  obtain ⟨b, k, e, hm⟩ := h
  exact ⟨b, k, e, hK _ hm⟩

theorem LiveIn.touch {p : Ptr} {L : List (Nat × Alloc)} (h : LiveIn p L) : Runs (touch p) L (fun _ X => X = L) := by
  obtain ⟨b, k, rfl, hm⟩ := h
  refine runs_touch_mem (k := k) ⟨b, rfl⟩ ?_
  intro x hx
  simp only [own, List.mem_singleton] at hx
  rw [hx]
  exact hm

theorem own_length {k : Alloc} {p : Ptr} (hp : IsBlock p) : (own k p).length = 1 := by
  obtain ⟨b, rfl⟩ := hp
  rfl

def DcsrMem.Live (t : DcsrMem) (K : List (Nat × Alloc)) : Prop :=
  0 < t.nnz → LiveIn t.a K ∧ LiveIn t.ja K ∧ LiveIn t.ia K ∧ LiveIn t.rows K ∧ LiveIn t.parts K

def SimdMem.Live (t : SimdMem) (K : List (Nat × Alloc)) : Prop :=
  0 < t.nnz → LiveIn t.a K ∧ LiveIn t.ja K ∧ LiveIn t.ia K ∧ LiveIn t.start K ∧ LiveIn t.simd K

/-- all blocks a hybrid tile needs are there -/
def HybridMem.Live (t : HybridMem) (K : List (Nat × Alloc)) : Prop :=
  0 < t.nnz → LiveIn t.t1 K ∧ t.dcsr.Live K ∧ LiveIn t.t2 K ∧ t.simd.Live K

theorem DcsrMem.Live.mono {t : DcsrMem} {K K' : List (Nat × Alloc)} (h : t.Live K) (hK : ∀ x ∈ K, x ∈ K') : t.Live K' :=
  fun hn => let ⟨a, b, c, d, e⟩ := h hn; ⟨a.mono hK, b.mono hK, c.mono hK, d.mono hK, e.mono hK⟩

theorem SimdMem.Live.mono {t : SimdMem} {K K' : List (Nat × Alloc)} (h : t.Live K) (hK : ∀ x ∈ K, x ∈ K') : t.Live K' :=
  fun hn => let ⟨a, b, c, d, e⟩ := h hn; ⟨a.mono hK, b.mono hK, c.mono hK, d.mono hK, e.mono hK⟩

theorem HybridMem.Live.mono {t : HybridMem} {K K' : List (Nat × Alloc)} (h : t.Live K) (hK : ∀ x ∈ K, x ∈ K') :
    t.Live K' := fun hn => let ⟨a, b, c, d⟩ := h hn; ⟨a.mono hK, b.mono hK, c.mono hK, d.mono hK⟩

theorem DcsrMem.Good.live {t : DcsrMem} (h : t.Good) : t.Live t.blocks := by
  intro hn
  obtain ⟨a, b, c, d, e⟩ := h hn
  unfold DcsrMem.blocks
  rw [if_pos hn]
  refine ⟨.of_own (k := .mm) a ?_, .of_own (k := .mm) b ?_, .of_own (k := .mm) c ?_, .of_own (k := .mm) d ?_,
    .of_own (k := .newArr) e ?_⟩ <;> (intro x hx; simp only [List.mem_append]; tauto)

theorem SimdMem.Good.live {t : SimdMem} (h : t.Good) : t.Live t.blocks := by
  intro hn
  obtain ⟨a, b, c, d, e⟩ := h hn
  unfold SimdMem.blocks
  rw [if_pos hn]
  refine ⟨.of_own (k := .mm) a ?_, .of_own (k := .mm) b ?_, .of_own (k := .mm) c ?_, .of_own (k := .newArr) d ?_,
    .of_own (k := .newArr) e ?_⟩ <;> (intro x hx; simp only [List.mem_append]; tauto)

theorem DcsrMem.Good.length {t : DcsrMem} (h : t.Good) : t.blocks.length = if 0 < t.nnz then 5 else 0 := by
  unfold DcsrMem.blocks
  split
  · rename_i hn
    obtain ⟨a, b, c, d, e⟩ := h hn
    simp only [List.length_append, own_length a, own_length b, own_length c, own_length d, own_length e]
  · rfl

theorem SimdMem.Good.length {t : SimdMem} (h : t.Good) : t.blocks.length = if 0 < t.nnz then 5 else 0 := by
  unfold SimdMem.blocks
  split
  · rename_i hn
    obtain ⟨a, b, c, d, e⟩ := h hn
    simp only [List.length_append, own_length a, own_length b, own_length c, own_length d, own_length e]
  · rfl

theorem DcsrMem.use_live (t : DcsrMem) (L : List (Nat × Alloc)) (h : t.Live L) : Runs t.use L (fun _ X => X = L) := by
  unfold DcsrMem.use
  split
  · rename_i hn
    obtain ⟨a, b, c, d, e⟩ := h hn
    refine a.touch.bind ?_
    rintro _ _ rfl
    refine b.touch.bind ?_
    rintro _ _ rfl
    refine c.touch.bind ?_
    rintro _ _ rfl
    refine d.touch.bind ?_
    rintro _ _ rfl
    exact e.touch
  · exact Runs.pure rfl

theorem SimdMem.use_live (t : SimdMem) (L : List (Nat × Alloc)) (h : t.Live L) : Runs t.use L (fun _ X => X = L) := by
  unfold SimdMem.use
  split
  · rename_i hn
    obtain ⟨a, b, c, d, e⟩ := h hn
    refine a.touch.bind ?_
    rintro _ _ rfl
    refine b.touch.bind ?_
    rintro _ _ rfl
    refine c.touch.bind ?_
    rintro _ _ rfl
    refine d.touch.bind ?_
    rintro _ _ rfl
    exact e.touch
  · exact Runs.pure rfl

theorem HybridMem.use_live (t : HybridMem) (L : List (Nat × Alloc)) (h : t.Live L) : Runs t.use L (fun _ X => X = L) := by
  unfold HybridMem.use
  split
  · rename_i hn
    obtain ⟨a, b, c, d⟩ := h hn
    refine a.touch.bind ?_
    rintro _ _ rfl
    refine (t.dcsr.use_live _ b).bind ?_
    rintro _ _ rfl
    refine c.touch.bind ?_
    rintro _ _ rfl
    exact t.simd.use_live _ d
  · exact Runs.pure rfl

theorem HybridMem.make_runs (threads : Nat) (large : Nat → Nat) (n : Nat) (hn : 0 < n) (L : List (Nat × Alloc)) :
    Runs (HybridMem.make threads large n) L
      (fun t X => ∃ K, X.Perm (K ++ L) ∧ K.length = hybridCost n (large n) ∧ t.Live K) := by
  unfold HybridMem.make
  refine (runs_allocate _ _).bind ?_
  rintro tmp _ ⟨htmp, rfl⟩
  refine (CsrMem.make_runs n _).bind ?_
  rintro csr X ⟨⟨hc, hcsr⟩, hX⟩
  refine ((runs_allocate _ _).perm hX).bind ?_
  rintro gte _ ⟨hgte, rfl⟩
  refine (runs_allocate _ _).bind ?_
  rintro lt _ ⟨hlt, rfl⟩
  have hia := (hcsr (by omega)).2.2
  refine (runs_touch_mem (k := .mm) hia ?_).bind ?_
  · intro x hx
    unfold CsrMem.blocks
    rw [if_pos (by omega)]
    simp only [List.mem_append]
    tauto
  rintro _ _ rfl
  refine (runs_allocate _ _).bind ?_
  rintro eg _ ⟨heg, rfl⟩
  refine (runs_allocate _ _).bind ?_
  rintro el _ ⟨hel, rfl⟩
  refine ((csr.destroy_runs (own .mm el ++ (own .mm eg ++ (own .newArr lt ++ (own .newArr gte ++ (own .newObj tmp ++ L)))))
    hcsr).perm (by perm_parts)).bind ?_
  intro _ X hX
  refine ((runs_release (L' := own .mm el ++ (own .mm eg ++ (own .newArr lt ++ (own .newArr gte ++ L)))) htmp
    (by perm_parts)).perm hX).bind ?_
  rintro _ _ rfl
  refine (runs_allocate _ _).bind ?_
  rintro t1 _ ⟨ht1, rfl⟩
  refine (DcsrMem.make_runs (large n) _).bind ?_
  rintro dcsr X1 ⟨⟨hd, hdcsr⟩, hX1⟩
  refine (runs_allocate _ _).bind ?_
  rintro t2 _ ⟨ht2, rfl⟩
  refine (SimdMem.make_runs threads (n - large n) _).bind ?_
  rintro simd X2 ⟨⟨hs, hsimd⟩, hX2⟩
  have hall : X2.Perm ((own .newObj t1 ++ (dcsr.blocks ++ (own .newObj t2 ++ simd.blocks))) ++
      (own .mm el ++ (own .mm eg ++ (own .newArr lt ++ (own .newArr gte ++ L))))) := by
    refine hX2.trans (((hX1.append_left (own .newObj t2)).append_left simd.blocks).trans ?_)
    perm_parts
  generalize hK : own .newObj t1 ++ (dcsr.blocks ++ (own .newObj t2 ++ simd.blocks)) = K at hall
  refine ((runs_release (L' := K ++ (own .mm el ++ (own .newArr lt ++ (own .newArr gte ++ L)))) heg
    (by perm_parts)).perm hall).bind ?_
  rintro _ _ rfl
  refine (runs_release (L' := K ++ (own .newArr lt ++ (own .newArr gte ++ L))) hel (by perm_parts)).bind ?_
  rintro _ _ rfl
  refine (runs_release (L' := K ++ (own .newArr lt ++ L)) hgte (by perm_parts)).bind ?_
  rintro _ _ rfl
  refine (runs_release (L' := K ++ L) hlt (by perm_parts)).bind ?_
  rintro _ _ rfl
  refine Runs.pure ⟨K, List.Perm.refl _, ?_, ?_⟩
  · rw [← hK]
    simp only [List.length_append, own_length ht1, own_length ht2, hdcsr.length, hsimd.length, hd, hs]
    unfold hybridCost
    rw [if_pos hn]
    omega
  · intro _
    rw [← hK]
    refine ⟨.of_own (k := .newObj) ht1 ?_, hdcsr.live.mono ?_, .of_own (k := .newObj) ht2 ?_, hsimd.live.mono ?_⟩ <;>
      (intro x hx; simp only [List.mem_append]; tauto)

theorem HybridMem.load_runs (large : Nat → Nat) (n : Nat) (hl : large n = 0) (t : HybridMem) (L : List (Nat × Alloc)) :
    Runs (HybridMem.load large n t) L
      (fun t X => ∃ K, X.Perm (K ++ L) ∧ K.length = hybridCost n (large n) ∧ t.Live K) := by
  unfold HybridMem.load
  by_cases hn : 0 < n
  · rw [if_pos hn, hl]
    refine (runs_allocate _ _).bind ?_
    rintro t1 _ ⟨ht1, rfl⟩
    refine Runs.bind (Q := fun d X => d.nnz = 0 ∧ X = own .newObj t1 ++ L) (Runs.pure ⟨rfl, rfl⟩) ?_
    rintro d _ ⟨hd, rfl⟩
    refine (runs_allocate _ _).bind ?_
    rintro t2 _ ⟨ht2, rfl⟩
    refine Runs.bind (Q := fun (s : SimdMem) X => ∃ B : List (Nat × Alloc), B.length = 5 ∧ s.Live B ∧
      X.Perm (B ++ (own .newObj t2 ++ (own .newObj t1 ++ L)))) ?_ ?_
    · unfold SimdMem.load
      rw [if_pos (by omega)]
      refine (runs_allocate _ _).bind ?_
      rintro a _ ⟨ha, rfl⟩
      refine (runs_allocate _ _).bind ?_
      rintro ja _ ⟨hja, rfl⟩
      refine (runs_allocate _ _).bind ?_
      rintro ia _ ⟨hia, rfl⟩
      refine (runs_allocate _ _).bind ?_
      rintro st _ ⟨hst, rfl⟩
      refine (runs_allocate _ _).bind ?_
      rintro sm _ ⟨hsm, rfl⟩
      refine Runs.pure ⟨own .mm sm ++ (own .mm st ++ (own .mm ia ++ (own .mm ja ++ own .mm a))), ?_, ?_, by perm_parts⟩
      · simp only [List.length_append, own_length ha, own_length hja, own_length hia, own_length hst, own_length hsm]
      · intro _
        refine ⟨.of_own (k := .mm) ha ?_, .of_own (k := .mm) hja ?_, .of_own (k := .mm) hia ?_, .of_own (k := .mm) hst ?_,
          .of_own (k := .mm) hsm ?_⟩ <;> (intro x hx; simp only [List.mem_append]; tauto)
    · rintro s X ⟨B, hB, hs, hX⟩
      refine Runs.pure ⟨own .newObj t1 ++ (own .newObj t2 ++ B), hX.trans (by perm_parts), ?_, ?_⟩
      · simp only [List.length_append, own_length ht1, own_length ht2, hB]
        unfold hybridCost
        rw [if_pos hn, if_neg (by omega), if_pos (by omega)]
      · intro _
        refine ⟨.of_own (k := .newObj) ht1 ?_, fun h => absurd h (by dsimp only; omega), .of_own (k := .newObj) ht2 ?_,
          hs.mono ?_⟩ <;> (intro x hx; simp only [List.mem_append]; tauto)
  · rw [if_neg hn]
    refine Runs.pure ⟨[], List.Perm.refl _, ?_, fun h => absurd h hn⟩
    unfold hybridCost
    rw [if_neg hn]
    rfl

theorem hybrid_steps (threads : Nat) (large : Nat → Nat) (ops : List TileOp) (hop : ∀ op ∈ ops, HybridOk large op) :
    ∀ (ts : List HybridMem) (K L : List (Nat × Alloc)), (∀ t ∈ ts, t.Live K) →
      Runs (runTileOps (hybridClass threads large) ops ts) (K ++ L)
        (fun _ X => ∃ K', X.Perm (K' ++ L) ∧ K'.length = K.length + (ops.map (hybridLeak large)).sum) := by
  induction ops with
  | nil => exact fun ts K L hts => Runs.pure ⟨K, List.Perm.refl _, rfl⟩
  | cons op ops ih =>
    intro ts K L hts
    have ih := ih (fun o ho => hop o (List.mem_cons_of_mem _ ho))
    have hthis := hop op List.mem_cons_self
    refine Runs.bind (Q := fun ts' X => ∃ K', X.Perm (K' ++ L) ∧ K'.length = K.length + hybridLeak large op ∧
      ∀ t ∈ ts', HybridMem.Live t K') ?_ ?_
    · have hnew : ∀ (p : HeapM HybridMem) (c : Nat), Runs p (K ++ L)
          (fun t X => ∃ B, X.Perm (B ++ (K ++ L)) ∧ B.length = c ∧ t.Live B) →
          Runs (p >>= fun t => pure (t :: ts)) (K ++ L)
            (fun ts' X => ∃ K', X.Perm (K' ++ L) ∧ K'.length = K.length + c ∧ ∀ t ∈ ts', HybridMem.Live t K') := by
        intro p c hp
        refine hp.bind ?_
        rintro t X ⟨B, hX, hB, ht⟩
        refine Runs.pure ⟨B ++ K, hX.trans (by perm_parts), by rw [List.length_append]; omega, ?_⟩
        intro u hu
        rcases List.mem_cons.1 hu with rfl | hu
        · exact ht.mono (fun x hx => List.mem_append_left _ hx)
        · exact (hts u hu).mono (fun x hx => List.mem_append_right _ hx)
      cases op with
      | empty =>
        refine Runs.pure ⟨K, List.Perm.refl _, rfl, ?_⟩
        intro u hu
        rcases List.mem_cons.1 hu with rfl | hu
        · exact fun h => absurd h (Nat.lt_irrefl 0)
        · exact hts u hu
      | make n => exact hnew _ _ (HybridMem.make_runs threads large n hthis _)
      | restore n => exact hnew _ _ (HybridMem.load_runs large n hthis _ _)
      | use i =>
        cases hi : ts[i]? with
        | none =>
          simp only [TileOp.run, hi]
          exact Runs.pure ⟨K, List.Perm.refl _, rfl, hts⟩
        | some t =>
          simp only [TileOp.run, hi]
          refine (t.use_live _ ((hts t (List.mem_of_getElem? hi)).mono (fun x hx => List.mem_append_left _ hx))).bind ?_
          rintro _ _ rfl
          exact Runs.pure ⟨K, List.Perm.refl _, rfl, hts⟩
      | destroy i =>
        cases hi : ts[i]? with
        | none =>
          simp only [TileOp.run, hi]
          exact Runs.pure ⟨K, List.Perm.refl _, rfl, hts⟩
        | some t =>
          simp only [TileOp.run, hi]
          refine Runs.bind (Q := fun _ X => X = K ++ L) (Runs.pure rfl) ?_
          rintro _ _ rfl
          exact Runs.pure ⟨K, List.Perm.refl _, rfl, fun u hu => hts u (List.mem_of_mem_eraseIdx hu)⟩
    · rintro ts' X ⟨K', hX, hK', hts'⟩
      refine ((ih ts' K' L hts').perm hX).mono ?_
      rintro _ Y ⟨K'', hY, hK''⟩
      refine ⟨K'', hY, ?_⟩
      rw [hK'', hK', List.map_cons, List.sum_cons]
      omega

theorem hybrid_destroyAll (threads : Nat) (large : Nat → Nat) (L : List (Nat × Alloc)) :
    ∀ ts : List HybridMem, Runs (destroyAll (hybridClass threads large) ts) L (fun _ X => X = L) := by
  intro ts
  induction ts with
  | nil => exact Runs.pure rfl
  | cons t ts ih =>
    refine Runs.bind (Q := fun _ X => X = L) (Runs.pure rfl) ?_
    rintro _ _ rfl
    exact ih

end GraphMat

import Verif.Lemmas.HybridMem

/-!
# C61: tiles and matrices release their memory exactly once
-/
namespace GraphMat

/-! ### Formats that keep the rule -/

/-- CSR tiles: however many tiles are created without edges, from edges or from archives, used and destroyed, in any order,
nothing is followed or released that is not live, everything is released with the function that belongs to its allocation,
and at the end nothing is left. -/
theorem csr_memory (ops : List TileOp) : Balanced (tileLives csrClass ops) :=
  csr_contract.lives ops (fun op _ => by cases op <;> trivial)

/-- DCSC tiles (the format of the library's own matrices): the same. -/
theorem dcsc_memory (ops : List TileOp) : Balanced (tileLives dcscClass ops) :=
  dcsc_contract.lives ops (fun op _ => by cases op <;> trivial)

/-- three tiles, one of them without edges, one from an archive -/
example : Balanced (tileLives dcscClass [.make 5, .empty, .use 1, .restore 7, .destroy 2, .use 0, .make 0]) := dcsc_memory _
/-- while they exist there are blocks: the statement is not about programs that allocate nothing -/
example : ((runTileOps dcscClass [.make 5, .empty, .restore 7] []) ⟨0, []⟩).map (fun x => x.2.live.length) = some 14 := by
  decide +kernel
example : ((tileLives csrClass [.make 5, .empty, .use 1, .restore 7, .destroy 2]) ⟨0, []⟩).map (fun x => x.2.live.length) =
    some 0 := by decide +kernel

/-! ### Formats that break it for archives -/

/-- COO tiles, as long as no archive of a tile with edges is loaded; with such archives it is false, `coo_restored`. -/
theorem coo_memory_partial (ops : List TileOp) (hops : ∀ k, .restore k ∈ ops → k = 0) : Balanced (tileLives cooClass ops) :=
  coo_contract.lives ops (fun op hop => by
    cases op with
    | restore k => exact hops k hop
    | _ => trivial)

/-- COO-SIMD tiles, with the same restriction. -/
theorem coosimd_memory_partial (threads : Nat) (ops : List TileOp) (hops : ∀ k, .restore k ∈ ops → k = 0) :
    Balanced (tileLives (simdClass threads) ops) :=
  (simd_contract threads).lives ops (fun op hop => by
    cases op with
    | restore k => exact hops k hop
    | _ => trivial)

/-- DCSR tiles, with the same restriction. -/
theorem dcsr_memory_partial (ops : List TileOp) (hops : ∀ k, .restore k ∈ ops → k = 0) : Balanced (tileLives dcsrClass ops) :=
  dcsr_contract.lives ops (fun op hop => by
    cases op with
    | restore k => exact hops k hop
    | _ => trivial)

example : Balanced (tileLives (simdClass 4) [.make 40, .restore 0, .use 1, .empty, .destroy 0]) :=
  coosimd_memory_partial 4 _ (by simp)
example : Balanced (tileLives cooClass [.make 40, .restore 0, .use 1, .empty, .destroy 0]) := coo_memory_partial _ (by simp)
example : Balanced (tileLives dcsrClass [.make 40, .restore 0, .use 1, .empty, .destroy 0]) := dcsr_memory_partial _ (by simp)

/-- A COO tile with edges loaded from an archive cannot be destroyed: `partition_start` comes from `_mm_malloc` and is released
with `delete []`. -/
theorem coo_restored (n : Nat) (hn : 0 < n) (h : Heap) (hh : h.Ok) : tileLives cooClass [.restore n] h = none := by
  refine (?_ : Fails (tileLives cooClass [.restore n]) h.live) h ⟨hh, List.Perm.refl _⟩
  refine Runs.fails (Q := fun ts X => ∃ t, ts = [t] ∧ 0 < t.nnz ∧ IsBlock t.a ∧ IsBlock t.ja ∧ IsBlock t.ia ∧
    IsBlock t.start ∧ X = own .mm t.start ++ (own .mm t.ia ++ (own .mm t.ja ++ (own .mm t.a ++ h.live)))) ?_ ?_
  · refine Runs.bind (Q := fun ts X => ∃ t : CooMem, ts = [t] ∧ 0 < t.nnz ∧ IsBlock t.a ∧ IsBlock t.ja ∧ IsBlock t.ia ∧
      IsBlock t.start ∧ X = own .mm t.start ++ (own .mm t.ia ++ (own .mm t.ja ++ (own .mm t.a ++ h.live)))) ?_
      (fun ts X hq => Runs.pure hq)
    refine Runs.bind (Q := fun t X => 0 < t.nnz ∧ IsBlock t.a ∧ IsBlock t.ja ∧ IsBlock t.ia ∧
      IsBlock t.start ∧ X = own .mm t.start ++ (own .mm t.ia ++ (own .mm t.ja ++ (own .mm t.a ++ h.live)))) ?_
      (fun t X hq => Runs.pure ⟨t, rfl, hq⟩)
    show Runs (CooMem.load n CooMem.empty) h.live _
    unfold CooMem.load
    rw [if_pos hn]
    refine (runs_allocate _ _).bind ?_
    rintro a _ ⟨ha, rfl⟩
    refine (runs_allocate _ _).bind ?_
    rintro ja _ ⟨hja, rfl⟩
    refine (runs_allocate _ _).bind ?_
    rintro ia _ ⟨hia, rfl⟩
    refine (runs_allocate _ _).bind ?_
    rintro st _ ⟨hst, rfl⟩
    exact Runs.pure ⟨hn, ha, hja, hia, hst, rfl⟩
  · rintro _ _ ⟨t, rfl, htn, ha, hja, hia, hst, rfl⟩
    refine Fails.bind (?_ : Fails (CooMem.destroy t) _)
    unfold CooMem.destroy
    rw [if_pos htn]
    refine (runs_release (L' := own .mm t.start ++ (own .mm t.ia ++ (own .mm t.ja ++ h.live))) ha (by perm_parts)).fails ?_
    rintro _ _ rfl
    refine (runs_release (L' := own .mm t.start ++ (own .mm t.ia ++ h.live)) hja (by perm_parts)).fails ?_
    rintro _ _ rfl
    refine (runs_release (L' := own .mm t.start ++ h.live) hia (by perm_parts)).fails ?_
    rintro _ _ rfl
    exact fails_kind (k' := .mm) (by decide) hst (fun x hx => List.mem_append_left _ hx)

/-- A COO-SIMD tile with edges loaded from an archive cannot be destroyed, for the same reason. -/
theorem coosimd_restored (threads n : Nat) (hn : 0 < n) (h : Heap) (hh : h.Ok) :
    tileLives (simdClass threads) [.restore n] h = none := by
  refine (?_ : Fails (tileLives (simdClass threads) [.restore n]) h.live) h ⟨hh, List.Perm.refl _⟩
  refine Runs.fails (Q := fun ts X => ∃ t, ts = [t] ∧ 0 < t.nnz ∧ IsBlock t.a ∧ IsBlock t.ja ∧ IsBlock t.ia ∧
    IsBlock t.start ∧ ∃ M, X = M ++ (own .mm t.start ++ (own .mm t.ia ++ (own .mm t.ja ++ (own .mm t.a ++ h.live))))) ?_ ?_
  · refine Runs.bind (Q := fun ts X => ∃ t : SimdMem, ts = [t] ∧ 0 < t.nnz ∧ IsBlock t.a ∧ IsBlock t.ja ∧ IsBlock t.ia ∧
      IsBlock t.start ∧ ∃ M, X = M ++ (own .mm t.start ++ (own .mm t.ia ++ (own .mm t.ja ++ (own .mm t.a ++ h.live))))) ?_
      (fun ts X hq => Runs.pure hq)
    refine Runs.bind (Q := fun t X => 0 < t.nnz ∧ IsBlock t.a ∧ IsBlock t.ja ∧ IsBlock t.ia ∧
      IsBlock t.start ∧ ∃ M, X = M ++ (own .mm t.start ++ (own .mm t.ia ++ (own .mm t.ja ++ (own .mm t.a ++ h.live))))) ?_
      (fun t X hq => Runs.pure ⟨t, rfl, hq⟩)
    show Runs (SimdMem.load n SimdMem.empty) h.live _
    unfold SimdMem.load
    rw [if_pos hn]
    refine (runs_allocate _ _).bind ?_
    rintro a _ ⟨ha, rfl⟩
    refine (runs_allocate _ _).bind ?_
    rintro ja _ ⟨hja, rfl⟩
    refine (runs_allocate _ _).bind ?_
    rintro ia _ ⟨hia, rfl⟩
    refine (runs_allocate _ _).bind ?_
    rintro st _ ⟨hst, rfl⟩
    refine (runs_allocate _ _).bind ?_
    rintro sm _ ⟨hsm, rfl⟩
    exact Runs.pure ⟨hn, ha, hja, hia, hst, _, rfl⟩
  · rintro _ _ ⟨t, rfl, htn, ha, hja, hia, hst, M, rfl⟩
    refine Fails.bind (?_ : Fails (SimdMem.destroy t) _)
    unfold SimdMem.destroy
    rw [if_pos htn]
    refine (runs_release (L' := M ++ (own .mm t.start ++ (own .mm t.ia ++ (own .mm t.ja ++ h.live)))) ha
      (by perm_parts)).fails ?_
    rintro _ _ rfl
    refine (runs_release (L' := M ++ (own .mm t.start ++ (own .mm t.ia ++ h.live))) hja (by perm_parts)).fails ?_
    rintro _ _ rfl
    refine (runs_release (L' := M ++ (own .mm t.start ++ h.live)) hia (by perm_parts)).fails ?_
    rintro _ _ rfl
    exact (fails_kind (k' := .mm) (by decide) hst
      (fun x hx => List.mem_append_right _ (List.mem_append_left _ hx))).bind

/-- A DCSR tile with edges loaded from an archive cannot be destroyed: `partition_ptrs` was never set and is released. -/
theorem dcsr_restored (n : Nat) (hn : 0 < n) (h : Heap) (hh : h.Ok) : tileLives dcsrClass [.restore n] h = none := by
  refine (?_ : Fails (tileLives dcsrClass [.restore n]) h.live) h ⟨hh, List.Perm.refl _⟩
  refine Runs.fails (Q := fun ts X => ∃ t, ts = [t] ∧ 0 < t.nnz ∧ IsBlock t.a ∧ IsBlock t.ja ∧ IsBlock t.ia ∧
    IsBlock t.rows ∧ t.parts = .garbage ∧
    X = own .mm t.rows ++ (own .mm t.ia ++ (own .mm t.ja ++ (own .mm t.a ++ h.live)))) ?_ ?_
  · refine Runs.bind (Q := fun ts X => ∃ t : DcsrMem, ts = [t] ∧ 0 < t.nnz ∧ IsBlock t.a ∧ IsBlock t.ja ∧ IsBlock t.ia ∧
      IsBlock t.rows ∧ t.parts = .garbage ∧
      X = own .mm t.rows ++ (own .mm t.ia ++ (own .mm t.ja ++ (own .mm t.a ++ h.live)))) ?_
      (fun ts X hq => Runs.pure hq)
    refine Runs.bind (Q := fun t X => 0 < t.nnz ∧ IsBlock t.a ∧ IsBlock t.ja ∧ IsBlock t.ia ∧
      IsBlock t.rows ∧ t.parts = .garbage ∧
      X = own .mm t.rows ++ (own .mm t.ia ++ (own .mm t.ja ++ (own .mm t.a ++ h.live)))) ?_
      (fun t X hq => Runs.pure ⟨t, rfl, hq⟩)
    show Runs (DcsrMem.load n DcsrMem.empty) h.live _
    unfold DcsrMem.load
    rw [if_pos hn]
    refine (runs_allocate _ _).bind ?_
    rintro a _ ⟨ha, rfl⟩
    refine (runs_allocate _ _).bind ?_
    rintro ja _ ⟨hja, rfl⟩
    refine (runs_allocate _ _).bind ?_
    rintro ia _ ⟨hia, rfl⟩
    refine (runs_allocate _ _).bind ?_
    rintro st _ ⟨hst, rfl⟩
    exact Runs.pure ⟨hn, ha, hja, hia, hst, rfl, rfl⟩
  · rintro _ _ ⟨t, rfl, htn, ha, hja, hia, hst, hg, rfl⟩
    refine Fails.bind (?_ : Fails (DcsrMem.destroy t) _)
    unfold DcsrMem.destroy
    rw [if_pos htn, hg]
    refine (runs_release (L' := own .mm t.rows ++ (own .mm t.ia ++ (own .mm t.ja ++ h.live))) ha (by perm_parts)).fails ?_
    rintro _ _ rfl
    refine (runs_release (L' := own .mm t.rows ++ (own .mm t.ia ++ h.live)) hja (by perm_parts)).fails ?_
    rintro _ _ rfl
    refine (runs_release (L' := own .mm t.rows ++ h.live) hia (by perm_parts)).fails ?_
    rintro _ _ rfl
    refine (runs_release (L' := h.live) hst (by perm_parts)).fails ?_
    rintro _ _ rfl
    exact fails_garbage _ _

example : tileLives cooClass [.restore 3] ⟨0, []⟩ = none := coo_restored 3 (by decide) ⟨0, []⟩ ⟨by simp, by simp⟩
example : tileLives (simdClass 2) [.restore 3] ⟨0, []⟩ = none :=
  coosimd_restored 2 3 (by decide) ⟨0, []⟩ ⟨by simp, by simp⟩
example : tileLives dcsrClass [.restore 3] ⟨0, []⟩ = none := dcsr_restored 3 (by decide) ⟨0, []⟩ ⟨by simp, by simp⟩

/-! ### Hybrid tiles -/

/-- Hybrid tiles release nothing.  For every program that makes tiles from edges, loads archives of tiles without large rows,
uses and destroys them, nothing is followed that is not live; what was live before stays so; and after the last tile has
been destroyed all the blocks ever made for tiles are still there.  Missing for the full statement: that nothing is left. -/
theorem hybrid_memory_partial (threads : Nat) (large : Nat → Nat) (ops : List TileOp) (hops : ∀ op ∈ ops, HybridOk large op)
    (h : Heap) (hh : h.Ok) :
    ∃ h' K, tileLives (hybridClass threads large) ops h = some ((), h') ∧ h'.live.Perm (K ++ h.live) ∧
      K.length = (ops.map (hybridLeak large)).sum := by
  have hr : Runs (tileLives (hybridClass threads large) ops) h.live
      (fun _ X => ∃ K, X.Perm (K ++ h.live) ∧ K.length = (ops.map (hybridLeak large)).sum) := by
    refine (hybrid_steps threads large ops hops [] [] h.live (by simp)).bind ?_
    rintro ts X ⟨K, hX, hK⟩
    refine (hybrid_destroyAll threads large X ts).mono ?_
    rintro _ _ rfl
    exact ⟨K, hX, by rw [hK, List.length_nil, Nat.zero_add]⟩
  obtain ⟨_, h', L', e, hh', K, hX, hK⟩ := hr h ⟨hh, List.Perm.refl _⟩
  exact ⟨h', K, e, hh'.2.trans hX, hK⟩

/-- So a single tile with edges is enough to break the rule. -/
theorem hybrid_leaks (threads : Nat) (large : Nat → Nat) (n : Nat) (hn : 0 < n) :
    ¬ Balanced (tileLives (hybridClass threads large) [.make n]) := by
  intro hb
  have h0 : Heap.Ok ⟨0, []⟩ := ⟨by simp, by simp⟩
  obtain ⟨_, h1, e1, p1⟩ := hb ⟨0, []⟩ h0
  obtain ⟨h2, K, e2, p2, hK⟩ := hybrid_memory_partial threads large [.make n]
    (fun op hop => by rw [List.mem_singleton] at hop; subst hop; exact hn) ⟨0, []⟩ h0
  have : h1 = h2 := congrArg Prod.snd (Option.some.inj (e1.symm.trans e2))
  rw [this] at p1
  have hl := p1.length_eq.symm.trans p2.length_eq
  rw [List.append_nil, hK] at hl
  simp only [List.map_cons, List.map_nil, List.sum_cons, List.sum_nil, hybridLeak, hybridCost, if_pos hn,
    List.length_nil] at hl
  omega

/-- 40 edges, 32 of them in large rows: twelve blocks are left -/
example : ((tileLives (hybridClass 2 (fun _ => 32)) [.make 40, .use 0, .destroy 0]) ⟨0, []⟩).map
    (fun x => x.2.live.length) = some 12 := by decide +kernel
example : ∃ h' K, tileLives (hybridClass 2 (fun n => if n = 40 then 32 else 0)) [.make 40, .restore 9, .use 0] ⟨0, []⟩ =
    some ((), h') ∧ h'.live.Perm (K ++ []) ∧ K.length = 19 :=
  hybrid_memory_partial 2 _ [.make 40, .restore 9, .use 0] (by
    intro op hop
    simp only [List.mem_cons, List.not_mem_nil, or_false] at hop
    rcases hop with rfl | rfl | rfl
    · exact (by decide : 0 < 40)
    · exact (by decide : (if 9 = 40 then 32 else 0) = 0)
    · trivial) ⟨0, []⟩ ⟨by simp, by simp⟩

/-- The constructor for edges called with no edges reads `ia` of a temporary tile, which was never set. -/
theorem hybrid_make_zero (threads : Nat) (large : Nat → Nat) (h : Heap) : HybridMem.make threads large 0 h = none := rfl

/-- The constructors of the other formats do not need that care. -/
example : ((runTileOps cooClass [.make 0] []) ⟨0, []⟩).map (fun x => x.2.live.length) = some 0 := by decide +kernel

/-! ### Assignment -/

/-- After an assignment from a CSR tile with edges, neither side can be used or destroyed: the parameter of `operator=` is a
copy with the same pointers, and it is destroyed when the function ends. -/
theorem csr_assign (lhs t : CsrMem) (hn : 0 < t.nnz) (ha : t.a ≠ .null) (h : Heap) (hh : h.Ok) :
    (csrClass.assign lhs t >>= csrClass.use) h = none ∧
    (csrClass.assign lhs t >>= csrClass.destroy) h = none ∧
    (csrClass.assign lhs t >>= fun _ => csrClass.use t) h = none ∧
    (csrClass.assign lhs t >>= fun _ => csrClass.destroy t) h = none := by
  have hd : t.destroy = (release .mm t.a >>= fun _ => do release .mm t.ja; release .mm t.ia) := by
    unfold CsrMem.destroy
    rw [if_pos hn]
  have hx : csrClass.assign lhs t = (t.destroy >>= fun _ => pure t) := rfl
  have hr : Shrinks (do release .mm t.ja; release .mm t.ia) :=
    ((shrinks_release _ _).bind (fun _ => (shrinks_release _ _)))
  have hu : ∀ b g, t.a = .block b → b ∉ g.live.map Prod.fst → t.use g = none := by
    intro b g e hb
    unfold CsrMem.use
    rw [if_pos hn, e]
    exact touch_dead_bind hb _
  have hf : ∀ b g, t.a = .block b → b ∉ g.live.map Prod.fst → t.destroy g = none := by
    intro b g e hb
    rw [hd, e]
    exact release_dead_bind hb _
  rw [hx, hd]
  exact ⟨assign_dead ha hr t CsrMem.use hu h hh, assign_dead ha hr t CsrMem.destroy hf h hh,
    assign_dead' ha hr t _ hu h hh, assign_dead' ha hr t _ hf h hh⟩

/-- After an assignment from a COO tile with edges, neither side can be used or destroyed: the parameter of `operator=` is a
copy with the same pointers, and it is destroyed when the function ends. -/
theorem coo_assign (lhs t : CooMem) (hn : 0 < t.nnz) (ha : t.a ≠ .null) (h : Heap) (hh : h.Ok) :
    (cooClass.assign lhs t >>= cooClass.use) h = none ∧
    (cooClass.assign lhs t >>= cooClass.destroy) h = none ∧
    (cooClass.assign lhs t >>= fun _ => cooClass.use t) h = none ∧
    (cooClass.assign lhs t >>= fun _ => cooClass.destroy t) h = none := by
  have hd : t.destroy = (release .mm t.a >>= fun _ => do release .mm t.ja; release .mm t.ia; release .newArr t.start) := by
    unfold CooMem.destroy
    rw [if_pos hn]
  have hx : cooClass.assign lhs t = (t.destroy >>= fun _ => pure t) := rfl
  have hr : Shrinks (do release .mm t.ja; release .mm t.ia; release .newArr t.start) :=
    ((shrinks_release _ _).bind (fun _ => ((shrinks_release _ _).bind (fun _ => (shrinks_release _ _)))))
  have hu : ∀ b g, t.a = .block b → b ∉ g.live.map Prod.fst → t.use g = none := by
    intro b g e hb
    unfold CooMem.use
    rw [if_pos hn, e]
    exact touch_dead_bind hb _
  have hf : ∀ b g, t.a = .block b → b ∉ g.live.map Prod.fst → t.destroy g = none := by
    intro b g e hb
    rw [hd, e]
    exact release_dead_bind hb _
  rw [hx, hd]
  exact ⟨assign_dead ha hr t CooMem.use hu h hh, assign_dead ha hr t CooMem.destroy hf h hh,
    assign_dead' ha hr t _ hu h hh, assign_dead' ha hr t _ hf h hh⟩

/-- After an assignment from a COO-SIMD tile with edges, neither side can be used or destroyed: the parameter of `operator=` is a
copy with the same pointers, and it is destroyed when the function ends. -/
theorem coosimd_assign (threads : Nat) (lhs t : SimdMem) (hn : 0 < t.nnz) (ha : t.a ≠ .null) (h : Heap) (hh : h.Ok) :
    ((simdClass threads).assign lhs t >>= (simdClass threads).use) h = none ∧
    ((simdClass threads).assign lhs t >>= (simdClass threads).destroy) h = none ∧
    ((simdClass threads).assign lhs t >>= fun _ => (simdClass threads).use t) h = none ∧
    ((simdClass threads).assign lhs t >>= fun _ => (simdClass threads).destroy t) h = none := by
  have hd : t.destroy = (release .mm t.a >>= fun _ => do release .mm t.ja; release .mm t.ia; release .newArr t.start; release .newArr t.simd) := by
    unfold SimdMem.destroy
    rw [if_pos hn]
  have hx : (simdClass threads).assign lhs t = (t.destroy >>= fun _ => pure t) := rfl
  have hr : Shrinks (do release .mm t.ja; release .mm t.ia; release .newArr t.start; release .newArr t.simd) :=
    ((shrinks_release _ _).bind (fun _ => ((shrinks_release _ _).bind (fun _ => ((shrinks_release _ _).bind (fun _ => (shrinks_release _ _)))))))
  have hu : ∀ b g, t.a = .block b → b ∉ g.live.map Prod.fst → t.use g = none := by
    intro b g e hb
    unfold SimdMem.use
    rw [if_pos hn, e]
    exact touch_dead_bind hb _
  have hf : ∀ b g, t.a = .block b → b ∉ g.live.map Prod.fst → t.destroy g = none := by
    intro b g e hb
    rw [hd, e]
    exact release_dead_bind hb _
  rw [hx, hd]
  exact ⟨assign_dead ha hr t SimdMem.use hu h hh, assign_dead ha hr t SimdMem.destroy hf h hh,
    assign_dead' ha hr t _ hu h hh, assign_dead' ha hr t _ hf h hh⟩

/-- After an assignment from a DCSR tile with edges, neither side can be used or destroyed: the parameter of `operator=` is a
copy with the same pointers, and it is destroyed when the function ends. -/
theorem dcsr_assign (lhs t : DcsrMem) (hn : 0 < t.nnz) (ha : t.a ≠ .null) (h : Heap) (hh : h.Ok) :
    (dcsrClass.assign lhs t >>= dcsrClass.use) h = none ∧
    (dcsrClass.assign lhs t >>= dcsrClass.destroy) h = none ∧
    (dcsrClass.assign lhs t >>= fun _ => dcsrClass.use t) h = none ∧
    (dcsrClass.assign lhs t >>= fun _ => dcsrClass.destroy t) h = none := by
  have hd : t.destroy = (release .mm t.a >>= fun _ => do release .mm t.ja; release .mm t.ia; release .mm t.rows; release .newArr t.parts) := by
    unfold DcsrMem.destroy
    rw [if_pos hn]
  have hx : dcsrClass.assign lhs t = (t.destroy >>= fun _ => pure t) := rfl
  have hr : Shrinks (do release .mm t.ja; release .mm t.ia; release .mm t.rows; release .newArr t.parts) :=
    ((shrinks_release _ _).bind (fun _ => ((shrinks_release _ _).bind (fun _ => ((shrinks_release _ _).bind (fun _ => (shrinks_release _ _)))))))
  have hu : ∀ b g, t.a = .block b → b ∉ g.live.map Prod.fst → t.use g = none := by
    intro b g e hb
    unfold DcsrMem.use
    rw [if_pos hn, e]
    exact touch_dead_bind hb _
  have hf : ∀ b g, t.a = .block b → b ∉ g.live.map Prod.fst → t.destroy g = none := by
    intro b g e hb
    rw [hd, e]
    exact release_dead_bind hb _
  rw [hx, hd]
  exact ⟨assign_dead ha hr t DcsrMem.use hu h hh, assign_dead ha hr t DcsrMem.destroy hf h hh,
    assign_dead' ha hr t _ hu h hh, assign_dead' ha hr t _ hf h hh⟩

/-- After an assignment from a DCSC tile with edges (which copies the pointers and releases nothing) not both sides can be
destroyed. -/
theorem dcsc_assign (lhs t : DcscMem) (hn : 0 < t.nnz) (ha : t.rowInds ≠ .null) (h : Heap) (hh : h.Ok) :
    (do let x ← dcscClass.assign lhs t; dcscClass.destroy x; dcscClass.destroy t) h = none := by
  have hd : t.destroy = (release .mm t.rowInds >>= fun _ => do
      release .mm t.colPtrs; release .mm t.colIndices; release .mm t.vals; release .mm t.rowPointers
      release .mm t.edgePointers; release .mm t.colStarts) := by
    unfold DcscMem.destroy
    rw [if_pos hn]
  have hr : Shrinks (do
      release .mm t.colPtrs; release .mm t.colIndices; release .mm t.vals; release .mm t.rowPointers
      release .mm t.edgePointers; release .mm t.colStarts) :=
    (shrinks_release _ _).bind (fun _ => (shrinks_release _ _).bind (fun _ => (shrinks_release _ _).bind (fun _ =>
      (shrinks_release _ _).bind (fun _ => (shrinks_release _ _).bind (fun _ => shrinks_release _ _)))))
  have hf : ∀ b g, t.rowInds = .block b → b ∉ g.live.map Prod.fst → t.destroy g = none := by
    intro b g e hb
    rw [hd, e]
    exact release_dead_bind hb _
  have := assign_dead' (k := .mm) ha hr () _ hf h hh
  rw [← hd] at this
  show (t.destroy >>= fun _ => t.destroy) h = none
  simpa using this

/-- an assignment between two new tiles, and the end of both -/
example : (do
    let x ← csrClass.make 3
    let y ← csrClass.make 4
    let y ← csrClass.assign y x
    csrClass.destroy y) ⟨0, []⟩ = none := by decide +kernel
example : (do
    let x ← dcscClass.make 3
    let y ← dcscClass.make 4
    let y ← dcscClass.assign y x
    dcscClass.destroy y
    dcscClass.destroy x) ⟨0, []⟩ = none := by decide +kernel
example : (csrClass.assign CsrMem.empty ⟨3, .block 0, .block 1, .block 2⟩ >>= csrClass.use)
    ⟨3, [(2, .mm), (1, .mm), (0, .mm)]⟩ = none :=
  (csr_assign _ _ (by decide) (by decide) _ ⟨by decide, by decide⟩).1

/-! ### Loading into a tile that has edges -/

/-- Loading an archive into a CSR tile with edges loses its three arrays. -/
theorem csr_reload_leaks (n k : Nat) (hn : 0 < n) (h : Heap) (hh : h.Ok) :
    ∃ h', (do
        let t ← csrClass.make n
        let t ← csrClass.load k t
        csrClass.destroy t) h = some ((), h') ∧ h'.live.length = h.live.length + 3 := by
  have hr : Runs (do
        let t ← csrClass.make n
        let t ← csrClass.load k t
        csrClass.destroy t) h.live (fun _ X => X.length = h.live.length + 3) := by
    refine (CsrMem.make_runs n h.live).bind ?_
    rintro t X ⟨⟨ht, hg⟩, hX⟩
    refine (CsrMem.load_runs k t X).bind ?_
    rintro u Y ⟨hgu, hY⟩
    refine ((u.destroy_runs X hgu).perm hY).mono ?_
    intro _ Z hZ
    obtain ⟨ha, hja, hia⟩ := hg (by omega)
    rw [(hZ.trans hX).length_eq]
    unfold CsrMem.blocks
    rw [if_pos (by omega)]
    simp only [List.length_append, own_length ha, own_length hja, own_length hia]
    omega
  obtain ⟨_, h', L', e, hh', hl⟩ := hr h ⟨hh, List.Perm.refl _⟩
  exact ⟨h', e, hh'.2.length_eq.trans hl⟩

example : ∃ h', (do
    let t ← csrClass.make 2
    let t ← csrClass.load 5 t
    csrClass.destroy t) ⟨0, []⟩ = some ((), h') ∧ h'.live.length = 3 :=
  csr_reload_leaks 2 5 (by decide) ⟨0, []⟩ ⟨by simp, by simp⟩

/-! ### Matrices -/

/-- Matrices of DCSC tiles: for any number of ranks, any number of matrices created from edges, from archives or as
transposes, with any numbers
of edges in the tiles, edges fetched and matrices deleted in any order, every block is released once and nothing is left. -/
theorem dcsc_matrix_memory (nrank : Nat) (ops : List MatOp) : Balanced (matLives dcscClass nrank ops) :=
  dcsc_contract.mats nrank ops (fun op _ => by cases op <;> first | trivial | exact fun _ _ => trivial)

/-- The same for matrices of CSR tiles. -/
theorem csr_matrix_memory (nrank : Nat) (ops : List MatOp) : Balanced (matLives csrClass nrank ops) :=
  csr_contract.mats nrank ops (fun op _ => by cases op <;> first | trivial | exact fun _ _ => trivial)

/-- Matrices of COO tiles: the same as long as no archive with edges is loaded; see `coo_restored`. -/
theorem coo_matrix_memory_partial (nrank : Nat) (ops : List MatOp)
    (hops : ∀ cs k, .restore cs ∈ ops → some k ∈ cs → k = 0) : Balanced (matLives cooClass nrank ops) :=
  coo_contract.mats nrank ops (fun op hop => by
    cases op with
    | restore cs => exact fun k hk => hops cs k hop hk
    | _ => trivial)

/-- Matrices of COO-SIMD tiles, with the same restriction. -/
theorem coosimd_matrix_memory_partial (threads nrank : Nat) (ops : List MatOp)
    (hops : ∀ cs k, .restore cs ∈ ops → some k ∈ cs → k = 0) : Balanced (matLives (simdClass threads) nrank ops) :=
  (simd_contract threads).mats nrank ops (fun op hop => by
    cases op with
    | restore cs => exact fun k hk => hops cs k hop hk
    | _ => trivial)

/-- Matrices of DCSR tiles, with the same restriction. -/
theorem dcsr_matrix_memory_partial (nrank : Nat) (ops : List MatOp)
    (hops : ∀ cs k, .restore cs ∈ ops → some k ∈ cs → k = 0) : Balanced (matLives dcsrClass nrank ops) :=
  dcsr_contract.mats nrank ops (fun op hop => by
    cases op with
    | restore cs => exact fun k hk => hops cs k hop hk
    | _ => trivial)

/-- two ranks; a matrix with four tiles, two of them here, its transpose, and a matrix from an archive -/
example : Balanced (matLives dcscClass 2 [.make [some 3, none, some 0, none], .transpose 0 [some 1, some 4, none, none],
    .edges 0, .restore [none, some 7], .edges 0, .delete 1]) := dcsc_matrix_memory 2 _
example : ((runMatOps dcscClass 2 [.make [some 3, none, some 0, none], .transpose 0 [some 1, some 4, none, none], .edges 0]
    []) ⟨0, []⟩).map (fun x => (x.1.length, x.2.live.length)) = some (2, 27) := by decide +kernel

example : Balanced (matLives (simdClass 4) 2 [.make [some 3, none], .restore [some 0, none], .transpose 1 [some 3, none]]) :=
  coosimd_matrix_memory_partial 4 2 _ (by
    intro cs k h hk
    simp only [List.mem_cons, reduceCtorEq, List.not_mem_nil, MatOp.restore.injEq, or_false, false_or] at h
    subst h
    simpa using hk)

/-- A matrix of hybrid tiles with at least one edge is not released. -/
theorem hybrid_matrix_leaks :
    ∃ (nrank threads : Nat) (large : Nat → Nat) (ops : List MatOp),
      ¬ Balanced (matLives (hybridClass threads large) nrank ops) := by
  refine ⟨1, 1, fun _ => 0, [.make [some 1]], fun hb => ?_⟩
  obtain ⟨_, h', e, p⟩ := hb ⟨0, []⟩ ⟨by simp, by simp⟩
  have hl : ((matLives (hybridClass 1 (fun _ => 0)) 1 [.make [some 1]]) ⟨0, []⟩).map (fun x => x.2.live.length) = some 7 := by
    decide +kernel
  rw [e] at hl
  have : h'.live.length = 7 := Option.some.inj hl
  rw [p.length_eq] at this
  cases this

end GraphMat

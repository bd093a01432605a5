import Verif.Lemmas.LoopVec

/-!
# C67: the parallel loops over whole vectors

`setAll`, `compute_nnz`, `union_dense`, `apply_dense_segment` (also when input and output are the same vector) and
`intersect_dense_segment` have no data race and one outcome, the one that the sequential model computes; the counts
obtained by `reduction(+)` do not depend on how the iterations are divided among the threads.
-/
namespace GraphMat

variable {α β γ : Type}

/-- A vector of 40 elements for the examples below (not part of the model): element `i` holds `10 * i`, `w` are the two
words of its bit vector. -/
def vecSample (w : List Word) : Segment Nat :=
  ⟨40, 2, some ⟨false, 5, Arr.ofList 0 ((List.range 40).map (10 * ·)), Arr.ofList 0#32 w, Arr.ofList 0 [], Arr.ofList 0 [],
    []⟩, [], []⟩

/-- Fresh memory for the examples (not part of the model). -/
def vecFresh : Fresh Nat := ⟨-3, fun _ => 0, fun _ => 5#32, fun _ => 0, fun _ => 77⟩

/-- `setAll`: `bits0` is the bit vector before the first loop; between the two loops the last bits are set. -/
theorem setAll_tasks {g : Fresh α} {val : α} {s s' : Segment α} (h : s.setAll g val = some s') (hn : s.numInts ≠ 0)
    (y : Arr β × Arr Word) (z : Arr γ × Arr Word) :
    ∃ b b' bits0 bits1, (s.alloc g).props = some b ∧ s'.props = some b' ∧ b.bits.write (s.numInts - 1) 0#32 = some bits0 ∧
      forLoop (max 0 (s.capacity - 32)) s.capacity bits1 (fun idx bv => setBitvector idx bv) = some b'.bits ∧
      OneOutcome (parFor (s.numInts - 1) setAllWordC) (arrMem (vecA (b.value, bits0) y z))
        (arrMem (vecA (b.value, bits1) y z)) (fun _ => ()) ∧
      OneOutcome (parFor s.capacity (setAllValC val)) (arrMem (vecA (b.value, b'.bits) y z))
        (arrMem (vecA (b'.value, b'.bits) y z)) (fun _ => ()) := by
  have hni : (s.alloc g).numInts = s.numInts := by unfold Segment.alloc; split <;> rfl
  have hca : (s.alloc g).capacity = s.capacity := by unfold Segment.alloc; split <;> rfl
  unfold Segment.setAll at h
  simp only [Option.bind_eq_bind, Option.bind_eq_some_iff, hni, hca] at h
  obtain ⟨b, h1, h⟩ := h
  rw [if_neg hn] at h
  simp only [Option.bind_eq_some_iff] at h
  obtain ⟨bits0, h2, bits1, h3, bits2, h4, value, h5, h⟩ := h
  injection h with h
  subst h
  refine ⟨b, _, bits0, bits1, h1, rfl, h2, h4, ?_, ?_⟩
  · refine elemLoop (k := VecArr.b1) (shared := fun _ => False) (fun _ h => h)
      (mem := fun bv => arrMem (vecA (b.value, bv) y z)) ?_ h3
    intro i s s' hg
    exact Does.st (k := VecArr.b1) (by rfl) (A := vecA (b.value, s) y z) (A' := vecA (b.value, s') y z) hg
      (by intro k' hk; cases k' <;> first | rfl | exact absurd rfl hk)
  · refine elemLoop (k := VecArr.v1) (shared := fun _ => False) (fun _ h => h)
      (mem := fun v => arrMem (vecA (v, bits2) y z)) ?_ h5
    intro i s s' hg
    exact Does.st (k := VecArr.v1) (by rfl) (A := vecA (s, bits2) y z) (A' := vecA (s', bits2) y z) hg
      (by intro k' hk; cases k' <;> first | rfl | exact absurd rfl hk)

/-- The hypotheses hold for a vector that has never been used. -/
example : ∃ s', Segment.setAll vecFresh 7 ⟨40, 2, none, [], []⟩ = some s' ∧
    s'.props.map (fun b => (b.value.get 39, b.bits.get 0, b.bits.get 1)) = some (7, 0xFFFFFFFF#32, 0xFF#32) := by
  rw [← Option.bind_eq_some_iff]
  decide +kernel

/-- `compute_nnz(start, finish)`. -/
theorem computeNnz_tasks {b : Buffer α} {start finish k : Nat} (hle : start ≤ finish)
    (h : b.computeNnzRange start finish = some k) (y : Arr β × Arr Word) (z : Arr γ × Arr Word) :
    ∃ res, OneOutcome (parForR 0 (finish - start) (fun i => nnzC (start + i))) (arrMem (vecA (b.value, b.bits) y z))
        (arrMem (vecA (b.value, b.bits) y z)) res ∧ ∀ chunks, IsSplit (finish - start) chunks → redSum res chunks = k := by
  unfold Buffer.computeNnzRange at h
  have hk := sumPopcnt_eq hle h
  refine ⟨fun i => if i < finish - start then popcnt (b.bits.get (start + i)) else 0, ?_, ?_⟩
  · refine parForR_outcome (σ := Unit) (own := fun _ _ => False) (shared := fun _ => True)
      (mem := fun _ => arrMem (vecA (b.value, b.bits) y z)) (part := fun _ s => some s)
      (res := fun i => popcnt (b.bits.get (start + i))) (s := ()) (s' := ())
      (fun i j l _ _ h => h.elim) (fun i l _ h => h.elim) ?_ ?_
    · intro p _ s s' _
      exact (Does.rdv (k := VecArr.b1) (Or.inr trivial) rfl).bind (Does.pure _ _)
    · rw [forLoop_range]
      generalize List.range (finish - start) = l
      induction l with
      | nil => rfl
      | cons a l ih => exact ih
  · intro chunks hc
    rw [redSum_eq hc, hk]
    congr 1
    apply List.map_congr_left
    intro i hi
    rw [if_pos (List.mem_range.mp hi)]

/-- The second word of three; a division among two threads. -/
example : (vecSample [7#32, 0x81#32, 3#32]).props.bind (fun b => b.computeNnzRange 1 3) = some 4 ∧
    IsSplit 2 [[1], [0]] ∧ redSum (fun i => popcnt ((Arr.ofList 0#32 [7#32, 0x81#32, 3#32]).get (1 + i))) [[1], [0]] = 4 := by
  refine ⟨by decide +kernel, ?_, by decide +kernel⟩
  exact List.Perm.swap _ _ _

/-- `union_dense` with the first vector as output. -/
theorem unionDense_tasks {add : α → α → α} {capacity numInts : Nat} {v1 v2 v1' : Arr α} {bv1 bv2 bv1' : Arr Word}
    (h : unionDense add capacity numInts v1 bv1 v2 bv2 = some (v1', bv1')) (z : Arr γ × Arr Word) :
    OneOutcome (parFor capacity (unionDenseC add)) (arrMem (vecA (v1, bv1) (v2, bv2) z))
      (arrMem (vecA (v1', bv1) (v2, bv2) z)) (fun _ => ()) ∧
    OneOutcome (parFor numInts unionWordC) (arrMem (vecA (v1', bv1) (v2, bv2) z))
      (arrMem (vecA (v1', bv1') (v2, bv2) z)) (fun _ => ()) := by
  unfold unionDense at h
  simp only [Option.bind_eq_bind, Option.bind_eq_some_iff] at h
  obtain ⟨w1, h1, w2, h2, h⟩ := h
  injection h with h
  injection h with e1 e2
  subst e1 e2
  refine ⟨?_, ?_⟩
  · refine elemLoop (k := VecArr.v1) (shared := fun l => l.1 ≠ .v1) (fun _ h => h rfl)
      (mem := fun v => arrMem (vecA (v, bv1) (v2, bv2) z)) ?_ h1
    intro i s s' hg
    simp only [Option.bind_eq_some_iff] at hg
    obtain ⟨s1, g1, s2, g2, hg⟩ := hg
    unfold unionDenseC
    refine (Does.getBit g1 (fun w hw => Does.ld (k := VecArr.b1) (Or.inr (by simp)) (vecA (s, bv1) (v2, bv2) z) hw)).bind ?_
    refine (Does.getBit g2 (fun w hw => Does.ld (k := VecArr.b2) (Or.inr (by simp)) (vecA (s, bv1) (v2, bv2) z) hw)).bind ?_
    have hst : ∀ x, s.write i x = some s' → Does (fun l => l = (VecArr.v1, i)) (fun l => l.1 ≠ .v1)
        (astore (τ := VecArr.Ty α α γ) VecArr.v1 i x) (arrMem (vecA (s, bv1) (v2, bv2) z)) ()
        (arrMem (vecA (s', bv1) (v2, bv2) z)) := fun x hx =>
      Does.st (k := VecArr.v1) (by rfl) (A := vecA (s, bv1) (v2, bv2) z) (A' := vecA (s', bv1) (v2, bv2) z) hx
        (by intro k' hk; cases k' <;> first | rfl | exact absurd rfl hk)
    have hv1 : ∀ x, s.read i = some x → Does (fun l => l = (VecArr.v1, i)) (fun l => l.1 ≠ .v1)
        (aload (τ := VecArr.Ty α α γ) VecArr.v1 i) (arrMem (vecA (s, bv1) (v2, bv2) z)) x
        (arrMem (vecA (s, bv1) (v2, bv2) z)) := fun x hx =>
      Does.ld (k := VecArr.v1) (Or.inl (by rfl)) (vecA (s, bv1) (v2, bv2) z) hx
    have hv2 : ∀ x, v2.read i = some x → Does (fun l => l = (VecArr.v1, i)) (fun l => l.1 ≠ .v1)
        (aload (τ := VecArr.Ty α α γ) VecArr.v2 i) (arrMem (vecA (s, bv1) (v2, bv2) z)) x
        (arrMem (vecA (s, bv1) (v2, bv2) z)) := fun x hx =>
      Does.ld (k := VecArr.v2) (Or.inr (by simp)) (vecA (s, bv1) (v2, bv2) z) hx
    split_ifs at hg ⊢
    · simp only [Option.bind_eq_some_iff] at hg
      obtain ⟨x, g3, hg⟩ := hg
      exact (hv1 x g3).bind (hst x hg)
    · simp only [Option.bind_eq_some_iff] at hg
      obtain ⟨x, g3, hg⟩ := hg
      exact (hv2 x g3).bind (hst x hg)
    · simp only [Option.bind_eq_some_iff] at hg
      obtain ⟨x, g3, y, g4, hg⟩ := hg
      exact (hv1 x g3).bind ((hv2 y g4).bind (hst _ hg))
    · injection hg with hg
      subst hg
      exact Does.pure _ _
  · refine elemLoop (k := VecArr.b1) (shared := fun l => l.1 ≠ .b1) (fun _ h => h rfl)
      (mem := fun bv => arrMem (vecA (w1, bv) (v2, bv2) z)) ?_ h2
    intro i s s' hg
    simp only [Option.bind_eq_some_iff] at hg
    obtain ⟨x, g1, y, g2, hg⟩ := hg
    refine (Does.ld (k := VecArr.b1) (Or.inl (by rfl)) (vecA (w1, s) (v2, bv2) z) g1).bind ?_
    refine (Does.ld (k := VecArr.b2) (Or.inr (by simp)) (vecA (w1, s) (v2, bv2) z) g2).bind ?_
    exact Does.st (k := VecArr.b1) (by rfl) (A := vecA (w1, s) (v2, bv2) z) (A' := vecA (w1, s') (v2, bv2) z) hg
      (by intro k' hk; cases k' <;> first | rfl | exact absurd rfl hk)

/-- Elements 0 and 33 in the first vector, 0 and 2 in the second. -/
example : ∃ v1' bv1', unionDense (· + ·) 40 2 (Arr.ofList 0 ((List.range 40).map (10 * ·))) (Arr.ofList 0#32 [1#32, 2#32])
      (Arr.ofList 0 (List.replicate 40 7)) (Arr.ofList 0#32 [5#32, 0#32]) = some (v1', bv1') ∧
    [v1'.get 0, v1'.get 1, v1'.get 2, v1'.get 33] = [7, 10, 7, 330] ∧ [bv1'.get 0, bv1'.get 1] = [5#32, 2#32] := by
  have h : (unionDense (· + ·) 40 2 (Arr.ofList 0 ((List.range 40).map (10 * ·))) (Arr.ofList 0#32 [1#32, 2#32])
      (Arr.ofList 0 (List.replicate 40 7)) (Arr.ofList 0#32 [5#32, 0#32])).bind (fun r =>
        some ([r.1.get 0, r.1.get 1, r.1.get 2, r.1.get 33], [r.2.get 0, r.2.get 1])) =
      some ([7, 10, 7, 330], [5#32, 2#32]) := by decide +kernel
  obtain ⟨⟨v, b⟩, h1, h2⟩ := Option.bind_eq_some_iff.mp h
  injection h2 with h2
  injection h2 with h2 h3
  exact ⟨v, b, h1, h2, h3⟩

theorem count_split {bv : Arr Word} {n k : Nat} (h : sumPopcnt bv n = some k) {chunks : List (List Nat)}
    (hc : IsSplit n chunks) : redSum (fun ii => if ii < n then popcnt (bv.get ii) else 0) chunks = k := by
  rw [redSum_eq hc, sumPopcnt_eq (Nat.zero_le _) h, Nat.sub_zero]
  congr 1
  apply List.map_congr_left
  intro i hi
  rw [if_pos (List.mem_range.mp hi), Nat.zero_add]

/-- `apply_segment` for two different segments. -/
theorem apply_tasks {g : Fresh β} {f : α → β → β} {sIn : Segment α} {sOut s' : Segment β}
    (h : applySegment g f sIn sOut = some s') (z : Arr γ × Arr Word) :
    ∃ b1 s0 b2 b2' res, sIn.props = some b1 ∧ (sOut.alloc g).initialize = some s0 ∧ s0.props = some b2 ∧ s'.props = some b2' ∧
      OneOutcome (parFor sIn.numInts applyWordC) (arrMem (vecA (b1.value, b1.bits) (b2.value, b2.bits) z))
        (arrMem (vecA (b1.value, b1.bits) (b2.value, b2'.bits) z)) (fun _ => ()) ∧
      OneOutcome (parForR 0 sIn.numInts (applyValC f)) (arrMem (vecA (b1.value, b1.bits) (b2.value, b2'.bits) z))
        (arrMem (vecA (b1.value, b1.bits) (b2'.value, b2'.bits) z)) res ∧
      ∀ chunks, IsSplit sIn.numInts chunks → (redSum res chunks : Int) = b2'.nnz := by
  unfold applySegment at h
  simp only [Option.bind_eq_bind, Option.bind_eq_some_iff] at h
  obtain ⟨s0, h1, b1, h2, b2, h3, bits2, h4, nnz, h5, value2, h6, h⟩ := h
  injection h with h
  subst h
  refine ⟨b1, s0, b2, _, _, h2, h1, h3, rfl, ?_, ?_, fun chunks hc => by rw [count_split h5 hc]⟩
  · refine elemLoop (k := VecArr.b2) (shared := fun l => l.1 ≠ .b2) (fun _ h => h rfl)
      (mem := fun bv => arrMem (vecA (b1.value, b1.bits) (b2.value, bv) z)) ?_ h4
    intro i s s' hg
    simp only [Option.bind_eq_some_iff] at hg
    obtain ⟨x, g1, y, g2, hg⟩ := hg
    refine (Does.ld (k := VecArr.b2) (Or.inl (by rfl)) (vecA (b1.value, b1.bits) (b2.value, s) z) g1).bind ?_
    refine (Does.ld (k := VecArr.b1) (Or.inr (by simp)) (vecA (b1.value, b1.bits) (b2.value, s) z) g2).bind ?_
    exact Does.st (k := VecArr.b2) (by rfl) (A := vecA (b1.value, b1.bits) (b2.value, s) z)
      (A' := vecA (b1.value, b1.bits) (b2.value, s') z) hg (by intro k' hk; cases k' <;> first | rfl | exact absurd rfl hk)
  · refine wordC_outcome (k := VecArr.v2) (shared := fun l => l.1 ≠ .v2) (fun _ h => h rfl)
      (mem := fun v => arrMem (vecA (b1.value, b1.bits) (v, bits2) z))
      (fun ii w s own hw => Does.ld (k := VecArr.b1) (Or.inr (by simp)) (vecA (b1.value, b1.bits) (s, bits2) z) hw) ?_ h6
    intro i s s' hg
    simp only [Option.bind_eq_some_iff] at hg
    obtain ⟨x, g1, y, g2, hg⟩ := hg
    refine (Does.ld (k := VecArr.v1) (Or.inr (by simp)) (vecA (b1.value, b1.bits) (s, bits2) z) g1).bind ?_
    refine (Does.ld (k := VecArr.v2) (Or.inl (by rfl)) (vecA (b1.value, b1.bits) (s, bits2) z) g2).bind ?_
    exact Does.st (k := VecArr.v2) (by rfl) (A := vecA (b1.value, b1.bits) (s, bits2) z)
      (A' := vecA (b1.value, b1.bits) (s', bits2) z) hg (by intro k' hk; cases k' <;> first | rfl | exact absurd rfl hk)

/-- Elements 1 and 33 are applied to a vector that has never been used. -/
example : ∃ s', applySegment vecFresh (fun x y => x + y + 1) (vecSample [2#32, 2#32]) ⟨40, 2, none, [], []⟩ = some s' ∧
    s'.props.map (fun b => (b.value.get 1, b.value.get 33, b.value.get 2, b.bits.get 1, b.nnz)) =
      some (11, 331, 0, 2#32, 2) := by
  rw [← Option.bind_eq_some_iff]
  decide +kernel

/-- `apply_segment` with the same segment as input and output. -/
theorem applySelf_tasks {g : Fresh α} {f : α → α → α} {s s' : Segment α}
    (h : applySegmentSelf g f s = some s') (y : Arr β × Arr Word) (z : Arr γ × Arr Word) :
    ∃ s0 b b' res, (s.alloc g).initialize = some s0 ∧ s0.props = some b ∧ s'.props = some b' ∧
      OneOutcome (parFor s0.numInts applySelfWordC) (arrMem (vecA (b.value, b.bits) y z))
        (arrMem (vecA (b.value, b'.bits) y z)) (fun _ => ()) ∧
      OneOutcome (parForR 0 s0.numInts (applySelfValC f)) (arrMem (vecA (b.value, b'.bits) y z))
        (arrMem (vecA (b'.value, b'.bits) y z)) res ∧
      ∀ chunks, IsSplit s0.numInts chunks → (redSum res chunks : Int) = b'.nnz := by
  unfold applySegmentSelf at h
  simp only [Option.bind_eq_bind, Option.bind_eq_some_iff] at h
  obtain ⟨s0, h1, b, h2, bits, h4, nnz, h5, value, h6, h⟩ := h
  injection h with h
  subst h
  refine ⟨s0, b, _, _, h1, h2, rfl, ?_, ?_, fun chunks hc => by rw [count_split h5 hc]⟩
  · refine elemLoop (k := VecArr.b1) (shared := fun l => l.1 ≠ .b1) (fun _ h => h rfl)
      (mem := fun bv => arrMem (vecA (b.value, bv) y z)) ?_ h4
    intro i s s' hg
    simp only [Option.bind_eq_some_iff] at hg
    obtain ⟨x, g1, w, g2, hg⟩ := hg
    refine (Does.ld (k := VecArr.b1) (Or.inl (by rfl)) (vecA (b.value, s) y z) g1).bind ?_
    refine (Does.ld (k := VecArr.b1) (Or.inl (by rfl)) (vecA (b.value, s) y z) g2).bind ?_
    exact Does.st (k := VecArr.b1) (by rfl) (A := vecA (b.value, s) y z)
      (A' := vecA (b.value, s') y z) hg (by intro k' hk; cases k' <;> first | rfl | exact absurd rfl hk)
  · refine wordC_outcome (k := VecArr.v1) (shared := fun l => l.1 ≠ .v1) (fun _ h => h rfl)
      (mem := fun v => arrMem (vecA (v, bits) y z))
      (fun ii w s own hw => Does.ld (k := VecArr.b1) (Or.inr (by simp)) (vecA (s, bits) y z) hw) ?_ h6
    intro i s s' hg
    simp only [Option.bind_eq_some_iff] at hg
    obtain ⟨x, g1, w, g2, hg⟩ := hg
    refine (Does.ld (k := VecArr.v1) (Or.inl (by rfl)) (vecA (s, bits) y z) g1).bind ?_
    refine (Does.ld (k := VecArr.v1) (Or.inl (by rfl)) (vecA (s, bits) y z) g2).bind ?_
    exact Does.st (k := VecArr.v1) (by rfl) (A := vecA (s, bits) y z)
      (A' := vecA (s', bits) y z) hg (by intro k' hk; cases k' <;> first | rfl | exact absurd rfl hk)

/-- Elements 1 and 33 are doubled. -/
example : ∃ s', applySegmentSelf vecFresh (fun x y => x + y) (vecSample [2#32, 2#32]) = some s' ∧
    s'.props.map (fun b => (b.value.get 1, b.value.get 33, b.value.get 2, b.bits.get 1, b.nnz)) =
      some (20, 660, 20, 2#32, 2) := by
  rw [← Option.bind_eq_some_iff]
  decide +kernel

/-- `intersect_segment`. -/
theorem intersect_tasks {g : Fresh γ} {op : α → β → γ → γ} {s1 : Segment α} {s2 : Segment β} {s3 s' : Segment γ}
    {b1 : Buffer α} {b2 : Buffer β} (e1 : s1.props = some b1) (e2 : s2.props = some b2) (u1 : b1.uninit = false)
    (u2 : b2.uninit = false) (h : intersectSegment g op s1 s2 s3 = some s') :
    ∃ s0 b3 b3' res, (s3.alloc g).initialize = some s0 ∧ s0.props = some b3 ∧ s'.props = some b3' ∧
      OneOutcome (parFor s1.numInts interWordC)
        (arrMem (vecA (b1.value, b1.bits) (b2.value, b2.bits) (b3.value, b3.bits)))
        (arrMem (vecA (b1.value, b1.bits) (b2.value, b2.bits) (b3.value, b3'.bits))) (fun _ => ()) ∧
      OneOutcome (parForR 0 s1.numInts (interValC op))
        (arrMem (vecA (b1.value, b1.bits) (b2.value, b2.bits) (b3.value, b3'.bits)))
        (arrMem (vecA (b1.value, b1.bits) (b2.value, b2.bits) (b3'.value, b3'.bits))) res ∧
      ∀ chunks, IsSplit s1.numInts chunks → (redSum res chunks : Int) = b3'.nnz := by
  unfold intersectSegment at h
  simp only [Option.bind_eq_bind, Option.bind_eq_some_iff, e1, e2] at h
  obtain ⟨s0, h1, b1', e1', b2', e2', b3, h3, h⟩ := h
  injection e1' with e1'
  injection e2' with e2'
  subst e1' e2'
  rw [u1, u2] at h
  simp only [Bool.not_false, Bool.and_self, if_true, Option.bind_eq_some_iff] at h
  obtain ⟨bits3, h4, nnz, h5, value3, h6, h⟩ := h
  injection h with h
  subst h
  refine ⟨s0, b3, _, _, h1, h3, rfl, ?_, ?_, fun chunks hc => by rw [count_split h5 hc]⟩
  · unfold combineWords at h4
    refine elemLoop (k := VecArr.b3) (shared := fun l => l.1 ≠ .b3) (fun _ h => h rfl)
      (mem := fun bv => arrMem (vecA (b1.value, b1.bits) (b2.value, b2.bits) (b3.value, bv))) ?_ h4
    intro i s s' hg
    simp only [Option.bind_eq_bind, Option.bind_eq_some_iff] at hg
    obtain ⟨x, g1, y, g2, hg⟩ := hg
    refine (Does.ld (k := VecArr.b1) (Or.inr (by simp)) (vecA (b1.value, b1.bits) (b2.value, b2.bits) (b3.value, s)) g1).bind ?_
    refine (Does.ld (k := VecArr.b2) (Or.inr (by simp)) (vecA (b1.value, b1.bits) (b2.value, b2.bits) (b3.value, s)) g2).bind ?_
    exact Does.st (k := VecArr.b3) (by rfl) (A := vecA (b1.value, b1.bits) (b2.value, b2.bits) (b3.value, s))
      (A' := vecA (b1.value, b1.bits) (b2.value, b2.bits) (b3.value, s')) hg
      (by intro k' hk; cases k' <;> first | rfl | exact absurd rfl hk)
  · refine wordC_outcome (k := VecArr.v3) (shared := fun l => l.1 ≠ .v3) (fun _ h => h rfl)
      (mem := fun v => arrMem (vecA (b1.value, b1.bits) (b2.value, b2.bits) (v, bits3)))
      (fun ii w s own hw => Does.ld (k := VecArr.b3) (Or.inr (by simp))
        (vecA (b1.value, b1.bits) (b2.value, b2.bits) (s, bits3)) hw) ?_ h6
    intro i s s' hg
    simp only [Option.bind_eq_some_iff] at hg
    obtain ⟨x, g1, y, g2, o, g3, hg⟩ := hg
    refine (Does.ld (k := VecArr.v1) (Or.inr (by simp)) (vecA (b1.value, b1.bits) (b2.value, b2.bits) (s, bits3)) g1).bind ?_
    refine (Does.ld (k := VecArr.v2) (Or.inr (by simp)) (vecA (b1.value, b1.bits) (b2.value, b2.bits) (s, bits3)) g2).bind ?_
    refine (Does.ld (k := VecArr.v3) (Or.inl (by rfl)) (vecA (b1.value, b1.bits) (b2.value, b2.bits) (s, bits3)) g3).bind ?_
    exact Does.st (k := VecArr.v3) (by rfl) (A := vecA (b1.value, b1.bits) (b2.value, b2.bits) (s, bits3))
      (A' := vecA (b1.value, b1.bits) (b2.value, b2.bits) (s', bits3)) hg
      (by intro k' hk; cases k' <;> first | rfl | exact absurd rfl hk)

/-- Element 33 is in both vectors. -/
example : ∃ s', intersectSegment vecFresh (fun x y z => x + y + z + 1) (vecSample [2#32, 2#32]) (vecSample [1#32, 6#32])
      ⟨40, 2, none, [], []⟩ = some s' ∧
    s'.props.map (fun b => (b.value.get 1, b.value.get 33, b.bits.get 0, b.bits.get 1, b.nnz)) =
      some (0, 661, 0#32, 2#32, 1) := by
  rw [← Option.bind_eq_some_iff]
  decide +kernel

end GraphMat

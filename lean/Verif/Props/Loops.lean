import Verif.Lemmas.Loops

/-!
# C67: the other parallel loops

The parallel loops outside the multiplication have no data race and one outcome, the one that the model computes by running
the iterations in order.  The iterations are programs (`Model/Loops.lean`) that access single elements of the arrays; they
are run at the same time in any order of accesses (`Spec/Conc.lean`).
-/
namespace GraphMat

variable {E T U V α : Type}

/-- Merging a received compressed segment into the segment at hand: the partitions of `union_compressed` never touch the
same element of `v2` or the same word of `bv2`, provided the indices are in ascending order (which `compress` guarantees). -/
theorem unionCompressed_tasks (add : α → α → α) {threads n : Nat} {cd : Arr α} {ci : Arr Nat} {v : Arr α} {b : Arr Word}
    {st : Arr α × Arr Word} (hn : n ≤ ci.size) (hinc : ∀ i j, i ≤ j → j < n → ci.get i ≤ ci.get j)
    (h : unionCompressed add threads cd ci n v b = some st) :
    OneOutcome (parFor (threads * 16) (unionC add (threads * 16) n)) (arrMem (segA cd ci (v, b)))
      (arrMem (segA cd ci st)) (fun _ => ()) := by
  unfold unionCompressed at h
  simp only at h
  split_ifs at h with hnp
  have hnp : 0 < threads * 16 := by omega
  generalize threads * 16 = np at h hnp
  have hb : ∀ p, ∃ lo hi, p < np → unionBounds ci np n p = some (lo, hi) ∧ hi ≤ n ∧
      (0 < p → lo < n → 0 < lo ∧ ci.get lo / 32 ≠ ci.get (lo - 1) / 32) ∧
      (∀ q, q < p → ∀ s' e', unionBounds ci np n q = some (s', e') → e' ≤ lo ∨ n ≤ lo) := by
    intro p
    by_cases hp : p < np
    · obtain ⟨s, e, h1⟩ := unionBounds_eq hnp hn hp
      exact ⟨s, e, fun _ => h1⟩
    · exact ⟨0, 0, fun h => absurd h hp⟩
  choose lo hi hb using hb
  have disj : ∀ i j l, i < j → j < np → segOwn ci (lo i) (hi i) l → segOwn ci (lo j) (hi j) l → False := by
    intro i j l hij hj h1 h2
    obtain ⟨_, _, b3, b4⟩ := hb j hj
    obtain ⟨a1, a2, _, _⟩ := hb i (by omega)
    rcases b4 i hij _ _ a1 with hle | hle
    · exact segOwn_disjoint hinc hle (hb j hj).2.1 (fun h => b3 (by omega) h) l h1 h2
    · obtain ⟨k, k1, k2, _⟩ := h2
      have := (hb j hj).2.1
      omega
  refine parFor_outcome (own := fun p => segOwn ci (lo p) (hi p)) (shared := segShared)
    (mem := fun s => arrMem (segA cd ci s)) ?_ ?_ ?_ h
  · intro i j l hi' hj h1 h2
    rcases Nat.lt_trichotomy i j with hij | hij | hij
    · exact absurd (disj i j l hij hj h1 h2) id
    · exact hij
    · exact absurd (disj j i l hij hi' h2 h1) id
  · rintro i l _ ⟨k, _, _, rfl | rfl⟩ hs <;> rcases hs with hs | hs <;> cases hs
  · intro p hp s s' hg
    refine unionC_does ?_ (hb p hp).1
    unfold unionBounds
    simp only [Option.bind_eq_bind, Option.bind_assoc, Option.bind_some] at hg ⊢
    split_ifs at hg ⊢ <;> exact hg

/-- Three elements, two of them in the same word, merged into a segment of 64 elements with two words; one of the elements is
already set.  The hypotheses hold. -/
example : ∃ st, unionCompressed (· + ·) 1 (Arr.ofList 0 [5, 6, 7]) (Arr.ofList 0 [3, 9, 40]) 3
      (Arr.ofList 0 (List.replicate 64 1)) (Arr.ofList 0#32 [8#32, 0#32]) = some st ∧ st.1.get 3 = 6 ∧ st.1.get 40 = 7 ∧
    OneOutcome (parFor 16 (unionC (· + ·) 16 3))
      (arrMem (segA (Arr.ofList 0 [5, 6, 7]) (Arr.ofList 0 [3, 9, 40])
        (Arr.ofList 0 (List.replicate 64 1), Arr.ofList 0#32 [8#32, 0#32])))
      (arrMem (segA (Arr.ofList 0 [5, 6, 7]) (Arr.ofList 0 [3, 9, 40]) st)) (fun _ => ()) := by
  have h : ((unionCompressed (· + ·) 1 (Arr.ofList 0 [5, 6, 7]) (Arr.ofList 0 [3, 9, 40]) 3
      (Arr.ofList 0 (List.replicate 64 1)) (Arr.ofList 0#32 [8#32, 0#32])).map (fun st => (st.1.get 3, st.1.get 40))) =
      some (6, 7) := by decide +kernel
  rw [Option.map_eq_some_iff] at h
  obtain ⟨st, h1, h2⟩ := h
  injection h2 with h2 h3
  have hinc : ∀ i j, i ≤ j → j < 3 → (Arr.ofList 0 [3, 9, 40]).get i ≤ (Arr.ofList 0 [3, 9, 40]).get j := by
    have : ∀ j, j < 3 → ∀ i, i < 3 → i ≤ j → (Arr.ofList 0 [3, 9, 40]).get i ≤ (Arr.ofList 0 [3, 9, 40]).get j := by
      decide +kernel
    exact fun i j hij hj => this j hj i (by omega) hij
  exact ⟨st, h1, h2, h3, unionCompressed_tasks (threads := 1) (· + ·) (by decide) hinc h1⟩

/-- Expanding a compressed segment: the partitions of `decompress` never touch the same element of `value` or the same
word of `bit_vector`, provided the indices are in ascending order.  `bits0` is the bit vector after `clear`, `bounds` are
`start_nnzs` and `end_nnzs`. -/
theorem decompress_tasks {threads n : Nat} {b b' : Buffer α} {bits0 : Arr Word} {bounds : List (Nat × Nat)}
    (hinc : ∀ i j, i ≤ j → j < n → b.cidx.get i ≤ b.cidx.get j) (hn : b.nnz = (n : Int))
    (h0 : memsetZero b.bits.size b.bits = some bits0)
    (hb : decompressBounds b.cidx n (((n + threads - 1) / threads + 31) / 32 * 32) threads 0 = some bounds)
    (h : b.decompress threads = some b') :
    OneOutcome (parFor threads (decompressC bounds)) (arrMem (segA b.cdata b.cidx (b.value, bits0)))
      (arrMem (segA b.cdata b.cidx (b'.value, b'.bits))) (fun _ => ()) := by
  unfold Buffer.decompress at h
  have hnat : natIdx b.nnz = some n := by rw [hn]; simp [natIdx]
  rw [hnat, h0] at h
  simp only [Option.bind_eq_bind, Option.bind_some] at h
  split_ifs at h with hth
  rw [hb, Option.bind_some, Option.bind_eq_some_iff] at h
  obtain ⟨st, h, he⟩ := h
  injection he with he
  subst he
  obtain ⟨hlen, hbd⟩ := decompressBounds_bound hb (Nat.zero_le n)
  rw [foldlM_forLoop _ (0, 0), hlen] at h
  have hget : ∀ p, p < threads → bounds[p]? = some (bounds.getD p (0, 0)) := by
    intro p hp
    rw [List.getD_eq_getElem?_getD, List.getElem?_eq_getElem (by omega)]; rfl
  have disj : ∀ i j l, i < j → j < threads → segOwn b.cidx (bounds.getD i (0, 0)).1 (bounds.getD i (0, 0)).2 l →
      segOwn b.cidx (bounds.getD j (0, 0)).1 (bounds.getD j (0, 0)).2 l → False := by
    intro i j l hij hj h1 h2
    obtain ⟨_, _, b3, _, b5, b6⟩ := hbd j _ _ (hget j hj)
    exact segOwn_disjoint hinc (b6 i hij _ _ (hget i (by omega))) b3 (b5 (by omega)) l h1 h2
  refine parFor_outcome (own := fun p => segOwn b.cidx (bounds.getD p (0, 0)).1 (bounds.getD p (0, 0)).2)
    (shared := segShared) (mem := fun s => arrMem (segA b.cdata b.cidx s)) ?_ ?_ ?_ h
  · intro i j l hi' hj h1 h2
    rcases Nat.lt_trichotomy i j with hij | hij | hij
    · exact absurd (disj i j l hij hj h1 h2) id
    · exact hij
    · exact absurd (disj j i l hij hi' h2 h1) id
  · rintro i l _ ⟨k, _, _, rfl | rfl⟩ hs <;> rcases hs with hs | hs <;> cases hs
  · intro p hp s s' hg
    refine Does.forUnit (mem := fun s => arrMem (segA b.cdata b.cidx s)) ?_ hg
    intro i hi1 hi2 s s' hg
    rw [Option.bind_eq_some_iff] at hg
    obtain ⟨idx, g1, hg⟩ := hg
    rw [Option.bind_eq_some_iff] at hg
    obtain ⟨x, g2, hg⟩ := hg
    have e := (Arr.read_eq_some.mp g1).2
    exact scatterC_does g1 g2 hg ⟨i, hi1, hi2, Or.inl (by rw [e])⟩ ⟨i, hi1, hi2, Or.inr (by rw [e])⟩

/-- Three elements expanded by two threads.  The hypotheses hold. -/
example : ∃ (b b' : Buffer Nat) (bits0 : Arr Word) (bounds : List (Nat × Nat)), b.decompress 2 = some b' ∧
    b'.value.get 40 = 7 ∧ OneOutcome (parFor 2 (decompressC bounds)) (arrMem (segA b.cdata b.cidx (b.value, bits0)))
      (arrMem (segA b.cdata b.cidx (b'.value, b'.bits))) (fun _ => ()) := by
  let b : Buffer Nat := ⟨false, 3, Arr.ofList 0 (List.replicate 64 1), Arr.ofList 0#32 [9#32, 5#32],
    Arr.ofList 0 [5, 6, 7], Arr.ofList 0 [3, 9, 40], []⟩
  have h : (b.decompress 2).map (fun b' => b'.value.get 40) = some 7 := by decide +kernel
  have h0 : (memsetZero b.bits.size b.bits).isSome = true := by decide +kernel
  have hb : (decompressBounds b.cidx 3 (((3 + 2 - 1) / 2 + 31) / 32 * 32) 2 0).isSome = true := by decide +kernel
  rw [Option.map_eq_some_iff] at h
  obtain ⟨b', h1, h2⟩ := h
  obtain ⟨bits0, h0⟩ := Option.isSome_iff_exists.mp h0
  obtain ⟨bounds, hb⟩ := Option.isSome_iff_exists.mp hb
  have hinc : ∀ i j, i ≤ j → j < 3 → (Arr.ofList 0 [3, 9, 40]).get i ≤ (Arr.ofList 0 [3, 9, 40]).get j := by
    have : ∀ j, j < 3 → ∀ i, i < 3 → i ≤ j → (Arr.ofList 0 [3, 9, 40]).get i ≤ (Arr.ofList 0 [3, 9, 40]).get j := by
      decide +kernel
    exact fun i j hij hj => this j hj i (by omega) hij
  exact ⟨b, b', bits0, bounds, h1, h2, decompress_tasks (n := 3) hinc rfl h0 hb h1⟩

/-- The counting loop of `compress`: every iteration stores to its own element of `partition_nnz`.  Afterwards
`partition_nnz[p]` is the number of elements in the words of partition `p`. -/
theorem compressCount_tasks (b : Buffer α) {np : Nat} (st : Arr α × Arr Nat) (scan cnt : Arr Nat) (hc : np ≤ cnt.size) :
    ∃ cnt' : Arr Nat, (∀ p, p < np →
        b.computeNnzRange (partLo b.bits.size np p) (partHi b.bits.size np p) = some (cnt'.get p)) ∧
      OneOutcome (parFor np (countC b.bits.size np)) (arrMem (cmpA b.value b.bits cnt scan st))
        (arrMem (cmpA b.value b.bits cnt' scan st)) (fun _ => ()) := by
  have hm : (List.range np).mapM (fun p => b.computeNnzRange (partLo b.bits.size np p) (partHi b.bits.size np p)) =
      some ((List.range np).map (fun p => (bitsIn b.bits (wordLo b.bits.size np p) (wordLo b.bits.size np (p + 1))).length)) :=
    mapM_some (fun p _ => computeNnz_part rfl)
  obtain ⟨cnt', h1, _, h3⟩ := fillLoop hm cnt hc
  refine ⟨cnt', h3, ?_⟩
  refine parFor_outcome (own := fun p l => l = (CmpArr.cnt, p)) (shared := cntShared)
    (mem := fun cnt => arrMem (cmpA b.value b.bits cnt scan st)) ?_ ?_ ?_ h1
  · rintro i j l _ _ rfl h
    injection h
  · rintro i l _ rfl hs
    cases hs
  · intro p hp s s' hg
    exact countC_does hg

/-- Two words counted by two iterations. -/
example : ∃ cnt' : Arr Nat, cnt'.get 0 = 2 ∧ cnt'.get 1 = 1 ∧
    OneOutcome (parFor 2 (countC 2 2)) (arrMem (cmpA (Arr.ofList 0 (List.replicate 64 1)) (Arr.ofList 0#32 [9#32, 4#32])
        (Arr.ofList 0 [8, 8]) (Arr.ofList 0 []) (Arr.ofList 0 [], Arr.ofList 0 [])))
      (arrMem (cmpA (Arr.ofList 0 (List.replicate 64 1)) (Arr.ofList 0#32 [9#32, 4#32]) cnt' (Arr.ofList 0 [])
        (Arr.ofList 0 [], Arr.ofList 0 []))) (fun _ => ()) := by
  obtain ⟨cnt', h1, h2⟩ := compressCount_tasks (np := 2) (⟨false, 3, Arr.ofList 0 (List.replicate 64 1),
    Arr.ofList 0#32 [9#32, 4#32], Arr.ofList 0 [], Arr.ofList 0 [], []⟩ : Buffer Nat) (Arr.ofList 0 [], Arr.ofList 0 [])
    (Arr.ofList 0 []) (Arr.ofList 0 [8, 8]) (by decide)
  refine ⟨cnt', ?_, ?_, h2⟩
  · have := h1 0 (by omega)
    exact (Option.some.inj (this.symm.trans (by decide +kernel)))
  · have := h1 1 (by omega)
    exact (Option.some.inj (this.symm.trans (by decide +kernel)))

/-- The copying loop of `compress`: every iteration stores to its own interval of `compressed_data` and
`compressed_indices`.  `scan` is `partition_nnz_scan`, computed from the counts. -/
theorem compressCopy_tasks {threads : Nat} {b b' : Buffer α} {cnt scan : Arr Nat} {pnnz : List Nat}
    (hp : (List.range (threads * 16)).mapM (fun p => b.computeNnzRange (partLo b.bits.size (threads * 16) p)
      (partHi b.bits.size (threads * 16) p)) = some pnnz)
    (hscan : ∀ p, p < threads * 16 → scan.read p = (scanSums pnnz)[p]?) (h : b.compress threads = some b') :
    OneOutcome (parFor (threads * 16) (copyC b.bits.size (threads * 16)))
      (arrMem (cmpA b.value b.bits cnt scan (b.cdata, b.cidx)))
      (arrMem (cmpA b.value b.bits cnt scan (b'.cdata, b'.cidx))) (fun _ => ()) := by
  unfold Buffer.compress at h
  simp only at h
  split_ifs at h with hnp
  rw [hp] at h
  simp only [Option.bind_eq_bind, Option.bind_some] at h
  rw [Option.bind_eq_some_iff] at h
  obtain ⟨st, h, he⟩ := h
  injection he with he
  subst he
  generalize threads * 16 = np at h hnp hscan hp
  rw [mapM_some (fun p _ => computeNnz_part rfl)] at hp
  injection hp with hp
  have hlen : pnnz.length = np := by rw [← hp]; simp
  have hsc : ∀ p, p < np → (scanSums pnnz)[p]? = some (bitsIn b.bits 0 (wordLo b.bits.size np p)).length := by
    intro p hlt
    rw [scanSums_eq, List.getElem?_map, List.getElem?_range (by omega), Option.map_some, ← hp, bitsIn_take p (by omega)]
  let pos : Nat → Nat := fun p => (bitsIn b.bits 0 (wordLo b.bits.size np p)).length
  have hmono : ∀ i j, i ≤ j → pos i ≤ pos j := by
    intro i j hij
    induction hij with
    | refl => exact Nat.le_refl _
    | step _ ih =>
      refine Nat.le_trans ih ?_
      show (bitsIn b.bits 0 _).length ≤ (bitsIn b.bits 0 _).length
      rw [bitsIn_append b.bits (Nat.zero_le _) (wordLo_mono b.bits.size np _), List.length_append]
      omega
  refine parFor_outcome (own := fun p => cmpOwn (pos p) (pos (p + 1))) (shared := cmpShared)
    (mem := fun s => arrMem (cmpA b.value b.bits cnt scan s)) ?_ ?_ ?_ h
  · rintro i j l _ _ ⟨_, a1, a2⟩ ⟨_, b1, b2⟩
    rcases Nat.lt_trichotomy i j with hij | hij | hij
    · have := hmono (i + 1) j hij; omega
    · exact hij
    · have := hmono (j + 1) i hij; omega
  · rintro i l _ ⟨h1 | h1, _⟩ hs <;> rcases hs with hs | hs | hs <;> rw [h1] at hs <;> cases hs
  · intro p hlt s s' hg
    rw [hsc p hlt, Option.bind_some, Option.bind_eq_some_iff] at hg
    obtain ⟨r, hr, hg⟩ := hg
    injection hg with hg
    subst hg
    have d := (copyC_does (cnt := cnt) (by rw [hscan p hlt, hsc p hlt]) hr).2
    rw [forBits_part rfl] at hr
    have he := copy_end hr
    have e2 : r.2.2 = pos (p + 1) := by
      rw [he]
      show _ = (bitsIn b.bits 0 _).length
      rw [bitsIn_append b.bits (Nat.zero_le _) (wordLo_mono b.bits.size np p), List.length_append]
    rw [e2] at d
    exact d

/-- Three elements in two words, copied by the sixteen partitions of one thread.  The hypotheses hold. -/
example : ∃ (b b' : Buffer Nat) (scan : Arr Nat), b.compress 1 = some b' ∧ b'.cidx.get 2 = 34 ∧
    OneOutcome (parFor 16 (copyC b.bits.size 16)) (arrMem (cmpA b.value b.bits (Arr.ofList 0 []) scan (b.cdata, b.cidx)))
      (arrMem (cmpA b.value b.bits (Arr.ofList 0 []) scan (b'.cdata, b'.cidx))) (fun _ => ()) := by
  let b : Buffer Nat := ⟨false, 3, Arr.ofList 0 (List.replicate 64 1), Arr.ofList 0#32 [9#32, 4#32],
    Arr.ofList 0 (List.replicate 64 0), Arr.ofList 0 (List.replicate 64 0), []⟩
  have h : (b.compress 1).map (fun b' => b'.cidx.get 2) = some 34 := by decide +kernel
  have hp : ((List.range 16).mapM (fun p => b.computeNnzRange (partLo b.bits.size 16 p)
      (partHi b.bits.size 16 p))) = some [2, 1, 0, 0, 0, 0, 0, 0, 0, 0, 0, 0, 0, 0, 0, 0] := by decide +kernel
  rw [Option.map_eq_some_iff] at h
  obtain ⟨b', h1, h2⟩ := h
  exact ⟨b, b', Arr.ofList 0 [0, 2, 3, 3, 3, 3, 3, 3, 3, 3, 3, 3, 3, 3, 3, 3], h1, h2,
    compressCopy_tasks (threads := 1) hp (by decide +kernel) h1⟩

/-- The parallel loop of `mapreduce_dense_segment`: iteration `p` works on its own part of `value` and on
`local_reduced[p*16]` and `firstSet[p*16]`.  Afterwards these hold the results that the last loop combines. -/
theorem mapReduce_tasks {map : V → T → T × V} {op : T → T → T} {tmp : Nat → T} {threads nnz : Nat} {value : Arr V}
    {bits : Arr Word} {res : T} {value' : Arr V} {res' : T} (red : Arr T) (first : Arr Bool) (hr : red.size = threads * 16)
    (hf : first.size = threads * 16)
    (h : mapReduceDense threads map op tmp value bits nnz res = some (value', res')) :
    ∃ (rs : List (Option T)) (red' : Arr T) (first' : Arr Bool), rs.length = threads ∧
      res' = rs.foldl (addLocal op) res ∧
      (∀ p o, rs[p]? = some o → first'.get (p * 16) = o.isSome ∧ ∀ x, o = some x → red'.get (p * 16) = x) ∧
      OneOutcome (parFor threads (mapReduceC map op tmp threads nnz)) (arrMem (redA value bits red first))
        (arrMem (redA value' bits red' first')) (fun _ => ()) := by
  unfold mapReduceDense at h
  simp only [Option.bind_eq_bind, Option.bind_eq_some_iff] at h
  obtain ⟨_, _, st, h, he⟩ := h
  injection he with he
  injection he with e1 e2
  subst e1 e2
  generalize hP : (nnz + threads - 1) / threads = per at h
  have key := parFor_outcome_inv (own := redOwn per nnz) (shared := redShared)
    (mem := fun s : Arr V × List (Option T) => arrMem (redA s.1 bits (redOf red s.2) (firstOf first s.2)))
    (body := (mapReduceC map op tmp threads nnz : Nat → RedCode V T Unit)) (fun p s => s.2.length = p) ?_ ?_ ?_ rfl h
  · obtain ⟨k1, k2⟩ := key
    refine ⟨st.2, redOf red st.2, firstOf first st.2, k2, rfl, ?_, ?_⟩
    · intro p o ho
      unfold redOf firstOf
      simp only [Nat.mul_mod_left, Nat.mul_div_left _ (by omega : 0 < 16), ho, if_true]
      exact ⟨trivial, by rintro x rfl; rfl⟩
    · have e0 : arrMem (redA value bits (redOf red []) (firstOf first ([] : List (Option T)))) =
          arrMem (redA value bits red first) := by
        funext l
        obtain ⟨k, i⟩ := l
        cases k <;> simp [arrMem, redA, redOf, firstOf]
      rw [← e0]; exact k1
  · rintro i j ⟨k, l⟩ _ _ h1 h2
    have mono : ∀ a b, a ≤ b → per * a ≤ per * b := fun a b h => Nat.mul_le_mul_left _ h
    rcases h1 with ⟨a1, a2, a3⟩ | ⟨a1, a2⟩
    · rcases h2 with ⟨_, b2, b3⟩ | ⟨b1, _⟩
      · rcases Nat.lt_trichotomy i j with hij | hij | hij
        · have := mono (i + 1) j hij; omega
        · exact hij
        · have := mono (j + 1) i hij; omega
      · simp only at a1 b1; subst a1; simp at b1
    · rcases h2 with ⟨b1, _⟩ | ⟨_, b2⟩
      · simp only at a1 b1; subst b1; simp at a1
      · omega
  · rintro i ⟨k, l⟩ _ h1 hs
    cases hs
    rcases h1 with ⟨a1, _⟩ | ⟨a1 | a1, _⟩ <;> cases a1
  · rintro p hp ⟨v, rs⟩ s' rfl hg
    rw [Option.bind_eq_some_iff] at hg
    obtain ⟨r, hg, he⟩ := hg
    injection he with he
    subst he
    refine ⟨by simp, ?_⟩
    simp only at hp
    rw [← hP] at hg ⊢
    exact mapReduceC_does (rs := rs) (by rw [hr]; exact Nat.mul_lt_mul_of_pos_right hp (by omega))
      (by rw [hf]; exact Nat.mul_lt_mul_of_pos_right hp (by omega)) hg

/-- Two threads add up the three of four elements that are set, doubling them.  The hypotheses hold. -/
example : ∃ (value' : Arr Nat) (red' : Arr Nat) (first' : Arr Bool), value'.get 3 = 14 ∧
    OneOutcome (parFor 2 (mapReduceC (fun v _ => (v, 2 * v)) (· + ·) (fun _ => 99) 2 4))
      (arrMem (redA (Arr.ofList 0 [4, 5, 6, 7]) (Arr.ofList 0#32 [11#32]) (Arr.ofList 0 (List.replicate 32 8))
        (Arr.ofList true (List.replicate 32 true))))
      (arrMem (redA value' (Arr.ofList 0#32 [11#32]) red' first')) (fun _ => ()) := by
  have h : (mapReduceDense 2 (fun v _ => (v, 2 * v)) (· + ·) (fun _ => 99) (Arr.ofList 0 [4, 5, 6, 7])
      (Arr.ofList 0#32 [11#32]) 4 100).map (fun r => (r.1.get 3, r.2)) = some (14, 116) := by decide +kernel
  rw [Option.map_eq_some_iff] at h
  obtain ⟨⟨value', res'⟩, h1, h2⟩ := h
  injection h2 with h2 _
  obtain ⟨_, red', first', _, _, _, h3⟩ := mapReduce_tasks (Arr.ofList 0 (List.replicate 32 8))
    (Arr.ofList true (List.replicate 32 true)) (by decide) (by decide) h1
  exact ⟨value', red', first', h2, h3⟩

end GraphMat

import Mathlib.Data.List.Forall2
import Verif.Lemmas.Compress

namespace GraphMat

variable {α β σ : Type}

/-! ### Folding records into a value array with presence bits -/

theorem foldlM_records {cap : Nat} {step : Nat → α → Arr α × Arr Word → Option (Arr α × Arr Word)}
    {F : Option α → α → Option α}
    (hstep : ∀ i x st, i < cap → POk cap st → ∃ st', step i x st = some st' ∧ POk cap st' ∧
      ∀ j, pview cap st' j = if j = i then F (pview cap st j) x else pview cap st j)
    (R : List (Nat × α)) (hnd : (R.map (·.1)).Nodup) (hlt : ∀ e ∈ R, e.1 < cap)
    (st : Arr α × Arr Word) (hst : POk cap st) :
    ∃ st', R.foldlM (fun st e => step e.1 e.2 st) st = some st' ∧ POk cap st' ∧
      (∀ i x, (i, x) ∈ R → pview cap st' i = F (pview cap st i) x) ∧
      (∀ i, i ∉ R.map (·.1) → pview cap st' i = pview cap st i) := by
  induction R generalizing st with
  | nil => exact ⟨st, rfl, hst, by simp, by simp⟩
  | cons e R ih =>
    rw [List.map_cons, List.nodup_cons] at hnd
    obtain ⟨s1, h1, h2, h3⟩ := hstep e.1 e.2 st (hlt e List.mem_cons_self) hst
    obtain ⟨s2, k1, k2, k3, k4⟩ := ih hnd.2 (fun e he => hlt e (List.mem_cons_of_mem _ he)) s1 h2
    refine ⟨s2, ?_, k2, ?_, ?_⟩
    · rw [List.foldlM_cons, h1]; exact k1
    · intro i x hm
      rcases List.mem_cons.mp hm with he | he
      · subst he
        rw [k4 _ hnd.1, h3, if_pos rfl]
      · rw [k3 i x he, h3, if_neg]
        intro hi
        apply hnd.1
        rw [← hi]
        exact List.mem_map.mpr ⟨(i, x), he, rfl⟩
    · intro i hi
      rw [List.map_cons, List.mem_cons] at hi
      rw [k4 i (fun h => hi (Or.inr h)), h3, if_neg (fun h => hi (Or.inl h))]

theorem pview_ge {cap i : Nat} {st : Arr α × Arr Word} (h : cap ≤ i) : pview cap st i = none := by
  unfold pview; rw [if_neg (by omega)]

theorem fold_rep {cap : Nat} {step : Nat → α → Arr α × Arr Word → Option (Arr α × Arr Word)}
    {F : Option α → α → Option α}
    (hstep : ∀ i x st, i < cap → POk cap st → ∃ st', step i x st = some st' ∧ POk cap st' ∧
      ∀ j, pview cap st' j = if j = i then F (pview cap st j) x else pview cap st j)
    {R : List (Nat × α)} {m : Nat → Option α} (hR : Rep cap m R)
    (st : Arr α × Arr Word) (hst : POk cap st) :
    ∃ st', R.foldlM (fun st e => step e.1 e.2 st) st = some st' ∧ POk cap st' ∧
      ∀ i, i < cap → pview cap st' i =
        match m i with
        | none => pview cap st i
        | some x => F (pview cap st i) x := by
  obtain ⟨st', h1, h2, h3, h4⟩ := foldlM_records hstep R hR.nodup
    (fun e he => (hR.mem.mp (show (e.1, e.2) ∈ R from he)).1) st hst
  refine ⟨st', h1, h2, ?_⟩
  intro i hi
  cases hm : m i with
  | none =>
    simp only
    apply h4
    rw [hR.keys]
    unfold support
    rw [List.mem_filter, hm]
    simp
  | some x => exact h3 i x (hR.mem.mpr ⟨hi, hm⟩)

theorem scatter_spec {cap : Nat} (i : Nat) (x : α) (st : Arr α × Arr Word) (hi : i < cap)
    (h : POk cap st) : ∃ st', scatter i x st = some st' ∧ POk cap st' ∧
      ∀ j, pview cap st' j = if j = i then some x else pview cap st j := by
  unfold scatter
  obtain ⟨b, hb, hsz, hbit, _⟩ := setBitvector_spec (bv := st.2) (i := i)
    (by rw [h.bits]; exact word_lt hi)
  simp only [Option.bind_eq_bind]
  rw [hb, Option.bind_some, Arr.write_some (by rw [h.value]; exact hi)]
  refine ⟨_, rfl, ⟨by simpa using h.value, by simpa [hsz] using h.bits, ?_⟩, ?_⟩
  · intro j hj1 hj2
    simp only at hj2 ⊢
    rw [hbit, if_neg (by omega)]
    exact h.tail j hj1 (by omega)
  · intro j
    unfold pview
    simp only [hbit, Arr.upd_get]
    by_cases hj : j = i
    · subst hj; simp [hi]
    · simp [hj]

/-- Combination of an existing value with a received one. -/
def combine (add : α → α → α) : Option α → Option α → Option α
  | none, y => y
  | some x, none => some x
  | some x, some y => some (add x y)

theorem mergeOne_spec {cap : Nat} (add : α → α → α) (i : Nat) (x : α) (st : Arr α × Arr Word)
    (hi : i < cap) (h : POk cap st) : ∃ st', mergeOne add i x st = some st' ∧ POk cap st' ∧
      ∀ j, pview cap st' j = if j = i then combine add (pview cap st j) (some x)
        else pview cap st j := by
  unfold mergeOne
  have hw : i / 32 < st.2.size := by rw [h.bits]; exact word_lt hi
  simp only [Option.bind_eq_bind]
  rw [getBitvector_eq hw, Option.bind_some]
  by_cases hbit : bitAt st.2 i = true
  · rw [if_pos hbit, Arr.read_some (by rw [h.value]; exact hi), Option.bind_some,
      Arr.write_some (by rw [h.value]; exact hi)]
    refine ⟨_, rfl, ⟨by simpa using h.value, h.bits, h.tail⟩, ?_⟩
    intro j
    unfold pview
    simp only [Arr.upd_get]
    by_cases hj : j = i
    · subst hj; simp [hi, hbit, combine]
    · simp [hj]
  · rw [if_neg hbit]
    obtain ⟨st', h1, h2, h3⟩ := scatter_spec i x st hi h
    unfold scatter at h1
    simp only [Option.bind_eq_bind] at h1
    refine ⟨st', h1, h2, ?_⟩
    intro j
    rw [h3]
    by_cases hj : j = i
    · subst hj
      rw [if_pos rfl, if_pos rfl]
      have : pview cap st j = none := by unfold pview; rw [if_neg (fun h => hbit h.2)]
      rw [this]; rfl
    · rw [if_neg hj, if_neg hj]

theorem forLoop_records {cd : Arr α} {ci : Arr Nat} {n : Nat} (h1 : n ≤ cd.size) (h2 : n ≤ ci.size)
    (step : Nat → α → σ → Option σ) (s : σ) :
    forLoop 0 n s (fun i s => (ci.read i).bind (fun idx => (cd.read i).bind (fun x => step idx x s))) =
      (Buffer.records n cd ci).foldlM (fun s e => step e.1 e.2 s) s := by
  unfold forLoop Buffer.records
  rw [Nat.sub_zero, ← List.range_eq_range', List.foldlM_map]
  apply foldlM_congr
  intro i hi s
  rw [List.mem_range] at hi
  simp only
  rw [Arr.read_some (by omega), Option.bind_some, Arr.read_some (by omega), Option.bind_some]

/-! ### decompress -/

theorem skipWord_spec {ci : Arr Nat} {w : Nat} (fuel pos : Nat) (h : pos + fuel ≤ ci.size) :
    ∃ r, skipWord ci w fuel pos = some r ∧ pos ≤ r ∧ r ≤ pos + fuel := by
  induction fuel generalizing pos with
  | zero => exact ⟨pos, rfl, Nat.le_refl _, Nat.le_refl _⟩
  | succ fuel ih =>
    unfold skipWord
    simp only [Option.bind_eq_bind]
    rw [Arr.read_some (by omega), Option.bind_some]
    split
    · obtain ⟨r, h1, h2, h3⟩ := ih (pos + 1) (by omega)
      exact ⟨r, h1, by omega, by omega⟩
    · exact ⟨pos, rfl, by omega, by omega⟩

theorem decompressBounds_spec {ci : Arr Nat} {nnz per : Nat} (hn : nnz ≤ ci.size)
    (body : Nat → σ → Option σ) (k : Nat) :
    ∀ start, start ≤ nnz → nnz ≤ start + per * k →
    ∃ l, decompressBounds ci nnz per k start = some l ∧
      ∀ s : σ, l.foldlM (fun s (se : Nat × Nat) => forLoop se.1 se.2 s body) s =
        forLoop start nnz s body := by
  induction k with
  | zero =>
    intro start h1 h2
    refine ⟨[], rfl, ?_⟩
    intro s
    rw [forLoop_empty (by omega)]; rfl
  | succ k ih =>
    intro start h1 h2
    unfold decompressBounds
    have hm : ∃ m, nextBound ci nnz per start = some m ∧
        start ≤ m ∧ m ≤ nnz ∧ (m = nnz ∨ start + per ≤ m) := by
      unfold nextBound
      simp only
      by_cases hc : start + per > nnz
      · simp only [if_pos hc, Nat.lt_irrefl, if_false]
        exact ⟨nnz, rfl, h1, Nat.le_refl _, Or.inl rfl⟩
      · simp only [if_neg hc]
        by_cases hc2 : start + per < nnz
        · rw [if_pos hc2]
          simp only [Option.bind_eq_bind]
          rw [Arr.read_some (by omega), Option.bind_some]
          obtain ⟨r, r1, r2, r3⟩ := skipWord_spec (ci := ci) (w := ci.get (start + per) / 32)
            (nnz - (start + per)) (start + per) (by omega)
          exact ⟨r, r1, by omega, by omega, Or.inr r2⟩
        · rw [if_neg hc2]
          exact ⟨_, rfl, by omega, by omega, Or.inr (Nat.le_refl _)⟩
    obtain ⟨m, e1, e2, e3, e4⟩ := hm
    have hk : nnz ≤ m + per * k := by
      rw [Nat.mul_add, Nat.mul_one] at h2
      generalize per * k = z at *
      omega
    obtain ⟨l, l1, l2⟩ := ih m e3 hk
    simp only [Option.bind_eq_bind]
    rw [e1, Option.bind_some, l1]
    refine ⟨_, rfl, ?_⟩
    intro s
    rw [List.foldlM_cons]
    simp only [Option.bind_eq_bind]
    rw [← forLoop_concat e2 e3]
    congr 1
    funext s
    exact l2 s

theorem Buffer.decompress_spec {b : Buffer α} {cap threads n : Nat} (hth : 0 < threads)
    (hd : b.Dims cap ((cap + 31) / 32)) (hn : b.nnz = n) (hc : n ≤ cap) {m : Nat → Option α}
    (hR : Rep cap m (Buffer.records n b.cdata b.cidx)) :
    ∃ value bits, b.decompress threads = some { b with bits := bits, value := value } ∧
      POk cap (value, bits) ∧ ∀ i, i < cap → pview cap (value, bits) i = m i := by
  unfold Buffer.decompress
  simp only [Option.bind_eq_bind]
  rw [if_neg (by omega), hn]
  have e : natIdx (n : Int) = some n := by simp [natIdx]
  rw [e, Option.bind_some]
  obtain ⟨z, hz, hzs, hz0⟩ := memsetZero_spec (bv := b.bits) (n := b.bits.size) rfl
  rw [hz, Option.bind_some]
  have hp0 : POk cap (b.value, z) := by
    refine ⟨hd.value, by simpa [hzs] using hd.bits, ?_⟩
    intro i _ hi
    exact bitAt_zero (hz0 _ (by simp only at hi; omega))
  have hv0 : ∀ i, pview cap (b.value, z) i = none := by
    intro i
    unfold pview
    rw [if_neg]
    intro ⟨hi, hbit⟩
    rw [bitAt_zero (hz0 _ (by rw [hd.bits]; exact word_lt hi))] at hbit
    exact absurd hbit (by decide)
  have hper : n ≤ 0 + ((n + threads - 1) / threads + 31) / 32 * 32 * threads := by
    have h1 : n ≤ (n + threads - 1) / threads * threads := by
      have := Nat.div_add_mod (n + threads - 1) threads
      have h2 := Nat.mod_lt (n + threads - 1) hth
      rw [Nat.mul_comm] at this
      generalize (n + threads - 1) / threads * threads = z at *
      omega
    have h2 : (n + threads - 1) / threads * threads ≤
        ((n + threads - 1) / threads + 31) / 32 * 32 * threads :=
      Nat.mul_le_mul_right _ (by omega)
    omega
  obtain ⟨l, l1, l2⟩ := decompressBounds_spec (ci := b.cidx) (nnz := n) (by rw [hd.cidx]; exact hc)
    (fun i st => (b.cidx.read i).bind (fun idx => (b.cdata.read i).bind (fun x => scatter idx x st)))
    threads 0 (Nat.zero_le _) hper
  rw [l1, Option.bind_some, l2, forLoop_records (by rw [hd.cdata]; exact hc) (by rw [hd.cidx]; exact hc)]
  obtain ⟨st', h1, h2, h3⟩ := fold_rep (F := fun _ x => some x) (fun i x st => scatter_spec i x st) hR
    (b.value, z) hp0
  rw [h1]
  refine ⟨st'.1, st'.2, rfl, h2, ?_⟩
  intro i hi
  rw [show (st'.1, st'.2) = st' from rfl, h3 i hi]
  cases hm : m i with
  | none => simp [hv0]
  | some x => rfl

theorem foldlM_flatten {l : List (List β)} {f : σ → β → Option σ} (s : σ) :
    l.foldlM (fun s p => p.foldlM f s) s = l.flatten.foldlM f s := by
  induction l generalizing s with
  | nil => rfl
  | cons a l ih =>
    rw [List.foldlM_cons, List.flatten_cons, List.foldlM_append]
    congr 1
    funext s
    exact ih s

theorem Buffer.decompressSer_spec {b : Buffer α} {cap : Nat}
    (hd : b.Dims cap ((cap + 31) / 32)) {m : Nat → Option α} (hR : Rep cap m b.sdata.flatten) :
    ∃ value bits, b.decompressSer = some { b with bits := bits, value := value } ∧
      POk cap (value, bits) ∧ ∀ i, i < cap → pview cap (value, bits) i = m i := by
  unfold Buffer.decompressSer
  simp only [Option.bind_eq_bind]
  obtain ⟨z, hz, hzs, hz0⟩ := memsetZero_spec (bv := b.bits) (n := b.bits.size) rfl
  rw [hz, Option.bind_some]
  have hp0 : POk cap (b.value, z) := by
    refine ⟨hd.value, by simpa [hzs] using hd.bits, ?_⟩
    intro i _ hi
    exact bitAt_zero (hz0 _ (by simp only at hi; omega))
  have hv0 : ∀ i, pview cap (b.value, z) i = none := by
    intro i
    unfold pview
    rw [if_neg]
    intro ⟨hi, hbit⟩
    rw [bitAt_zero (hz0 _ (by rw [hd.bits]; exact word_lt hi))] at hbit
    exact absurd hbit (by decide)
  rw [foldlM_flatten]
  obtain ⟨st', h1, h2, h3⟩ := fold_rep (F := fun _ x => some x) (fun i x st => scatter_spec i x st) hR
    (b.value, z) hp0
  rw [h1]
  refine ⟨st'.1, st'.2, rfl, h2, ?_⟩
  intro i hi
  rw [show (st'.1, st'.2) = st' from rfl, h3 i hi]
  cases hm : m i with
  | none => simp [hv0]
  | some x => rfl

/-- `DenseSegment::decompress` turns what the buffer carries into the map of the segment. -/
theorem Segment.decompress_spec {s : Segment α} {b : Buffer α} (hb : s.props = some b)
    (hni : s.numInts = (s.capacity + 31) / 32) (hd : b.Dims s.capacity s.numInts)
    (hu : b.uninit = false) (ser : Bool) {threads : Nat} (hth : 0 < threads) {m : Nat → Option α}
    (hm : ∀ i, s.capacity ≤ i → m i = none) (hc : b.Carries ser s.capacity m) :
    ∃ b', s.decompress ser threads = some { s with props := some b' } ∧ b'.uninit = false ∧
      b'.Dims s.capacity s.numInts ∧ b'.Tail s.capacity ∧ b'.view = m := by
  have hd' := hd
  rw [hni] at hd'
  unfold Segment.decompress
  rw [hb]
  simp only [Option.bind_eq_bind, Option.bind_some]
  unfold Buffer.Carries at hc
  have fin : ∀ value bits, POk s.capacity (value, bits) →
      (∀ i, i < s.capacity → pview s.capacity (value, bits) i = m i) →
      ({ b with bits := bits, value := value } : Buffer α).Dims s.capacity s.numInts ∧
      ({ b with bits := bits, value := value } : Buffer α).Tail s.capacity ∧
      ({ b with bits := bits, value := value } : Buffer α).view = m := by
    intro value bits h1 h2
    have hD : ({ b with bits := bits, value := value } : Buffer α).Dims s.capacity s.numInts :=
      ⟨h1.value, by rw [hni]; exact h1.bits, hd.cdata, hd.cidx⟩
    refine ⟨hD, h1.tail, ?_⟩
    rw [Buffer.pview_eq hD hu]
    funext i
    rcases Nat.lt_or_ge i s.capacity with h | h
    · exact h2 i h
    · rw [pview_ge h, hm i h]
  cases hdec : shouldCompress ser s.capacity b.nnz with
  | none =>
    rw [hdec] at hc
    have := fin b.value b.bits hc.1 (fun i hi => (hc.2 i hi).symm)
    exact ⟨b, by cases s; simp_all, hu, this.1, this.2.1, this.2.2⟩
  | serialized =>
    rw [hdec] at hc
    obtain ⟨value, bits, h1, h2, h3⟩ := Buffer.decompressSer_spec hd' hc
    simp only [h1, Option.bind_some]
    have := fin value bits h2 h3
    exact ⟨_, rfl, hu, this.1, this.2.1, this.2.2⟩
  | compressed =>
    rw [hdec] at hc
    obtain ⟨n, n1, n2, n3⟩ := hc
    obtain ⟨value, bits, h1, h2, h3⟩ := Buffer.decompress_spec hth hd' n1 n2 n3
    simp only [h1, Option.bind_some]
    have := fin value bits h2 h3
    exact ⟨_, rfl, hu, this.1, this.2.1, this.2.2⟩

/-! ### Messages -/

theorem Arr.prefix_eq {a : Arr α} {k : Nat} (h : k ≤ a.size) :
    a.prefix k = some ((List.range k).map a.get) := by
  unfold Arr.prefix
  exact mapM_some (fun i hi => Arr.read_some (by have := List.mem_range.mp hi; omega))

theorem store_aux (l : List α) : ∀ (k : Nat) (a : Arr α), k + l.length ≤ a.size →
    ∃ b, (l.zipIdx k).foldlM (fun a (x : α × Nat) => a.write x.2 x.1) a = some b ∧
      b.size = a.size ∧ ∀ j, b.get j = if h : k ≤ j ∧ j - k < l.length then l[j - k]'h.2 else a.get j := by
  induction l with
  | nil => intro k a _; exact ⟨a, rfl, rfl, by simp⟩
  | cons x l ih =>
    intro k a h
    simp only [List.length_cons] at h
    obtain ⟨b, h1, h2, h3⟩ := ih (k + 1) (a.upd k x) (by simp; omega)
    refine ⟨b, ?_, by simpa using h2, ?_⟩
    · rw [List.zipIdx_cons, List.foldlM_cons, Arr.write_some (by simp; omega)]; exact h1
    · intro j
      rw [h3]
      by_cases hj : j = k
      · subst hj; rw [dif_neg (by omega), dif_pos (by simp)]; simp
      · by_cases hc : k + 1 ≤ j ∧ j - (k + 1) < l.length
        · have hc' : k ≤ j ∧ j - k < (x :: l).length := by simp; omega
          rw [dif_pos hc, dif_pos hc']
          obtain ⟨t, ht⟩ : ∃ t, j - k = t + 1 := ⟨j - k - 1, by omega⟩
          simp only [ht, List.getElem_cons_succ]
          congr 1; omega
        · have hc' : ¬ (k ≤ j ∧ j - k < (x :: l).length) := by simp; omega
          rw [dif_neg hc, dif_neg hc', Arr.upd_get_ne _ _ hj]

theorem Arr.store_spec {a : Arr α} {l : List α} (h : l.length ≤ a.size) :
    ∃ b, a.store l = some b ∧ b.size = a.size ∧
      ∀ j, b.get j = if h : j < l.length then l[j] else a.get j := by
  obtain ⟨b, h1, h2, h3⟩ := store_aux l 0 a (by omega)
  exact ⟨b, h1, h2, by simpa using h3⟩

/-- Sending what `s` carries and receiving it into any buffer of the same dimensions makes that
buffer carry the same map. -/
theorem Buffer.transfer {s : Segment α} {b : Buffer α} (hb : s.props = some b)
    (hni : s.numInts = (s.capacity + 31) / 32) (hd : b.Dims s.capacity s.numInts) (ser : Bool)
    {m : Nat → Option α} (hc : b.Carries ser s.capacity m) {p : Buffer α}
    (hp : p.Dims s.capacity s.numInts) {threads : Nat}
    (hser : ser = true → b.sdata.length ≤ threads * 16) :
    ∃ msg p', s.send ser = some msg ∧ p.recv ser s.capacity s.numInts threads msg = some p' ∧
      p'.uninit = false ∧ p'.Dims s.capacity s.numInts ∧ p'.Carries ser s.capacity m := by
  unfold Segment.send
  rw [hb]
  simp only [Option.bind_eq_bind, Option.bind_some]
  have hc0 := hc
  unfold Buffer.Carries at hc
  cases hdec : shouldCompress ser s.capacity b.nnz with
  | none =>
    rw [hdec] at hc
    simp only
    rw [Arr.prefix_eq (by rw [hd.value]; exact Nat.le_refl _), Option.bind_some,
      Arr.prefix_eq (by rw [hd.bits]; exact Nat.le_refl _), Option.bind_some]
    refine ⟨⟨b.nnz, .raw ((List.range s.capacity).map b.value.get)
      ((List.range s.numInts).map b.bits.get)⟩, ?_⟩
    simp only [true_and]
    unfold Buffer.recv
    simp only [hdec]
    rw [if_pos (by simp)]
    obtain ⟨v, v1, v2, v3⟩ := Arr.store_spec (a := p.value)
      (l := (List.range s.capacity).map b.value.get) (by simp [hp.value])
    obtain ⟨w, w1, w2, w3⟩ := Arr.store_spec (a := p.bits)
      (l := (List.range s.numInts).map b.bits.get) (by simp [hp.bits])
    simp only [Option.bind_eq_bind, v1, w1, Option.bind_some]
    refine ⟨_, rfl, rfl, ⟨by simpa [v2] using hp.value, by simpa [w2] using hp.bits, hp.cdata, hp.cidx⟩, ?_⟩
    unfold Buffer.Carries
    simp only [hdec]
    have hbit : ∀ i, i / 32 < s.numInts → bitAt w i = bitAt b.bits i := by
      intro i hi
      unfold bitAt
      rw [w3, dif_pos (by simpa using hi)]
      simp
    refine ⟨⟨by simpa [v2] using hp.value, by simpa [w2, hni] using hp.bits, ?_⟩, ?_⟩
    · intro i h1 h2
      simp only at h2 ⊢
      rw [w2, hp.bits] at h2
      rw [hbit i h2]
      exact hc.1.tail i h1 (by simp only; rw [hd.bits]; exact h2)
    · intro i hi
      rw [hc.2 i hi]
      unfold pview
      simp only
      rw [hbit i (by rw [hni]; exact word_lt hi), v3, dif_pos (by simpa using hi)]
      simp
  | serialized =>
    rw [hdec] at hc
    refine ⟨⟨b.nnz, .serialized b.sdata⟩, ?_⟩
    simp only [true_and]
    unfold Buffer.recv
    simp only [hdec]
    have hs : ser = true := by
      cases ser
      · simp [shouldCompress] at hdec; split at hdec <;> simp at hdec
      · rfl
    rw [if_pos (hser hs)]
    refine ⟨_, rfl, rfl, ⟨hp.value, hp.bits, hp.cdata, hp.cidx⟩, ?_⟩
    unfold Buffer.Carries
    simp only [hdec]
    exact hc
  | compressed =>
    rw [hdec] at hc
    obtain ⟨n, n1, n2, n3⟩ := hc
    simp only
    rw [n1]
    have e : natIdx (n : Int) = some n := by simp [natIdx]
    rw [e, Option.bind_some, Arr.prefix_eq (by rw [hd.cdata]; exact n2), Option.bind_some,
      Arr.prefix_eq (by rw [hd.cidx]; exact n2), Option.bind_some]
    refine ⟨⟨n, .compressed ((List.range n).map b.cdata.get) ((List.range n).map b.cidx.get)⟩, ?_⟩
    simp only [true_and]
    unfold Buffer.recv
    rw [n1] at hdec
    simp only [hdec]
    rw [if_pos (by simp)]
    obtain ⟨v, v1, v2, v3⟩ := Arr.store_spec (a := p.cdata)
      (l := (List.range n).map b.cdata.get) (by simp [hp.cdata, n2])
    obtain ⟨w, w1, w2, w3⟩ := Arr.store_spec (a := p.cidx)
      (l := (List.range n).map b.cidx.get) (by simp [hp.cidx, n2])
    simp only [Option.bind_eq_bind, v1, w1, Option.bind_some]
    refine ⟨_, rfl, rfl, ⟨hp.value, hp.bits, by simpa [v2] using hp.cdata, by simpa [w2] using hp.cidx⟩, ?_⟩
    unfold Buffer.Carries
    simp only [hdec]
    refine ⟨n, rfl, n2, ?_⟩
    have : Buffer.records n v w = Buffer.records n b.cdata b.cidx := by
      unfold Buffer.records
      apply List.map_congr_left
      intro j hj
      have hj' := List.mem_range.mp hj
      rw [v3, w3, dif_pos (by simpa using hj'), dif_pos (by simpa using hj')]
      simp
    rw [this]; exact n3

/-! ### Merging -/

theorem unionDense_spec {cap : Nat} (add : α → α → α) {v1 v2 : Arr α} {b1 b2 : Arr Word}
    (h1 : POk cap (v1, b1)) (h2 : POk cap (v2, b2)) :
    ∃ st, unionDense add cap ((cap + 31) / 32) v1 b1 v2 b2 = some st ∧ POk cap st ∧
      ∀ i, pview cap st i = combine add (pview cap (v1, b1) i) (pview cap (v2, b2) i) := by
  unfold unionDense
  have e1 := h1.value; have e2 := h2.value; have e3 := h1.bits; have e4 := h2.bits
  simp only at e1 e2 e3 e4
  obtain ⟨w, hw, w1, w2⟩ := foldlM_pointwise (l := List.range' 0 (cap - 0)) List.nodup_range' (a := v1)
    (body := fun ii v1 => do
      let set1 ← getBitvector ii b1
      let set2 ← getBitvector ii b2
      if set1 && !set2 then do
        let x ← v1.read ii
        v1.write ii x
      else if !set1 && set2 then do
        let x ← v2.read ii
        v1.write ii x
      else if set1 && set2 then do
        let x ← v1.read ii
        let y ← v2.read ii
        v1.write ii (add x y)
      else some v1)
    (h := fun i x => if bitAt b2 i then (if bitAt b1 i then add x (v2.get i) else v2.get i) else x) (by
      intro i hi v hv
      rw [List.mem_range'_1] at hi
      have hi' : i < cap := by omega
      have hword := word_lt hi'
      simp only [Option.bind_eq_bind]
      rw [getBitvector_eq (by rw [e3]; exact hword), Option.bind_some,
        getBitvector_eq (by rw [e4]; exact hword), Option.bind_some,
        Arr.read_some (show i < v.size by omega), Arr.read_some (show i < v2.size by omega)]
      simp only [Option.bind_some]
      rw [Arr.write_some (by omega), Arr.write_some (by omega), Arr.write_some (by omega)]
      have hid : v.upd i (v.get i) = v := by
        cases v; simp only [Arr.upd, Arr.mk.injEq, true_and]; funext j; split <;> simp_all
      cases bitAt b1 i <;> cases bitAt b2 i <;> simp [hid])
  have hw' : forLoop 0 cap v1 (fun ii v1 => do
      let set1 ← getBitvector ii b1
      let set2 ← getBitvector ii b2
      if set1 && !set2 then do
        let x ← v1.read ii
        v1.write ii x
      else if !set1 && set2 then do
        let x ← v2.read ii
        v1.write ii x
      else if set1 && set2 then do
        let x ← v1.read ii
        let y ← v2.read ii
        v1.write ii (add x y)
      else some v1) = some w := hw
  rw [hw']
  obtain ⟨z, hz, z1, z2⟩ := foldlM_pointwise (l := List.range' 0 ((cap + 31) / 32 - 0))
    List.nodup_range' (a := b1)
    (body := fun i bv => do
      let x ← bv.read i
      let y ← b2.read i
      bv.write i (x ||| y))
    (h := fun i x => x ||| b2.get i) (by
      intro i hi v hv
      rw [List.mem_range'_1] at hi
      simp only [Option.bind_eq_bind]
      rw [Arr.read_some (by omega), Option.bind_some, Arr.read_some (by omega), Option.bind_some,
        Arr.write_some (by omega)])
  have hz' : forLoop 0 ((cap + 31) / 32) b1 (fun i bv => do
      let x ← bv.read i
      let y ← b2.read i
      bv.write i (x ||| y)) = some z := hz
  simp only [Option.bind_eq_bind, Option.bind_some]
  simp only [Option.bind_eq_bind] at hz'
  rw [hz', Option.bind_some]
  have hbit : ∀ i, i / 32 < (cap + 31) / 32 → bitAt z i = (bitAt b1 i || bitAt b2 i) := by
    intro i hi
    unfold bitAt
    rw [z2, if_pos (by rw [List.mem_range'_1]; omega), BitVec.getLsbD_or]
  refine ⟨_, rfl, ⟨by simpa using w1.trans e1, by simpa using z1.trans e3, ?_⟩, ?_⟩
  · intro i hi1 hi2
    simp only at hi2 ⊢
    rw [z1, e3] at hi2
    have t1 := h1.tail i hi1 (by simp only; omega)
    have t2 := h2.tail i hi1 (by simp only; omega)
    simp only at t1 t2
    rw [hbit i hi2, t1, t2]
    rfl
  · intro i
    unfold pview
    simp only
    by_cases hi : i < cap
    · rw [hbit i (word_lt hi), w2, if_pos (show i ∈ List.range' 0 (cap - 0) by
        rw [List.mem_range'_1]; omega)]
      cases bitAt b1 i <;> cases bitAt b2 i <;> simp [hi, combine]
    · simp [hi, combine]

theorem adjustIdx_spec {ci : Arr Nat} {nnz : Nat} (hn : nnz ≤ ci.size) (fuel : Nat) :
    ∀ k, k + fuel = nnz → (0 < fuel → 0 < k) →
    ∃ r, adjustIdx ci fuel k = some r ∧ k ≤ r ∧ r ≤ nnz ∧
      (r = nnz ∨ ci.get r / 32 ≠ ci.get (r - 1) / 32) ∧
      ∀ r', k ≤ r' → r' ≤ nnz → (r' = nnz ∨ ci.get r' / 32 ≠ ci.get (r' - 1) / 32) → r ≤ r' := by
  induction fuel with
  | zero =>
    intro k h _
    exact ⟨k, rfl, Nat.le_refl _, by omega, Or.inl (by omega), fun r' h1 _ _ => h1⟩
  | succ fuel ih =>
    intro k h hk
    unfold adjustIdx
    simp only [Option.bind_eq_bind]
    rw [if_neg (by omega), Arr.read_some (by omega), Option.bind_some, Arr.read_some (by omega),
      Option.bind_some]
    split
    · rename_i he
      obtain ⟨r, h1, h2, h3, h4, h5⟩ := ih (k + 1) (by omega) (by omega)
      refine ⟨r, h1, by omega, h3, h4, ?_⟩
      intro r' a1 a2 a3
      apply h5 r' _ a2 a3
      rcases Nat.lt_or_ge k r' with hlt | hge
      · exact hlt
      · have : r' = k := by omega
        subst this
        rcases a3 with a3 | a3
        · omega
        · exact absurd he a3
    · rename_i he
      exact ⟨k, rfl, Nat.le_refl _, by omega, Or.inr he, fun r' h1 _ _ => h1⟩

/-- The adjusted partition boundary of `union_compressed`. -/
theorem adjust_fun {ci : Arr Nat} {nnz : Nat} (hn : nnz ≤ ci.size) :
    ∃ A : Nat → Nat, A 0 = 0 ∧ (∀ k, 0 < k → k ≤ nnz → adjustIdx ci (nnz - k) k = some (A k)) ∧
      (∀ k, k ≤ nnz → k ≤ A k ∧ A k ≤ nnz) ∧ (∀ k l, k ≤ l → l ≤ nnz → A k ≤ A l) := by
  have ex : ∀ k, ∃ r, k ≤ nnz → 0 < k → adjustIdx ci (nnz - k) k = some r ∧ k ≤ r ∧ r ≤ nnz ∧
      (r = nnz ∨ ci.get r / 32 ≠ ci.get (r - 1) / 32) ∧
      ∀ r', k ≤ r' → r' ≤ nnz → (r' = nnz ∨ ci.get r' / 32 ≠ ci.get (r' - 1) / 32) → r ≤ r' := by
    intro k
    by_cases h : k ≤ nnz ∧ 0 < k
    · obtain ⟨r, hr⟩ := adjustIdx_spec hn (nnz - k) k (by omega) (fun _ => h.2)
      exact ⟨r, fun _ _ => hr⟩
    · exact ⟨0, fun h1 h2 => absurd ⟨h1, h2⟩ h⟩
  obtain ⟨A0, hA0⟩ := Classical.axiomOfChoice ex
  refine ⟨fun k => if k = 0 then 0 else A0 k, by simp, ?_, ?_, ?_⟩
  · intro k h1 h2
    simp only
    rw [if_neg (by omega)]
    exact (hA0 k h2 h1).1
  · intro k h
    simp only
    by_cases hk : k = 0
    · subst hk; simp
    · rw [if_neg hk]
      have := hA0 k h (by omega)
      exact ⟨this.2.1, this.2.2.1⟩
  · intro k l hkl hl
    simp only
    by_cases hk : k = 0
    · simp [hk]
    · rw [if_neg hk, if_neg (by omega)]
      have a := hA0 k (by omega) (by omega)
      have b := hA0 l hl (by omega)
      exact a.2.2.2.2 _ (by omega) b.2.2.1 b.2.2.2.1

theorem unionCompressed_spec {cap : Nat} (add : α → α → α) {threads n : Nat} (hth : 0 < threads)
    {cd : Arr α} {ci : Arr Nat} (h1 : n ≤ cd.size) (h2 : n ≤ ci.size) {m : Nat → Option α}
    (hR : Rep cap m (Buffer.records n cd ci)) {v : Arr α} {bv : Arr Word} (hst : POk cap (v, bv)) :
    ∃ st, unionCompressed add threads cd ci n v bv = some st ∧ POk cap st ∧
      ∀ i, i < cap → pview cap st i = combine add (pview cap (v, bv) i) (m i) := by
  unfold unionCompressed
  have hnp : 0 < threads * 16 := by omega
  generalize threads * 16 = np at hnp
  simp only [Option.bind_eq_bind]
  rw [if_neg (by omega)]
  obtain ⟨A, A0, A1, A2, A3⟩ := adjust_fun h2
  have hper : n ≤ (n + np - 1) / np * np := by
    have := Nat.div_add_mod (n + np - 1) np
    have h2 := Nat.mod_lt (n + np - 1) hnp
    rw [Nat.mul_comm] at this
    generalize (n + np - 1) / np * np = z at *
    omega
  have hperpos : 0 < n → 0 < (n + np - 1) / np := fun h => Nat.div_pos (by omega) hnp
  have hBmono : ∀ p, p < np → A (min (p * ((n + np - 1) / np)) n) ≤
      A (min ((p + 1) * ((n + np - 1) / np)) n) := by
    intro p _
    apply A3
    · have : p * ((n + np - 1) / np) ≤ (p + 1) * ((n + np - 1) / np) :=
        Nat.mul_le_mul_right _ (by omega)
      omega
    · omega
  rw [forLoop_congr (g := fun p st => forLoop (A (min (p * ((n + np - 1) / np)) n))
    (A (min ((p + 1) * ((n + np - 1) / np)) n)) st (fun i st => (ci.read i).bind (fun idx =>
      (cd.read i).bind (fun x => mergeOne add idx x st)))) (by
    intro p _ hp st
    have hend : (if (p + 1) * ((n + np - 1) / np) > n then n else (p + 1) * ((n + np - 1) / np)) =
        min ((p + 1) * ((n + np - 1) / np)) n := by split <;> omega
    rw [hend]
    have hE : adjustIdx ci (n - min ((p + 1) * ((n + np - 1) / np)) n)
        (min ((p + 1) * ((n + np - 1) / np)) n) = some (A (min ((p + 1) * ((n + np - 1) / np)) n)) := by
      by_cases hn0 : n = 0
      · subst hn0
        simp [adjustIdx, A0]
      · apply A1
        · have := Nat.mul_pos (show 0 < p + 1 by omega) (hperpos (by omega))
          omega
        · omega
    by_cases hs0 : p * ((n + np - 1) / np) = 0
    · rw [hs0]
      simp only [Nat.lt_irrefl, gt_iff_lt, if_false, Option.bind_some, Nat.zero_min, A0]
      rw [hE, Option.bind_some]
    · rw [if_pos (by omega)]
      by_cases hsn : p * ((n + np - 1) / np) ≤ n
      · rw [A1 _ (by omega) hsn, Option.bind_some, hE, Option.bind_some, Nat.min_eq_left hsn]
      · have : n - p * ((n + np - 1) / np) = 0 := by omega
        rw [this]
        simp only [adjustIdx, Option.bind_some]
        rw [hE, Option.bind_some]
        have hA := A2 (min ((p + 1) * ((n + np - 1) / np)) n) (by omega)
        have hA' := A2 (min (p * ((n + np - 1) / np)) n) (by omega)
        rw [forLoop_empty (by omega), forLoop_empty (by omega)])]
  rw [forLoop_partition (B := fun p => A (min (p * ((n + np - 1) / np)) n)) hBmono]
  have e0 : A (min (0 * ((n + np - 1) / np)) n) = 0 := by simp [A0]
  have e1 : A (min (np * ((n + np - 1) / np)) n) = n := by
    rw [Nat.mul_comm, Nat.min_eq_right hper]
    have := A2 n (Nat.le_refl _)
    omega
  rw [e0, e1, forLoop_records h1 h2]
  obtain ⟨st', k1, k2, k3⟩ := fold_rep (F := fun o x => combine add o (some x))
    (fun i x st => mergeOne_spec add i x st) hR (v, bv) hst
  refine ⟨st', k1, k2, ?_⟩
  intro i hi
  rw [k3 i hi]
  cases hm : m i with
  | none => simp only [combine]; cases pview cap (v, bv) i <;> rfl
  | some x => rfl

/-- One received buffer is merged. -/
theorem unionOne_spec {cap : Nat} (ser : Bool) {threads : Nat} (hth : 0 < threads) (add : α → α → α)
    {r : Buffer α} (hd : r.Dims cap ((cap + 31) / 32)) {m : Nat → Option α}
    (hc : r.Carries ser cap m) {st : Arr α × Arr Word} (hst : POk cap st) :
    ∃ st', unionOne ser threads add cap ((cap + 31) / 32) r st = some st' ∧ POk cap st' ∧
      ∀ i, i < cap → pview cap st' i = combine add (pview cap st i) (m i) := by
  unfold unionOne
  unfold Buffer.Carries at hc
  cases hdec : shouldCompress ser cap r.nnz with
  | none =>
    rw [hdec] at hc
    obtain ⟨st', h1, h2, h3⟩ := unionDense_spec add (v1 := st.1) (b1 := st.2) hst hc.1
    exact ⟨st', h1, h2, fun i hi => by rw [h3, hc.2 i hi]⟩
  | serialized =>
    rw [hdec] at hc
    obtain ⟨value, bits, h1, h2, h3⟩ := Buffer.decompressSer_spec hd hc
    simp only [Option.bind_eq_bind, h1, Option.bind_some]
    obtain ⟨st', k1, k2, k3⟩ := unionDense_spec add (v1 := st.1) (b1 := st.2) hst h2
    exact ⟨st', k1, k2, fun i hi => by rw [k3, h3 i hi]⟩
  | compressed =>
    rw [hdec] at hc
    obtain ⟨n, n1, n2, n3⟩ := hc
    have e : natIdx (n : Int) = some n := by simp [natIdx]
    simp only [Option.bind_eq_bind, n1, e, Option.bind_some]
    exact unionCompressed_spec add hth (by rw [hd.cdata]; exact n2) (by rw [hd.cidx]; exact n2) n3 hst

/-- Several received buffers are merged in order. -/
theorem unionAll_spec {cap : Nat} (ser : Bool) {threads : Nat} (hth : 0 < threads) (add : α → α → α)
    {rs : List (Buffer α)} {ms : List (Nat → Option α)}
    (h : List.Forall₂ (fun r m => r.Dims cap ((cap + 31) / 32) ∧ r.Carries ser cap m) rs ms)
    {st : Arr α × Arr Word} (hst : POk cap st) :
    ∃ st', rs.foldlM (fun st r => unionOne ser threads add cap ((cap + 31) / 32) r st) st = some st' ∧
      POk cap st' ∧
      ∀ i, i < cap → pview cap st' i = ms.foldl (fun acc m => combine add acc (m i)) (pview cap st i) := by
  induction h generalizing st with
  | nil => exact ⟨st, rfl, hst, fun i _ => rfl⟩
  | cons hrm _ ih =>
    obtain ⟨s1, h1, h2, h3⟩ := unionOne_spec ser hth add hrm.1 hrm.2 hst
    obtain ⟨s2, k1, k2, k3⟩ := ih h2
    refine ⟨s2, ?_, k2, ?_⟩
    · rw [List.foldlM_cons, h1]; exact k1
    · intro i hi
      rw [k3 i hi, h3 i hi]; rfl

theorem Segment.view_ge {s : Segment α} (h : s.WF) {i : Nat} (hi : s.capacity ≤ i) : s.view i = none := by
  unfold Segment.view
  cases hp : s.props with
  | none => rfl
  | some b =>
    simp only
    unfold Buffer.view
    rw [(h.dims b hp).value]
    split
    · rfl
    · rw [if_neg (by omega)]

theorem Segment.unionReceived_spec {s : Segment α} (h : s.WF) (ser : Bool) {threads : Nat}
    (hth : 0 < threads) (add : α → α → α) (g : Fresh α) {ms : List (Nat → Option α)}
    (hr : List.Forall₂ (fun r m => Buffer.Carries ser s.capacity r m) s.received ms) :
    ∃ s', s.unionReceived ser threads add g = some s' ∧ s'.WF ∧ s'.Ready ∧
      s'.capacity = s.capacity ∧ s'.received = s.received ∧ s'.pool = s.pool ∧
      ∀ i, i < s.capacity → s'.view i = ms.foldl (fun acc m => combine add acc (m i)) (s.view i) := by
  obtain ⟨b, hb, hu, hd, ht, hv, _⟩ := s.alloc_initialize h g
  unfold Segment.unionReceived
  rw [hb]
  simp only [Option.bind_eq_bind, Option.bind_some]
  have hpok : POk s.capacity (b.value, b.bits) := ⟨hd.value, by rw [← h.ni]; exact hd.bits, ht⟩
  have hr' : List.Forall₂ (fun r m => r.Dims s.capacity ((s.capacity + 31) / 32) ∧
      r.Carries ser s.capacity m) s.received ms := by
    have hrecv := h.recv
    rw [h.ni] at hrecv
    clear h hb hu hd ht hv hpok
    generalize s.received = rs at *
    induction hr with
    | nil => exact .nil
    | cons h1 _ ih =>
      exact .cons ⟨hrecv _ List.mem_cons_self, h1⟩
        (ih (fun b hb => hrecv b (List.mem_cons_of_mem _ hb)))
  obtain ⟨st, h1, h2, h3⟩ := unionAll_spec ser hth add hr' hpok
  rw [h.ni, h1]
  have hD : ({ b with value := st.1, bits := st.2 } : Buffer α).Dims s.capacity s.numInts :=
    ⟨h2.value, by rw [h.ni]; exact h2.bits, hd.cdata, hd.cidx⟩
  refine ⟨_, rfl, ?_, ⟨_, rfl, hu⟩, rfl, rfl, rfl, ?_⟩
  · have := h.congr_props hD (fun _ => h2.tail)
    rw [← h.ni]
    exact this
  · intro i hi
    show Buffer.view _ i = _
    rw [Buffer.pview_eq hD hu, ← hv, Buffer.pview_eq hd hu]
    exact h3 i hi

end GraphMat

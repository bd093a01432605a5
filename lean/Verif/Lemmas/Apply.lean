import Verif.Model.World
import Verif.Lemmas.SpVec

namespace GraphMat

variable {α β γ σ : Type}

/-! ### Loops over set bits -/

theorem foldlM_filter_if (p : Nat → Bool) (body : Nat → σ → Option σ) (l : List Nat) (s : σ) :
    l.foldlM (fun s i => if p i = true then body i s else some s) s =
      (l.filter p).foldlM (fun s i => body i s) s := by
  induction l generalizing s with
  | nil => rfl
  | cons a l ih =>
    rw [List.foldlM_cons]
    by_cases h : p a = true
    · rw [List.filter_cons_of_pos h, List.foldlM_cons, if_pos h]
      congr 1; funext s; exact ih s
    · rw [List.filter_cons_of_neg h, if_neg h]
      exact ih s

theorem foldlM_congr {l : List Nat} {f g : σ → Nat → Option σ} (s : σ)
    (h : ∀ i ∈ l, ∀ s, f s i = g s i) : l.foldlM f s = l.foldlM g s := by
  induction l generalizing s with
  | nil => rfl
  | cons a l ih =>
    rw [List.foldlM_cons, List.foldlM_cons, h a List.mem_cons_self s]
    cases g s a with
    | none => rfl
    | some x => exact ih x (fun i hi => h i (List.mem_cons_of_mem _ hi))

theorem popcnt_zero_iff (w : Word) : popcnt w = 0 ↔ ∀ j, j < 32 → w.getLsbD j = false := by
  rw [popcnt_eq, List.countP_eq_zero]
  simp

/-- The loop over set bits visits exactly the set bits, in increasing order. -/
theorem forBits_eq {bv : Arr Word} {lo hi : Nat} (hle : lo ≤ hi) (hsz : hi ≤ bv.size) (s : σ)
    (body : Nat → σ → Option σ) :
    forBits bv lo hi s body =
      ((List.range' (32 * lo) (32 * (hi - lo))).filter (fun i => bitAt bv i)).foldlM
        (fun s i => body i s) s := by
  obtain ⟨k, rfl⟩ : ∃ k, hi = lo + k := ⟨hi - lo, by omega⟩
  clear hle
  induction k generalizing s with
  | zero => simp [forBits, forLoop_empty]
  | succ k ih =>
    have e : lo + (k + 1) = (lo + k) + 1 := by omega
    unfold forBits
    rw [e, forLoop_succ_right (by omega)]
    have ih' := ih s (by omega)
    unfold forBits at ih'
    rw [ih']
    have e2 : 32 * (lo + k + 1 - lo) = 32 * (lo + k - lo) + 32 := by omega
    rw [e2, ← List.range'_append_1, List.filter_append, List.foldlM_append]
    have e3 : 32 * lo + 32 * (lo + k - lo) = 32 * (lo + k) := by omega
    rw [e3]
    congr 1
    funext s1
    rw [Arr.read_some (by omega)]
    simp only [Option.bind_eq_bind, Option.bind_some]
    by_cases hp : popcnt (bv.get (lo + k)) = 0
    · rw [if_pos hp]
      have : (List.range' (32 * (lo + k)) 32).filter (fun i => bitAt bv i) = [] := by
        rw [List.filter_eq_nil_iff]
        intro i hi
        rw [List.mem_range'_1] at hi
        have := (popcnt_zero_iff _).mp hp (i % 32) (Nat.mod_lt _ (by omega))
        unfold bitAt
        rw [show i / 32 = lo + k by omega, this]
        simp
      rw [this]; rfl
    · rw [if_neg hp]
      unfold forLoop
      have e4 : (lo + k + 1) * 32 - (lo + k) * 32 = 32 := by omega
      have e5 : (lo + k) * 32 = 32 * (lo + k) := by omega
      rw [e4, e5, ← foldlM_filter_if]
      apply foldlM_congr
      intro i hi s
      rw [List.mem_range'_1] at hi
      show (getBitvector i bv).bind _ = _
      rw [getBitvector_eq (by omega)]
      rfl

/-- A fold that updates element `i` from its own old value only. -/
theorem foldlM_pointwise {l : List Nat} (hl : l.Nodup) {a : Arr α} {body : Nat → Arr α → Option (Arr α)}
    {h : Nat → α → α}
    (hb : ∀ i ∈ l, ∀ v : Arr α, v.size = a.size → body i v = some (v.upd i (h i (v.get i)))) :
    ∃ b, l.foldlM (fun s i => body i s) a = some b ∧ b.size = a.size ∧
      ∀ i, b.get i = if i ∈ l then h i (a.get i) else a.get i := by
  induction l generalizing a with
  | nil => exact ⟨a, rfl, rfl, by intro i; simp⟩
  | cons x l ih =>
    rw [List.nodup_cons] at hl
    obtain ⟨b, h1, h2, h3⟩ := ih (a := a.upd x (h x (a.get x))) hl.2 (by
      intro i hi v hv
      exact hb i (List.mem_cons_of_mem _ hi) v (by simpa using hv))
    refine ⟨b, ?_, by simpa using h2, ?_⟩
    · rw [List.foldlM_cons, hb x List.mem_cons_self a rfl]; exact h1
    · intro i
      rw [h3]
      by_cases hx : i = x
      · subst hx; simp [hl.1]
      · rw [Arr.upd_get_ne _ _ hx]; simp [hx]

theorem mem_bits {bv : Arr Word} {ni i : Nat} :
    i ∈ (List.range' (32 * 0) (32 * (ni - 0))).filter (fun i => bitAt bv i) ↔
      i < 32 * ni ∧ bitAt bv i = true := by
  rw [List.mem_filter, List.mem_range'_1]
  constructor
  · intro ⟨h1, h2⟩; exact ⟨by omega, h2⟩
  · intro ⟨h1, h2⟩; exact ⟨by omega, h2⟩

theorem nodup_bits {bv : Arr Word} {a b : Nat} :
    ((List.range' a b).filter (fun i => bitAt bv i)).Nodup :=
  List.Pairwise.filter _ List.nodup_range'

/-- Word-wise combination of two bit vectors. -/
theorem combineWords_spec {f : Word → Word → Word} {bv1 bv2 bv3 : Arr Word} {ni : Nat}
    (h1 : ni ≤ bv1.size) (h2 : ni ≤ bv2.size) (h3 : ni ≤ bv3.size) :
    ∃ b, combineWords f bv1 bv2 bv3 ni = some b ∧ b.size = bv3.size ∧
      ∀ i, i < ni → b.get i = f (bv1.get i) (bv2.get i) := by
  obtain ⟨b, hb, hs, hg⟩ := forLoop_fill (a := bv3) (n := ni)
    (f := fun i => f (bv1.get i) (bv2.get i)) h3
  refine ⟨b, ?_, hs, ?_⟩
  · rw [← hb]
    unfold combineWords
    apply forLoop_congr
    intro i s _ hi
    rw [Arr.read_some (by omega), Arr.read_some (by omega)]; rfl
  · intro i hi; rw [hg, if_pos hi]

theorem sumPopcnt_some {bv : Arr Word} {ni : Nat} (h : ni ≤ bv.size) :
    ∃ k, sumPopcnt bv ni = some k := by
  obtain ⟨r, hr, _⟩ := forLoop_inv (lo := 0) (hi := ni) (s := 0)
    (body := fun ii acc => do let w ← bv.read ii; some (acc + popcnt w)) (fun _ _ => True)
    (Nat.zero_le _) trivial (by
      intro i s _ hi _
      exact ⟨s + popcnt (bv.get i), by simp [Arr.read_some (show i < bv.size by omega)], trivial⟩)
  exact ⟨r, hr⟩

theorem applySegmentSelf_spec {s : Segment α} (h : s.WF) (g : Fresh α) (f : α → α → α) :
    ∃ s', applySegmentSelf g f s = some s' ∧ s'.WF ∧ s'.Ready ∧ s'.capacity = s.capacity ∧
      ∀ i, s'.view i = (s.view i).map (fun x => f x x) := by
  obtain ⟨b, hb, hu, hd, ht, hv, _⟩ := s.alloc_initialize h g
  unfold applySegmentSelf
  rw [hb]
  simp only [Option.bind_eq_bind, Option.bind_some]
  have hni := h.ni
  have hbs := hd.bits
  -- the first loop is the identity
  obtain ⟨bits, hl, hsz, hbits⟩ : ∃ bits, forLoop 0 s.numInts b.bits (fun i bits =>
      (bits.read i).bind fun x => (bits.read i).bind fun y => bits.write i (x ||| y)) = some bits ∧
      bits.size = b.bits.size ∧ ∀ i, bits.get i = b.bits.get i := by
    obtain ⟨r, h1, h2, h3⟩ := forLoop_inv (lo := 0) (hi := s.numInts) (s := b.bits)
      (body := fun i bits =>
        (bits.read i).bind fun x => (bits.read i).bind fun y => bits.write i (x ||| y))
      (fun _ bits => bits.size = b.bits.size ∧ ∀ i, bits.get i = b.bits.get i)
      (Nat.zero_le _) ⟨rfl, fun _ => rfl⟩ (by
        intro i bv _ hi ⟨e1, e2⟩
        refine ⟨bv.upd i (bv.get i ||| bv.get i), ?_, by simpa using e1, ?_⟩
        · rw [Arr.read_some (by omega)]
          simp only [Option.bind_some]
          rw [Arr.write_some (by omega)]
        · intro j
          by_cases hj : j = i
          · subst hj; rw [Arr.upd_get_self, BitVec.or_self, e2]
          · rw [Arr.upd_get_ne _ _ hj, e2])
    exact ⟨r, h1, h2, h3⟩
  rw [hl]
  simp only [Option.bind_some]
  obtain ⟨k, hk⟩ := sumPopcnt_some (bv := bits) (ni := s.numInts) (by omega)
  rw [hk]
  simp only [Option.bind_some]
  have hba : ∀ i, bitAt bits i = bitAt b.bits i := by intro i; unfold bitAt; rw [hbits]
  rw [forBits_eq (Nat.zero_le _) (by omega)]
  obtain ⟨v', hv1, hv2, hv3⟩ := foldlM_pointwise (a := b.value)
    (l := (List.range' (32 * 0) (32 * (s.numInts - 0))).filter (fun i => bitAt bits i)) nodup_bits
    (body := fun i v => (v.read i).bind fun tmp => (v.read i).bind fun old => v.write i (f tmp old))
    (h := fun _ x => f x x) (by
      intro i hi v hv
      rw [mem_bits] at hi
      have hlt : i < s.capacity := by
        rcases Nat.lt_or_ge i s.capacity with hc | hc
        · exact hc
        · have := ht i hc (by omega)
          rw [hba, this] at hi; simp at hi
      have hvs : i < v.size := by rw [hv, hd.value]; exact hlt
      rw [Arr.read_some hvs]
      simp only [Option.bind_some]
      rw [Arr.write_some hvs])
  rw [hv1]
  simp only [Option.bind_some]
  refine ⟨_, rfl, ?_, ⟨_, rfl, hu⟩, rfl, ?_⟩
  · apply h.congr_props
    · exact ⟨by simpa [hv2] using hd.value, by simpa [hsz] using hd.bits, hd.cdata, hd.cidx⟩
    · intro _ i h1 h2
      simp only at h2 ⊢
      rw [hba]; exact ht i h1 (by omega)
  · intro i
    rw [← hv]
    simp only [Segment.view]
    rw [Buffer.view_of_init (by exact hu), Buffer.view_of_init (by exact hu)]
    simp only [hv2, hv3, hba]
    by_cases hc : i < b.value.size ∧ bitAt b.bits i = true
    · rw [if_pos hc, if_pos hc, if_pos]
      · rfl
      · rw [mem_bits]
        have := hd.value
        exact ⟨by omega, hc.2⟩
    · rw [if_neg hc, if_neg hc]; rfl

theorem clearDense_spec {s : Segment α} (h : s.WF) (hr : s.Ready) :
    ∃ s', clearDense s = some s' ∧ s'.WF ∧ s'.Ready ∧ s'.capacity = s.capacity ∧
      ∀ i, s'.view i = none := by
  obtain ⟨b, hp, hu⟩ := hr
  have hd := h.dims b hp
  unfold clearDense
  rw [hp]
  simp only [Option.bind_eq_bind, Option.bind_some]
  obtain ⟨bits, hb, hsz, hz⟩ := memsetZero_spec (bv := b.bits) (n := s.numInts) hd.bits.symm
  rw [hb]
  refine ⟨_, rfl, ?_, ⟨_, rfl, hu⟩, rfl, ?_⟩
  · apply h.congr_props
    · exact ⟨hd.value, by simpa [hsz] using hd.bits, hd.cdata, hd.cidx⟩
    · intro _ i _ hi
      simp only at hi ⊢
      exact bitAt_zero (hz _ (by omega))
  · intro i
    simp only [Segment.view]
    rw [Buffer.view_of_init (by exact hu)]
    simp only
    rw [if_neg]
    intro ⟨hi, hbit⟩
    have h1 := hd.value
    have h2 := hd.bits
    have h3 := h.ni
    rw [bitAt_zero (hz _ (by omega))] at hbit
    exact absurd hbit (by decide)

/-- The intersection of two segments: present where both are, value from the operation and the
previous (stale) contents of the output location. -/
theorem intersectSegment_spec {s1 : Segment α} {s2 : Segment β} {s3 : Segment γ} (h1 : s1.WF)
    (h2 : s2.WF) (h3 : s3.WF) (r1 : s1.Ready) (r2 : s2.Ready)
    (hc2 : s2.capacity = s1.capacity) (hc3 : s3.capacity = s1.capacity) (g : Fresh γ)
    (op : α → β → γ → γ) :
    ∃ s', intersectSegment g op s1 s2 s3 = some s' ∧ s'.WF ∧ s'.Ready ∧
      s'.capacity = s3.capacity ∧
      s'.received = s3.received ∧ s'.pool = s3.pool ∧
      ∃ stale : Nat → γ, ∀ i, s'.view i =
        match s1.view i, s2.view i with
        | some x, some y => some (op x y (stale i))
        | _, _ => none := by
  obtain ⟨b1, hp1, hu1⟩ := r1
  obtain ⟨b2, hp2, hu2⟩ := r2
  have d1 := h1.dims b1 hp1
  have d2 := h2.dims b2 hp2
  obtain ⟨b, hb, hu, hd, ht, hv, _⟩ := s3.alloc_initialize h3 g
  unfold intersectSegment
  rw [hb, hp1, hp2]
  simp only [Option.bind_eq_bind, Option.bind_some, hu1, hu2, Bool.not_false, Bool.and_self, if_true]
  have n1 := h1.ni
  have n2 := h2.ni
  have n3 := h3.ni
  have db1 := d1.bits
  have db2 := d2.bits
  have db3 := hd.bits
  rw [hc2] at n2
  rw [hc3] at n3
  obtain ⟨bits, hl, hsz, hbits⟩ := combineWords_spec (f := (· &&& ·)) (bv1 := b1.bits)
    (bv2 := b2.bits) (bv3 := b.bits) (ni := s1.numInts) (by omega) (by omega) (by omega)
  rw [hl]
  simp only [Option.bind_some]
  obtain ⟨k, hk⟩ := sumPopcnt_some (bv := bits) (ni := s1.numInts) (by omega)
  rw [hk]
  simp only [Option.bind_some]
  have hba : ∀ i, i < 32 * s1.numInts → bitAt bits i = (bitAt b1.bits i && bitAt b2.bits i) := by
    intro i hi; unfold bitAt; rw [hbits _ (by omega), BitVec.getLsbD_and]
  rw [forBits_eq (Nat.zero_le _) (by omega)]
  have t1 := h1.tail b1 hp1 hu1
  obtain ⟨v', hv1, hv2, hv3⟩ := foldlM_pointwise (a := b.value)
    (l := (List.range' (32 * 0) (32 * (s1.numInts - 0))).filter (fun i => bitAt bits i)) nodup_bits
    (body := fun i v3 => (b1.value.read i).bind fun x => (b2.value.read i).bind fun y =>
      (v3.read i).bind fun old => v3.write i (op x y old))
    (h := fun i old => op (b1.value.get i) (b2.value.get i) old) (by
      intro i hi v hv
      rw [mem_bits] at hi
      have hlt : i < s1.capacity := by
        rcases Nat.lt_or_ge i s1.capacity with hc | hc
        · exact hc
        · have := t1 i hc (by omega)
          rw [hba i hi.1, this] at hi; simp at hi
      have e1 := d1.value
      have e2 := d2.value
      have e3 := hd.value
      rw [Arr.read_some (by omega), Arr.read_some (by omega)]
      simp only [Option.bind_some]
      rw [Arr.read_some (by omega)]
      simp only [Option.bind_some]
      rw [Arr.write_some (by omega)])
  rw [hv1]
  simp only [Option.bind_some]
  refine ⟨_, rfl, ?_, ⟨_, rfl, hu⟩, rfl, rfl, rfl, b.value.get, ?_⟩
  · apply h3.congr_props
    · exact ⟨by simpa [hv2] using hd.value, by simpa [hsz] using hd.bits, hd.cdata, hd.cidx⟩
    · intro _ i e1 e2
      simp only at e2 ⊢
      rw [hba i (by omega), t1 i (by omega) (by omega)]; rfl
  · intro i
    have e1 := d1.value
    have e2 := d2.value
    have e3 := hd.value
    simp only [Segment.view, hp1, hp2]
    rw [Buffer.view_of_init (by exact hu), Buffer.view_of_init hu1, Buffer.view_of_init hu2]
    simp only [hv2, hv3]
    by_cases hi : i < s1.capacity
    · have hi' : i < 32 * s1.numInts := by omega
      simp only [e1, e2, e3, hc2, hc3, hi, true_and, mem_bits, hi', hba i hi']
      cases bitAt b1.bits i <;> cases bitAt b2.bits i <;> simp
    · simp [e1, e3, hc3, hi]

end GraphMat

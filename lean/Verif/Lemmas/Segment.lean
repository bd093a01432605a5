import Verif.Model.Segment
import Verif.Lemmas.Bits

namespace GraphMat

variable {α : Type}

/-- Array sizes of a buffer. -/
structure Buffer.Dims (cap ni : Nat) (b : Buffer α) : Prop where
  value : b.value.size = cap
  bits : b.bits.size = ni
  cdata : b.cdata.size = cap
  cidx : b.cidx.size = cap

/-- No presence bit at or above the capacity. -/
def Buffer.Tail (cap : Nat) (b : Buffer α) : Prop :=
  ∀ i, cap ≤ i → i / 32 < b.bits.size → bitAt b.bits i = false

/-- Well-formed segment. -/
structure Segment.WF (s : Segment α) : Prop where
  ni : s.numInts = (s.capacity + 31) / 32
  dims : ∀ b, s.props = some b → b.Dims s.capacity s.numInts
  tail : ∀ b, s.props = some b → b.uninit = false → b.Tail s.capacity
  recv : ∀ b ∈ s.received, b.Dims s.capacity s.numInts
  pool : ∀ b ∈ s.pool, b.Dims s.capacity s.numInts

/-- The partial map held by a buffer. -/
def Buffer.view (b : Buffer α) (i : Nat) : Option α :=
  if b.uninit then none
  else if i < b.value.size ∧ bitAt b.bits i = true then some (b.value.get i) else none

/-- The partial map (zero-based index to value) a segment holds. -/
def Segment.view (s : Segment α) (i : Nat) : Option α :=
  match s.props with
  | none => none
  | some b => b.view i

/-- A segment whose buffer exists and is initialised. -/
def Segment.Ready (s : Segment α) : Prop := ∃ b, s.props = some b ∧ b.uninit = false

theorem word_lt {i cap : Nat} (h : i < cap) : i / 32 < (cap + 31) / 32 := by omega

theorem Segment.new_WF (n : Nat) : (Segment.new n : Segment α).WF := by
  refine ⟨?_, ?_, ?_, ?_, ?_⟩ <;> simp [Segment.new]

@[simp] theorem Segment.new_view (n i : Nat) : (Segment.new n : Segment α).view i = none := rfl

@[simp] theorem Segment.new_capacity (n : Nat) : (Segment.new n : Segment α).capacity = n := rfl

theorem Segment.WF.congr_props {s : Segment α} (h : s.WF) {b : Buffer α}
    (hd : b.Dims s.capacity s.numInts) (ht : b.uninit = false → b.Tail s.capacity) :
    ({ s with props := some b } : Segment α).WF := by
  refine ⟨h.ni, ?_, ?_, h.recv, h.pool⟩
  · intro b' hb'; cases hb'; exact hd
  · intro b' hb'; cases hb'; exact ht

/-- What `alloc` followed by `initialize` gives: an initialised buffer holding the same map. -/
theorem Segment.alloc_initialize {s : Segment α} (h : s.WF) (g : Fresh α) :
    ∃ b, (s.alloc g).initialize = some { s with props := some b } ∧ b.uninit = false ∧
      b.Dims s.capacity s.numInts ∧ b.Tail s.capacity ∧ b.view = s.view ∧
      (∀ b0, s.props = some b0 → b0.uninit = false → b = b0) ∧
      ((∀ b0, s.props = some b0 → b0.uninit = true) → b.nnz = 0) := by
  have key : ∀ b0 : Buffer α, b0.Dims s.capacity s.numInts → (b0.uninit = false → b0.Tail s.capacity) →
      ∃ b, ({ s with props := some b0 } : Segment α).initialize = some { s with props := some b } ∧
        b.uninit = false ∧ b.Dims s.capacity s.numInts ∧ b.Tail s.capacity ∧ b.view = b0.view ∧
        (b0.uninit = false → b = b0) ∧ (b0.uninit = true → b.nnz = 0) := by
    intro b0 hd ht
    unfold Segment.initialize
    simp only [Option.bind_eq_bind, Option.bind_some]
    cases hu : b0.uninit with
    | true =>
      obtain ⟨bits, hb, hsz, hz⟩ := memsetZero_spec (bv := b0.bits) (n := s.numInts) hd.bits.symm
      rw [hb]
      refine ⟨_, rfl, rfl, ⟨hd.value, by simpa [hsz] using hd.bits, hd.cdata, hd.cidx⟩, ?_, ?_,
        by simp, by simp⟩
      · intro i _ hi
        exact bitAt_zero (hz _ (by simp only at hi; omega))
      · funext i
        unfold Buffer.view
        simp only [hu, if_true, Bool.false_eq_true, if_false]
        rw [if_neg]
        intro ⟨hi, hbit⟩
        have : i / 32 < b0.bits.size := by
          rw [hd.bits, h.ni]; rw [hd.value] at hi; exact word_lt hi
        rw [bitAt_zero (hz _ this)] at hbit
        exact absurd hbit (by decide)
    | false =>
      simp only [Bool.false_eq_true, if_false]
      refine ⟨_, rfl, rfl, ⟨hd.value, hd.bits, hd.cdata, hd.cidx⟩, ?_, ?_, ?_, by simp⟩
      · exact ht hu
      · funext i; simp [Buffer.view, hu]
      · intro _; cases b0; simp_all
  unfold Segment.alloc
  cases hp : s.props with
  | none =>
    obtain ⟨b, h1, h2, h3, h4, h5, _, h7⟩ := key (Buffer.new g s.capacity s.numInts)
      ⟨rfl, rfl, rfl, rfl⟩ (by intro h; simp [Buffer.new] at h)
    refine ⟨b, h1, h2, h3, h4, ?_, by simp, fun _ => h7 rfl⟩
    rw [h5]; funext i; simp [Segment.view, hp, Buffer.view, Buffer.new]
  | some b0 =>
    obtain ⟨b, h1, h2, h3, h4, h5, h6, h7⟩ := key b0 (h.dims b0 hp) (h.tail b0 hp)
    have e : ({ s with props := some b0 } : Segment α) = s := by cases s; simp_all
    rw [e] at h1
    refine ⟨b, h1, h2, h3, h4, ?_, ?_, fun hh => h7 (hh b0 rfl)⟩
    · rw [h5]; funext i; simp [Segment.view, hp]
    · intro b1 hb1 hu; cases hb1; exact h6 hu

theorem natIdx_pred {idx : Nat} (h : 1 ≤ idx) : natIdx ((idx : Int) - 1) = some (idx - 1) := by
  unfold natIdx
  rw [if_pos (by omega)]
  congr 1; omega

theorem Buffer.view_some {b : Buffer α} {i : Nat} {x : α} :
    b.view i = some x ↔ b.uninit = false ∧ i < b.value.size ∧ bitAt b.bits i = true ∧
      b.value.get i = x := by
  unfold Buffer.view
  cases b.uninit
  · simp only [Bool.false_eq_true, if_false, true_and]
    split
    · rename_i h; simp [h]
    · rename_i h
      simp only [reduceCtorEq, false_iff]
      intro ⟨h1, h2, _⟩; exact h ⟨h1, h2⟩
  · simp

theorem Buffer.view_of_init {b : Buffer α} (h : b.uninit = false) (i : Nat) :
    b.view i = if i < b.value.size ∧ bitAt b.bits i = true then some (b.value.get i) else none := by
  unfold Buffer.view; simp [h]

theorem Segment.set_spec {s : Segment α} (h : s.WF) (g : Fresh α) {idx : Nat} (h1 : 1 ≤ idx)
    (h2 : idx ≤ s.capacity) (v : α) :
    ∃ s', s.set g idx v = some s' ∧ s'.WF ∧ s'.Ready ∧ s'.capacity = s.capacity ∧
      s'.received = s.received ∧ s'.pool = s.pool ∧
      s'.view = fun i => if i = idx - 1 then some v else s.view i := by
  obtain ⟨b, hb, hu, hd, ht, hv, _⟩ := s.alloc_initialize h g
  unfold Segment.set
  rw [hb, natIdx_pred h1]
  simp only [Option.bind_eq_bind, Option.bind_some]
  have hi : idx - 1 < s.capacity := by omega
  have hw : (idx - 1) / 32 < b.bits.size := by rw [hd.bits, h.ni]; exact word_lt hi
  rw [getBitvector_eq hw]
  simp only [Option.bind_some]
  rw [Arr.write_some (by rw [hd.value]; exact hi)]
  simp only [Option.bind_some]
  obtain ⟨bits, hs, hsz, hbit, _⟩ := setBitvector_spec hw
  rw [hs]
  refine ⟨_, rfl, ?_, ⟨_, rfl, rfl⟩, rfl, rfl, rfl, ?_⟩
  · apply h.congr_props
    · exact ⟨by simpa using hd.value, by simpa [hsz] using hd.bits, hd.cdata, hd.cidx⟩
    · intro _ i hi2 hi3
      simp only at hi3 ⊢
      rw [hbit, if_neg (by omega)]
      exact ht i hi2 (by omega)
  · funext i
    rw [← hv]
    simp only [Segment.view]
    rw [Buffer.view_of_init rfl, Buffer.view_of_init hu]
    simp only [Arr.upd_size, hbit]
    by_cases hii : i = idx - 1
    · subst hii; simp [hd.value, hi]
    · simp [hii, Arr.upd_get_ne]

theorem Segment.unset_spec {s : Segment α} (h : s.WF) (g : Fresh α) {idx : Nat} (h1 : 1 ≤ idx)
    (h2 : idx ≤ s.capacity) :
    ∃ s', s.unset g idx = some s' ∧ s'.WF ∧ s'.Ready ∧ s'.capacity = s.capacity ∧
      s'.received = s.received ∧ s'.pool = s.pool ∧
      s'.view = fun i => if i = idx - 1 then none else s.view i := by
  obtain ⟨b, hb, hu, hd, ht, hv, _⟩ := s.alloc_initialize h g
  unfold Segment.unset
  rw [hb, natIdx_pred h1]
  simp only [Option.bind_eq_bind, Option.bind_some]
  have hi : idx - 1 < s.capacity := by omega
  have hw : (idx - 1) / 32 < b.bits.size := by rw [hd.bits, h.ni]; exact word_lt hi
  rw [getBitvector_eq hw]
  simp only [Option.bind_some]
  obtain ⟨bits, hs, hsz, hbit, _⟩ := clearBitvector_spec hw
  rw [hs]
  refine ⟨_, rfl, ?_, ⟨_, rfl, rfl⟩, rfl, rfl, rfl, ?_⟩
  · apply h.congr_props
    · exact ⟨hd.value, by simpa [hsz] using hd.bits, hd.cdata, hd.cidx⟩
    · intro _ i hi2 hi3
      simp only at hi3 ⊢
      rw [hbit, if_neg (by omega)]
      exact ht i hi2 (by omega)
  · funext i
    rw [← hv]
    simp only [Segment.view]
    rw [Buffer.view_of_init rfl, Buffer.view_of_init hu]
    simp only [hbit]
    by_cases hii : i = idx - 1
    · subst hii; simp
    · simp [hii]

theorem allOnes_getLsbD {j : Nat} (h : j < 32) : (0xFFFFFFFF#32 : Word).getLsbD j = true := by
  have : (0xFFFFFFFF#32 : Word) = BitVec.allOnes 32 := by decide
  rw [this, BitVec.getLsbD_allOnes]; simpa using h

theorem Segment.setAll_spec {s : Segment α} (h : s.WF) (g : Fresh α) (v : α) :
    ∃ s', s.setAll g v = some s' ∧ s'.WF ∧ s'.Ready ∧ s'.capacity = s.capacity ∧
      s'.received = s.received ∧ s'.pool = s.pool ∧
      s'.view = fun i => if i < s.capacity then some v else none := by
  obtain ⟨b, hb, hd⟩ : ∃ b, s.alloc g = { s with props := some b } ∧
      b.Dims s.capacity s.numInts := by
    unfold Segment.alloc
    cases hp : s.props with
    | none => exact ⟨_, rfl, ⟨rfl, rfl, rfl, rfl⟩⟩
    | some b => exact ⟨b, by cases s; simp_all, h.dims b hp⟩
  unfold Segment.setAll
  rw [hb]
  simp only [Option.bind_eq_bind, Option.bind_some]
  have hni := h.ni
  by_cases h0 : s.numInts = 0
  · rw [if_pos h0]
    have hc : s.capacity = 0 := by omega
    refine ⟨_, rfl, ?_, ⟨_, rfl, rfl⟩, rfl, rfl, rfl, ?_⟩
    · apply h.congr_props
      · exact ⟨hd.value, hd.bits, hd.cdata, hd.cidx⟩
      intro _ i _ hi
      simp only [hd.bits, h0] at hi
      omega
    · funext i
      simp [Segment.view, Buffer.view, hd.value, hc]
  · rw [if_neg h0]
    rw [Arr.write_some (by rw [hd.bits]; omega)]
    simp only [Option.bind_some]
    obtain ⟨b1, hb1, hsz1, hget1⟩ := forLoop_fill (a := b.bits.upd (s.numInts - 1) 0#32)
      (n := s.numInts - 1) (f := fun _ => 0xFFFFFFFF#32) (by simp [hd.bits])
    rw [hb1]
    simp only [Option.bind_some]
    have hcap : 0 < s.capacity := by omega
    have hsz1' : b1.size = s.numInts := by rw [hsz1]; simp [hd.bits]
    -- the bits of the last 32 ids
    obtain ⟨b2, hb2, hsz2, hget2⟩ := forLoop_inv (lo := max 0 (s.capacity - 32)) (hi := s.capacity)
      (s := b1) (body := fun idx bv => setBitvector idx bv)
      (fun k bv => bv.size = s.numInts ∧
        ∀ i, bitAt bv i = (bitAt b1 i || decide (s.capacity - 32 ≤ i ∧ i < k)))
      (by omega) ⟨hsz1', by
        intro i
        have : ¬ (s.capacity - 32 ≤ i ∧ i < max 0 (s.capacity - 32)) := by omega
        rw [decide_eq_false this, Bool.or_false]⟩ (by
        intro i bv hi1 hi2 ⟨hs1, hs2⟩
        obtain ⟨b', hb', hsz', hbit', _⟩ := setBitvector_spec (bv := bv) (i := i) (by omega)
        refine ⟨b', hb', by omega, ?_⟩
        intro j
        rw [hbit', hs2]
        by_cases hji : j = i
        · subst hji
          have : s.capacity - 32 ≤ j ∧ j < j + 1 := by omega
          simp [this]
        · rw [if_neg hji]
          congr 1
          apply decide_eq_decide.mpr
          omega)
    rw [hb2]
    simp only [Option.bind_some]
    obtain ⟨v1, hv1, hsv, hgv⟩ := forLoop_fill (a := b.value) (n := s.capacity) (f := fun _ => v)
      (by rw [hd.value]; exact Nat.le_refl _)
    rw [hv1]
    simp only [Option.bind_some]
    have hb1bit : ∀ i, i / 32 < s.numInts → bitAt b1 i = decide (i / 32 < s.numInts - 1) := by
      intro i hi
      unfold bitAt
      rw [hget1]
      by_cases hc : i / 32 < s.numInts - 1
      · rw [if_pos hc, allOnes_getLsbD (Nat.mod_lt _ (by omega))]; simp [hc]
      · have he : i / 32 = s.numInts - 1 := by omega
        rw [if_neg hc, he, Arr.upd_get_self]
        simp
    have hfinal : ∀ i, i / 32 < s.numInts → bitAt b2 i = decide (i < s.capacity) := by
      intro i hi
      rw [hget2, hb1bit i hi]
      rw [Bool.eq_iff_iff]
      simp only [Bool.or_eq_true, decide_eq_true_eq]
      omega
    refine ⟨_, rfl, ?_, ⟨_, rfl, rfl⟩, rfl, rfl, rfl, ?_⟩
    · apply h.congr_props
      · exact ⟨by simpa [hsv] using hd.value, hsz2, hd.cdata, hd.cidx⟩
      intro _ i hi1 hi2
      simp only at hi2 ⊢
      rw [hfinal i (by omega)]
      simp; omega
    · funext i
      simp only [Segment.view]
      rw [Buffer.view_of_init rfl]
      simp only [hsv, hd.value]
      by_cases hi : i < s.capacity
      · rw [hfinal i (by omega)]
        simp [hi, hgv]
      · simp [hi]

theorem Segment.get_spec {s : Segment α} (_h : s.WF) {idx : Nat} (h1 : 1 ≤ idx) {x : α}
    (hv : s.view (idx - 1) = some x) : s.get idx = some x := by
  unfold Segment.get
  unfold Segment.view at hv
  cases hp : s.props with
  | none => rw [hp] at hv; simp at hv
  | some b =>
    rw [hp] at hv
    rw [Buffer.view_some] at hv
    obtain ⟨hu, hi, _, hx⟩ := hv
    simp only [Option.bind_eq_bind, Option.bind_some, hu, Bool.false_eq_true, if_false]
    rw [natIdx_pred h1, Option.bind_some, Arr.read_some hi, hx]

theorem Segment.setUninitializedReceived_WF {s : Segment α} (h : s.WF) :
    s.setUninitializedReceived.WF := by
  refine ⟨h.ni, h.dims, h.tail, ?_, ?_⟩
  · intro b hb; simp [Segment.setUninitializedReceived] at hb
  · intro b hb
    simp only [Segment.setUninitializedReceived, List.mem_append, List.mem_map] at hb
    rcases hb with hb | ⟨b', hb', rfl⟩
    · exact h.pool b hb
    · exact ⟨(h.recv b' hb').value, (h.recv b' hb').bits, (h.recv b' hb').cdata,
        (h.recv b' hb').cidx⟩

theorem Segment.setUninitialized_WF {s : Segment α} (h : s.WF) : s.setUninitialized.WF := by
  have h' := setUninitializedReceived_WF h
  refine ⟨h.ni, ?_, ?_, h'.recv, h'.pool⟩
  · intro b hb
    simp only [Segment.setUninitialized, Option.map_eq_some_iff] at hb
    obtain ⟨b', hb', rfl⟩ := hb
    have := h.dims b' hb'
    exact ⟨this.value, this.bits, this.cdata, this.cidx⟩
  · intro b hb hu
    simp only [Segment.setUninitialized, Option.map_eq_some_iff] at hb
    obtain ⟨b', hb', rfl⟩ := hb
    simp at hu

theorem Segment.setUninitialized_view {s : Segment α} : s.setUninitialized.view = fun _ => none := by
  funext i
  unfold Segment.setUninitialized Segment.view Segment.setUninitializedReceived
  cases s.props <;> simp [Buffer.view]

@[simp] theorem Segment.setUninitialized_capacity {s : Segment α} :
    s.setUninitialized.capacity = s.capacity := rfl

/-! ### Counting -/

theorem countP_range_add (p : Nat → Bool) (a b : Nat) :
    (List.range (a + b)).countP p = (List.range a).countP p + (List.range b).countP (fun i => p (a + i)) := by
  rw [List.range_add, List.countP_append, List.countP_map]
  rfl

theorem countP_range_extend (p : Nat → Bool) {a b : Nat} (h : a ≤ b)
    (hz : ∀ i, a ≤ i → i < b → p i = false) : (List.range b).countP p = (List.range a).countP p := by
  obtain ⟨k, rfl⟩ : ∃ k, b = a + k := ⟨b - a, by omega⟩
  rw [countP_range_add]
  have : (List.range k).countP (fun i => p (a + i)) = 0 := by
    rw [List.countP_eq_zero]
    intro i hi
    simp at hi
    rw [hz (a + i) (by omega) (by omega)]; simp
  omega

theorem popcnt_eq (w : Word) : popcnt w = (List.range 32).countP (fun i => w.getLsbD i) := by
  unfold popcnt; rw [List.countP_eq_length_filter]

theorem Buffer.computeNnzRange_spec {b : Buffer α} {lo hi : Nat} (hle : lo ≤ hi)
    (h : hi ≤ b.bits.size) :
    b.computeNnzRange lo hi =
      some ((List.range (32 * (hi - lo))).countP (fun i => bitAt b.bits (32 * lo + i))) := by
  unfold Buffer.computeNnzRange
  obtain ⟨r, hr, hI⟩ := forLoop_inv (lo := lo) (hi := hi) (s := 0)
    (body := fun ii len => do let w ← b.bits.read ii; some (len + popcnt w))
    (fun k len => len = (List.range (32 * (k - lo))).countP (fun i => bitAt b.bits (32 * lo + i)))
    hle (by simp) (by
      intro i len h1 h2 hI
      refine ⟨len + popcnt (b.bits.get i), ?_, ?_⟩
      · simp [Arr.read_some (show i < b.bits.size by omega)]
      · have e : 32 * (i + 1 - lo) = 32 * (i - lo) + 32 := by omega
        rw [e, countP_range_add, hI, popcnt_eq]
        congr 1
        apply List.countP_congr
        intro j hj
        simp only [List.mem_range] at hj
        have e2 : 32 * lo + (32 * (i - lo) + j) = 32 * i + j := by omega
        rw [e2]
        unfold bitAt
        have e3 : (32 * i + j) / 32 = i := by omega
        have e4 : (32 * i + j) % 32 = j := by omega
        rw [e3, e4])
  rw [hr, hI]

theorem Segment.computeNnz_spec {s : Segment α} (h : s.WF) :
    s.computeNnz = some ((List.range s.capacity).countP (fun i => (s.view i).isSome)) := by
  unfold Segment.computeNnz
  cases hp : s.props with
  | none =>
    simp [Segment.view, hp]
  | some b =>
    simp only
    have hd := h.dims b hp
    cases hu : b.uninit with
    | true =>
      simp [Segment.view, hp, Buffer.view, hu]
    | false =>
      simp only [Bool.false_eq_true, if_false]
      unfold Buffer.computeNnz
      rw [Buffer.computeNnzRange_spec (Nat.zero_le _) (Nat.le_refl _)]
      congr 1
      simp only [Nat.sub_zero, Nat.mul_zero, Nat.zero_add]
      have ht := h.tail b hp hu
      have hni := h.ni
      have hbs := hd.bits
      rw [countP_range_extend (a := s.capacity) _ (by omega) (by
        intro i h1 h2; exact ht i h1 (by omega))]
      apply List.countP_congr
      intro i hi
      simp only [List.mem_range] at hi
      simp only [Segment.view, hp, Buffer.view_of_init hu, hd.value, hi, true_and]
      split <;> simp_all

end GraphMat

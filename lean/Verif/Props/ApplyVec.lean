import Verif.Props.Intersect

/-!
# C72: `Apply` from one vector to another

The library itself calls `Apply` with the same vector as input and output (`applyToAllVertices`).  With two vectors it does what one expects if the input is
initialised.  It does not look at the flag of a cleared input (as `IntersectReduce` does), so that erased entries come back.
-/
namespace GraphMat

variable {α β : Type}

/-- On a segment: where the input has an entry the output gets the result of the function (the previous value of the output is passed
to it, whatever the memory holds if there is none), elsewhere the output is unchanged. -/
theorem applySegment_spec {s1 : Segment α} {s2 : Segment β} (h1 : s1.WF) (h2 : s2.WF) (r1 : s1.Ready)
    (hc : s2.capacity = s1.capacity) (g : Fresh β) (f : α → β → β) :
    ∃ s', applySegment g f s1 s2 = some s' ∧ s'.WF ∧ s'.Ready ∧ s'.capacity = s2.capacity ∧
      ∃ stale : Nat → β, ∀ i, s'.view i = match s1.view i with
        | some x => some (f x ((s2.view i).getD (stale i)))
        | none => s2.view i := by
  obtain ⟨b1, hp1, hu1⟩ := r1
  have d1 := h1.dims b1 hp1
  have t1 := h1.tail b1 hp1 hu1
  obtain ⟨b, hb, hu, hd, ht, hv, _⟩ := s2.alloc_initialize h2 g
  unfold applySegment
  rw [hb]
  simp only [Option.bind_eq_bind, Option.bind_some]
  rw [hp1]
  simp only [Option.bind_some]
  have hni1 := h1.ni
  have hni2 := h2.ni
  have hsame : s2.numInts = s1.numInts := by rw [hni1, hni2, hc]
  have hb1s := d1.bits
  have hb2s := hd.bits
  obtain ⟨bits, hl, hsz, hbits⟩ : ∃ bits, forLoop 0 s1.numInts b.bits (fun i bits2 =>
      (bits2.read i).bind fun x => (b1.bits.read i).bind fun y => bits2.write i (x ||| y)) = some bits ∧
      bits.size = b.bits.size ∧ ∀ i, i < s1.numInts → bits.get i = b.bits.get i ||| b1.bits.get i := by
    obtain ⟨r, k1, k2, k3⟩ := forLoop_inv (lo := 0) (hi := s1.numInts) (s := b.bits)
      (body := fun i bits2 =>
        (bits2.read i).bind fun x => (b1.bits.read i).bind fun y => bits2.write i (x ||| y))
      (fun k bits => bits.size = b.bits.size ∧
        ∀ i, bits.get i = if i < k then b.bits.get i ||| b1.bits.get i else b.bits.get i)
      (Nat.zero_le _) ⟨rfl, fun i => by rw [if_neg (by omega)]⟩ (by
        intro k bv _ hi ⟨e1, e2⟩
        refine ⟨bv.upd k (bv.get k ||| b1.bits.get k), ?_, by simpa using e1, ?_⟩
        · rw [Arr.read_some (by omega)]
          simp only [Option.bind_some]
          rw [Arr.read_some (by omega)]
          simp only [Option.bind_some]
          rw [Arr.write_some (by omega)]
        · intro j
          by_cases hj : j = k
          · subst hj
            rw [Arr.upd_get_self, e2, if_neg (by omega), if_pos (by omega)]
          · rw [Arr.upd_get_ne _ _ hj, e2]
            by_cases hlt : j < k
            · rw [if_pos hlt, if_pos (by omega)]
            · rw [if_neg hlt, if_neg (by omega)])
    exact ⟨r, k1, k2, fun i hi => by rw [k3, if_pos hi]⟩
  rw [hl]
  simp only [Option.bind_some]
  obtain ⟨k, hk⟩ := sumPopcnt_some (bv := b1.bits) (ni := s1.numInts) (by omega)
  rw [hk]
  simp only [Option.bind_some]
  have hba : ∀ i, i < 32 * s1.numInts → bitAt bits i = (bitAt b.bits i || bitAt b1.bits i) := by
    intro i hi
    unfold bitAt
    rw [hbits _ (by omega)]
    simp
  rw [forBits_eq (Nat.zero_le _) (by omega)]
  obtain ⟨v', hv1, hv2, hv3⟩ := foldlM_pointwise (a := b.value)
    (l := (List.range' (32 * 0) (32 * (s1.numInts - 0))).filter (fun i => bitAt b1.bits i)) nodup_bits
    (body := fun i v => (b1.value.read i).bind fun tmp => (v.read i).bind fun old => v.write i (f tmp old))
    (h := fun i x => f (b1.value.get i) x) (by
      intro i hi v hv
      rw [mem_bits] at hi
      have hlt : i < s1.capacity := by
        rcases Nat.lt_or_ge i s1.capacity with hc | hc
        · exact hc
        · have := t1 i hc (by omega)
          rw [this] at hi; simp at hi
      have hvs : i < v.size := by rw [hv, hd.value, hc]; exact hlt
      have hvs1 : i < b1.value.size := by rw [d1.value]; exact hlt
      rw [Arr.read_some hvs1]
      simp only [Option.bind_some]
      rw [Arr.read_some hvs]
      simp only [Option.bind_some]
      rw [Arr.write_some hvs])
  rw [hv1]
  simp only [Option.bind_some]
  refine ⟨_, rfl, ?_, ⟨_, rfl, hu⟩, rfl, b.value.get, ?_⟩
  · apply h2.congr_props
    · exact ⟨by simpa [hv2] using hd.value, by simpa [hsz] using hd.bits, hd.cdata, hd.cidx⟩
    · intro _ i k1 k2
      simp only at k2 ⊢
      rw [hba i (by omega), ht i k1 (by omega), t1 i (by omega) (by omega)]
      rfl
  · intro i
    rw [← hv]
    simp only [Segment.view, hp1]
    rw [Buffer.view_of_init (by exact hu), Buffer.view_of_init (by exact hu1), Buffer.view_of_init (by exact hu)]
    simp only [hv2, hv3]
    have hval : b.value.size = b1.value.size := by rw [hd.value, d1.value, hc]
    have e1 := hd.value
    by_cases hi : i < b.value.size
    · have hi2 : i < 32 * s1.numInts := by omega
      simp only [hi, hval ▸ hi, true_and, hba i hi2, mem_bits, hi2]
      cases hx : bitAt b1.bits i <;> cases hy : bitAt b.bits i <;> simp
    · have hi' : ¬ i < b1.value.size := by omega
      simp [hi, hi']

/-- C72, on a rank.  Missing for the full property: the input must be initialised on all segments of the rank. -/
theorem apply_exact_partial {n nseg nrank me : Nat} {va : SpVec α} {vb : SpVec β} (ha : va.WF n nseg nrank me)
    (hb : vb.WF n nseg nrank me) (hr : 0 < nrank) (ra : ∀ p, p < nseg → p % nrank = me → (va.segs.get p).Ready)
    (g : Nat → Fresh β) (f : α → β → β) :
    ∃ vb', SpVec.apply g f va vb = some vb' ∧ vb'.WF n nseg nrank me ∧
      (∀ p, p < nseg → p % nrank = me → (vb'.segs.get p).Ready ∧
        ∃ stale : Nat → β, ∀ i, (vb'.segs.get p).view i = match (va.segs.get p).view i with
          | some x => some (f x (((vb.segs.get p).view i).getD (stale i)))
          | none => (vb.segs.get p).view i) ∧
      (∀ p, p % nrank ≠ me → vb'.segs.get p = vb.segs.get p) := by
  unfold SpVec.apply
  rw [ha.hseg]
  have e : forLoop 0 nseg vb (fun j vOut => do
      let own ← va.owns j
      if own then
        let s ← va.segs.read j
        vOut.modifySeg j (applySegment (g j) f s)
      else some vOut) =
    forLoop 0 nseg vb (fun j vOut => (va.owns j).bind fun own =>
      if own = true then vOut.modifySeg j (applySegment (g j) f (va.segs.get j)) else some vOut) := by
    apply forLoop_congr
    intro i s _ hi
    rw [Arr.read_some (by rw [ha.size]; exact hi)]
    rfl
  rw [e]
  obtain ⟨v', a1, a2, a3, a4⟩ := SpVec.forSeg_spec hb (O := fun j _ => va.owns j)
    (fun j _ _ _ => ha.owns hr j)
    (f := fun j => applySegment (g j) f (va.segs.get j))
    (P := fun p s' => s'.Ready ∧ ∃ stale : Nat → β, ∀ i, s'.view i = match (va.segs.get p).view i with
          | some x => some (f x (((vb.segs.get p).view i).getD (stale i)))
          | none => (vb.segs.get p).view i)
    (by
      intro p hp hpm
      obtain ⟨s', b1, b2, b3, b4, b5⟩ := applySegment_spec (ha.seg p hp) (hb.seg p hp) (ra p hp hpm)
        (by rw [ha.cap p hp, hb.cap p hp]) (g p) f
      exact ⟨s', b1, b2, b4, b3, b5⟩)
  exact ⟨v', a1, a2, fun p hp hpm => (a3 p hp hpm).2, a4⟩

/-- The hypotheses are met by vectors with entries: 1, 2 and 280 in the input, 2 and 270 in the output, two segments; the result
is what the output has at 1, 2, 270 and 280 and the counts remembered in its two segments. -/
def applySample (clear : Bool) : Option (List (Option Nat) × List Int) := do
  let a : SpVec Nat ← SpVec.new 300 2 1 0
  let a ← a.set (.sample 9) 1 10
  let a ← a.set (.sample 9) 2 20
  let a ← a.set (.sample 9) 280 40
  let a ← if clear then a.clear else some a
  let b : SpVec Nat ← SpVec.new 300 2 1 0
  let b ← b.set (.sample 9) 2 200
  let b ← b.set (.sample 9) 270 300
  let b ← SpVec.apply (fun _ => .sample 9) (fun x y => x + y) a b
  some ([(b.segs.get 0).view 0, (b.segs.get 0).view 1, (b.segs.get 1).view 13, (b.segs.get 1).view 23],
    [0, 1].map (fun j => ((b.segs.get j).props.map Buffer.nnz).getD 0))

/-- The entry at 1 is computed from what the memory held (9), the one at 2 from the previous value; the entry at 270 stays.  The
number of entries remembered in the second segment is 1 although it has two (**C72 fails for the count**). -/
theorem apply_count_wrong : applySample false = some ([some 19, some 220, some 300, some 49], [2, 1]) := by decide +kernel

example : ∃ va vb : SpVec Nat, va.WF 300 2 1 0 ∧ vb.WF 300 2 1 0 ∧ (∀ p, p < 2 → p % 1 = 0 → (va.segs.get p).Ready) ∧
    (va.segs.get 0).view 1 = some 20 := by
  obtain ⟨a, _, w, _⟩ := SpVec.new_spec (α := Nat) 300 2 1 0 (by decide)
  obtain ⟨v, _, w', h, _⟩ := SpVec.setAll_spec w (by decide) (fun _ => .sample 9) 20
  exact ⟨v, a, w', w, fun p h1 h2 => (h p h1 h2).1, by rw [(h 0 (by decide) rfl).2 1, if_pos (by decide)]⟩

/-- **C72 fails for cleared inputs**: the entries that were erased come back. -/
theorem apply_revives_cleared : applySample true = some ([some 19, some 220, some 300, some 49], [2, 1]) := by decide +kernel

/-- **C72 fails for inputs without entries**: a segment that was never written has no buffer, and a null pointer is read. -/
theorem apply_needs_buffer {s1 : Segment α} (h : s1.props = none) (s2 : Segment β) (g : Fresh β) (f : α → β → β) :
    applySegment g f s1 s2 = none := by
  unfold applySegment
  rw [h]
  cases (s2.alloc g).initialize <;> rfl

example : (SpVec.new (α := Nat) 300 2 1 0).bind (fun a => some ((a.segs.get 0).props.isNone, (a.segs.get 1).props.isNone)) =
    some (true, true) := by decide +kernel

end GraphMat

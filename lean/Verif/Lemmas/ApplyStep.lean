import Verif.Lemmas.SpMSpV
import Verif.Lemmas.Program
import Verif.Model.Runtime

/-! The apply phase of a superstep. -/
namespace GraphMat

variable {σ α T U V E : Type}

theorem clearBit_getLsbD {w : Word} {b j : Nat} (hb : b < 32) (hj : j < 32) :
    (w &&& ~~~ (bitMask b)).getLsbD j = (w.getLsbD j && decide (j ≠ b)) := by
  rw [BitVec.getLsbD_and, BitVec.getLsbD_not, bitMask_getLsbD hb]
  by_cases h : j = b <;> simp [h, hj, hb]

theorem word_eq_zero_iff (w : Word) : w = 0#32 ↔ (List.range 32).filter (fun j => w.getLsbD j) = [] := by
  rw [List.filter_eq_nil_iff]
  constructor
  · rintro rfl j _; simp
  · intro h
    apply BitVec.eq_of_getLsbD_eq
    intro i hi
    have := h i (List.mem_range.mpr hi)
    simpa using this

/-- The loop with `_bit_scan_forward` visits the set bits in increasing order. -/
theorem scanWord_eq {base : Nat} {body : Nat → σ → Option σ} (fuel : Nat) (w : Word) (s : σ)
    (h : ((List.range 32).filter (fun j => w.getLsbD j)).length < fuel) :
    scanWord base body fuel w s =
      ((List.range 32).filter (fun j => w.getLsbD j)).foldlM (fun s j => body (base + j) s) s := by
  induction fuel generalizing w s with
  | zero => omega
  | succ fuel ih =>
    unfold scanWord
    by_cases hw : w = 0#32
    · rw [if_pos hw, (word_eq_zero_iff w).mp hw]; rfl
    · rw [if_neg hw]
      unfold bitScanForward
      cases hf : (List.range 32).find? (fun i => w.getLsbD i) with
      | none =>
        exfalso
        apply hw
        rw [word_eq_zero_iff, List.filter_eq_nil_iff]
        rw [List.find?_eq_none] at hf
        exact hf
      | some b =>
        obtain ⟨hpb, l1, l2, hl, hl1⟩ := List.find?_eq_some_iff_append.mp hf
        have hb : b < 32 := by
          have : b ∈ List.range 32 := by rw [hl]; simp
          simpa using this
        have hnd : (l1 ++ b :: l2).Nodup := by rw [← hl]; exact List.nodup_range
        have hb1 : ∀ a ∈ l1, a ≠ b := by
          intro a ha e
          subst e
          exact (List.nodup_append.mp hnd).2.2 _ ha _ List.mem_cons_self rfl
        have hb2 : ∀ a ∈ l2, a ≠ b := by
          intro a ha e
          subst e
          exact (List.nodup_cons.mp (List.nodup_append.mp hnd).2.1).1 ha
        have e1 : (List.range 32).filter (fun j => w.getLsbD j) = b :: l2.filter (fun j => w.getLsbD j) := by
          rw [hl, List.filter_append, List.filter_cons_of_pos (by simpa using hpb), List.filter_eq_nil_iff.mpr]
          · rfl
          · intro a ha
            have := hl1 a ha
            simpa using this
        have e2 : (List.range 32).filter (fun j => (w &&& ~~~ (bitMask b)).getLsbD j) =
            l2.filter (fun j => w.getLsbD j) := by
          have e3 : (List.range 32).filter (fun j => (w &&& ~~~ (bitMask b)).getLsbD j) =
              (List.range 32).filter (fun j => w.getLsbD j && decide (j ≠ b)) := by
            apply List.filter_congr
            intro j hj
            exact clearBit_getLsbD hb (List.mem_range.mp hj)
          rw [e3, hl, List.filter_append, List.filter_cons_of_neg (by simp), List.filter_eq_nil_iff.mpr]
          · rw [List.nil_append]
            apply List.filter_congr
            intro a ha
            simp [hb2 a ha]
          · intro a ha
            have := hl1 a ha
            simp at this
            simp [this]
        simp only [Option.bind_eq_bind, Option.bind_some]
        rw [e1, List.foldlM_cons]
        rw [e1] at h
        simp only [List.length_cons] at h
        congr 1
        funext s1
        rw [ih _ _ (by rw [e2]; omega), e2]

theorem forLoop_one {i : Nat} {s : σ} {f : Nat → σ → Option σ} : forLoop i (i + 1) s f = f i s := by
  rw [forLoop_succ_left (by omega)]
  cases f i s with
  | none => rfl
  | some v => exact forLoop_empty (Nat.le_refl _)

theorem scanBits_eq {bv : Arr Word} {ni : Nat} (hsz : ni ≤ bv.size) (s : σ) (body : Nat → σ → Option σ) :
    scanBits bv ni s body =
      ((List.range' (32 * 0) (32 * (ni - 0))).filter (fun i => bitAt bv i)).foldlM (fun s i => body i s) s := by
  rw [← forBits_eq (Nat.zero_le _) hsz]
  unfold scanBits
  have : forBits bv 0 ni s body = forLoop 0 ni s (fun i s => forBits bv i (i + 1) s body) := by
    unfold forBits
    apply forLoop_congr
    intro i s _ _
    rw [forLoop_one]
  rw [this]
  apply forLoop_congr
  intro i s _ hi
  rw [forBits_eq (by omega) (by omega), Arr.read_some (by omega)]
  simp only [Option.bind_eq_bind, Option.bind_some]
  rw [scanWord_eq _ _ _ (by
    have := List.length_filter_le (fun j => (bv.get i).getLsbD j) (List.range 32)
    rw [List.length_range] at this
    omega)]
  have e : 32 * (i + 1 - i) = 32 := by omega
  rw [e, List.range'_eq_map_range, List.filter_map, foldlM_map]
  have e2 : (List.range 32).filter ((fun k => bitAt bv k) ∘ fun x => 32 * i + x) =
      (List.range 32).filter (fun j => (bv.get i).getLsbD j) := by
    apply List.filter_congr
    intro j hj
    rw [List.mem_range] at hj
    simp only [Function.comp, bitAt]
    rw [show (32 * i + j) / 32 = i by omega, show (32 * i + j) % 32 = j by omega]
  rw [e2, show i * 32 = 32 * i by omega]

/-- Whether applying `u` changes a vertex. -/
def changes (gp : GProg T U V E) (u : U) (old : V) : Bool := gp.ne old (gp.apply u old)

theorem applyOne_fold {gp : GProg T U V E} {yv : Arr U} {cap ni : Nat} (hy : yv.size = cap) (hni : ni = (cap + 31) / 32)
    {l : List Nat} (hl : l.Nodup) (hlt : ∀ i ∈ l, i < cap) (vv : Arr V) (av : Arr Bool) (ab : Arr Word) (lc : Bool)
    (hv : vv.size = cap) (ha : av.size = cap) (hb : ab.size = ni) :
    ∃ vv' av' ab' lc', l.foldlM (fun s i => applyOne gp yv i s) (vv, av, ab, lc) = some (vv', av', ab', lc') ∧
      vv'.size = cap ∧ av'.size = cap ∧ ab'.size = ni ∧
      (∀ i, vv'.get i = if i ∈ l then gp.apply (yv.get i) (vv.get i) else vv.get i) ∧
      (∀ i, av'.get i = if i ∈ l ∧ changes gp (yv.get i) (vv.get i) = true then true else av.get i) ∧
      (∀ i, bitAt ab' i = if i ∈ l ∧ changes gp (yv.get i) (vv.get i) = true then true else bitAt ab i) ∧
      (lc' = true ↔ lc = true ∧ ∀ i ∈ l, changes gp (yv.get i) (vv.get i) = false) := by
  induction l generalizing vv av ab lc with
  | nil => exact ⟨vv, av, ab, lc, rfl, hv, ha, hb, by simp, by simp, by simp, by simp⟩
  | cons x l ih =>
    rw [List.nodup_cons] at hl
    have hx := hlt x List.mem_cons_self
    have hw : x / 32 < ab.size := by rw [hb, hni]; exact word_lt hx
    -- one step
    obtain ⟨av1, ab1, lc1, e1, s1, s2, g1, g2, g3⟩ : ∃ av1 ab1 lc1,
        applyOne gp yv x (vv, av, ab, lc) = some (vv.upd x (gp.apply (yv.get x) (vv.get x)), av1, ab1, lc1) ∧
        av1.size = cap ∧ ab1.size = ni ∧
        (∀ i, av1.get i = if i = x ∧ changes gp (yv.get x) (vv.get x) = true then true else av.get i) ∧
        (∀ i, bitAt ab1 i = if i = x ∧ changes gp (yv.get x) (vv.get x) = true then true else bitAt ab i) ∧
        (lc1 = true ↔ lc = true ∧ changes gp (yv.get x) (vv.get x) = false) := by
      unfold applyOne
      simp only
      rw [Arr.read_some (by omega), Arr.read_some (by omega), ]
      simp only [Option.bind_eq_bind, Option.bind_some]
      rw [Arr.write_some (by omega)]
      simp only [Option.bind_some]
      by_cases hc : gp.ne (vv.get x) (gp.apply (yv.get x) (vv.get x)) = true
      · rw [if_pos hc, Arr.write_some (by omega)]
        simp only [Option.bind_some]
        obtain ⟨b, b1, b2, b3, _⟩ := setBitvector_spec hw
        rw [b1]
        simp only [Option.bind_some]
        refine ⟨_, b, false, rfl, by simpa using ha, by omega, ?_, ?_, ?_⟩
        · intro i
          rw [Arr.upd_get]
          simp only [changes, hc, and_true]
        · intro i
          rw [b3]
          simp only [changes, hc, and_true]
        · simp [changes, hc]
      · rw [if_neg hc]
        refine ⟨_, _, _, rfl, ha, hb, ?_, ?_, ?_⟩
        · intro i; rw [if_neg (fun h => hc h.2)]
        · intro i; rw [if_neg (fun h => hc h.2)]
        · simp [changes, Bool.eq_false_iff.mpr hc]
    obtain ⟨vv', av', ab', lc', f1, f2, f3, f4, f5, f6, f7, f8⟩ := ih hl.2 (fun i hi => hlt i (List.mem_cons_of_mem _ hi))
      (vv.upd x (gp.apply (yv.get x) (vv.get x))) av1 ab1 lc1 (by simpa using hv) s1 s2
    have hne : ∀ i ∈ l, (vv.upd x (gp.apply (yv.get x) (vv.get x))).get i = vv.get i := by
      intro i hi
      exact Arr.upd_get_ne _ _ (by intro e; subst e; exact hl.1 hi)
    have hcond : ∀ i, (i ∈ l ∧ changes gp (yv.get i) ((vv.upd x (gp.apply (yv.get x) (vv.get x))).get i) = true) ↔
        (i ∈ l ∧ changes gp (yv.get i) (vv.get i) = true) := by
      intro i
      constructor
      · rintro ⟨h1, h2⟩; rw [hne i h1] at h2; exact ⟨h1, h2⟩
      · rintro ⟨h1, h2⟩; rw [← hne i h1] at h2; exact ⟨h1, h2⟩
    refine ⟨vv', av', ab', lc', ?_, f2, f3, f4, ?_, ?_, ?_, ?_⟩
    · rw [List.foldlM_cons, e1]; exact f1
    · intro i
      rw [f5]
      by_cases hi : i ∈ l
      · rw [if_pos hi, if_pos (List.mem_cons_of_mem _ hi), hne i hi]
      · rw [if_neg hi]
        by_cases hix : i = x
        · subst hix; simp
        · rw [Arr.upd_get_ne _ _ hix]; simp [hix, hi]
    · intro i
      rw [f6, g1]
      simp only [hcond]
      by_cases hi : i ∈ l
      · have hix : i ≠ x := by intro e; subst e; exact hl.1 hi
        simp [hi, hix]
      · by_cases hix : i = x
        · subst hix; simp [hl.1]
        · simp [hi, hix]
    · intro i
      rw [f7, g2]
      simp only [hcond]
      by_cases hi : i ∈ l
      · have hix : i ≠ x := by intro e; subst e; exact hl.1 hi
        simp [hi, hix]
      · by_cases hix : i = x
        · subst hix; simp [hl.1]
        · simp [hi, hix]
    · rw [f8, g3]
      constructor
      · rintro ⟨⟨h1, h2⟩, h3⟩
        refine ⟨h1, ?_⟩
        intro i hi
        rcases List.mem_cons.mp hi with rfl | hi
        · exact h2
        · have := h3 i hi; rw [hne i hi] at this; exact this
      · rintro ⟨h1, h2⟩
        refine ⟨⟨h1, h2 x List.mem_cons_self⟩, ?_⟩
        intro i hi
        rw [hne i hi]; exact h2 i (List.mem_cons_of_mem _ hi)

/-- The apply phase on one segment. -/
theorem applyOneSegment_spec {gp : GProg T U V E} {sy : Segment U} {sv : Segment V} {sa : Segment Bool}
    (wy : sy.WF) (wv : sv.WF) (wa : sa.WF) (ry : sy.Ready) (rv : sv.Ready) (ra : sa.Ready)
    (cv : sv.capacity = sy.capacity) (ca : sa.capacity = sy.capacity) {vm : Nat → V}
    (hvm : ∀ i, i < sy.capacity → sv.view i = some (vm i)) (lc : Bool) :
    ∃ sv' sa' lc', applyOneSegment gp sy sv sa lc = some (sv', sa', lc') ∧
      sv'.WF ∧ sv'.Ready ∧ sv'.capacity = sv.capacity ∧
      (∀ i, sv'.view i = match sy.view i with
        | some u => some (gp.apply u (vm i))
        | none => sv.view i) ∧
      sa'.WF ∧ sa'.Ready ∧ sa'.capacity = sa.capacity ∧
      (∀ i, sa'.view i = match sy.view i with
        | some u => if changes gp u (vm i) = true then some true else sa.view i
        | none => sa.view i) ∧
      (lc' = true ↔ lc = true ∧ ∀ i u, sy.view i = some u → changes gp u (vm i) = false) := by
  obtain ⟨by_, py, uy⟩ := ry
  obtain ⟨bv, pv, uv⟩ := rv
  obtain ⟨ba, pa, ua⟩ := ra
  have dy := wy.dims _ py
  have dv := wv.dims _ pv
  have da := wa.dims _ pa
  have ty := wy.tail _ py uy
  have hmem : ∀ i, i ∈ (List.range' (32 * 0) (32 * (sy.numInts - 0))).filter (fun i => bitAt by_.bits i) ↔
      i < sy.capacity ∧ bitAt by_.bits i = true := by
    intro i
    rw [mem_bits]
    have := wy.ni
    constructor
    · rintro ⟨h1, h2⟩
      refine ⟨?_, h2⟩
      rcases Nat.lt_or_ge i sy.capacity with h | h
      · exact h
      · have := ty i h (by rw [dy.bits]; omega)
        rw [h2] at this; cases this
    · rintro ⟨h1, h2⟩; exact ⟨by omega, h2⟩
  have hyv : ∀ i, sy.view i = if i < sy.capacity ∧ bitAt by_.bits i = true then some (by_.value.get i) else none := by
    intro i
    unfold Segment.view
    rw [py]
    show by_.view i = _
    rw [Buffer.view_of_init uy, dy.value]
  have hvv : ∀ i, i < sy.capacity → bitAt bv.bits i = true ∧ bv.value.get i = vm i := by
    intro i hi
    have := hvm i hi
    unfold Segment.view at this
    rw [pv] at this
    have := Buffer.view_some.mp this
    exact ⟨this.2.2.1, this.2.2.2⟩
  unfold applyOneSegment
  rw [py, pv, pa]
  simp only [Option.bind_eq_bind, Option.bind_some]
  rw [scanBits_eq (by rw [dy.bits]; exact Nat.le_refl _)]
  obtain ⟨vv', av', ab', lc', f1, f2, f3, f4, f5, f6, f7, f8⟩ := applyOne_fold (gp := gp) (yv := by_.value)
    (cap := sy.capacity) (ni := sa.numInts) dy.value (by rw [wa.ni, ca])
    (l := (List.range' (32 * 0) (32 * (sy.numInts - 0))).filter (fun i => bitAt by_.bits i)) nodup_bits
    (fun i hi => ((hmem i).mp hi).1) bv.value ba.value ba.bits lc (by rw [dv.value, cv]) (by rw [da.value, ca]) da.bits
  rw [f1]
  simp only [Option.bind_some]
  simp only [hmem] at f5 f6 f7 f8
  refine ⟨_, _, _, rfl, ?_, ⟨_, rfl, uv⟩, rfl, ?_, ?_, ⟨_, rfl, ua⟩, rfl, ?_, ?_⟩
  · apply wv.congr_props
    · exact ⟨by rw [cv]; exact f2, dv.bits, dv.cdata, dv.cidx⟩
    · intro _; exact wv.tail bv pv uv
  · intro i
    rw [hyv]
    simp only [Segment.view]
    rw [Buffer.view_of_init (by exact uv)]
    simp only [f2, f5]
    by_cases hc : i < sy.capacity ∧ bitAt by_.bits i = true
    · rw [if_pos hc, if_pos hc]
      simp only [(hvv i hc.1).1, (hvv i hc.1).2, hc.1, and_self, if_true]
    · rw [if_neg hc]
      simp only [pv]
      rw [Buffer.view_of_init uv, if_neg hc, dv.value, cv]
  · apply wa.congr_props
    · exact ⟨by rw [ca]; exact f3, f4, da.cdata, da.cidx⟩
    · intro _ i h1 h2
      simp only at h2 ⊢
      rw [f7, if_neg (by intro h; omega)]
      exact wa.tail _ pa ua i h1 (by rw [da.bits]; omega)
  · intro i
    rw [hyv]
    simp only [Segment.view]
    rw [Buffer.view_of_init (by exact ua)]
    simp only [f3, f6, f7]
    by_cases hc : i < sy.capacity ∧ bitAt by_.bits i = true
    · rw [if_pos hc]
      simp only [hc, true_and, and_self, (hvv i hc.1).2]
      by_cases hch : changes gp (by_.value.get i) (vm i) = true
      · simp only [hch, if_true]
      · simp only [hch]
        rw [pa]
        simp only
        rw [Buffer.view_of_init ua, da.value, ca]
        simp [hc.1]
    · rw [if_neg hc]
      simp only [pa]
      rw [Buffer.view_of_init ua, da.value, ca]
      have : ¬ ((i < sy.capacity ∧ bitAt by_.bits i = true) ∧ changes gp (by_.value.get i) (bv.value.get i) = true) :=
        fun h => hc h.1
      simp only [if_neg this]
  · rw [f8]
    constructor
    · rintro ⟨h1, h2⟩
      refine ⟨h1, ?_⟩
      intro i u hu
      rw [hyv] at hu
      split at hu
      · rename_i hc
        injection hu with hu
        subst hu
        have := h2 i hc
        rw [(hvv i hc.1).2] at this; exact this
      · cases hu
    · rintro ⟨h1, h2⟩
      refine ⟨h1, ?_⟩
      intro i hc
      rw [(hvv i hc.1).2]
      exact h2 i _ (by rw [hyv, if_pos hc])

/-- What the apply phase does to an owned segment. -/
structure Applied (gp : GProg T U V E) (vm : Nat → V) (sy : Segment U) (sv sv' : Segment V) (sa sa' : Segment Bool) :
    Prop where
  vReady : sv'.Ready
  vView : ∀ i, sv'.view i = match sy.view i with
    | some u => some (gp.apply u (vm i))
    | none => sv.view i
  aReady : sa'.Ready
  aView : ∀ i, sa'.view i = match sy.view i with
    | some u => if changes gp u (vm i) = true then some true else sa.view i
    | none => sa.view i

theorem SpVec.WF.write {n nseg nrank me : Nat} {v : SpVec α} (h : v.WF n nseg nrank me) {p : Nat} {s' : Segment α}
    (hw : s'.WF) (hc : s'.capacity = (v.segs.get p).capacity) :
    ({ v with segs := v.segs.upd p s' } : SpVec α).WF n nseg nrank me := by
  refine ⟨h.hn, h.hseg, h.hrank, h.hme, by simpa using h.size, ?_, ?_⟩
  · intro q hq
    simp only
    by_cases e : q = p
    · subst e; rw [Arr.upd_get_self]; exact hw
    · rw [Arr.upd_get_ne _ _ e]; exact h.seg q hq
  · intro q hq
    simp only
    by_cases e : q = p
    · subst e; rw [Arr.upd_get_self, hc]; exact h.cap q hq
    · rw [Arr.upd_get_ne _ _ e]; exact h.cap q hq

/-- The apply phase on one rank. -/
theorem applyRank_spec {gp : GProg T U V E} {n nseg nrank me : Nat} {y : SpVec U} {vp : SpVec V} {act : SpVec Bool}
    (hy : y.WF n nseg nrank me) (hv : vp.WF n nseg nrank me) (ha : act.WF n nseg nrank me) (hr : 0 < nrank)
    (ry : ∀ p, p < nseg → p % nrank = me → (y.segs.get p).Ready)
    (rv : ∀ p, p < nseg → p % nrank = me → (vp.segs.get p).Ready)
    (ra : ∀ p, p < nseg → p % nrank = me → (act.segs.get p).Ready) {vm : Nat → Nat → V}
    (hvm : ∀ p, p < nseg → p % nrank = me → ∀ i, i < bnd n nseg (p + 1) - bnd n nseg p →
      (vp.segs.get p).view i = some (vm p i)) :
    ∃ vp' act' lc, applyRank gp y vp act = some (vp', act', lc) ∧ vp'.WF n nseg nrank me ∧ act'.WF n nseg nrank me ∧
      (∀ p, p < nseg → p % nrank = me → Applied gp (vm p) (y.segs.get p) (vp.segs.get p) (vp'.segs.get p)
        (act.segs.get p) (act'.segs.get p)) ∧
      (lc = true ↔ ∀ p, p < nseg → p % nrank = me → ∀ i u, (y.segs.get p).view i = some u →
        changes gp u (vm p i) = false) := by
  unfold applyRank
  rw [hy.hseg]
  obtain ⟨st, h1, h2, h3, h4, h5, h6⟩ := forLoop_inv (lo := 0) (hi := nseg) (s := (vp, act, true))
    (body := fun p (st : SpVec V × SpVec Bool × Bool) => do
    let own ← y.owns p
    if own then
      let sy ← y.segs.read p
      let sv ← st.1.segs.read p
      let sa ← st.2.1.segs.read p
      let r ← applyOneSegment gp sy sv sa st.2.2
      let vs ← st.1.segs.write p r.1
      let as ← st.2.1.segs.write p r.2.1
      some ({ st.1 with segs := vs }, { st.2.1 with segs := as }, r.2.2)
    else some st)
    (fun k st => st.1.WF n nseg nrank me ∧ st.2.1.WF n nseg nrank me ∧
      (∀ p, p < k → p % nrank = me → Applied gp (vm p) (y.segs.get p) (vp.segs.get p) (st.1.segs.get p)
        (act.segs.get p) (st.2.1.segs.get p)) ∧
      (∀ p, k ≤ p → st.1.segs.get p = vp.segs.get p ∧ st.2.1.segs.get p = act.segs.get p) ∧
      (st.2.2 = true ↔ ∀ p, p < k → p % nrank = me → ∀ i u, (y.segs.get p).view i = some u →
        changes gp u (vm p i) = false))
    (Nat.zero_le _) ⟨hv, ha, by intro p hp; omega, fun p _ => ⟨rfl, rfl⟩, by simp⟩ (by
      intro k st _ hk ⟨w1, w2, w3, w4, w5⟩
      rw [hy.owns hr]
      simp only [Option.bind_eq_bind, Option.bind_some]
      by_cases ho : k % nrank = me
      · rw [if_pos (by simpa using ho), Arr.read_some (by rw [hy.size]; exact hk),
          Arr.read_some (by rw [w1.size]; exact hk), Arr.read_some (by rw [w2.size]; exact hk)]
        simp only [Option.bind_some]
        obtain ⟨e1, e2⟩ := w4 k (Nat.le_refl _)
        rw [e1, e2]
        obtain ⟨sv', sa', lc', a1, a2, a3, a4, a5, a6, a7, a8, a9, a10⟩ := applyOneSegment_spec (gp := gp) (hy.seg k hk)
          (hv.seg k hk) (ha.seg k hk) (ry k hk ho) (rv k hk ho) (ra k hk ho) (by rw [hv.cap k hk, hy.cap k hk])
          (by rw [ha.cap k hk, hy.cap k hk]) (vm := vm k) (by
            intro i hi
            rw [hy.cap k hk] at hi
            exact hvm k hk ho i hi) st.2.2
        rw [a1]
        simp only [Option.bind_some]
        rw [Arr.write_some (by rw [w1.size]; exact hk), Arr.write_some (by rw [w2.size]; exact hk)]
        simp only [Option.bind_some]
        refine ⟨_, rfl, w1.write a2 (by rw [a4, e1]), w2.write a6 (by rw [a8, e2]), ?_, ?_, ?_⟩
        · intro p hp hpm
          simp only
          by_cases e : p = k
          · subst e
            rw [Arr.upd_get_self, Arr.upd_get_self]
            exact ⟨a3, a5, a7, a9⟩
          · rw [Arr.upd_get_ne _ _ e, Arr.upd_get_ne _ _ e]
            exact w3 p (by omega) hpm
        · intro p hp
          simp only
          rw [Arr.upd_get_ne _ _ (by omega), Arr.upd_get_ne _ _ (by omega)]
          exact w4 p (by omega)
        · simp only
          rw [a10, w5]
          constructor
          · rintro ⟨b1, b2⟩ p hp hpm
            by_cases e : p = k
            · subst e; exact b2
            · exact b1 p (by omega) hpm
          · intro b
            exact ⟨fun p hp hpm => b p (by omega) hpm, b k (by omega) ho⟩
      · rw [if_neg (by simpa using ho)]
        have hnk : ∀ p, p < k + 1 → p % nrank = me → p < k := by
          intro p hp hpm
          rcases Nat.lt_or_ge p k with h | h
          · exact h
          · have : p = k := by omega
            subst this; exact absurd hpm ho
        refine ⟨st, rfl, w1, w2, ?_, fun p hp => w4 p (by omega), ?_⟩
        · intro p hp hpm; exact w3 p (hnk p hp hpm) hpm
        · rw [w5]
          constructor
          · intro b p hp hpm; exact b p (hnk p hp hpm) hpm
          · intro b p hp hpm; exact b p (by omega) hpm)
  exact ⟨st.1, st.2.1, st.2.2, h1, h2, h3, h4, h6⟩

/-- The apply phase on all ranks. -/
theorem applyAllRanks_spec {gp : GProg T U V E} {n nseg nrank : Nat} {y : DVec U} {vp : DVec V} {act : DVec Bool}
    (hs : 0 < nseg) (hr : 0 < nrank) (hy : y.WF n nseg nrank) (hv : vp.WF n nseg nrank) (ha : act.WF n nseg nrank)
    (ry : y.Ready nseg nrank) (rv : vp.Ready nseg nrank) (ra : act.Ready nseg nrank) {vm : Nat → V}
    (hvm : ∀ w, 1 ≤ w → w ≤ n → vp.sem n nseg nrank w = some (vm w)) :
    ∃ (vp' : DVec V) (act' : DVec Bool) (conv : Bool), applyAllRanks gp y vp act = some (vp', act', conv) ∧
      vp'.WF n nseg nrank ∧ act'.WF n nseg nrank ∧ vp'.Ready nseg nrank ∧ act'.Ready nseg nrank ∧
      (∀ w, 1 ≤ w → w ≤ n → vp'.sem n nseg nrank w = match y.sem n nseg nrank w with
        | some u => some (gp.apply u (vm w))
        | none => some (vm w)) ∧
      (∀ w, 1 ≤ w → w ≤ n → act'.sem n nseg nrank w = match y.sem n nseg nrank w with
        | some u => if changes gp u (vm w) = true then some true else act.sem n nseg nrank w
        | none => act.sem n nseg nrank w) ∧
      (conv = true ↔ ∀ w, 1 ≤ w → w ≤ n → ∀ u, y.sem n nseg nrank w = some u → changes gp u (vm w) = false) := by
  unfold applyAllRanks
  rw [hy.size]
  have hvm' : ∀ p, p < nseg → ∀ i, i < bnd n nseg (p + 1) - bnd n nseg p →
      (vp.own nrank p).view i = some (vm (bnd n nseg p + i + 1)) := by
    intro p hp i hi
    have hle := bnd_le (n := n) (nseg := nseg) (i := p + 1)
    have := hvm (bnd n nseg p + i + 1) (by omega) (by omega)
    rw [DVec.sem_of (p := p) (getPartition_iff.mpr ⟨hp, by omega, by omega⟩)] at this
    rw [show bnd n nseg p + i + 1 - bnd n nseg p - 1 = i by omega] at this
    exact this
  have rank : ∀ r, r < nrank → ∃ vp' act' lc, applyRank gp (y.get r) (vp.get r) (act.get r) = some (vp', act', lc) ∧
      vp'.WF n nseg nrank r ∧ act'.WF n nseg nrank r ∧
      (∀ p, p < nseg → p % nrank = r → Applied gp (fun i => vm (bnd n nseg p + i + 1)) (y.own nrank p)
        (vp.own nrank p) (vp'.segs.get p) (act.own nrank p) (act'.segs.get p)) ∧
      (lc = true ↔ ∀ p, p < nseg → p % nrank = r → ∀ i u, (y.own nrank p).view i = some u →
        changes gp u (vm (bnd n nseg p + i + 1)) = false) := by
    intro r hrr
    have toOwn : ∀ {β : Type} (d : DVec β) p, p % nrank = r → (d.get r).segs.get p = d.own nrank p := by
      intro β d p hp; unfold DVec.own; rw [hp]
    obtain ⟨vp', act', lc, b1, b2, b3, b4, b5⟩ := applyRank_spec (gp := gp) (hy.rank r hrr) (hv.rank r hrr)
      (ha.rank r hrr) hr (fun p hp e => by rw [toOwn y p e]; exact ry p hp)
      (fun p hp e => by rw [toOwn vp p e]; exact rv p hp) (fun p hp e => by rw [toOwn act p e]; exact ra p hp)
      (vm := fun p i => vm (bnd n nseg p + i + 1)) (fun p hp e i hi => by rw [toOwn vp p e]; exact hvm' p hp i hi)
    refine ⟨vp', act', lc, b1, b2, b3, ?_, ?_⟩
    · intro p hp e
      have := b4 p hp e
      rw [toOwn y p e, toOwn vp p e, toOwn act p e] at this
      exact this
    · rw [b5]
      constructor
      · intro h p hp e; have := h p hp e; rw [toOwn y p e] at this; exact this
      · intro h p hp e; rw [toOwn y p e]; exact h p hp e
  obtain ⟨st, h1, h2, h3, h4, _, h6⟩ := forLoop_inv (lo := 0) (hi := nrank) (s := (vp, act, true))
    (body := fun r (st : DVec V × DVec Bool × Bool) => do
    let yr ← y.read r
    let vr ← st.1.read r
    let ar ← st.2.1.read r
    let res ← applyRank gp yr vr ar
    let vp ← st.1.write r res.1
    let act ← st.2.1.write r res.2.1
    some (vp, act, st.2.2 && res.2.2))
    (fun k st => DVec.WF n nseg nrank st.1 ∧ DVec.WF n nseg nrank st.2.1 ∧
      (∀ p, p < nseg → p % nrank < k → Applied gp (fun i => vm (bnd n nseg p + i + 1)) (y.own nrank p)
        (vp.own nrank p) (DVec.own nrank st.1 p) (act.own nrank p) (DVec.own nrank st.2.1 p)) ∧
      (∀ r, k ≤ r → st.1.get r = vp.get r ∧ st.2.1.get r = act.get r) ∧
      (st.2.2 = true ↔ ∀ p, p < nseg → p % nrank < k → ∀ i u, (y.own nrank p).view i = some u →
        changes gp u (vm (bnd n nseg p + i + 1)) = false))
    (Nat.zero_le _) ⟨hv, ha, by intro p _ hp; omega, fun p _ => ⟨rfl, rfl⟩, by simp⟩ (by
      intro k st _ hk ⟨w1, w2, w3, w4, w5⟩
      obtain ⟨vp', act', lc, b1, b2, b3, b4, b5⟩ := rank k hk
      rw [Arr.read_some (by rw [hy.size]; exact hk), Arr.read_some (by rw [w1.size]; exact hk),
        Arr.read_some (by rw [w2.size]; exact hk)]
      simp only [Option.bind_eq_bind, Option.bind_some]
      rw [(w4 k (Nat.le_refl _)).1, (w4 k (Nat.le_refl _)).2, b1]
      simp only [Option.bind_some]
      rw [Arr.write_some (by rw [w1.size]; exact hk), Arr.write_some (by rw [w2.size]; exact hk)]
      simp only [Option.bind_some]
      refine ⟨_, rfl, ⟨by simpa using w1.size, ?_⟩, ⟨by simpa using w2.size, ?_⟩, ?_, ?_, ?_⟩
      · intro r hrr
        simp only
        by_cases e : r = k
        · subst e; rw [Arr.upd_get_self]; exact b2
        · rw [Arr.upd_get_ne _ _ e]; exact w1.rank r hrr
      · intro r hrr
        simp only
        by_cases e : r = k
        · subst e; rw [Arr.upd_get_self]; exact b3
        · rw [Arr.upd_get_ne _ _ e]; exact w2.rank r hrr
      · intro p hp hpk
        unfold DVec.own
        simp only
        by_cases e : p % nrank = k
        · rw [e, Arr.upd_get_self, Arr.upd_get_self]
          have := b4 p hp e
          unfold DVec.own at this
          rw [e] at this
          exact this
        · rw [Arr.upd_get_ne _ _ e, Arr.upd_get_ne _ _ e]
          exact w3 p hp (by omega)
      · intro r hrr
        simp only
        rw [Arr.upd_get_ne _ _ (by omega), Arr.upd_get_ne _ _ (by omega)]
        exact w4 r (by omega)
      · simp only [Bool.and_eq_true]
        rw [w5, b5]
        constructor
        · rintro ⟨c1, c2⟩ p hp hpk
          by_cases e : p % nrank = k
          · exact c2 p hp e
          · exact c1 p hp (by omega)
        · intro c
          exact ⟨fun p hp hpk => c p hp (by omega), fun p hp hpk => c p hp (by omega)⟩)
  have ap : ∀ p, p < nseg → Applied gp (fun i => vm (bnd n nseg p + i + 1)) (y.own nrank p)
        (vp.own nrank p) (DVec.own nrank st.1 p) (act.own nrank p) (DVec.own nrank st.2.1 p) :=
    fun p hp => h4 p hp (Nat.mod_lt _ hr)
  refine ⟨st.1, st.2.1, st.2.2, h1, h2, h3, fun p hp => (ap p hp).vReady, fun p hp => (ap p hp).aReady, ?_, ?_, ?_⟩
  · intro w w1 w2
    obtain ⟨p, hp, hps, hp1, hp2⟩ := locate hs w1 w2
    rw [DVec.sem_of hp, DVec.sem_of hp, (ap p hps).vView]
    rw [show bnd n nseg p + (w - bnd n nseg p - 1) + 1 = w by omega]
    have := hvm w w1 w2
    rw [DVec.sem_of hp] at this
    rw [this]
  · intro w w1 w2
    obtain ⟨p, hp, hps, hp1, hp2⟩ := locate hs w1 w2
    rw [DVec.sem_of hp, DVec.sem_of hp, DVec.sem_of hp, (ap p hps).aView]
    rw [show bnd n nseg p + (w - bnd n nseg p - 1) + 1 = w by omega]
  · rw [h6]
    constructor
    · intro h w w1 w2 u hu
      obtain ⟨p, hp, hps, hp1, hp2⟩ := locate hs w1 w2
      rw [DVec.sem_of hp] at hu
      have := h p hps (Nat.mod_lt _ hr) _ u hu
      rw [show bnd n nseg p + (w - bnd n nseg p - 1) + 1 = w by omega] at this
      exact this
    · intro h p hp _ i u hu
      have hi : i < bnd n nseg (p + 1) - bnd n nseg p := by
        rcases Nat.lt_or_ge i (bnd n nseg (p + 1) - bnd n nseg p) with h | h
        · exact h
        · rw [Segment.view_ge (hy.own_WF hr hp) (by rw [hy.own_cap hr hp]; exact h)] at hu
          cases hu
      have hle := bnd_le (n := n) (nseg := nseg) (i := p + 1)
      refine h (bnd n nseg p + i + 1) (by omega) (by omega) u ?_
      rw [DVec.sem_of (p := p) (getPartition_iff.mpr ⟨hp, by omega, by omega⟩)]
      rw [show bnd n nseg p + i + 1 - bnd n nseg p - 1 = i by omega]
      exact hu

end GraphMat

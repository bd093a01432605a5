import Verif.Lemmas.MemoProg

/-!
# Products with vectors that remember hidden values
-/
namespace GraphMat

variable {E T U V α : Type}

instance (nty nrank : Nat) (ow : Nat → Nat → Nat) : DecidablePred (SharedX nty nrank ow) :=
  fun p => inferInstanceAs (Decidable (∃ i, i < nty ∧ ow i p ≠ p % nrank))

instance (ntx nrank : Nat) (ow : Nat → Nat → Nat) : DecidablePred (SharedV ntx nrank ow) :=
  fun p => inferInstanceAs (Decidable (∃ j, j < ntx ∧ ow p j ≠ p % nrank))

/-- `mult_segment` does not look at the flag of its input. -/
theorem multSegment_wake (g : Fresh U) (tmp : Nat → Nat → U) (mul : Nat → Nat → E → T → U → U) (add : U → U → U) (t : Tile E)
    (sx : Segment T) (sy : Segment U) : multSegment g tmp mul add t sx.wake sy = multSegment g tmp mul add t sx sy := by
  unfold multSegment Segment.wake
  cases sx.props <;> rfl

/-- `mult_segment3` does not look at the flags of its inputs. -/
theorem multSegment3_wake (g : Fresh U) (tmp : Nat → Nat → U) (mul : E → T → V → U → U) (add : U → U → U) (t : Tile E)
    (sx : Segment T) (sv : Segment V) (sy : Segment U) :
    multSegment3 g tmp mul add t sx.wake sv.wake sy = multSegment3 g tmp mul add t sx sv sy := by
  unfold multSegment3 Segment.wake
  cases sx.props <;> cases sv.props <;> rfl

/-- The vector without the flags `uninitialized`, apart from the parts in `Q`. -/
def DVec.wakeAt (Q : Nat → Prop) [DecidablePred Q] (d : DVec α) : DVec α :=
  ⟨d.size, fun r => { d.get r with
    segs := ⟨(d.get r).segs.size, fun p => if Q p then (d.get r).segs.get p else ((d.get r).segs.get p).wake⟩ }⟩

theorem DVec.wakeAt_own (Q : Nat → Prop) [DecidablePred Q] (d : DVec α) (nrank p : Nat) :
    (d.wakeAt Q).own nrank p = if Q p then d.own nrank p else (d.own nrank p).wake := rfl

section

variable {n nseg nrank : Nat} {d d1 : DVec T} {m : Memo T} {pairs : List (Nat × Nat)} {Q : Nat → Prop} [DecidablePred Q]

/-- What a rank multiplies with: the values that are sent, or those that the part remembers. -/
theorem broadcast_wake (hQ : ∀ p, p < nseg → (Q p ↔ ∃ k ∈ foreign nrank pairs, k.1 = p)) (h1 : d1.WF n nseg nrank)
    (rx : ∀ p, p < nseg → Q p ∨ (d.own nrank p).wake.WF ∧ (d.own nrank p).wake.Ready) {r p : Nat} (hr : r < nrank) (hp : p < nseg)
    (h : BCell nrank pairs d (r, p) (d1.cell (r, p))) (hm : (p, r) ∈ pairs) :
    (d1.cell (r, p)).wake.WF ∧ (d1.cell (r, p)).wake.Ready ∧ (d1.cell (r, p)).wake.view = ((d.wakeAt Q).own nrank p).view := by
  rw [DVec.wakeAt_own]
  by_cases hq : Q p
  · rw [if_pos hq]
    have u : (d1.cell (r, p)).Ready ∧ (d1.cell (r, p)).view = (d.own nrank p).view := by
      by_cases ho : p % nrank = r
      · have e : d.own nrank p = d.cell (r, p) := by unfold DVec.own DVec.cell; rw [ho]
        exact ⟨h.shared ho ((hQ p hp).mp hq), by rw [(h.own ho).1, e]⟩
      · exact h.other (mem_foreign.mpr ⟨hm, ho⟩)
    rw [Segment.wake_ready u.1]
    exact ⟨(h1.rank r hr).seg p hp, u⟩
  · rw [if_neg hq]
    have ho : p % nrank = r := by
      by_contra ho
      exact hq ((hQ p hp).mpr ⟨_, mem_foreign.mpr ⟨hm, ho⟩, rfl⟩)
    have e : d1.cell (r, p) = d.own nrank p := by
      rw [h.alone ho (fun h => hq ((hQ p hp).mpr h))]
      unfold DVec.own DVec.cell
      rw [ho]
    rw [e]
    obtain ⟨a, b⟩ := (rx p hp).resolve_left hq
    exact ⟨a, b, rfl⟩

theorem Memo.sent_val {part : Nat → Option Nat} {w p : Nat} (hp : part w = some p) :
    (m.sent part Q).val w = if Q p then m.seen part w else m.val w := by
  simp [Memo.sent, hp]

/-- The values that are multiplied. -/
theorem MemoRel.wakeAt_sem (h : MemoRel n nseg nrank d m) (hs : 0 < nseg) {w : Nat} (h1 : 1 ≤ w) (h2 : w ≤ n) :
    (d.wakeAt Q).sem n nseg nrank w = (m.sent (fun w => getPartition n nseg w) Q).val w := by
  obtain ⟨p, hp, hpn, _⟩ := locate hs h1 h2
  rw [DVec.sem_of hp, DVec.wakeAt_own, Memo.sent_val (part := fun w => getPartition n nseg w) hp]
  by_cases hq : Q p
  · rw [if_pos hq, if_pos hq, ← h.sem hs h1 h2, DVec.sem_of hp]
  · rw [if_neg hq, if_neg hq]
    exact h.val w p h1 h2 hp

/-- An operand after a product. -/
theorem MemoRel.sent (h : MemoRel n nseg nrank d m) (hs : 0 < nseg) (hr : 0 < nrank)
    (hQ : ∀ p, p < nseg → (Q p ↔ ∃ k ∈ foreign nrank pairs, k.1 = p)) (h1 : d1.WF n nseg nrank)
    (hb : ∀ r p, r < nrank → p < nseg → BCell nrank pairs d (r, p) (d1.cell (r, p))) :
    ∃ d2 : DVec T, d1.freeNonOwned nseg = some d2 ∧ MemoRel n nseg nrank d2 (m.sent (fun w => getPartition n nseg w) Q) := by
  obtain ⟨d2, e1, e2, e3⟩ := DVec.freeNonOwned_spec h1 hr
  have hown : ∀ p, p < nseg → d2.own nrank p = d1.cell (p % nrank, p) := by
    intro p hp
    have := e3 (p % nrank) p (Nat.mod_lt _ hr) hp
    rw [if_pos rfl] at this
    exact this
  have hyes : ∀ p, p < nseg → Q p → (d2.own nrank p).Ready ∧ (d2.own nrank p).view = (d.own nrank p).view := by
    intro p hp hq
    rw [hown p hp]
    have hc := hb (p % nrank) p (Nat.mod_lt _ hr) hp
    exact ⟨hc.shared rfl ((hQ p hp).mp hq), (hc.own rfl).1⟩
  have hno : ∀ p, p < nseg → ¬ Q p → d2.own nrank p = d.own nrank p := by
    intro p hp hq
    rw [hown p hp]
    exact (hb (p % nrank) p (Nat.mod_lt _ hr) hp).alone rfl (fun h => hq ((hQ p hp).mpr h))
  refine ⟨d2, e1, e2, broadcast_quiet hr h1 hb e1 h.quiet, ?_, ?_⟩
  · intro p hp
    show PartMemo _ (if Q p then .used else m.use p)
    by_cases hq : Q p
    · rw [if_pos hq]
      exact (hyes p hp hq).1
    · rw [if_neg hq, hno p hp hq]
      exact h.parts p hp
  · intro w p w1 w2 hp
    have hpn := (getPartition_some hp).1
    rw [Memo.sent_val (part := fun w => getPartition n nseg w) hp]
    by_cases hq : Q p
    · rw [if_pos hq, Segment.wake_ready (hyes p hpn hq).1, (hyes p hpn hq).2, ← h.sem hs w1 w2, DVec.sem_of hp]
    · rw [if_neg hq, hno p hpn hq]
      exact h.val w p w1 w2 hp

theorem MemoRel.usable (h : MemoRel n nseg nrank d m) (hr : 0 < nrank) {part : Nat → Option Nat}
    (hw : (m.sent part Q).written nseg = true) :
    ∀ p, p < nseg → Q p ∨ (d.own nrank p).wake.WF ∧ (d.own nrank p).wake.Ready := by
  intro p hp
  by_cases hq : Q p
  · exact .inl hq
  · have := Memo.written_iff.mp hw p hp
    unfold Memo.sent at this
    simp only [if_neg hq] at this
    exact .inr (h.wake_WF hr hp this)

theorem MemoRel.not_usable (h : MemoRel n nseg nrank d m) {part : Nat → Option Nat}
    (hw : ¬ (m.sent part Q).written nseg = true) : ∃ p, p < nseg ∧ ¬ Q p ∧ (d.own nrank p).props = none := by
  rw [Memo.written_iff] at hw
  push Not at hw
  obtain ⟨p, hp, hu⟩ := hw
  unfold Memo.sent at hu
  by_cases hq : Q p
  · simp [hq] at hu
  · simp only [if_neg hq] at hu
    have := h.parts p hp
    rw [hu] at this
    exact ⟨p, hp, hq, this⟩

end

section

variable {D : DMat E} {n nseg nrank : Nat} {ow : Nat → Nat → Nat} {T' : Nat → Nat → Tile E}
  {P : Nat → Nat → Nat → List (Col E)} {all : List (Edge E)}

theorem sharedX_iff {pairs : List (Nat × Nat)} {ntx nty : Nat} (h : ∀ jr, jr ∈ pairs ↔ jr.1 < ntx ∧ ∃ i, i < nty ∧ ow i jr.1 = jr.2) :
    ∀ p, p < ntx → (SharedX nty nrank ow p ↔ ∃ k ∈ foreign nrank pairs, k.1 = p) := by
  intro p hp
  constructor
  · rintro ⟨i, hi, hne⟩
    exact ⟨(p, ow i p), mem_foreign.mpr ⟨(h _).mpr ⟨hp, i, hi, rfl⟩, fun e => hne e.symm⟩, rfl⟩
  · rintro ⟨k, hk, rfl⟩
    obtain ⟨h1, h2⟩ := mem_foreign.mp hk
    obtain ⟨_, i, hi, hw⟩ := (h k).mp h1
    exact ⟨i, hi, fun e => h2 (e.symm.trans hw)⟩

theorem sharedV_iff {pairs : List (Nat × Nat)} {ntx nty : Nat} (h : ∀ ir, ir ∈ pairs ↔ ir.1 < nty ∧ ∃ j, j < ntx ∧ ow ir.1 j = ir.2) :
    ∀ p, p < nty → (SharedV ntx nrank ow p ↔ ∃ k ∈ foreign nrank pairs, k.1 = p) := by
  intro p hp
  constructor
  · rintro ⟨i, hi, hne⟩
    exact ⟨(p, ow p i), mem_foreign.mpr ⟨(h _).mpr ⟨hp, i, hi, rfl⟩, fun e => hne e.symm⟩, rfl⟩
  · rintro ⟨k, hk, rfl⟩
    obtain ⟨h1, h2⟩ := mem_foreign.mp hk
    obtain ⟨_, i, hi, hw⟩ := (h k).mp h1
    exact ⟨i, hi, fun e => h2 (e.symm.trans hw)⟩

/-- `SpMSpV` with an operand of which all parts have a buffer or are sent. -/
theorem DMat.spmspv_memo (h : D.Rep n n nseg nseg nrank ow T' P all) (hin : ∀ e ∈ all, InMat n n e)
    (hs0 : 0 < nseg) (hr : 0 < nrank) (how : ∀ i j, ow i j < nrank) {threads : Nat} (hth : 0 < threads)
    (env : MulEnv T T T) (pm : E → T → T) (add : T → T → T) {x y : DVec T} {mx my : Memo T}
    (hx : MemoRel n nseg nrank x mx) (hy : MemoRel n nseg nrank y my)
    (hw : (mx.sent (fun w => getPartition n nseg w) (SharedX nseg nrank ow)).written nseg = true) :
    ∃ x' y' : DVec T, D.spmspv env threads nrank (fun _ _ _ _ e x _ => pm e x) add x y = some (x', y') ∧
      MemoRel n nseg nrank x' (mx.sent (fun w => getPartition n nseg w) (SharedX nseg nrank ow)) ∧
      MemoRel n nseg nrank y' ⟨y'.sem n nseg nrank, fun _ => .used⟩ ∧
      ∀ w, 1 ≤ w → w ≤ n → Reduces add ((my.seen (fun w => getPartition n nseg w) w).toList ++
        matProducts (mx.sent (fun w => getPartition n nseg w) (SharedX nseg nrank ow)).val pm all w) (y'.sem n nseg nrank w) := by
  obtain ⟨cp, c1, c2, c3, c4⟩ := colPairs_spec (m := n) (n := n) (T := T') (ntx := nseg) (nty := nseg) 0 how
  obtain ⟨rp, r1, r2, r3, r4⟩ := rowPairs_spec (m := n) (n := n) (T := T') (ntx := nseg) (nty := nseg) 0 how
  have hQ := sharedX_iff (nrank := nrank) c3
  have rx := hx.usable hr hw
  obtain ⟨x1, b1, b2, b3⟩ := DVec.broadcast_spec hx.wf hr env.serT hth env.gx c2 c4
  obtain ⟨x2, f1, f2⟩ := hx.sent hs0 hr hQ b2 b3
  obtain ⟨y1, m1, m2, m3⟩ := multiply_spec (ntx := nseg) (ow := ow) hy.wf
    (B := fun r yv => (x1.read r).bind fun xv => (D[r]?).bind fun M => M.foldTiles yv (fun i j t yv =>
      (xv.segs.read j).bind fun sx =>
      yv.modifySeg i (fun sy => multSegment (env.gy r i) (env.tmp i j) (fun _ _ e x _ => pm e x) add t sx sy)))
    (op := fun r c s => multSegment (env.gy r c.1) (env.tmp c.1 c.2) (fun _ _ e x _ => pm e x) add (T' c.1 c.2)
      (x1.cell (r, c.2)) s) (by
      intro r hrr v
      rw [Arr.read_some (by rw [b2.size]; exact hrr), Option.bind_some, h.head hrr, Option.bind_some, foldTiles_spec]
      refine foldlM_ext ?_ v
      intro c hc v
      rw [List.mem_filter, mem_cells] at hc
      rw [Arr.read_some (by rw [(b2.rank r hrr).size]; exact hc.1.2)]
      rfl) (add := add)
    (K := fun c => contrib ((x.wakeAt (SharedX nseg nrank ow)).own nrank c.2).view (fun _ => pm)
      (allEnts (T' c.1 c.2).np (P c.1 c.2))) (by
      intro r hrr c hc1 hc2 hco s hs hcap
      have ht := h.tile c.1 c.2 hc1 hc2
      obtain ⟨u0, u1, u2⟩ := broadcast_wake hQ b2 rx hrr hc2 (b3 r c.2 hrr hc2) ((c3 _).mpr ⟨hc2, c.1, hc1, hco⟩)
      obtain ⟨s', q1, q2, q3, q4, q5, q6, q7⟩ := multSegment_spec ht.1 u0 u1 hs
        (by rw [ht.2.2.1]; exact (b2.rank r hrr).cap c.2 hc2) (by rw [hcap, ht.2.1])
        (env.gy r c.1) (env.tmp c.1 c.2) (mul := fun _ _ e x _ => pm e x) (pm := pm) (fun _ _ _ _ _ => rfl) add
      rw [multSegment_wake] at q1
      refine ⟨s', q1, q2, q3, q4, q5, ?_⟩
      intro i
      rw [q7, ← u2])
  obtain ⟨y2, z1, z2, z3, z4, z5, z6⟩ := reduce_final h hs0 hs0 hr how hth env.serU add env.gy env.gq r2 r3
    (x := x.wakeAt (SharedX nseg nrank ow)) m2 hy.quiet (fun _ => pm) m3
  refine ⟨x2, y2, ?_, f2, MemoRel.of_ready z2 z4 z3 (fun _ _ _ => rfl), ?_⟩
  · unfold DMat.spmspv
    simp only [Option.bind_eq_bind]
    rw [h.head hr, Option.bind_some]
    have e1 : (matOf n n nseg nseg nrank ow T' 0).ntx = nseg := rfl
    have e2 : (matOf n n nseg nseg nrank ow T' 0).nty = nseg := rfl
    rw [e1, e2, c1, Option.bind_some, r1, Option.bind_some, b1, Option.bind_some, m1, Option.bind_some, f1,
      Option.bind_some, z1]
    rfl
  · intro w h1 h2
    have := z5 w h1 h2 _ (reduces_self _)
    rw [hy.sem hs0 h1 h2] at this
    have e : incoming ((x.wakeAt (SharedX nseg nrank ow)).sem n nseg nrank) (fun _ => pm) all w =
        matProducts (mx.sent (fun w => getPartition n nseg w) (SharedX nseg nrank ow)).val pm all w :=
      matProducts_congr hin (fun w h1 h2 => hx.wakeAt_sem hs0 h1 h2)
    rw [e] at this
    exact this

/-- `SpMSpV3` with operands of which all parts have a buffer or are sent, and which have the values that are needed. -/
theorem DMat.spmspv3_memo [Nonempty T] (h : D.Rep n n nseg nseg nrank ow T' P all) (hin : ∀ e ∈ all, InMat n n e)
    (hs0 : 0 < nseg) (hr : 0 < nrank) (how : ∀ i j, ow i j < nrank) {threads : Nat} (hth : 0 < threads)
    (env : MulEnv T T T) (pm : E → T → T → T) (add : T → T → T) {x vp y : DVec T} {mx mv my : Memo T}
    (hx : MemoRel n nseg nrank x mx) (hv : MemoRel n nseg nrank vp mv) (hy : MemoRel n nseg nrank y my)
    (hw : (mx.sent (fun w => getPartition n nseg w) (SharedX nseg nrank ow)).written nseg = true)
    (hwv : (mv.sent (fun w => getPartition n nseg w) (SharedV nseg nrank ow)).written nseg = true)
    (hcov : Covered all (mx.sent (fun w => getPartition n nseg w) (SharedX nseg nrank ow)).val
      (mv.sent (fun w => getPartition n nseg w) (SharedV nseg nrank ow)).val) :
    ∃ x' v' y' : DVec T, D.spmspv3 env threads nrank (fun e x v _ => pm e x v) add x vp y = some (x', v', y') ∧
      MemoRel n nseg nrank x' (mx.sent (fun w => getPartition n nseg w) (SharedX nseg nrank ow)) ∧
      MemoRel n nseg nrank v' (mv.sent (fun w => getPartition n nseg w) (SharedV nseg nrank ow)) ∧
      MemoRel n nseg nrank y' ⟨y'.sem n nseg nrank, fun _ => .used⟩ ∧
      ∀ w, 1 ≤ w → w ≤ n → Reduces add ((my.seen (fun w => getPartition n nseg w) w).toList ++
        matProducts3 (mx.sent (fun w => getPartition n nseg w) (SharedX nseg nrank ow)).val
          (mv.sent (fun w => getPartition n nseg w) (SharedV nseg nrank ow)).val pm all w) (y'.sem n nseg nrank w) := by
  obtain ⟨cp, c1, c2, c3, c4⟩ := colPairs_spec (m := n) (n := n) (T := T') (ntx := nseg) (nty := nseg) 0 how
  obtain ⟨rp, r1, r2, r3, r4⟩ := rowPairs_spec (m := n) (n := n) (T := T') (ntx := nseg) (nty := nseg) 0 how
  have hQ := sharedX_iff (nrank := nrank) c3
  have hQv := sharedV_iff (nrank := nrank) r3
  have rx := hx.usable hr hw
  have rv := hv.usable hr hwv
  generalize hX : mx.sent (fun w => getPartition n nseg w) (SharedX nseg nrank ow) = X at *
  generalize hV : mv.sent (fun w => getPartition n nseg w) (SharedV nseg nrank ow) = Y at *
  have semx : ∀ w, 1 ≤ w → w ≤ n → (x.wakeAt (SharedX nseg nrank ow)).sem n nseg nrank w = X.val w :=
    fun w h1 h2 => by rw [← hX]; exact hx.wakeAt_sem hs0 h1 h2
  have semv : ∀ w, 1 ≤ w → w ≤ n → (vp.wakeAt (SharedV nseg nrank ow)).sem n nseg nrank w = Y.val w :=
    fun w h1 h2 => by rw [← hV]; exact hv.wakeAt_sem hs0 h1 h2
  obtain ⟨vm, hvm0⟩ : ∃ vm : Nat → T, ∀ e ∈ all, (X.val e.dst.toNat).isSome → Y.val e.src.toNat = some (vm e.src.toNat) := by
    refine ⟨fun w => (Y.val w).getD (Classical.arbitrary T), ?_⟩
    intro e he hx
    obtain ⟨v, hv⟩ := Option.isSome_iff_exists.mp (hcov e he hx)
    simp only [hv, Option.getD_some]
  have hvm : ∀ e ∈ all, ((x.wakeAt (SharedX nseg nrank ow)).sem n nseg nrank e.dst.toNat).isSome →
      (vp.wakeAt (SharedV nseg nrank ow)).sem n nseg nrank e.src.toNat = some (vm e.src.toNat) := by
    intro e he hxe
    obtain ⟨h1, h2, h3, h4⟩ := hin e he
    rw [semx _ (by omega) (by omega)] at hxe
    rw [semv _ (by omega) (by omega)]
    exact hvm0 e he hxe
  obtain ⟨x1, b1, b2, b3⟩ := DVec.broadcast_spec hx.wf hr env.serT hth env.gx c2 c4
  obtain ⟨x2, f1, f2⟩ := hx.sent hs0 hr hQ b2 b3
  obtain ⟨v1, w1, w2, w3⟩ := DVec.broadcast_spec hv.wf hr env.serV hth env.gv r2 r4
  obtain ⟨v2, k1, k2⟩ := hv.sent hs0 hr hQv w2 w3
  obtain ⟨y1, m1, m2, m3⟩ := multiply_spec (ntx := nseg) (ow := ow) hy.wf
    (B := fun r yv => (x1.read r).bind fun xv => (v1.read r).bind fun vv => (D[r]?).bind fun M =>
      M.foldTiles yv (fun i j t yv =>
      (xv.segs.read j).bind fun sx => (vv.segs.read i).bind fun sv =>
      yv.modifySeg i (fun sy => multSegment3 (env.gy r i) (env.tmp i j) (fun e x v _ => pm e x v) add t sx sv sy)))
    (op := fun r c s => multSegment3 (env.gy r c.1) (env.tmp c.1 c.2) (fun e x v _ => pm e x v) add (T' c.1 c.2)
      (x1.cell (r, c.2)) (v1.cell (r, c.1)) s) (by
      intro r hrr v
      rw [Arr.read_some (by rw [b2.size]; exact hrr), Option.bind_some,
        Arr.read_some (by rw [w2.size]; exact hrr), Option.bind_some, h.head hrr, Option.bind_some, foldTiles_spec]
      refine foldlM_ext ?_ v
      intro c hc v
      rw [List.mem_filter, mem_cells] at hc
      rw [Arr.read_some (by rw [(b2.rank r hrr).size]; exact hc.1.2),
        Option.bind_some, Arr.read_some (by rw [(w2.rank r hrr).size]; exact hc.1.1)]
      rfl) (add := add)
    (K := fun c => contrib ((x.wakeAt (SharedX nseg nrank ow)).own nrank c.2).view
      (fun row => (fun w e x => pm e x (vm w)) (bnd n nseg c.1 + row + 1)) (allEnts (T' c.1 c.2).np (P c.1 c.2))) (by
      intro r hrr c hc1 hc2 hco s hs hcap
      have ht := h.tile c.1 c.2 hc1 hc2
      obtain ⟨u0, u1, u2⟩ := broadcast_wake hQ b2 rx hrr hc2 (b3 r c.2 hrr hc2) ((c3 _).mpr ⟨hc2, c.1, hc1, hco⟩)
      obtain ⟨t0, t1, t2⟩ := broadcast_wake hQv w2 rv hrr hc1 (w3 r c.1 hrr hc1) ((r3 _).mpr ⟨hc1, c.2, hc2, hco⟩)
      obtain ⟨s', q1, q2, q3, q4, q5, q6, q7⟩ := multSegment3_hit ht.1 u0 u1 t0 t1 hs
        (by rw [ht.2.2.1]; exact (b2.rank r hrr).cap c.2 hc2) (by rw [ht.2.1]; exact (w2.rank r hrr).cap c.1 hc1)
        (by rw [hcap, ht.2.1]) (vm := fun i => vm (bnd n nseg c.1 + i + 1)) (by
          intro e he hxe
          obtain ⟨hr1, hr2⟩ := mem_allEnts_row ht.1 he
          rw [ht.2.1] at hr1
          rw [ht.2.2.1] at hr2
          have hE := hvm _ (h.tile_entry hs0 hs0 hc1 hc2 he) (by
            simp only
            rw [show ((bnd n nseg c.2 : Int) + e.2.1 + 1).toNat = bnd n nseg c.2 + e.2.1 + 1 by omega,
              DVec.sem_of (p := c.2) (getPartition_iff.mpr ⟨hc2, by omega, by omega⟩),
              show bnd n nseg c.2 + e.2.1 + 1 - bnd n nseg c.2 - 1 = e.2.1 by omega, ← u2]
            exact hxe)
          simp only at hE
          rw [show ((bnd n nseg c.1 : Int) + e.1 + 1).toNat = bnd n nseg c.1 + e.1 + 1 by omega,
            DVec.sem_of (p := c.1) (getPartition_iff.mpr ⟨hc1, by omega, by omega⟩),
            show bnd n nseg c.1 + e.1 + 1 - bnd n nseg c.1 - 1 = e.1 by omega] at hE
          rw [← hE]
          exact congrFun t2 _)
        (env.gy r c.1) (env.tmp c.1 c.2) (mul := fun e x v _ => pm e x v) (pm := pm) (fun _ _ _ _ => rfl) add
      rw [multSegment3_wake] at q1
      refine ⟨s', q1, q2, q3, q4, q5, ?_⟩
      intro i
      rw [q7, ← u2])
  obtain ⟨y2, z1, z2, z3, z4, z5, z6⟩ := reduce_final h hs0 hs0 hr how hth env.serU add env.gy env.gq r2 r3
    (x := x.wakeAt (SharedX nseg nrank ow)) m2 hy.quiet (fun w e x => pm e x (vm w)) m3
  refine ⟨x2, v2, y2, ?_, by rw [← hX]; exact f2, by rw [← hV]; exact k2, MemoRel.of_ready z2 z4 z3 (fun _ _ _ => rfl), ?_⟩
  · unfold DMat.spmspv3
    simp only [Option.bind_eq_bind]
    rw [h.head hr, Option.bind_some]
    have e1 : (matOf n n nseg nseg nrank ow T' 0).ntx = nseg := rfl
    have e2 : (matOf n n nseg nseg nrank ow T' 0).nty = nseg := rfl
    rw [e1, e2, c1, Option.bind_some, r1, Option.bind_some, b1, Option.bind_some, w1, Option.bind_some, m1,
      Option.bind_some, f1, Option.bind_some, k1, Option.bind_some, z1]
    rfl
  · intro w h1 h2
    have := z5 w h1 h2 _ (reduces_self _)
    rw [hy.sem hs0 h1 h2, matProducts3_covered hin semx hvm0] at this
    exact this

/-- `SpMSpV3` stops at the assertion when the third vector lacks a value that is needed. -/
theorem DMat.spmspv3_uncovered (h : D.Rep n n nseg nseg nrank ow T' P all) (hin : ∀ e ∈ all, InMat n n e)
    (hs0 : 0 < nseg) (hr : 0 < nrank) (how : ∀ i j, ow i j < nrank) {threads : Nat} (hth : 0 < threads)
    (env : MulEnv T T T) (pm : E → T → T → T) (add : T → T → T) {x vp y : DVec T} {mx mv my : Memo T}
    (hx : MemoRel n nseg nrank x mx) (hv : MemoRel n nseg nrank vp mv) (hy : MemoRel n nseg nrank y my)
    (hw : (mx.sent (fun w => getPartition n nseg w) (SharedX nseg nrank ow)).written nseg = true)
    (hwv : (mv.sent (fun w => getPartition n nseg w) (SharedV nseg nrank ow)).written nseg = true)
    (hcov : ¬ Covered all (mx.sent (fun w => getPartition n nseg w) (SharedX nseg nrank ow)).val
      (mv.sent (fun w => getPartition n nseg w) (SharedV nseg nrank ow)).val) :
    D.spmspv3 env threads nrank (fun e x v _ => pm e x v) add x vp y = none := by
  obtain ⟨cp, c1, c2, c3, c4⟩ := colPairs_spec (m := n) (n := n) (T := T') (ntx := nseg) (nty := nseg) 0 how
  obtain ⟨rp, r1, r2, r3, r4⟩ := rowPairs_spec (m := n) (n := n) (T := T') (ntx := nseg) (nty := nseg) 0 how
  have hQ := sharedX_iff (nrank := nrank) c3
  have hQv := sharedV_iff (nrank := nrank) r3
  have rx := hx.usable hr hw
  have rv := hv.usable hr hwv
  unfold Covered at hcov
  push Not at hcov
  obtain ⟨e, he, hxe, hve⟩ := hcov
  obtain ⟨s1, s2, s3, s4⟩ := hin e he
  rw [← hx.wakeAt_sem hs0 (by omega) (by omega)] at hxe
  rw [← hv.wakeAt_sem hs0 (by omega) (by omega)] at hve
  have hve : (vp.wakeAt (SharedV nseg nrank ow)).sem n nseg nrank e.src.toNat = none := by simpa using hve
  obtain ⟨x1, b1, b2, b3⟩ := DVec.broadcast_spec hx.wf hr env.serT hth env.gx c2 c4
  obtain ⟨v1, w1, w2, w3⟩ := DVec.broadcast_spec hv.wf hr env.serV hth env.gv r2 r4
  obtain ⟨i, j, hij⟩ : ∃ i j, tileOf n n nseg nseg e = (i, j) := ⟨_, _, rfl⟩
  obtain ⟨_, hilt, hjlt, hi1, hi2, hj1, hj2⟩ := tileOf_spec hs0 hs0 (h.inMat e he)
  rw [hij] at hilt hjlt hi1 hi2 hj1 hj2
  simp only at hilt hjlt hi1 hi2 hj1 hj2
  have hi : getPartition n nseg e.src.toNat = some i := getPartition_iff.mpr ⟨hilt, by omega, by omega⟩
  have hj : getPartition n nseg e.dst.toNat = some j := getPartition_iff.mpr ⟨hjlt, by omega, by omega⟩
  have ht := h.tile i j hilt hjlt
  have hent : ∃ a ∈ allEnts (T' i j).np (P i j), e = ⟨(bnd n nseg i : Int) + a.1 + 1, (bnd n nseg j : Int) + a.2.1 + 1, a.2.2⟩ := by
    have := (tileEdges_perm hs0 hs0 h.inMat ht).mem_iff.mpr (List.mem_filter.mpr ⟨he, by simpa using hij⟩)
    obtain ⟨a, ha, e⟩ := List.mem_map.mp this
    exact ⟨a, ha, e.symm⟩
  obtain ⟨a, ha, hae⟩ := hent
  have hi' : bnd n nseg i + a.1 + 1 = e.src.toNat := by rw [hae]; simp only; omega
  have hj' : bnd n nseg j + a.2.1 + 1 = e.dst.toNat := by rw [hae]; simp only; omega
  rw [DVec.sem_of hi, ← hi', show bnd n nseg i + a.1 + 1 - bnd n nseg i - 1 = a.1 by omega] at hve
  rw [DVec.sem_of hj, ← hj', show bnd n nseg j + a.2.1 + 1 - bnd n nseg j - 1 = a.2.1 by omega] at hxe
  have hrr := how i j
  unfold DMat.spmspv3
  simp only [Option.bind_eq_bind]
  rw [h.head hr, Option.bind_some]
  have e1 : (matOf n n nseg nseg nrank ow T' 0).ntx = nseg := rfl
  have e2 : (matOf n n nseg nseg nrank ow T' 0).nty = nseg := rfl
  rw [e1, e2, c1, Option.bind_some, r1, Option.bind_some, b1, Option.bind_some, w1, Option.bind_some]
  refine none_fails (eachRank_fails (r := ow i j) (by rw [hy.wf.size]; exact hrr) ?_)
  rw [Arr.read_some (by rw [b2.size]; exact hrr), Option.bind_some,
    Arr.read_some (by rw [w2.size]; exact hrr), Option.bind_some, h.head hrr, Option.bind_some, foldTiles_spec]
  refine foldlM_fails (b := (i, j)) ?_ (by
    rw [List.mem_filter, mem_cells]
    exact ⟨⟨hilt, hjlt⟩, by simp⟩) _
  intro v
  simp only
  rw [Arr.read_some (by rw [(b2.rank _ hrr).size]; exact hjlt),
    Option.bind_some, Arr.read_some (by rw [(w2.rank _ hrr).size]; exact hilt), Option.bind_some]
  obtain ⟨u0, u1, u2⟩ := broadcast_wake hQ b2 rx hrr hjlt (b3 _ j hrr hjlt) ((c3 _).mpr ⟨hjlt, i, hilt, rfl⟩)
  obtain ⟨t0, t1, t2⟩ := broadcast_wake hQv w2 rv hrr hilt (w3 _ i hrr hilt) ((r3 _).mpr ⟨hilt, j, hjlt, rfl⟩)
  unfold SpVec.modifySeg
  simp only [Option.bind_eq_bind]
  refine bind_fails fun sy _ => none_fails ?_
  have := multSegment3_missing ht.1 u0 u1 t0 t1
    (by rw [ht.2.2.1]; exact (b2.rank _ hrr).cap j hjlt) (by rw [ht.2.1]; exact (w2.rank _ hrr).cap i hilt)
    ha (by rw [u2]; exact hxe) (by rw [t2]; exact hve) (env.gy (ow i j) i) (env.tmp i j) (mul := fun e x v _ => pm e x v)
    (pm := pm) (fun _ _ _ _ => rfl) add sy
  rw [multSegment3_wake] at this
  exact this

end

end GraphMat

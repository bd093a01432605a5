import Verif.Lemmas.VecProg
import Verif.Props.VecProg
import Verif.Spec.MemoProg

/-!
# Segments that remember hidden values
-/
namespace GraphMat

variable {E T U V α β γ : Type}

/-- The segment as it would be without the flag `uninitialized`. -/
def Segment.wake (s : Segment α) : Segment α := { s with props := s.props.map (fun b => { b with uninit := false }) }

theorem Segment.wake_ready {s : Segment α} (h : s.Ready) : s.wake = s := by
  obtain ⟨b, hb, hu⟩ := h
  unfold Segment.wake
  rw [hb]
  cases s
  simp only [Option.map_some] at hb ⊢
  rw [hb]
  congr 2
  cases b
  simp only at hu
  rw [hu]

theorem Segment.wake_clear (s : Segment α) (i : Nat) : s.setUninitialized.wake.view i = s.wake.view i := by
  unfold Segment.wake Segment.setUninitialized Segment.setUninitializedReceived Segment.view
  cases s.props <;> rfl

theorem Segment.wake_clear_WF {s : Segment α} (h : s.wake.WF) : s.setUninitialized.wake.WF := by
  have h' : s.setUninitialized.wake = { s.wake.setUninitialized with
      props := s.wake.props.map (fun b => { b with nnz := 0 }) } := by
    unfold Segment.wake Segment.setUninitialized Segment.setUninitializedReceived
    cases s.props <;> rfl
  rw [h']
  have h2 := Segment.setUninitialized_WF h
  refine ⟨h2.ni, ?_, ?_, h2.recv, h2.pool⟩
  · intro b hb
    simp only [Option.map_eq_some_iff] at hb
    obtain ⟨b', hb', rfl⟩ := hb
    have := h.dims b' hb'
    exact ⟨this.value, this.bits, this.cdata, this.cidx⟩
  · intro b hb hu
    simp only [Option.map_eq_some_iff] at hb
    obtain ⟨b', hb', rfl⟩ := hb
    exact h.tail b' hb' hu

/-- `apply_segment` does not look at the flag of its input. -/
theorem applySegment_wake (g : Fresh β) (f : α → β → β) (s1 : Segment α) (s2 : Segment β) :
    applySegment g f s1.wake s2 = applySegment g f s1 s2 := by
  unfold applySegment Segment.wake
  cases s1.props <;> rfl

/-- `intersect_segment` changes nothing if an input is cleared. -/
theorem intersectSegment_cleared {s1 : Segment α} {s2 : Segment β} {s3 : Segment γ} {b1 : Buffer α} {b2 : Buffer β} (h3 : s3.WF)
    (hb1 : s1.props = some b1) (hb2 : s2.props = some b2) (hu : b1.uninit = true ∨ b2.uninit = true) (g : Fresh γ) (op : α → β → γ → γ) :
    ∃ s', intersectSegment g op s1 s2 s3 = some s' ∧ s'.WF ∧ s'.Ready ∧ s'.capacity = s3.capacity ∧ ∀ i, s'.view i = s3.view i := by
  obtain ⟨b, hb, hu', hd, ht, hv, _⟩ := s3.alloc_initialize h3 g
  refine ⟨{ s3 with props := some b }, ?_, ⟨h3.ni, ?_, ?_, h3.recv, h3.pool⟩, ⟨b, rfl, hu'⟩, rfl, fun i => congrFun hv i⟩
  · unfold intersectSegment
    rw [hb]
    simp only [Option.bind_eq_bind, Option.bind_some]
    rw [hb1, hb2]
    simp only [Option.bind_some]
    rcases hu with hu | hu <;> simp [hu]
  · intro b' e
    injection e with e
    subst e
    exact hd
  · intro b' e _
    injection e with e
    subst e
    exact ht

/-- What the history of a part says about its segment and what it remembers. -/
def PartMemo (s : Segment α) : PartUse → Prop
  | .never => s.props = none
  | .cleared => (∃ b, s.props = some b ∧ b.uninit = true) ∧ s.wake.WF
  | .used => s.Ready

/-- A vector is described by a memo. -/
structure MemoRel (n nseg nrank : Nat) (d : DVec T) (m : Memo T) : Prop where
  wf : d.WF n nseg nrank
  quiet : d.Quiet nseg nrank
  parts : ∀ p, p < nseg → PartMemo (d.own nrank p) (m.use p)
  val : ∀ (w p : Nat), 1 ≤ w → w ≤ n → getPartition n nseg w = some p → (d.own nrank p).wake.view (w - bnd n nseg p - 1) = m.val w

section

variable {n nseg nrank : Nat} {d : DVec T} {m : Memo T}

theorem MemoRel.sem (h : MemoRel n nseg nrank d m) (hs : 0 < nseg) {w : Nat} (h1 : 1 ≤ w) (h2 : w ≤ n) :
    d.sem n nseg nrank w = m.seen (fun w => getPartition n nseg w) w := by
  obtain ⟨p, hp, hpn, _⟩ := locate hs h1 h2
  rw [DVec.sem_of hp]
  unfold Memo.seen
  simp only [hp]
  rw [← h.val w p h1 h2 hp]
  have hq := h.parts p hpn
  cases hu : m.use p with
  | never =>
    rw [hu] at hq
    have hq : (d.own nrank p).props = none := hq
    simp [Segment.view, hq]
  | cleared =>
    rw [hu] at hq
    obtain ⟨⟨b, hb, hbu⟩, _⟩ := hq
    simp [Segment.view, hb, Buffer.view, hbu]
  | used =>
    rw [hu] at hq
    rw [Segment.wake_ready hq, if_pos rfl]

theorem MemoRel.of_ready (hd : d.WF n nseg nrank) (hq : d.Quiet nseg nrank) (hr : d.Ready nseg nrank) {f : Nat → Option T}
    (hf : ∀ w, 1 ≤ w → w ≤ n → d.sem n nseg nrank w = f w) : MemoRel n nseg nrank d ⟨f, fun _ => .used⟩ := by
  refine ⟨hd, hq, hr, ?_⟩
  intro w p h1 h2 hp
  rw [Segment.wake_ready (hr p (getPartition_some hp).1), ← DVec.sem_of hp]
  exact hf w h1 h2

theorem MemoRel.wake_WF (h : MemoRel n nseg nrank d m) (hr : 0 < nrank) {p : Nat} (hp : p < nseg) (hu : m.use p ≠ .never) :
    (d.own nrank p).wake.WF ∧ (d.own nrank p).wake.Ready := by
  have hq := h.parts p hp
  cases e : m.use p with
  | never => exact absurd e hu
  | cleared =>
    rw [e] at hq
    obtain ⟨⟨b, hb, _⟩, hw⟩ := hq
    refine ⟨hw, { b with uninit := false }, ?_, rfl⟩
    unfold Segment.wake
    rw [hb]
    rfl
  | used =>
    rw [e] at hq
    rw [Segment.wake_ready hq]
    exact ⟨h.wf.own_WF hr hp, hq⟩

/-! ### Calls on one vector -/

theorem VecOp.exec_memo (h : MemoRel n nseg nrank d m) (hs : 0 < nseg) (hr : 0 < nrank) (g : Nat → Nat → Fresh T) {op : VecOp T}
    (hop : op.Valid n) : ∃ d', op.exec g d = some d' ∧ MemoRel n nseg nrank d' (op.memo (fun w => getPartition n nseg w) m) := by
  obtain ⟨d', a1, a2, a3⟩ := VecOp.exec_spec hs hr g op hop h.wf (fun w h1 h2 => h.sem hs h1 h2)
  refine ⟨d', a1, ?_⟩
  have hquiet := VecOp.exec_quiet h.wf hr a1 h.quiet
  -- a call that touches only the part of one element
  have one : ∀ q, q < nseg → (d'.own nrank q).Ready → (∀ p, p < nseg → p ≠ q → d'.own nrank p = d.own nrank p) →
      (∀ p, op.use (fun w => getPartition n nseg w) m.use p = if q = p then .used else m.use p) →
      (∀ (w p : Nat), getPartition n nseg w = some p → (op.memo (fun w => getPartition n nseg w) m).val w =
        if p = q then op.spec (m.seen (fun w => getPartition n nseg w)) w else m.val w) →
      MemoRel n nseg nrank d' (op.memo (fun w => getPartition n nseg w) m) := by
    intro q hq hrq hoth huse hval
    refine ⟨a2, hquiet, ?_, ?_⟩
    · intro p hp
      show PartMemo _ (op.use _ m.use p)
      rw [huse]
      by_cases e : q = p
      · subst e
        rw [if_pos rfl]
        exact hrq
      · rw [if_neg e, hoth p hp (fun h => e h.symm)]
        exact h.parts p hp
    · intro w p h1 h2 hp
      rw [hval w p hp]
      by_cases e : p = q
      · subst e
        rw [if_pos rfl, Segment.wake_ready hrq, ← a3 w h1 h2, DVec.sem_of hp]
      · rw [if_neg e, hoth p (getPartition_some hp).1 e]
        exact h.val w p h1 h2 hp
  have hmd : ∀ p, p % nrank < d.size := fun p => by rw [h.wf.size]; exact Nat.mod_lt _ hr
  cases op with
  | set w x =>
    obtain ⟨q, hq, hqn, _⟩ := locate hs hop.1 hop.2
    refine one q hqn ?_ ?_ ?_ ?_
    · have e2 := (eachRank_some a1).2 _ (hmd q)
      obtain ⟨v', b1, _, _, b4, _⟩ := SpVec.set_spec (h.wf.rank _ (Nat.mod_lt _ hr)) hr (g (q % nrank) 0) x hq
      rw [b1] at e2
      injection e2 with e2
      unfold DVec.own
      rw [← e2]
      exact (b4 rfl).1
    · intro p _ hne
      have e2 := (eachRank_some a1).2 _ (hmd p)
      obtain ⟨v', b1, _, _, _, b5⟩ := SpVec.set_spec (h.wf.rank _ (Nat.mod_lt p hr)) hr (g (p % nrank) 0) x hq
      rw [b1] at e2
      injection e2 with e2
      unfold DVec.own
      rw [← e2]
      exact b5 p hne
    · intro p
      simp only [VecOp.use, hq, Option.some.injEq]
    · intro u p hp
      simp only [VecOp.memo, hp, hq, Option.some.injEq]
  | unset w =>
    obtain ⟨q, hq, hqn, _⟩ := locate hs hop.1 hop.2
    refine one q hqn ?_ ?_ ?_ ?_
    · have e2 := (eachRank_some a1).2 _ (hmd q)
      obtain ⟨v', b1, _, _, b4, _⟩ := SpVec.unset_spec (h.wf.rank _ (Nat.mod_lt _ hr)) hr (g (q % nrank) 0) hq
      rw [b1] at e2
      injection e2 with e2
      unfold DVec.own
      rw [← e2]
      exact (b4 rfl).1
    · intro p _ hne
      have e2 := (eachRank_some a1).2 _ (hmd p)
      obtain ⟨v', b1, _, _, _, b5⟩ := SpVec.unset_spec (h.wf.rank _ (Nat.mod_lt p hr)) hr (g (p % nrank) 0) hq
      rw [b1] at e2
      injection e2 with e2
      unfold DVec.own
      rw [← e2]
      exact b5 p hne
    · intro p
      simp only [VecOp.use, hq, Option.some.injEq]
    · intro u p hp
      simp only [VecOp.memo, hp, hq, Option.some.injEq]
  | setAll x =>
    refine MemoRel.of_ready a2 hquiet ?_ (fun w h1 h2 => a3 w h1 h2)
    intro p hp
    have e2 := (eachRank_some a1).2 _ (hmd p)
    obtain ⟨v', b1, _, b3, _⟩ := SpVec.setAll_spec (h.wf.rank _ (Nat.mod_lt p hr)) hr (g (p % nrank)) x
    rw [b1] at e2
    injection e2 with e2
    unfold DVec.own
    rw [← e2]
    exact (b3 p hp rfl).1
  | clear =>
    obtain ⟨d2, b1, _, _, b4⟩ := DVec.forOwned_spec h.wf hr
      (f := fun _ _ s => some s.setUninitialized) (P := fun _ _ => True) (by
        intro p hp
        exact ⟨_, rfl, Segment.setUninitialized_WF (h.wf.own_WF hr hp), rfl, trivial⟩)
    have e : d2 = d' := Option.some.inj (b1.symm.trans a1)
    subst e
    have hown : ∀ p, p < nseg → d2.own nrank p = (d.own nrank p).setUninitialized := fun p hp => (Option.some.inj (b4 p hp)).symm
    refine ⟨a2, hquiet, ?_, ?_⟩
    · intro p hp
      rw [hown p hp]
      show PartMemo _ (if m.use p = .never then .never else .cleared)
      by_cases e : m.use p = .never
      · rw [if_pos e]
        have hq := h.parts p hp
        rw [e] at hq
        have hq : (d.own nrank p).props = none := hq
        show (d.own nrank p).props.map _ = none
        rw [hq]
        rfl
      · rw [if_neg e]
        obtain ⟨c1, c2⟩ := h.wake_WF hr hp e
        refine ⟨?_, Segment.wake_clear_WF c1⟩
        obtain ⟨b, hb, _⟩ := c2
        simp only [Segment.wake, Option.map_eq_some_iff] at hb
        obtain ⟨b0, hb0, _⟩ := hb
        refine ⟨{ b0 with uninit := true, nnz := 0 }, ?_, rfl⟩
        show (d.own nrank p).props.map _ = _
        rw [hb0]
        rfl
    · intro w p h1 h2 hp
      rw [hown p (getPartition_some hp).1, Segment.wake_clear]
      exact h.val w p h1 h2 hp

end

/-! ### Calls on several vectors -/

theorem Memo.written_iff {nseg : Nat} {m : Memo T} : m.written nseg = true ↔ ∀ p, p < nseg → m.use p ≠ .never := by
  simp [Memo.written]

/-- `Apply` with an input of which all parts have a buffer. -/
theorem DVec.apply_memo {n nseg nrank : Nat} {a b : DVec T} {ma mb : Memo T} (ha : MemoRel n nseg nrank a ma) (hb : MemoRel n nseg nrank b mb)
    (hs : 0 < nseg) (hr : 0 < nrank) (hw : ∀ p, p < nseg → ma.use p ≠ .never) (g : Nat → Nat → Fresh T) (f : T → T) :
    ∃ d', DVec.apply g (fun x _ => f x) a b = some d' ∧ MemoRel n nseg nrank d'
      ⟨fun w => match ma.val w with | some x => some (f x) | none => mb.seen (fun w => getPartition n nseg w) w, fun _ => .used⟩ := by
  obtain ⟨d', a1, a2, a3, a4⟩ := DVec.ownedLoop_spec hb.wf hr
    (F := fun r b => do
      let a ← a.read r
      SpVec.apply (g r) (fun x _ => f x) a b)
    (O := fun r j => (a.get r).owns j) (f := fun r j => applySegment (g r j) (fun x _ => f x) ((a.get r).segs.get j))
    (by
      intro r hrr
      rw [Arr.read_some (by rw [ha.wf.size]; exact hrr)]
      simp only [Option.bind_eq_bind, Option.bind_some]
      unfold SpVec.apply
      rw [(ha.wf.rank r hrr).hseg]
      apply forLoop_congr
      intro i s _ hi
      rw [Arr.read_some (by rw [(ha.wf.rank r hrr).size]; exact hi)]
      rfl)
    (fun r j hrr => (ha.wf.rank r hrr).owns hr j)
    (P := fun p s' => s'.Ready ∧ ∀ i, s'.view i = match (a.own nrank p).wake.view i with
      | some x => some (f x)
      | none => (b.own nrank p).view i)
    (by
      intro p hp
      obtain ⟨w1, w2⟩ := ha.wake_WF hr hp (hw p hp)
      obtain ⟨s', b1, b2, b3, b4, _, b5⟩ := applySegment_spec w1 (hb.wf.own_WF hr hp) w2
        (by
          show _ = (a.own nrank p).capacity
          rw [ha.wf.own_cap hr hp, hb.wf.own_cap hr hp]) (g (p % nrank) p) (fun x _ => f x)
      rw [applySegment_wake] at b1
      exact ⟨s', b1, b2, b4, applySegment_received b1, b3, b5⟩)
  refine ⟨d', a1, MemoRel.of_ready a2 (a4 hb.quiet) (fun p hp => (a3 p hp).1) ?_⟩
  intro w h1 h2
  obtain ⟨p, hp, hpn, _⟩ := locate hs h1 h2
  rw [DVec.sem_of hp, (a3 p hpn).2, ha.val w p h1 h2 hp, ← hb.sem hs h1 h2, DVec.sem_of hp]

/-- `IntersectReduce` with inputs of which all parts have a buffer. -/
theorem DVec.intersectReduce_memo {n nseg nrank : Nat} {a b c : DVec T} {ma mb mc : Memo T} (ha : MemoRel n nseg nrank a ma)
    (hb : MemoRel n nseg nrank b mb) (hc : MemoRel n nseg nrank c mc) (hs : 0 < nseg) (hr : 0 < nrank)
    (hwa : ∀ p, p < nseg → ma.use p ≠ .never) (hwb : ∀ p, p < nseg → mb.use p ≠ .never) (g : Nat → Nat → Fresh T) (f : T → T → T) :
    ∃ d', DVec.intersectReduce g (fun x y _ => f x y) a b c = some d' ∧ MemoRel n nseg nrank d'
      ⟨fun w => if (getPartition n nseg w).any (fun p => decide (ma.use p = .used ∧ mb.use p = .used))
        then (ma.val w).bind (fun x => (mb.val w).map (f x)) else mc.seen (fun w => getPartition n nseg w) w, fun _ => .used⟩ := by
  obtain ⟨d', a1, a2, a3, a4⟩ := DVec.ownedLoop_spec hc.wf hr
    (F := fun r c => do
      let a ← a.read r
      let b ← b.read r
      a.intersectReduce (g r) (fun x y _ => f x y) b c)
    (O := fun r j => (a.get r).owns j)
    (f := fun r j => intersectSegment (g r j) (fun x y _ => f x y) ((a.get r).segs.get j) ((b.get r).segs.get j))
    (by
      intro r hrr
      rw [Arr.read_some (by rw [ha.wf.size]; exact hrr), Arr.read_some (by rw [hb.wf.size]; exact hrr)]
      simp only [Option.bind_eq_bind, Option.bind_some]
      unfold SpVec.intersectReduce
      rw [(ha.wf.rank r hrr).hseg]
      apply forLoop_congr
      intro i s _ hi
      rw [Arr.read_some (by rw [(ha.wf.rank r hrr).size]; exact hi), Arr.read_some (by rw [(hb.wf.rank r hrr).size]; exact hi)]
      rfl)
    (fun r j hrr => (ha.wf.rank r hrr).owns hr j)
    (P := fun p s' => s'.Ready ∧ ∀ i, s'.view i = if ma.use p = .used ∧ mb.use p = .used then
        ((a.own nrank p).wake.view i).bind (fun x => ((b.own nrank p).wake.view i).map (f x)) else (c.own nrank p).view i)
    (by
      intro p hp
      have ra := ha.parts p hp
      have rb := hb.parts p hp
      have rc := hc.wf.own_WF hr hp
      by_cases e : ma.use p = .used ∧ mb.use p = .used
      · rw [e.1] at ra
        rw [e.2] at rb
        obtain ⟨s', b1, b2, b3, b4, _, _, _, b5⟩ := intersectSegment_spec (ha.wf.own_WF hr hp) (hb.wf.own_WF hr hp) rc ra rb
          (by rw [ha.wf.own_cap hr hp, hb.wf.own_cap hr hp]) (by rw [ha.wf.own_cap hr hp, hc.wf.own_cap hr hp]) (g (p % nrank) p)
          (fun x y _ => f x y)
        refine ⟨s', b1, b2, b4, intersectSegment_received b1, b3, fun i => ?_⟩
        rw [if_pos e, Segment.wake_ready ra, Segment.wake_ready rb]
        refine (b5 i).trans ?_
        cases (a.own nrank p).view i <;> cases (b.own nrank p).view i <;> rfl
      · have buf : ∀ {s : Segment T} {u : PartUse}, PartMemo s u → u ≠ .never → ∃ b, s.props = some b ∧ (u ≠ .used → b.uninit = true) := by
          intro s u h hu
          cases u with
          | never => exact absurd rfl hu
          | cleared =>
            obtain ⟨⟨b, h1, h2⟩, _⟩ := h
            exact ⟨b, h1, fun _ => h2⟩
          | used =>
            obtain ⟨b, h1, _⟩ := h
            exact ⟨b, h1, fun h => absurd rfl h⟩
        obtain ⟨x1, p1, p2⟩ := buf ra (hwa p hp)
        obtain ⟨x2, q1, q2⟩ := buf rb (hwb p hp)
        obtain ⟨s', b1, b2, b3, b4, b5⟩ := intersectSegment_cleared (s1 := a.own nrank p) (s2 := b.own nrank p) rc p1 q1 (by
          by_cases e1 : ma.use p = .used
          · exact .inr (q2 (fun e2 => e ⟨e1, e2⟩))
          · exact .inl (p2 e1)) (g (p % nrank) p) (fun x y _ => f x y)
        refine ⟨s', b1, b2, b4, intersectSegment_received b1, b3, fun i => ?_⟩
        rw [if_neg e, b5])
  refine ⟨d', a1, MemoRel.of_ready a2 (a4 hc.quiet) (fun p hp => (a3 p hp).1) ?_⟩
  intro w h1 h2
  obtain ⟨p, hp, hpn, _⟩ := locate hs h1 h2
  rw [DVec.sem_of hp, (a3 p hpn).2, ha.val w p h1 h2 hp, hb.val w p h1 h2 hp, ← hc.sem hs h1 h2, DVec.sem_of hp]
  simp only [hp, Option.any_some, decide_eq_true_eq]

end GraphMat

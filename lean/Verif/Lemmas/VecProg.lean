import Verif.Lemmas.Mult3
import Verif.Props.ApplyVec
import Verif.Props.Vertex
import Verif.Model.VecProg

/-!
# Operations on vectors that keep foreign copies without values
-/
namespace GraphMat

variable {E T U V α β γ : Type}

/-! ### Received parts -/

theorem applySegment_received {g : Fresh β} {f : α → β → β} {s1 : Segment α} {s2 s' : Segment β}
    (h : applySegment g f s1 s2 = some s') : s'.received = s2.received := by
  unfold applySegment at h
  simp only [Option.bind_eq_bind, Option.bind_eq_some_iff] at h
  obtain ⟨s3, h1, _, _, _, _, _, _, _, _, _, _, h⟩ := h
  injection h with h
  subst h
  exact (Segment.initialize_received h1).trans (Segment.alloc_received g s2)

theorem applySegmentSelf_received {g : Fresh α} {f : α → α → α} {s s' : Segment α}
    (h : applySegmentSelf g f s = some s') : s'.received = s.received := by
  unfold applySegmentSelf at h
  simp only [Option.bind_eq_bind, Option.bind_eq_some_iff] at h
  obtain ⟨s3, h1, _, _, _, _, _, _, _, _, h⟩ := h
  injection h with h
  subst h
  exact (Segment.initialize_received h1).trans (Segment.alloc_received g s)

theorem intersectSegment_received {g : Fresh γ} {op : α → β → γ → γ} {s1 : Segment α} {s2 : Segment β} {s3 s' : Segment γ}
    (h : intersectSegment g op s1 s2 s3 = some s') : s'.received = s3.received := by
  unfold intersectSegment at h
  simp only [Option.bind_eq_bind, Option.bind_eq_some_iff] at h
  obtain ⟨s4, h1, _, _, _, _, _, _, h⟩ := h
  split at h
  · simp only [Option.bind_eq_some_iff] at h
    obtain ⟨_, _, _, _, _, _, h⟩ := h
    injection h with h
    subst h
    exact (Segment.initialize_received h1).trans (Segment.alloc_received g s3)
  · injection h with h
    subst h
    exact (Segment.initialize_received h1).trans (Segment.alloc_received g s3)

/-! ### Loops over the owned segments of several vectors -/

theorem DVec.ownedLoop_spec {n nseg nrank : Nat} {c : DVec γ} (hc : c.WF n nseg nrank) (hr : 0 < nrank)
    {F : Nat → SpVec γ → Option (SpVec γ)} {O : Nat → Nat → Option Bool} {f : Nat → Nat → Segment γ → Option (Segment γ)}
    (hF : ∀ r, r < nrank → F r (c.get r) = forLoop 0 nseg (c.get r) (fun j v => (O r j).bind fun own =>
        if own = true then v.modifySeg j (f r j) else some v))
    (hO : ∀ r j, r < nrank → O r j = some (decide (j % nrank = r))) {P : Nat → Segment γ → Prop}
    (hf : ∀ p, p < nseg → ∃ s', f (p % nrank) p (c.own nrank p) = some s' ∧ s'.WF ∧
      s'.capacity = (c.own nrank p).capacity ∧ s'.received = (c.own nrank p).received ∧ P p s') :
    ∃ d', eachRank c F = some d' ∧ DVec.WF n nseg nrank d' ∧ (∀ p, p < nseg → P p (DVec.own nrank d' p)) ∧
      (c.Quiet nseg nrank → DVec.Quiet nseg nrank d') := by
  obtain ⟨d', a1, a2, a3⟩ := eachRank_spec (d := c) (f := F)
    (P := fun r v' => v'.WF n nseg nrank r ∧
      (∀ p, p < nseg → p % nrank = r → (v'.segs.get p).received = ((c.get r).segs.get p).received ∧ P p (v'.segs.get p)) ∧
      (∀ p, p % nrank ≠ r → v'.segs.get p = (c.get r).segs.get p))
    (by
      intro r hrr
      rw [hc.size] at hrr
      rw [hF r hrr]
      obtain ⟨v', b1, b2, b3, b4⟩ := SpVec.forSeg_spec (hc.rank r hrr) (O := fun j _ => O r j) (fun j _ _ _ => hO r j hrr)
        (f := f r) (P := fun p s' => s'.received = ((c.get r).segs.get p).received ∧ P p s') (by
          intro p hp hpr
          subst hpr
          exact hf p hp)
      exact ⟨v', b1, b2, fun p hp hpr => (b3 p hp hpr).2, b4⟩)
  rw [hc.size] at a2 a3
  refine ⟨d', a1, ⟨a2, fun r hrr => (a3 r hrr).2.1⟩, ?_, ?_⟩
  · intro p hp
    exact ((a3 (p % nrank) (Nat.mod_lt _ hr)).2.2.1 p hp rfl).2
  · intro hq
    refine ⟨?_, ?_⟩
    · intro p hp
      exact ((a3 (p % nrank) (Nat.mod_lt _ hr)).2.2.1 p hp rfl).1.trans (hq.1 p hp)
    · intro r p hrr hp hne i
      unfold DVec.cell
      simp only
      rw [(a3 r hrr).2.2.2 p hne]
      exact hq.2 r p hrr hp hne i

/-- `Apply` between two vectors. -/
theorem DVec.apply_spec {n nseg nrank : Nat} {a : DVec α} {b : DVec β} (ha : a.WF n nseg nrank) (hb : b.WF n nseg nrank)
    (hr : 0 < nrank) (ra : ∀ p, p < nseg → (a.own nrank p).Ready) (g : Nat → Nat → Fresh β) (f : α → β) :
    ∃ d', DVec.apply g (fun x _ => f x) a b = some d' ∧ DVec.WF n nseg nrank d' ∧ DVec.Ready nseg nrank d' ∧
      (∀ w, DVec.sem n nseg nrank d' w = match a.sem n nseg nrank w with
        | some x => some (f x)
        | none => b.sem n nseg nrank w) ∧ (b.Quiet nseg nrank → DVec.Quiet nseg nrank d') := by
  obtain ⟨d', a1, a2, a3, a4⟩ := DVec.ownedLoop_spec hb hr
    (F := fun r b => do
      let a ← a.read r
      SpVec.apply (g r) (fun x _ => f x) a b)
    (O := fun r j => (a.get r).owns j) (f := fun r j => applySegment (g r j) (fun x _ => f x) ((a.get r).segs.get j))
    (by
      intro r hrr
      rw [Arr.read_some (by rw [ha.size]; exact hrr)]
      simp only [Option.bind_eq_bind, Option.bind_some]
      unfold SpVec.apply
      rw [(ha.rank r hrr).hseg]
      apply forLoop_congr
      intro i s _ hi
      rw [Arr.read_some (by rw [(ha.rank r hrr).size]; exact hi)]
      rfl)
    (fun r j hrr => (ha.rank r hrr).owns hr j)
    (P := fun p s' => s'.Ready ∧ ∀ i, s'.view i = match (a.own nrank p).view i with
      | some x => some (f x)
      | none => (b.own nrank p).view i)
    (by
      intro p hp
      obtain ⟨s', b1, b2, b3, b4, _, b5⟩ := applySegment_spec (ha.own_WF hr hp) (hb.own_WF hr hp) (ra p hp)
        (by rw [ha.own_cap hr hp, hb.own_cap hr hp]) (g (p % nrank) p) (fun x _ => f x)
      exact ⟨s', b1, b2, b4, applySegment_received b1, b3, b5⟩)
  refine ⟨d', a1, a2, fun p hp => (a3 p hp).1, ?_, a4⟩
  intro w
  unfold DVec.sem
  cases hp : getPartition n nseg w with
  | none => rfl
  | some p => exact (a3 p (getPartition_some hp).1).2 _

/-- `Apply` from a vector to itself. -/
theorem DVec.applySelf_quiet {n nseg nrank : Nat} {d d' : DVec α} (hd : d.WF n nseg nrank) (hr : 0 < nrank)
    {g : Nat → Nat → Fresh α} {f : α → α → α} (h : eachRank d (fun r v => v.applySelf (g r) f) = some d')
    (hq : d.Quiet nseg nrank) : d'.Quiet nseg nrank :=
  DVec.frame_quiet hd hr h
    (fun _ _ _ => SpVec.forOwned_frame (fun _ _ _ e e' => (applySegmentSelf_received e).trans e')) hq

/-- The intersection of two segments of which one may be cleared. -/
theorem intersectSegment_any {s1 : Segment α} {s2 : Segment β} {s3 : Segment γ} (h1 : s1.WF)
    (h2 : s2.WF) (h3 : s3.WF) (r1 : s1.Allocated) (r2 : s2.Allocated)
    (hc2 : s2.capacity = s1.capacity) (hc3 : s3.capacity = s1.capacity)
    (h0 : s1.Ready ∧ s2.Ready ∨ ∀ i, s3.view i = none) (g : Fresh γ) (f : α → β → γ) :
    ∃ s', intersectSegment g (fun x y _ => f x y) s1 s2 s3 = some s' ∧ s'.WF ∧ s'.Ready ∧ s'.capacity = s3.capacity ∧
      ∀ i, s'.view i = (s1.view i).bind (fun x => (s2.view i).map (f x)) := by
  have key : ∀ o1 : Option α, ∀ o2 : Option β, (match o1, o2 with
        | some x, some y => some (f x y)
        | _, _ => none) = o1.bind (fun x => o2.map (f x)) := by
    intro o1 o2
    cases o1 <;> cases o2 <;> rfl
  rcases h0 with ⟨q1, q2⟩ | h0
  · obtain ⟨s', e1, e2, e3, e4, _, _, _, e5⟩ := intersectSegment_spec h1 h2 h3 q1 q2 hc2 hc3 g (fun x y _ => f x y)
    exact ⟨s', e1, e2, e3, e4, fun i => (e5 i).trans (key _ _)⟩
  · obtain ⟨s', e1, e2, e3, e4, _, e5⟩ := intersect_exact h1 h2 h3 r1 r2 hc2 hc3 h0 g (fun x y _ => f x y)
    exact ⟨s', e1, e2, e3, e4, fun i => (e5 i).trans (key _ _)⟩

/-- `IntersectReduce`. -/
theorem DVec.intersectReduce_any {n nseg nrank : Nat} {a : DVec α} {b : DVec β} {c : DVec γ} (ha : a.WF n nseg nrank)
    (hb : b.WF n nseg nrank) (hc : c.WF n nseg nrank) (hr : 0 < nrank)
    (hu : ∀ p, p < nseg → (a.own nrank p).Allocated ∧ (b.own nrank p).Allocated ∧
      ((a.own nrank p).Ready ∧ (b.own nrank p).Ready ∨ ∀ i, (c.own nrank p).view i = none))
    (g : Nat → Nat → Fresh γ) (f : α → β → γ) :
    ∃ d', DVec.intersectReduce g (fun x y _ => f x y) a b c = some d' ∧ DVec.WF n nseg nrank d' ∧ DVec.Ready nseg nrank d' ∧
      (∀ w, DVec.sem n nseg nrank d' w = (a.sem n nseg nrank w).bind (fun x => (b.sem n nseg nrank w).map (f x))) ∧
      (c.Quiet nseg nrank → DVec.Quiet nseg nrank d') := by
  obtain ⟨d', a1, a2, a3, a4⟩ := DVec.ownedLoop_spec hc hr
    (F := fun r c => do
      let a ← a.read r
      let b ← b.read r
      a.intersectReduce (g r) (fun x y _ => f x y) b c)
    (O := fun r j => (a.get r).owns j)
    (f := fun r j => intersectSegment (g r j) (fun x y _ => f x y) ((a.get r).segs.get j) ((b.get r).segs.get j))
    (by
      intro r hrr
      rw [Arr.read_some (by rw [ha.size]; exact hrr), Arr.read_some (by rw [hb.size]; exact hrr)]
      simp only [Option.bind_eq_bind, Option.bind_some]
      unfold SpVec.intersectReduce
      rw [(ha.rank r hrr).hseg]
      apply forLoop_congr
      intro i s _ hi
      rw [Arr.read_some (by rw [(ha.rank r hrr).size]; exact hi), Arr.read_some (by rw [(hb.rank r hrr).size]; exact hi)]
      rfl)
    (fun r j hrr => (ha.rank r hrr).owns hr j)
    (P := fun p s' => s'.Ready ∧ ∀ i, s'.view i =
      ((a.own nrank p).view i).bind (fun x => ((b.own nrank p).view i).map (f x)))
    (by
      intro p hp
      obtain ⟨u1, u2, u3⟩ := hu p hp
      obtain ⟨s', b1, b2, b3, b4, b5⟩ := intersectSegment_any (ha.own_WF hr hp) (hb.own_WF hr hp) (hc.own_WF hr hp) u1 u2
        (by rw [ha.own_cap hr hp, hb.own_cap hr hp]) (by rw [ha.own_cap hr hp, hc.own_cap hr hp]) u3 (g (p % nrank) p) f
      exact ⟨s', b1, b2, b4, intersectSegment_received b1, b3, b5⟩)
  refine ⟨d', a1, a2, fun p hp => (a3 p hp).1, ?_, a4⟩
  intro w
  unfold DVec.sem
  cases hp : getPartition n nseg w with
  | none => rfl
  | some p => exact (a3 p (getPartition_some hp).1).2 _

/-- The operand of `SpMSpV` has no values in foreign copies afterwards. -/
theorem DMat.spmspv_quiet {D : DMat E} {m n ntx nty nrank : Nat} {ow : Nat → Nat → Nat} {T' : Nat → Nat → Tile E}
    {P : Nat → Nat → Nat → List (Col E)} {all : List (Edge E)} (h : D.Rep m n ntx nty nrank ow T' P all)
    (hr : 0 < nrank) (how : ∀ i j, ow i j < nrank) {threads : Nat} (hth : 0 < threads)
    {env : MulEnv T U V} {mul : Nat → Nat → Nat → Nat → E → T → U → U} {add : U → U → U}
    {x x' : DVec T} {y y' : DVec U} (hx : x.WF n ntx nrank) (hq : x.Quiet ntx nrank)
    (he : D.spmspv env threads nrank mul add x y = some (x', y')) : x'.Quiet ntx nrank := by
  obtain ⟨cp, c1, c2, c3, c4⟩ := colPairs_spec (m := m) (n := n) (T := T') (ntx := ntx) (nty := nty) 0 how
  obtain ⟨x1, b1, b2, b3⟩ := DVec.broadcast_spec hx hr env.serT hth env.gx c2 c4
  unfold DMat.spmspv at he
  simp only [Option.bind_eq_bind] at he
  rw [h.head hr, Option.bind_some] at he
  have e1 : (matOf m n ntx nty nrank ow T' 0).ntx = ntx := rfl
  rw [e1, c1, Option.bind_some] at he
  simp only [Option.bind_eq_some_iff] at he
  obtain ⟨_, _, x1', hx1, _, _, x2, hx2, _, _, he⟩ := he
  rw [b1] at hx1
  injection hx1 with hx1
  subst hx1
  injection he with he
  injection he with he _
  subst he
  exact broadcast_quiet hr b2 b3 hx2 hq

/-! ### The history of segments -/

/-- What the history of a part says about its segment. -/
def PartOk (s : Segment α) : PartUse → Prop
  | .never => s.props = none
  | .cleared => s.Allocated ∧ ∀ i, s.view i = none
  | .used => s.Ready

theorem PartOk.allocated {s : Segment α} {u : PartUse} (h : PartOk s u) (hu : u ≠ .never) : s.Allocated := by
  cases u with
  | never => exact absurd rfl hu
  | cleared => exact h.1
  | used => exact ⟨h.choose, h.choose_spec.1⟩

theorem PartOk.empty {s : Segment α} {u : PartUse} (h : PartOk s u) (hu : u ≠ .used) (i : Nat) : s.view i = none := by
  cases u with
  | never =>
    have : s.props = none := h
    simp [Segment.view, this]
  | cleared => exact h.2 i
  | used => exact absurd rfl hu

theorem PartOk.clear {s : Segment α} {u : PartUse} (h : PartOk s u) :
    PartOk s.setUninitialized (if u = .never then .never else .cleared) := by
  by_cases e : u = .never
  · subst e
    rw [if_pos rfl]
    have h : s.props = none := h
    show s.props.map _ = none
    rw [h]
    rfl
  · rw [if_neg e]
    obtain ⟨b, hb⟩ := h.allocated e
    refine ⟨⟨{ b with uninit := true, nnz := 0 }, ?_⟩, fun i => by rw [Segment.setUninitialized_view]⟩
    show s.props.map _ = _
    rw [hb]
    rfl

theorem VecOp.exec_use {n nseg nrank : Nat} {d d' : DVec α} (hd : d.WF n nseg nrank) (hs : 0 < nseg) (hr : 0 < nrank)
    {g : Nat → Nat → Fresh α} {op : VecOp α} (hop : op.Valid n) (h : op.exec g d = some d') {u : Nat → PartUse}
    (hu : ∀ p, p < nseg → PartOk (d.own nrank p) (u p)) :
    ∀ p, p < nseg → PartOk (d'.own nrank p) (op.use (fun w => getPartition n nseg w) u p) := by
  intro p hp
  have hm := Nat.mod_lt p hr
  have hmd : p % nrank < d.size := by rw [hd.size]; exact hm
  cases op with
  | set w x =>
    have e2 := (eachRank_some h).2 _ hmd
    obtain ⟨q, hq, _⟩ := locate hs hop.1 hop.2
    obtain ⟨v', a1, _, a3, a4, a5⟩ := SpVec.set_spec (hd.rank _ hm) hr (g (p % nrank) 0) x hq
    rw [a1] at e2
    injection e2 with e2
    unfold DVec.own
    rw [← e2]
    simp only [VecOp.use, hq, Option.some.injEq]
    by_cases e : q = p
    · subst e
      rw [if_pos rfl]
      exact (a4 rfl).1
    · rw [if_neg e, a5 p (fun h => e h.symm)]
      exact hu p hp
  | unset w =>
    have e2 := (eachRank_some h).2 _ hmd
    obtain ⟨q, hq, _⟩ := locate hs hop.1 hop.2
    obtain ⟨v', a1, _, a3, a4, a5⟩ := SpVec.unset_spec (hd.rank _ hm) hr (g (p % nrank) 0) hq
    rw [a1] at e2
    injection e2 with e2
    unfold DVec.own
    rw [← e2]
    simp only [VecOp.use, hq, Option.some.injEq]
    by_cases e : q = p
    · subst e
      rw [if_pos rfl]
      exact (a4 rfl).1
    · rw [if_neg e, a5 p (fun h => e h.symm)]
      exact hu p hp
  | setAll x =>
    have e2 := (eachRank_some h).2 _ hmd
    obtain ⟨v', a1, _, a3, _⟩ := SpVec.setAll_spec (hd.rank _ hm) hr (g (p % nrank)) x
    rw [a1] at e2
    injection e2 with e2
    unfold DVec.own
    rw [← e2]
    exact (a3 p hp rfl).1
  | clear =>
    obtain ⟨d2, a1, _, _, a4⟩ := DVec.forOwned_spec hd hr
      (f := fun _ _ s => some s.setUninitialized) (P := fun _ _ => True) (by
        intro p hp
        exact ⟨_, rfl, Segment.setUninitialized_WF (hd.own_WF hr hp), rfl, trivial⟩)
    have e : d2 = d' := Option.some.inj (a1.symm.trans h)
    subst e
    have e := a4 p hp
    injection e with e
    rw [← e]
    exact (hu p hp).clear

/-! ### Parts that were never written -/

theorem applySegment_null {g : Fresh β} {f : α → β → β} {s1 : Segment α} {s2 : Segment β} (h : s1.props = none) :
    applySegment g f s1 s2 = none := by
  unfold applySegment
  rw [h]
  exact bind_fails fun _ _ => rfl

theorem intersectSegment_null {g : Fresh γ} {op : α → β → γ → γ} {s1 : Segment α} {s2 : Segment β} {s3 : Segment γ}
    (h : s1.props = none ∨ s2.props = none) : intersectSegment g op s1 s2 s3 = none := by
  unfold intersectSegment
  refine bind_fails fun _ _ => ?_
  rcases h with h | h
  · rw [h]
    rfl
  · rw [h]
    exact bind_fails fun _ _ => rfl

theorem SpVec.modifySeg_fails {v : SpVec α} {p : Nat} {f : Segment α → Option (Segment α)} (h : ∀ s, f s = none) :
    v.modifySeg p f = none := by
  unfold SpVec.modifySeg
  exact bind_fails fun s _ => none_fails (h s)

theorem forLoop_fails {σ : Type} {lo hi i : Nat} {f : Nat → σ → Option σ} (h1 : lo ≤ i) (h2 : i < hi)
    (hf : ∀ s, f i s = none) (s : σ) : forLoop lo hi s f = none := by
  unfold forLoop
  refine foldlM_fails (b := i) hf ?_ s
  rw [List.mem_range'_1]
  omega

theorem DVec.apply_null {n nseg nrank : Nat} {a : DVec α} {b : DVec β} (ha : a.WF n nseg nrank) (hb : b.WF n nseg nrank)
    (hr : 0 < nrank) {p : Nat} (hp : p < nseg) (h : (a.own nrank p).props = none) (g : Nat → Nat → Fresh β) (f : α → β → β) :
    DVec.apply g f a b = none := by
  have hm := Nat.mod_lt p hr
  refine eachRank_fails (r := p % nrank) (by rw [hb.size]; exact hm) ?_
  rw [Arr.read_some (by rw [ha.size]; exact hm)]
  simp only [Option.bind_eq_bind, Option.bind_some]
  unfold SpVec.apply
  rw [(ha.rank _ hm).hseg]
  refine forLoop_fails (Nat.zero_le p) hp (fun s => ?_) _
  rw [(ha.rank _ hm).owns hr, Arr.read_some (by rw [(ha.rank _ hm).size]; exact hp)]
  simp only [Option.bind_eq_bind, Option.bind_some, decide_true, if_true]
  exact SpVec.modifySeg_fails fun s => applySegment_null h

theorem DVec.intersectReduce_null {n nseg nrank : Nat} {a : DVec α} {b : DVec β} {c : DVec γ} (ha : a.WF n nseg nrank)
    (hb : b.WF n nseg nrank) (hc : c.WF n nseg nrank) (hr : 0 < nrank) {p : Nat} (hp : p < nseg)
    (h : (a.own nrank p).props = none ∨ (b.own nrank p).props = none) (g : Nat → Nat → Fresh γ) (f : α → β → γ → γ) :
    DVec.intersectReduce g f a b c = none := by
  have hm := Nat.mod_lt p hr
  refine eachRank_fails (r := p % nrank) (by rw [hc.size]; exact hm) ?_
  rw [Arr.read_some (by rw [ha.size]; exact hm), Arr.read_some (by rw [hb.size]; exact hm)]
  simp only [Option.bind_eq_bind, Option.bind_some]
  unfold SpVec.intersectReduce
  rw [(ha.rank _ hm).hseg]
  refine forLoop_fails (Nat.zero_le p) hp (fun s => ?_) _
  rw [(ha.rank _ hm).owns hr, Arr.read_some (by rw [(ha.rank _ hm).size]; exact hp),
    Arr.read_some (by rw [(hb.rank _ hm).size]; exact hp)]
  simp only [Option.bind_eq_bind, Option.bind_some, decide_true, if_true]
  exact SpVec.modifySeg_fails fun s => intersectSegment_null h

theorem multSegment_null {g : Fresh U} {tmp : Nat → Nat → U} {mul : Nat → Nat → E → T → U → U} {add : U → U → U} {t : Tile E}
    {sx : Segment T} {sy : Segment U} (h : sx.props = none) : multSegment g tmp mul add t sx sy = none := by
  unfold multSegment
  refine bind_fails fun _ _ => ?_
  rw [h]
  rfl

theorem multSegment3_null {g : Fresh U} {tmp : Nat → Nat → U} {mul : E → T → V → U → U} {add : U → U → U} {t : Tile E}
    {sx : Segment T} {sv : Segment V} {sy : Segment U} (h : sx.props = none ∨ sv.props = none) :
    multSegment3 g tmp mul add t sx sv sy = none := by
  unfold multSegment3
  refine bind_fails fun _ _ => ?_
  rcases h with h | h
  · rw [h]
    rfl
  · rw [h]
    exact bind_fails fun _ _ => rfl

/-- `SpMSpV` with a part of `x` that was never written and is not sent to another rank. -/
theorem DMat.spmspv_null {D : DMat E} {m n ntx nty nrank : Nat} {ow : Nat → Nat → Nat} {T' : Nat → Nat → Tile E}
    {P : Nat → Nat → Nat → List (Col E)} {all : List (Edge E)} (h : D.Rep m n ntx nty nrank ow T' P all)
    (hy0 : 0 < nty) (hr : 0 < nrank) (how : ∀ i j, ow i j < nrank) {threads : Nat} (hth : 0 < threads)
    (env : MulEnv T U V) (mul : Nat → Nat → Nat → Nat → E → T → U → U) (add : U → U → U)
    {x : DVec T} {y : DVec U} (hx : x.WF n ntx nrank) (hy : y.WF m nty nrank) {p : Nat} (hp : p < ntx)
    (hno : ∀ i, i < nty → ow i p = p % nrank) (hn : (x.own nrank p).props = none) :
    D.spmspv env threads nrank mul add x y = none := by
  obtain ⟨cp, c1, c2, c3, c4⟩ := colPairs_spec (m := m) (n := n) (T := T') (ntx := ntx) (nty := nty) 0 how
  obtain ⟨x1, b1, b2, b3⟩ := DVec.broadcast_spec hx hr env.serT hth env.gx c2 c4
  have hm := Nat.mod_lt p hr
  have e : x1.cell (p % nrank, p) = x.cell (p % nrank, p) := (b3 _ p hm hp).alone rfl (by
    rintro ⟨k, hk, rfl⟩
    obtain ⟨h1, h2⟩ := mem_foreign.mp hk
    obtain ⟨_, i, hi, hw⟩ := (c3 k).mp h1
    exact h2 ((hno i hi).symm.trans hw))
  unfold DMat.spmspv
  simp only [Option.bind_eq_bind]
  rw [h.head hr, Option.bind_some]
  have e1 : (matOf m n ntx nty nrank ow T' 0).ntx = ntx := rfl
  rw [e1, c1, Option.bind_some]
  refine bind_fails fun rp _ => ?_
  rw [b1, Option.bind_some]
  refine none_fails (eachRank_fails (r := p % nrank) (by rw [hy.size]; exact hm) ?_)
  rw [Arr.read_some (by rw [b2.size]; exact hm), Option.bind_some, h.head hm, Option.bind_some, foldTiles_spec]
  refine foldlM_fails (b := (0, p)) (fun yv => ?_)
    (List.mem_filter.mpr ⟨mem_cells.mpr ⟨hy0, hp⟩, by simpa using hno 0 hy0⟩) _
  rw [Arr.read_some (by rw [(b2.rank _ hm).size]; exact hp), Option.bind_some]
  refine SpVec.modifySeg_fails fun sy => multSegment_null ?_
  exact (congrArg Segment.props e).trans hn

/-- `SpMSpV3` with a part of `x` or of `v` that was never written and is not sent to another rank. -/
theorem DMat.spmspv3_null {D : DMat E} {m n ntx nty nrank : Nat} {ow : Nat → Nat → Nat} {T' : Nat → Nat → Tile E}
    {P : Nat → Nat → Nat → List (Col E)} {all : List (Edge E)} (h : D.Rep m n ntx nty nrank ow T' P all)
    (hy0 : 0 < nty) (hx0 : 0 < ntx) (hr : 0 < nrank) (how : ∀ i j, ow i j < nrank) {threads : Nat} (hth : 0 < threads)
    (env : MulEnv T U V) (mul : E → T → V → U → U) (add : U → U → U)
    {x : DVec T} {vp : DVec V} {y : DVec U} (hx : x.WF n ntx nrank) (hv : vp.WF m nty nrank) (hy : y.WF m nty nrank)
    (hn : (∃ p, p < ntx ∧ (∀ i, i < nty → ow i p = p % nrank) ∧ (x.own nrank p).props = none) ∨
      ∃ p, p < nty ∧ (∀ j, j < ntx → ow p j = p % nrank) ∧ (vp.own nrank p).props = none) :
    D.spmspv3 env threads nrank mul add x vp y = none := by
  obtain ⟨cp, c1, c2, c3, c4⟩ := colPairs_spec (m := m) (n := n) (T := T') (ntx := ntx) (nty := nty) 0 how
  obtain ⟨rp, r1, r2, r3, r4⟩ := rowPairs_spec (m := m) (n := n) (T := T') (ntx := ntx) (nty := nty) 0 how
  obtain ⟨x1, b1, b2, b3⟩ := DVec.broadcast_spec hx hr env.serT hth env.gx c2 c4
  obtain ⟨v1, w1, w2, w3⟩ := DVec.broadcast_spec hv hr env.serV hth env.gv r2 r4
  obtain ⟨i, j, hi, hj, hb⟩ : ∃ i j, i < nty ∧ j < ntx ∧
      ((x1.cell (ow i j, j)).props = none ∨ (v1.cell (ow i j, i)).props = none) := by
    rcases hn with ⟨p, hp, hno, hn⟩ | ⟨p, hp, hno, hn⟩
    · refine ⟨0, p, hy0, hp, .inl ?_⟩
      rw [hno 0 hy0]
      have e : x1.cell (p % nrank, p) = x.cell (p % nrank, p) := (b3 _ p (Nat.mod_lt p hr) hp).alone rfl (by
        rintro ⟨k, hk, rfl⟩
        obtain ⟨h1, h2⟩ := mem_foreign.mp hk
        obtain ⟨_, i, hi, hw⟩ := (c3 k).mp h1
        exact h2 ((hno i hi).symm.trans hw))
      exact (congrArg Segment.props e).trans hn
    · refine ⟨p, 0, hp, hx0, .inr ?_⟩
      rw [hno 0 hx0]
      have e : v1.cell (p % nrank, p) = vp.cell (p % nrank, p) := (w3 _ p (Nat.mod_lt p hr) hp).alone rfl (by
        rintro ⟨k, hk, rfl⟩
        obtain ⟨h1, h2⟩ := mem_foreign.mp hk
        obtain ⟨_, i, hi, hw⟩ := (r3 k).mp h1
        exact h2 ((hno i hi).symm.trans hw))
      exact (congrArg Segment.props e).trans hn
  have hm := how i j
  unfold DMat.spmspv3
  simp only [Option.bind_eq_bind]
  rw [h.head hr, Option.bind_some]
  have e1 : (matOf m n ntx nty nrank ow T' 0).ntx = ntx := rfl
  have e2 : (matOf m n ntx nty nrank ow T' 0).nty = nty := rfl
  rw [e1, e2, c1, Option.bind_some, r1, Option.bind_some, b1, Option.bind_some, w1, Option.bind_some]
  refine none_fails (eachRank_fails (r := ow i j) (by rw [hy.size]; exact hm) ?_)
  rw [Arr.read_some (by rw [b2.size]; exact hm), Option.bind_some, Arr.read_some (by rw [w2.size]; exact hm), Option.bind_some,
    h.head hm, Option.bind_some, foldTiles_spec]
  refine foldlM_fails (b := (i, j)) (fun yv => ?_)
    (List.mem_filter.mpr ⟨mem_cells.mpr ⟨hi, hj⟩, by simp⟩) _
  rw [Arr.read_some (by rw [(b2.rank _ hm).size]; exact hj), Option.bind_some,
    Arr.read_some (by rw [(w2.rank _ hm).size]; exact hi), Option.bind_some]
  exact SpVec.modifySeg_fails fun sy => multSegment3_null hb

end GraphMat

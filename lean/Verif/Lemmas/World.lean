import Verif.Lemmas.Apply
import Verif.Lemmas.IdMap

namespace GraphMat

variable {α β γ σ V : Type}

theorem eachRank_spec {d : Arr σ} {f : Nat → σ → Option σ} {P : Nat → σ → Prop}
    (h : ∀ r, r < d.size → ∃ y, f r (d.get r) = some y ∧ P r y) :
    ∃ d', eachRank d f = some d' ∧ d'.size = d.size ∧
      (∀ r, r < d.size → f r (d.get r) = some (d'.get r) ∧ P r (d'.get r)) := by
  obtain ⟨b, h1, h2, h3, _⟩ := forLoop_modify (a := d) (f := f) (n := d.size) (Nat.le_refl _) h
  exact ⟨b, h1, h2, h3⟩

/-- Well-formed distributed vector. -/
structure DVec.WF (n nseg nrank : Nat) (d : DVec α) : Prop where
  size : d.size = nrank
  rank : ∀ r, r < nrank → (d.get r).WF n nseg nrank r

/-- The authoritative copy of segment `p`: the one on its owner. -/
def DVec.own (nrank : Nat) (d : DVec α) (p : Nat) : Segment α := (d.get (p % nrank)).segs.get p

/-- The partial map (internal one-based id to value) a distributed vector holds. -/
def DVec.sem (n nseg nrank : Nat) (d : DVec α) (w : Nat) : Option α :=
  match getPartition n nseg w with
  | none => none
  | some p => (d.own nrank p).view (w - bnd n nseg p - 1)

theorem DVec.WF.own_WF {n nseg nrank : Nat} {d : DVec α} (h : d.WF n nseg nrank) (hr : 0 < nrank)
    {p : Nat} (hp : p < nseg) : (d.own nrank p).WF :=
  (h.rank _ (Nat.mod_lt _ hr)).seg p hp

theorem DVec.WF.own_cap {n nseg nrank : Nat} {d : DVec α} (h : d.WF n nseg nrank) (hr : 0 < nrank)
    {p : Nat} (hp : p < nseg) : (d.own nrank p).capacity = bnd n nseg (p + 1) - bnd n nseg p :=
  (h.rank _ (Nat.mod_lt _ hr)).cap p hp

theorem DVec.sem_of {n nseg nrank : Nat} {d : DVec α} {w p : Nat}
    (hp : getPartition n nseg w = some p) :
    d.sem n nseg nrank w = (d.own nrank p).view (w - bnd n nseg p - 1) := by
  unfold DVec.sem; rw [hp]

/-- All owned segments are allocated and initialised. -/
def DVec.Ready (nseg nrank : Nat) (d : DVec α) : Prop :=
  ∀ p, p < nseg → (d.own nrank p).Ready

theorem DVec.new_spec (n nseg nrank : Nat) (hs : 0 < nseg) :
    ∃ d : DVec α, DVec.new n nseg nrank = some d ∧ d.WF n nseg nrank ∧
      ∀ r p, r < nrank → p < nseg →
        (d.get r).segs.get p = Segment.new (bnd n nseg (p + 1) - bnd n nseg p) := by
  unfold DVec.new
  obtain ⟨d, h1, h2, h3, h4⟩ := forLoop_inv (lo := 0) (hi := nrank)
    (s := (⟨nrank, fun _ => ⟨0, 0, 0, 0, ⟨0, fun _ => Segment.new 0⟩⟩⟩ : DVec α))
    (body := fun r d => do
      let v ← SpVec.new n nseg nrank r
      d.write r v)
    (fun k d => d.size = nrank ∧ (∀ r, r < k → (d.get r).WF n nseg nrank r) ∧
      ∀ r p, r < k → p < nseg →
        (d.get r).segs.get p = Segment.new (bnd n nseg (p + 1) - bnd n nseg p))
    (Nat.zero_le _) ⟨rfl, by intro r hr; omega, by intro r p hr; omega⟩ (by
      intro i s _ hi ⟨e1, e2, e3⟩
      obtain ⟨v, hv, hw, hg⟩ := SpVec.new_spec (α := α) n nseg nrank i hs
      refine ⟨s.upd i v, ?_, by simpa using e1, ?_, ?_⟩
      · rw [hv]; exact Arr.write_some (by omega)
      · intro r hr
        by_cases e : r = i
        · subst e; rw [Arr.upd_get_self]; exact hw
        · rw [Arr.upd_get_ne _ _ e]; exact e2 r (by omega)
      · intro r p hr hp
        by_cases e : r = i
        · subst e; rw [Arr.upd_get_self]; exact hg p hp
        · rw [Arr.upd_get_ne _ _ e]; exact e3 r p (by omega) hp)
  exact ⟨d, h1, ⟨h2, h3⟩, h4⟩

theorem DVec.setAll_spec {n nseg nrank : Nat} {d : DVec α} (h : d.WF n nseg nrank)
    (hr : 0 < nrank) (g : Nat → Nat → Fresh α) (x : Nat → α) :
    ∃ d' : DVec α, eachRank d (fun r v => v.setAll (g r) (x r)) = some d' ∧ d'.WF n nseg nrank ∧
      d'.Ready nseg nrank ∧
      ∀ p, p < nseg → ∀ i, (d'.own nrank p).view i =
        if i < bnd n nseg (p + 1) - bnd n nseg p then some (x (p % nrank)) else none := by
  obtain ⟨d', h1, h2, h3⟩ := eachRank_spec (d := d) (f := fun r v => v.setAll (g r) (x r))
    (P := fun r v' => v'.WF n nseg nrank r ∧
      (∀ p, p < nseg → p % nrank = r → (v'.segs.get p).Ready ∧
        ∀ i, (v'.segs.get p).view i =
          if i < bnd n nseg (p + 1) - bnd n nseg p then some (x r) else none))
    (by
      intro r hrr
      rw [h.size] at hrr
      obtain ⟨v', a1, a2, a3, _⟩ := SpVec.setAll_spec (h.rank r hrr) hr (g r) (x r)
      exact ⟨v', a1, a2, a3⟩)
  rw [h.size] at h2 h3
  refine ⟨d', h1, ⟨h2, fun r hrr => (h3 r hrr).2.1⟩, ?_, ?_⟩
  · intro p hp
    exact ((h3 (p % nrank) (Nat.mod_lt _ hr)).2.2 p hp rfl).1
  · intro p hp
    exact ((h3 (p % nrank) (Nat.mod_lt _ hr)).2.2 p hp rfl).2

theorem DVec.sem_const {n nseg nrank : Nat} {d : DVec α} (hs : 0 < nseg) {x : Nat → α}
    (h : ∀ p, p < nseg → ∀ i, (d.own nrank p).view i =
        if i < bnd n nseg (p + 1) - bnd n nseg p then some (x (p % nrank)) else none)
    {w : Nat} (h1 : 1 ≤ w) (h2 : w ≤ n) :
    ∃ p, getPartition n nseg w = some p ∧ d.sem n nseg nrank w = some (x (p % nrank)) := by
  obtain ⟨p, hp, hlt, e1, e2⟩ := locate hs h1 h2
  refine ⟨p, hp, ?_⟩
  rw [DVec.sem_of hp, h p hlt, if_pos (by omega)]

/-- Effect of a single-element update executed by all ranks. -/
theorem DVec.set_spec {n nseg nrank : Nat} {d : DVec α} (h : d.WF n nseg nrank) (hs : 0 < nseg)
    (hr : 0 < nrank) (g : Nat → Fresh α) {w : Nat} (h1 : 1 ≤ w) (h2 : w ≤ n) (x : α) :
    ∃ d' : DVec α, eachRank d (fun r v => v.set (g r) w x) = some d' ∧ d'.WF n nseg nrank ∧
      (d.Ready nseg nrank → d'.Ready nseg nrank) ∧
      (∀ w', 1 ≤ w' → w' ≤ n →
        d'.sem n nseg nrank w' = if w' = w then some x else d.sem n nseg nrank w') := by
  obtain ⟨p, hp, hlt, e1, e2⟩ := locate hs h1 h2
  obtain ⟨d', a1, a2, a3⟩ := eachRank_spec (d := d) (f := fun r v => v.set (g r) w x)
    (P := fun r v' => v'.WF n nseg nrank r ∧
      (p % nrank ≠ r → v' = d.get r) ∧
      (p % nrank = r → (v'.segs.get p).Ready ∧
        ∀ q i, (v'.segs.get q).view i =
          if q = p ∧ i = w - bnd n nseg p - 1 then some x else ((d.get r).segs.get q).view i) ∧
      (∀ q, q ≠ p → v'.segs.get q = (d.get r).segs.get q))
    (by
      intro r hrr
      rw [h.size] at hrr
      obtain ⟨v', a1, a2, a3⟩ := SpVec.set_spec (h.rank r hrr) hr (g r) (w := w) x hp
      exact ⟨v', a1, a2, a3⟩)
  rw [h.size] at a2 a3
  refine ⟨d', a1, ⟨a2, fun r hrr => (a3 r hrr).2.1⟩, ?_, ?_⟩
  · intro hrd q hq
    by_cases e : q = p
    · subst e
      exact ((a3 (q % nrank) (Nat.mod_lt _ hr)).2.2.2.1 rfl).1
    · have := (a3 (q % nrank) (Nat.mod_lt _ hr)).2.2.2.2 q e
      unfold DVec.own
      rw [this]; exact hrd q hq
  · intro w' h1' h2'
    obtain ⟨q, hq, hqlt, f1, f2⟩ := locate hs h1' h2'
    rw [DVec.sem_of hq, DVec.sem_of hq]
    unfold DVec.own
    have key := a3 (q % nrank) (Nat.mod_lt _ hr)
    by_cases e : q = p
    · subst e
      rw [(key.2.2.2.1 rfl).2]
      have : (w' - bnd n nseg q - 1 = w - bnd n nseg q - 1) ↔ w' = w := by omega
      simp only [this, true_and]
    · rw [key.2.2.2.2 q e, if_neg]
      intro e'; subst e'
      rw [hp] at hq; exact e (by injection hq with hq; exact hq.symm)

theorem DVec.unset_spec {n nseg nrank : Nat} {d : DVec α} (h : d.WF n nseg nrank) (hs : 0 < nseg)
    (hr : 0 < nrank) (g : Nat → Fresh α) {w : Nat} (h1 : 1 ≤ w) (h2 : w ≤ n) :
    ∃ d' : DVec α, eachRank d (fun r v => v.unset (g r) w) = some d' ∧ d'.WF n nseg nrank ∧
      (d.Ready nseg nrank → d'.Ready nseg nrank) ∧
      (∀ w', 1 ≤ w' → w' ≤ n →
        d'.sem n nseg nrank w' = if w' = w then none else d.sem n nseg nrank w') := by
  obtain ⟨p, hp, hlt, e1, e2⟩ := locate hs h1 h2
  obtain ⟨d', a1, a2, a3⟩ := eachRank_spec (d := d) (f := fun r v => v.unset (g r) w)
    (P := fun r v' => v'.WF n nseg nrank r ∧
      (p % nrank ≠ r → v' = d.get r) ∧
      (p % nrank = r → (v'.segs.get p).Ready ∧
        ∀ q i, (v'.segs.get q).view i =
          if q = p ∧ i = w - bnd n nseg p - 1 then none else ((d.get r).segs.get q).view i) ∧
      (∀ q, q ≠ p → v'.segs.get q = (d.get r).segs.get q))
    (by
      intro r hrr
      rw [h.size] at hrr
      obtain ⟨v', a1, a2, a3⟩ := SpVec.unset_spec (h.rank r hrr) hr (g r) (w := w) hp
      exact ⟨v', a1, a2, a3⟩)
  rw [h.size] at a2 a3
  refine ⟨d', a1, ⟨a2, fun r hrr => (a3 r hrr).2.1⟩, ?_, ?_⟩
  · intro hrd q hq
    by_cases e : q = p
    · subst e
      exact ((a3 (q % nrank) (Nat.mod_lt _ hr)).2.2.2.1 rfl).1
    · have := (a3 (q % nrank) (Nat.mod_lt _ hr)).2.2.2.2 q e
      unfold DVec.own
      rw [this]; exact hrd q hq
  · intro w' h1' h2'
    obtain ⟨q, hq, hqlt, f1, f2⟩ := locate hs h1' h2'
    rw [DVec.sem_of hq, DVec.sem_of hq]
    unfold DVec.own
    have key := a3 (q % nrank) (Nat.mod_lt _ hr)
    by_cases e : q = p
    · subst e
      rw [(key.2.2.2.1 rfl).2]
      have : (w' - bnd n nseg q - 1 = w - bnd n nseg q - 1) ↔ w' = w := by omega
      simp only [this, true_and]
    · rw [key.2.2.2.2 q e, if_neg]
      intro e'; subst e'
      rw [hp] at hq; exact e (by injection hq with hq; exact hq.symm)

/-- A loop over all owned segments on every rank. -/
theorem DVec.forOwned_spec {n nseg nrank : Nat} {d : DVec α} (h : d.WF n nseg nrank)
    (hr : 0 < nrank) {f : Nat → Nat → Segment α → Option (Segment α)} {P : Nat → Segment α → Prop}
    (hf : ∀ p, p < nseg → ∃ s', f (p % nrank) p (d.own nrank p) = some s' ∧ s'.WF ∧
      s'.capacity = (d.own nrank p).capacity ∧ P p s') :
    ∃ d' : DVec α, eachRank d (fun r v => v.forOwned (f r)) = some d' ∧ d'.WF n nseg nrank ∧
      (∀ p, p < nseg → P p (d'.own nrank p)) ∧
      (∀ p, p < nseg → f (p % nrank) p (d.own nrank p) = some (d'.own nrank p)) := by
  obtain ⟨d', a1, a2, a3⟩ := eachRank_spec (d := d) (f := fun r v => v.forOwned (f r))
    (P := fun r v' => v'.WF n nseg nrank r ∧
      (∀ p, p < nseg → p % nrank = r →
        f r p ((d.get r).segs.get p) = some (v'.segs.get p) ∧ P p (v'.segs.get p)))
    (by
      intro r hrr
      rw [h.size] at hrr
      obtain ⟨v', b1, b2, b3, _⟩ := SpVec.forOwned_spec (h.rank r hrr) hr (f := f r) (P := P) (by
        intro p hp hpr
        subst hpr
        exact hf p hp)
      exact ⟨v', b1, b2, b3⟩)
  rw [h.size] at a2 a3
  refine ⟨d', a1, ⟨a2, fun r hrr => (a3 r hrr).2.1⟩, ?_, ?_⟩
  · intro p hp; exact ((a3 (p % nrank) (Nat.mod_lt _ hr)).2.2 p hp rfl).2
  · intro p hp; exact ((a3 (p % nrank) (Nat.mod_lt _ hr)).2.2 p hp rfl).1

theorem DVec.applySelf_spec {n nseg nrank : Nat} {d : DVec α} (h : d.WF n nseg nrank)
    (hr : 0 < nrank) (g : Nat → Nat → Fresh α) (f : α → α → α) :
    ∃ d' : DVec α, eachRank d (fun r v => v.applySelf (g r) f) = some d' ∧ d'.WF n nseg nrank ∧
      d'.Ready nseg nrank ∧
      ∀ w, d'.sem n nseg nrank w = (d.sem n nseg nrank w).map (fun x => f x x) := by
  obtain ⟨d', a1, a2, a3, _⟩ := DVec.forOwned_spec h hr
    (f := fun r j s => applySegmentSelf (g r j) f s)
    (P := fun p s' => s'.Ready ∧ ∀ i, s'.view i = ((d.own nrank p).view i).map (fun x => f x x))
    (by
      intro p hp
      obtain ⟨s', b1, b2, b3, b4, b5⟩ := applySegmentSelf_spec (h.own_WF hr hp) (g (p % nrank) p) f
      exact ⟨s', b1, b2, b4, b3, b5⟩)
  refine ⟨d', a1, a2, fun p hp => (a3 p hp).1, ?_⟩
  intro w
  unfold DVec.sem
  cases hp : getPartition n nseg w with
  | none => rfl
  | some p => exact (a3 p (getPartition_some hp).1).2 _

theorem SpVec.setAllInactive_spec {n nseg nrank me : Nat} {v : SpVec Bool}
    (h : v.WF n nseg nrank me) (hr : 0 < nrank) (g : Nat → Fresh Bool) :
    ∃ v', v.setAllInactive g = some v' ∧ v'.WF n nseg nrank me ∧
      (∀ p, p < nseg → p % nrank = me → (v'.segs.get p).Ready ∧
        ∀ i, (v'.segs.get p).view i = none) ∧
      (∀ p, p % nrank ≠ me → v'.segs.get p = v.segs.get p) := by
  unfold SpVec.setAllInactive
  obtain ⟨v1, a1, a2, a3, a4⟩ := SpVec.setAll_spec h hr g false
  rw [a1]
  simp only [Option.bind_eq_bind, Option.bind_some]
  obtain ⟨v2, b1, b2, b3, b4⟩ := SpVec.forOwned_spec a2 hr (f := fun _ s => clearDense s)
    (P := fun _ s' => s'.Ready ∧ ∀ i, s'.view i = none) (by
      intro p hp hpm
      obtain ⟨s', c1, c2, c3, c4, c5⟩ := clearDense_spec (a2.seg p hp) (a3 p hp hpm).1
      exact ⟨s', c1, c2, c4, c3, c5⟩)
  exact ⟨v2, b1, b2, fun p hp hpm => (b3 p hp hpm).2, fun p hpm => by rw [b4 p hpm, a4 p hpm]⟩

theorem DVec.setAllInactive_spec {n nseg nrank : Nat} {d : DVec Bool} (h : d.WF n nseg nrank)
    (hr : 0 < nrank) (g : Nat → Nat → Fresh Bool) :
    ∃ d' : DVec Bool, eachRank d (fun r v => v.setAllInactive (g r)) = some d' ∧ d'.WF n nseg nrank ∧
      d'.Ready nseg nrank ∧ ∀ p, p < nseg → ∀ i, (d'.own nrank p).view i = none := by
  obtain ⟨d', h1, h2, h3⟩ := eachRank_spec (d := d) (f := fun r v => v.setAllInactive (g r))
    (P := fun r v' => v'.WF n nseg nrank r ∧
      (∀ p, p < nseg → p % nrank = r → (v'.segs.get p).Ready ∧
        ∀ i, (v'.segs.get p).view i = none))
    (by
      intro r hrr
      rw [h.size] at hrr
      obtain ⟨v', a1, a2, a3, _⟩ := SpVec.setAllInactive_spec (h.rank r hrr) hr (g r)
      exact ⟨v', a1, a2, a3⟩)
  rw [h.size] at h2 h3
  refine ⟨d', h1, ⟨h2, fun r hrr => (h3 r hrr).2.1⟩, ?_, ?_⟩
  · intro p hp
    exact ((h3 (p % nrank) (Nat.mod_lt _ hr)).2.2 p hp rfl).1
  · intro p hp
    exact ((h3 (p % nrank) (Nat.mod_lt _ hr)).2.2 p hp rfl).2

end GraphMat

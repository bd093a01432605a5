import Verif.Lemmas.VGraph
import Verif.Model.Program

namespace GraphMat

variable {α β γ T U V E : Type}

theorem SpVec.intersectReduce_spec {n nseg nrank me : Nat} {va : SpVec α} {vb : SpVec β}
    {vc : SpVec γ} (ha : va.WF n nseg nrank me) (hb : vb.WF n nseg nrank me)
    (hc : vc.WF n nseg nrank me) (hr : 0 < nrank)
    (ra : ∀ p, p < nseg → p % nrank = me → (va.segs.get p).Ready)
    (rb : ∀ p, p < nseg → p % nrank = me → (vb.segs.get p).Ready)
    (g : Nat → Fresh γ) (op : α → β → γ → γ) :
    ∃ vc', va.intersectReduce g op vb vc = some vc' ∧ vc'.WF n nseg nrank me ∧
      (∀ p, p < nseg → p % nrank = me → (vc'.segs.get p).Ready ∧
        ∃ stale : Nat → γ, ∀ i, (vc'.segs.get p).view i =
          match (va.segs.get p).view i, (vb.segs.get p).view i with
          | some x, some y => some (op x y (stale i))
          | _, _ => none) ∧
      (∀ p, p % nrank ≠ me → vc'.segs.get p = vc.segs.get p) := by
  unfold SpVec.intersectReduce
  rw [ha.hseg]
  have e : forLoop 0 nseg vc (fun j vc => do
      let own ← va.owns j
      if own then
        let s1 ← va.segs.read j
        let s2 ← vb.segs.read j
        vc.modifySeg j (intersectSegment (g j) op s1 s2)
      else some vc) =
    forLoop 0 nseg vc (fun j vc => (va.owns j).bind fun own =>
      if own = true then vc.modifySeg j
        (intersectSegment (g j) op (va.segs.get j) (vb.segs.get j)) else some vc) := by
    apply forLoop_congr
    intro i s _ hi
    rw [Arr.read_some (by rw [ha.size]; exact hi), Arr.read_some (by rw [hb.size]; exact hi)]
    rfl
  rw [e]
  obtain ⟨v', a1, a2, a3, a4⟩ := SpVec.forSeg_spec hc (O := fun j _ => va.owns j)
    (fun j _ _ _ => ha.owns hr j)
    (f := fun j => intersectSegment (g j) op (va.segs.get j) (vb.segs.get j))
    (P := fun p s' => s'.Ready ∧ ∃ stale : Nat → γ, ∀ i, s'.view i =
          match (va.segs.get p).view i, (vb.segs.get p).view i with
          | some x, some y => some (op x y (stale i))
          | _, _ => none)
    (by
      intro p hp hpm
      obtain ⟨s', b1, b2, b3, b4, _, _, b5⟩ := intersectSegment_spec (ha.seg p hp) (hb.seg p hp)
        (hc.seg p hp) (ra p hp hpm) (rb p hp hpm) (by rw [ha.cap p hp, hb.cap p hp])
        (by rw [ha.cap p hp, hc.cap p hp]) (g p) op
      exact ⟨s', b1, b2, b4, b3, b5⟩)
  exact ⟨v', a1, a2, fun p hp hpm => (a3 p hp hpm).2, a4⟩

theorem DVec.intersectReduce_spec {n nseg nrank : Nat} {va : DVec α} {vb : DVec β}
    {vc : DVec γ} (ha : va.WF n nseg nrank) (hb : vb.WF n nseg nrank)
    (hc : vc.WF n nseg nrank) (hr : 0 < nrank)
    (ra : va.Ready nseg nrank) (rb : vb.Ready nseg nrank)
    (g : Nat → Nat → Fresh γ) (op : α → β → γ → γ) :
    ∃ vc', DVec.intersectReduce g op va vb vc = some vc' ∧ DVec.WF n nseg nrank vc' ∧
      DVec.Ready nseg nrank vc' ∧
      ∃ stale : Nat → γ, ∀ w, DVec.sem n nseg nrank vc' w =
          match va.sem n nseg nrank w, vb.sem n nseg nrank w with
          | some x, some y => some (op x y (stale w))
          | _, _ => none := by
  unfold DVec.intersectReduce
  obtain ⟨d', a1, a2, a3⟩ := eachRank_spec (d := vc) (f := fun r c => do
      let a ← va.read r
      let b ← vb.read r
      a.intersectReduce (g r) op b c)
    (P := fun r v' => v'.WF n nseg nrank r ∧
      (∀ p, p < nseg → p % nrank = r → (v'.segs.get p).Ready ∧
        ∃ stale : Nat → γ, ∀ i, (v'.segs.get p).view i =
          match ((va.get r).segs.get p).view i, ((vb.get r).segs.get p).view i with
          | some x, some y => some (op x y (stale i))
          | _, _ => none))
    (by
      intro r hrr
      rw [hc.size] at hrr
      rw [Arr.read_some (by rw [ha.size]; exact hrr), Arr.read_some (by rw [hb.size]; exact hrr)]
      simp only [Option.bind_eq_bind, Option.bind_some]
      obtain ⟨v', b1, b2, b3, _⟩ := SpVec.intersectReduce_spec (ha.rank r hrr) (hb.rank r hrr)
        (hc.rank r hrr) hr
        (by intro p hp e; have := ra p hp; unfold DVec.own at this; rw [e] at this; exact this)
        (by intro p hp e; have := rb p hp; unfold DVec.own at this; rw [e] at this; exact this)
        (g r) op
      exact ⟨v', b1, b2, b3⟩)
  rw [hc.size] at a2 a3
  have key := fun p (hp : p < nseg) => (a3 (p % nrank) (Nat.mod_lt _ hr)).2.2 p hp rfl
  refine ⟨d', a1, ⟨a2, fun r hrr => (a3 r hrr).2.1⟩, fun p hp => (key p hp).1, ?_⟩
  obtain ⟨st, hst⟩ : ∃ st : Nat → Nat → γ, ∀ p, p < nseg → ∀ i,
      (DVec.own nrank d' p).view i =
          match (va.own nrank p).view i, (vb.own nrank p).view i with
          | some x, some y => some (op x y (st p i))
          | _, _ => none := by
    refine ⟨fun p => if hp : p < nseg then (key p hp).2.choose else fun i => (g 0 0).value i, ?_⟩
    intro p hp
    simp only [hp, dif_pos]
    exact (key p hp).2.choose_spec
  refine ⟨fun w => match getPartition n nseg w with
    | some p => st p (w - bnd n nseg p - 1)
    | none => (g 0 0).value 0, ?_⟩
  intro w
  unfold DVec.sem
  cases hp : getPartition n nseg w with
  | none => rfl
  | some p => simp only [hst p (getPartition_some hp).1, hp]

theorem DVec.clear_spec {n nseg nrank : Nat} {d : DVec α} (h : d.WF n nseg nrank)
    (hr : 0 < nrank) :
    ∃ d', d.clear = some d' ∧ DVec.WF n nseg nrank d' ∧
      (∀ p, p < nseg → ∀ i, (DVec.own nrank d' p).view i = none) := by
  unfold DVec.clear SpVec.clear
  obtain ⟨d', a1, a2, a3, _⟩ := DVec.forOwned_spec h hr
    (f := fun _ _ s => some s.setUninitialized)
    (P := fun _ s' => ∀ i, s'.view i = none) (by
      intro p hp
      exact ⟨_, rfl, Segment.setUninitialized_WF (h.own_WF hr hp), rfl,
        fun i => by rw [Segment.setUninitialized_view]⟩)
  exact ⟨d', a1, a2, a3⟩

end GraphMat

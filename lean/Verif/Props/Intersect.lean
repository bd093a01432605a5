import Verif.Lemmas.Apply
import Verif.Lemmas.SpVec
import Verif.Spec.Samples

/-!
# C57: `IntersectReduce` with cleared operands
-/
namespace GraphMat

variable {α β γ : Type}

/-- The buffer of a segment exists (it may have been cleared). -/
def Segment.Allocated (s : Segment α) : Prop := ∃ b, s.props = some b

/-- C57, on a segment: whether the operands are initialised or were cleared (their memory then still holds old bits and
values), a cleared or new output holds afterwards exactly the positions present in both, with values from the
operation. -/
theorem intersect_exact {s1 : Segment α} {s2 : Segment β} {s3 : Segment γ} (h1 : s1.WF)
    (h2 : s2.WF) (h3 : s3.WF) (r1 : s1.Allocated) (r2 : s2.Allocated)
    (hc2 : s2.capacity = s1.capacity) (hc3 : s3.capacity = s1.capacity) (h0 : ∀ i, s3.view i = none) (g : Fresh γ)
    (op : α → β → γ → γ) :
    ∃ s', intersectSegment g op s1 s2 s3 = some s' ∧ s'.WF ∧ s'.Ready ∧ s'.capacity = s3.capacity ∧
      ∃ stale : Nat → γ, ∀ i, s'.view i =
        match s1.view i, s2.view i with
        | some x, some y => some (op x y (stale i))
        | _, _ => none := by
  obtain ⟨b1, hp1⟩ := r1
  obtain ⟨b2, hp2⟩ := r2
  by_cases hu : b1.uninit = false ∧ b2.uninit = false
  · obtain ⟨s', e1, e2, e3, e4, _, _, e5⟩ :=
      intersectSegment_spec h1 h2 h3 ⟨b1, hp1, hu.1⟩ ⟨b2, hp2, hu.2⟩ hc2 hc3 g op
    exact ⟨s', e1, e2, e3, e4, e5⟩
  · obtain ⟨b, hb, hbu, hd, ht, hv, _⟩ := s3.alloc_initialize h3 g
    refine ⟨{ s3 with props := some b }, ?_, h3.congr_props hd (fun _ => ht), ⟨b, rfl, hbu⟩, rfl, g.value, ?_⟩
    · unfold intersectSegment
      rw [hb, hp1, hp2]
      simp only [Option.bind_eq_bind, Option.bind_some]
      rw [if_neg]
      intro h
      rw [Bool.and_eq_true, Bool.not_eq_true', Bool.not_eq_true'] at h
      exact hu h
    · intro i
      have hl : ({ s3 with props := some b } : Segment γ).view i = none := by
        show b.view i = none
        rw [hv]; exact h0 i
      rw [hl]
      have : s1.view i = none ∨ s2.view i = none := by
        simp only [Segment.view, hp1, hp2]
        unfold Buffer.view
        cases hb1 : b1.uninit
        · cases hb2 : b2.uninit
          · exact absurd ⟨hb1, hb2⟩ hu
          · right; rfl
        · left; rfl
      rcases this with h | h
      · rw [h]
      · rw [h]
        cases s1.view i <;> rfl

/-- On a rank: every segment it owns. -/
theorem intersectReduce_exact {n nseg nrank me : Nat} {va : SpVec α} {vb : SpVec β}
    {vc : SpVec γ} (ha : va.WF n nseg nrank me) (hb : vb.WF n nseg nrank me)
    (hc : vc.WF n nseg nrank me) (hr : 0 < nrank)
    (ra : ∀ p, p < nseg → p % nrank = me → (va.segs.get p).Allocated)
    (rb : ∀ p, p < nseg → p % nrank = me → (vb.segs.get p).Allocated)
    (h0 : ∀ p, p < nseg → p % nrank = me → ∀ i, (vc.segs.get p).view i = none)
    (g : Nat → Fresh γ) (op : α → β → γ → γ) :
    ∃ vc', va.intersectReduce g op vb vc = some vc' ∧ vc'.WF n nseg nrank me ∧
      (∀ p, p < nseg → p % nrank = me → (vc'.segs.get p).Ready ∧
        ∃ stale : Nat → γ, ∀ i, (vc'.segs.get p).view i =
          match (va.segs.get p).view i, (vb.segs.get p).view i with
          | some x, some y => some (op x y (stale i))
          | _, _ => none) ∧
      (∀ p, p % nrank ≠ me → vc'.segs.get p = vc.segs.get p) := by
  unfold SpVec.intersectReduce
  rw [ha.hseg]
  have e : forLoop 0 nseg vc (fun j vc => do
      let own ← va.owns j
      if own then
        let s1 ← va.segs.read j
        let s2 ← vb.segs.read j
        vc.modifySeg j (intersectSegment (g j) op s1 s2)
      else some vc) =
    forLoop 0 nseg vc (fun j vc => (va.owns j).bind fun own =>
      if own = true then vc.modifySeg j
        (intersectSegment (g j) op (va.segs.get j) (vb.segs.get j)) else some vc) := by
    apply forLoop_congr
    intro i s _ hi
    rw [Arr.read_some (by rw [ha.size]; exact hi), Arr.read_some (by rw [hb.size]; exact hi)]
    rfl
  rw [e]
  obtain ⟨v', a1, a2, a3, a4⟩ := SpVec.forSeg_spec hc (O := fun j _ => va.owns j)
    (fun j _ _ _ => ha.owns hr j)
    (f := fun j => intersectSegment (g j) op (va.segs.get j) (vb.segs.get j))
    (P := fun p s' => s'.Ready ∧ ∃ stale : Nat → γ, ∀ i, s'.view i =
          match (va.segs.get p).view i, (vb.segs.get p).view i with
          | some x, some y => some (op x y (stale i))
          | _, _ => none)
    (by
      intro p hp hpm
      obtain ⟨s', b1, b2, b3, b4, b5⟩ := intersect_exact (ha.seg p hp) (hb.seg p hp)
        (hc.seg p hp) (ra p hp hpm) (rb p hp hpm) (by rw [ha.cap p hp, hb.cap p hp])
        (by rw [ha.cap p hp, hc.cap p hp]) (h0 p hp hpm) (g p) op
      exact ⟨s', b1, b2, b4, b3, b5⟩)
  exact ⟨v', a1, a2, fun p hp hpm => (a3 p hp hpm).2, a4⟩

/-- Vectors `a` (entries 1, 2, 270) and `b` (2, 270, 290) of length 300 in two segments on one rank, `b`
cleared afterwards if asked for; what the intersection holds at 1, 2, 270, 290. -/
def intersectSample (clear : Bool) : Option (List (Option Nat)) := do
  let a : SpVec Nat ← SpVec.new 300 2 1 0
  let a ← a.set (.sample 9) 1 10
  let a ← a.set (.sample 9) 2 20
  let a ← a.set (.sample 9) 270 30
  let b : SpVec Nat ← SpVec.new 300 2 1 0
  let b ← b.set (.sample 9) 2 200
  let b ← b.set (.sample 9) 270 300
  let b ← b.set (.sample 9) 290 400
  let b ← if clear then b.clear else some b
  let c : SpVec Nat ← SpVec.new 300 2 1 0
  let c ← a.intersectReduce (fun _ => .sample 9) (fun x y _ => x + y) b c
  some [(c.segs.get 0).view 0, (c.segs.get 0).view 1, (c.segs.get 1).view 13, (c.segs.get 1).view 33]

example : intersectSample false = some [none, some 220, some 330, none] := by decide +kernel

example : intersectSample true = some [none, none, none, none] := by decide +kernel

end GraphMat

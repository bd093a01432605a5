import Verif.Model.SpVec
import Verif.Lemmas.Segment
import Verif.Lemmas.Layout

namespace GraphMat

variable {α : Type}

/-- Well-formed part of a distributed vector on rank `me`. -/
structure SpVec.WF (n nseg nrank me : Nat) (v : SpVec α) : Prop where
  hn : v.n = n
  hseg : v.nseg = nseg
  hrank : v.nrank = nrank
  hme : v.myrank = me
  size : v.segs.size = nseg
  seg : ∀ p, p < nseg → (v.segs.get p).WF
  cap : ∀ p, p < nseg → (v.segs.get p).capacity = bnd n nseg (p + 1) - bnd n nseg p

theorem startId_get {n nseg j : Nat} (h : j ≤ nseg) : (startIds n nseg)[j]? = some (bnd n nseg j) := by
  rw [startIds_eq, List.getElem?_map, List.getElem?_range (by omega)]; rfl

theorem SpVec.WF.startId {n nseg nrank me : Nat} {v : SpVec α} (h : v.WF n nseg nrank me) {j : Nat}
    (hj : j ≤ nseg) : v.startId j = some (bnd n nseg j) := by
  unfold SpVec.startId; rw [h.hn, h.hseg]; exact startId_get hj

theorem SpVec.WF.owns {n nseg nrank me : Nat} {v : SpVec α} (h : v.WF n nseg nrank me)
    (hr : 0 < nrank) (j : Nat) : v.owns j = some (decide (j % nrank = me)) := by
  unfold SpVec.owns segOwner vectorPartitionFn
  rw [h.hrank, if_neg (by omega), h.hme]
  simp only [Option.bind_eq_bind, Option.bind_some, Option.some.injEq]
  rw [Bool.eq_iff_iff]; simp

theorem SpVec.new_spec (n nseg nrank me : Nat) (hs : 0 < nseg) :
    ∃ v : SpVec α, SpVec.new n nseg nrank me = some v ∧ v.WF n nseg nrank me ∧
      ∀ p, p < nseg → v.segs.get p = Segment.new (bnd n nseg (p + 1) - bnd n nseg p) := by
  unfold SpVec.new
  rw [if_neg (by omega)]
  have e : forLoop 0 nseg (⟨nseg, fun _ => Segment.new 0⟩ : Arr (Segment α)) (fun j segs => do
      let hi ← (startIds n nseg)[j + 1]?
      let lo ← (startIds n nseg)[j]?
      segs.write j (Segment.new (hi - lo))) =
    forLoop 0 nseg (⟨nseg, fun _ => Segment.new 0⟩ : Arr (Segment α)) (fun j segs =>
      segs.write j (Segment.new (bnd n nseg (j + 1) - bnd n nseg j))) := by
    apply forLoop_congr
    intro i s _ hi
    rw [startId_get (by omega), startId_get (by omega)]; rfl
  obtain ⟨b, hb, hsz, hg⟩ := forLoop_fill (a := (⟨nseg, fun _ => Segment.new 0⟩ : Arr (Segment α)))
    (n := nseg) (f := fun j => Segment.new (bnd n nseg (j + 1) - bnd n nseg j)) (Nat.le_refl _)
  rw [e, hb]
  have hg' : ∀ p, p < nseg → b.get p = Segment.new (bnd n nseg (p + 1) - bnd n nseg p) := by
    intro p hp; rw [hg, if_pos hp]
  refine ⟨_, rfl, ⟨rfl, rfl, rfl, rfl, hsz, ?_, ?_⟩, hg'⟩
  · intro p hp; simp only; rw [hg' p hp]; exact Segment.new_WF _
  · intro p hp; simp only; rw [hg' p hp]; rfl

/-- Replacing one segment by a well-formed one of the same capacity. -/
theorem SpVec.modifySeg_spec {n nseg nrank me : Nat} {v : SpVec α} (h : v.WF n nseg nrank me)
    {p : Nat} (hp : p < nseg) {f : Segment α → Option (Segment α)} {s' : Segment α}
    (hf : f (v.segs.get p) = some s') (hw : s'.WF) (hc : s'.capacity = (v.segs.get p).capacity) :
    v.modifySeg p f = some { v with segs := v.segs.upd p s' } ∧
      ({ v with segs := v.segs.upd p s' } : SpVec α).WF n nseg nrank me := by
  constructor
  · unfold SpVec.modifySeg
    rw [Arr.read_some (by rw [h.size]; exact hp)]
    simp only [Option.bind_eq_bind, Option.bind_some, hf]
    rw [Arr.write_some (by rw [h.size]; exact hp)]
    rfl
  · refine ⟨h.hn, h.hseg, h.hrank, h.hme, by simpa using h.size, ?_, ?_⟩
    · intro q hq
      simp only
      by_cases e : q = p
      · subst e; rw [Arr.upd_get_self]; exact hw
      · rw [Arr.upd_get_ne _ _ e]; exact h.seg q hq
    · intro q hq
      simp only
      by_cases e : q = p
      · subst e; rw [Arr.upd_get_self, hc]; exact h.cap q hq
      · rw [Arr.upd_get_ne _ _ e]; exact h.cap q hq

/-- Where an internal id lives: segment number and zero-based offset. -/
theorem locate {n nseg w : Nat} (hs : 0 < nseg) (h1 : 1 ≤ w) (h2 : w ≤ n) :
    ∃ p, getPartition n nseg w = some p ∧ p < nseg ∧ bnd n nseg p < w ∧ w ≤ bnd n nseg (p + 1) := by
  obtain ⟨p, hp⟩ := getPartition_total hs h1 h2
  have := getPartition_some hp
  exact ⟨p, hp, this.1, by omega, by omega⟩

theorem SpVec.set_spec {n nseg nrank me : Nat} {v : SpVec α} (h : v.WF n nseg nrank me)
    (hr : 0 < nrank) (g : Fresh α) {w : Nat} (x : α)
    {p : Nat} (hp : getPartition n nseg w = some p) :
    ∃ v', v.set g w x = some v' ∧ v'.WF n nseg nrank me ∧
      (p % nrank ≠ me → v' = v) ∧
      (p % nrank = me → (v'.segs.get p).Ready ∧
        ∀ q i, (v'.segs.get q).view i =
          if q = p ∧ i = w - bnd n nseg p - 1 then some x else (v.segs.get q).view i) ∧
      (∀ q, q ≠ p → v'.segs.get q = v.segs.get q) := by
  have hpp := getPartition_some hp
  have hcap := h.cap p hpp.1
  unfold SpVec.set
  rw [h.hn, h.hseg, hp]
  simp only [Option.bind_eq_bind, Option.bind_some]
  rw [h.owns hr]
  simp only [Option.bind_some]
  by_cases ho : p % nrank = me
  · rw [if_pos (by simpa using ho)]
    rw [Arr.read_some (by rw [h.size]; exact hpp.1)]
    simp only [Option.bind_some]
    rw [if_neg (by omega), h.startId (by omega)]
    simp only [Option.bind_some]
    have e : ((w : Int) - (bnd n nseg p : Int)) = ((w - bnd n nseg p : Nat) : Int) := by omega
    obtain ⟨s', hs1, hs2, hs3, hs4, hs5, hs6, hs7⟩ := Segment.set_spec (h.seg p hpp.1) g
      (idx := w - bnd n nseg p) (by omega) (by omega) x
    obtain ⟨m1, m2⟩ := SpVec.modifySeg_spec h hpp.1 (f := fun s => s.set g (w - bnd n nseg p) x)
      (s' := s') (by rw [e]; exact hs1) hs2 hs4
    refine ⟨_, m1, m2, fun hne => absurd ho hne, ?_, ?_⟩
    · intro _
      refine ⟨by simpa using hs3, ?_⟩
      intro q i
      simp only
      by_cases e : q = p
      · subst e; rw [Arr.upd_get_self, hs7]; simp
      · rw [Arr.upd_get_ne _ _ e]; simp [e]
    · intro q hq; exact Arr.upd_get_ne _ _ hq
  · rw [if_neg (by simpa using ho)]
    exact ⟨v, rfl, h, fun _ => rfl, fun he => absurd he ho, fun _ _ => rfl⟩

theorem SpVec.unset_spec {n nseg nrank me : Nat} {v : SpVec α} (h : v.WF n nseg nrank me)
    (hr : 0 < nrank) (g : Fresh α) {w : Nat}
    {p : Nat} (hp : getPartition n nseg w = some p) :
    ∃ v', v.unset g w = some v' ∧ v'.WF n nseg nrank me ∧
      (p % nrank ≠ me → v' = v) ∧
      (p % nrank = me → (v'.segs.get p).Ready ∧
        ∀ q i, (v'.segs.get q).view i =
          if q = p ∧ i = w - bnd n nseg p - 1 then none else (v.segs.get q).view i) ∧
      (∀ q, q ≠ p → v'.segs.get q = v.segs.get q) := by
  have hpp := getPartition_some hp
  have hcap := h.cap p hpp.1
  unfold SpVec.unset
  rw [h.hn, h.hseg, hp]
  simp only [Option.bind_eq_bind, Option.bind_some]
  rw [h.owns hr]
  simp only [Option.bind_some]
  by_cases ho : p % nrank = me
  · rw [if_pos (by simpa using ho)]
    rw [Arr.read_some (by rw [h.size]; exact hpp.1)]
    simp only [Option.bind_some]
    rw [if_neg (by omega), h.startId (by omega)]
    simp only [Option.bind_some]
    have e : ((w : Int) - (bnd n nseg p : Int)) = ((w - bnd n nseg p : Nat) : Int) := by omega
    obtain ⟨s', hs1, hs2, hs3, hs4, hs5, hs6, hs7⟩ := Segment.unset_spec (h.seg p hpp.1) g
      (idx := w - bnd n nseg p) (by omega) (by omega)
    obtain ⟨m1, m2⟩ := SpVec.modifySeg_spec h hpp.1 (f := fun s => s.unset g (w - bnd n nseg p))
      (s' := s') (by rw [e]; exact hs1) hs2 hs4
    refine ⟨_, m1, m2, fun hne => absurd ho hne, ?_, ?_⟩
    · intro _
      refine ⟨by simpa using hs3, ?_⟩
      intro q i
      simp only
      by_cases e : q = p
      · subst e; rw [Arr.upd_get_self, hs7]; simp
      · rw [Arr.upd_get_ne _ _ e]; simp [e]
    · intro q hq; exact Arr.upd_get_ne _ _ hq
  · rw [if_neg (by simpa using ho)]
    exact ⟨v, rfl, h, fun _ => rfl, fun he => absurd he ho, fun _ _ => rfl⟩

/-- The loop over owned segments. -/
theorem SpVec.forSeg_spec {n nseg nrank me : Nat} {v : SpVec α} (h : v.WF n nseg nrank me)
    {O : Nat → SpVec α → Option Bool}
    (hO : ∀ j, j < nseg → ∀ w : SpVec α, w.WF n nseg nrank me → O j w = some (decide (j % nrank = me)))
    {f : Nat → Segment α → Option (Segment α)} {P : Nat → Segment α → Prop}
    (hf : ∀ p, p < nseg → p % nrank = me → ∃ s', f p (v.segs.get p) = some s' ∧ s'.WF ∧
      s'.capacity = (v.segs.get p).capacity ∧ P p s') :
    ∃ v', forLoop 0 nseg v (fun j v => (O j v).bind fun own =>
        if own = true then v.modifySeg j (f j) else some v) = some v' ∧ v'.WF n nseg nrank me ∧
      (∀ p, p < nseg → p % nrank = me → f p (v.segs.get p) = some (v'.segs.get p) ∧ P p (v'.segs.get p)) ∧
      (∀ p, p % nrank ≠ me → v'.segs.get p = v.segs.get p) := by
  obtain ⟨v', h1, h2, h3, h4, _⟩ := forLoop_inv (lo := 0) (hi := nseg) (s := v)
    (body := fun j v => (O j v).bind fun own =>
        if own = true then v.modifySeg j (f j) else some v)
    (fun k v' => v'.WF n nseg nrank me ∧
      (∀ p, p < k → p % nrank = me → f p (v.segs.get p) = some (v'.segs.get p) ∧ P p (v'.segs.get p)) ∧
      (∀ p, p % nrank ≠ me → v'.segs.get p = v.segs.get p) ∧
      (∀ p, k ≤ p → v'.segs.get p = v.segs.get p))
    (Nat.zero_le _) ⟨h, by intro p hp; omega, by intro p _; rfl, by intro p _; rfl⟩ (by
      intro i s _ hi ⟨w1, w2, w3, w4⟩
      rw [hO i hi s w1]
      simp only [Option.bind_some]
      by_cases ho : i % nrank = me
      · rw [if_pos (by simpa using ho)]
        obtain ⟨s', hs1, hs2, hs3, hs4⟩ := hf i hi ho
        have e := w4 i (Nat.le_refl _)
        obtain ⟨m1, m2⟩ := SpVec.modifySeg_spec w1 hi (f := f i) (s' := s') (by rw [e]; exact hs1) hs2
          (by rw [e]; exact hs3)
        refine ⟨_, m1, m2, ?_, ?_, ?_⟩
        · intro p hp hpm
          simp only
          by_cases ep : p = i
          · subst ep; rw [Arr.upd_get_self]; exact ⟨hs1, hs4⟩
          · rw [Arr.upd_get_ne _ _ ep]; exact w2 p (by omega) hpm
        · intro p hpm
          simp only
          rw [Arr.upd_get_ne _ _ (by intro e; subst e; exact hpm ho)]; exact w3 p hpm
        · intro p hp
          simp only
          rw [Arr.upd_get_ne _ _ (by omega)]; exact w4 p (by omega)
      · rw [if_neg (by simpa using ho)]
        refine ⟨s, rfl, w1, ?_, w3, fun p hp => w4 p (by omega)⟩
        intro p hp hpm
        exact w2 p (by
          rcases Nat.lt_or_ge p i with h | h
          · exact h
          · exfalso; exact ho (by have : p = i := by omega
                                  subst this; exact hpm)) hpm)
  exact ⟨v', h1, h2, h3, h4⟩

theorem SpVec.forOwned_spec {n nseg nrank me : Nat} {v : SpVec α} (h : v.WF n nseg nrank me)
    (hr : 0 < nrank) {f : Nat → Segment α → Option (Segment α)} {P : Nat → Segment α → Prop}
    (hf : ∀ p, p < nseg → p % nrank = me → ∃ s', f p (v.segs.get p) = some s' ∧ s'.WF ∧
      s'.capacity = (v.segs.get p).capacity ∧ P p s') :
    ∃ v', v.forOwned f = some v' ∧ v'.WF n nseg nrank me ∧
      (∀ p, p < nseg → p % nrank = me → f p (v.segs.get p) = some (v'.segs.get p) ∧ P p (v'.segs.get p)) ∧
      (∀ p, p % nrank ≠ me → v'.segs.get p = v.segs.get p) := by
  unfold SpVec.forOwned
  rw [h.hseg]
  exact SpVec.forSeg_spec h (fun j _ w hw => hw.owns hr j) hf

theorem SpVec.setAll_spec {n nseg nrank me : Nat} {v : SpVec α} (h : v.WF n nseg nrank me)
    (hr : 0 < nrank) (g : Nat → Fresh α) (x : α) :
    ∃ v', v.setAll g x = some v' ∧ v'.WF n nseg nrank me ∧
      (∀ p, p < nseg → p % nrank = me → (v'.segs.get p).Ready ∧
        ∀ i, (v'.segs.get p).view i =
          if i < bnd n nseg (p + 1) - bnd n nseg p then some x else none) ∧
      (∀ p, p % nrank ≠ me → v'.segs.get p = v.segs.get p) := by
  obtain ⟨v', h1, h2, h3, h4⟩ := SpVec.forOwned_spec h hr
    (f := fun j s => s.setAll (g j) x)
    (P := fun p s' => s'.Ready ∧ ∀ i, s'.view i =
          if i < bnd n nseg (p + 1) - bnd n nseg p then some x else none)
    (by
      intro p hp _
      obtain ⟨s', a1, a2, a3, a4, _, _, a5⟩ := Segment.setAll_spec (h.seg p hp) (g p) x
      refine ⟨s', a1, a2, a4, a3, ?_⟩
      intro i; rw [a5, h.cap p hp])
  exact ⟨v', h1, h2, fun p hp hpm => (h3 p hp hpm).2, h4⟩

theorem SpVec.get_spec {n nseg nrank me : Nat} {v : SpVec α} (h : v.WF n nseg nrank me)
    (hr : 0 < nrank) {w : Nat} {p : Nat} (hp : getPartition n nseg w = some p) :
    (p % nrank ≠ me → v.get w = some none) ∧
    (p % nrank = me → ∀ x, (v.segs.get p).view (w - bnd n nseg p - 1) = some x →
      v.get w = some (some x)) := by
  have hpp := getPartition_some hp
  unfold SpVec.get
  rw [h.hn, h.hseg, hp]
  simp only [Option.bind_eq_bind, Option.bind_some]
  rw [h.owns hr]
  simp only [Option.bind_some]
  constructor
  · intro ho; rw [if_neg (by simpa using ho)]
  · intro ho x hx
    rw [if_pos (by simpa using ho)]
    rw [Arr.read_some (by rw [h.size]; exact hpp.1)]
    simp only [Option.bind_some]
    rw [h.startId (by omega)]
    simp only [Option.bind_some]
    have e : ((w : Int) - (bnd n nseg p : Int)) = ((w - bnd n nseg p : Nat) : Int) := by omega
    rw [e, Segment.get_spec (h.seg p hpp.1) (by omega) hx]
    rfl

end GraphMat

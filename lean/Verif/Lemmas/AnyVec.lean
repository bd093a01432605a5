import Verif.Lemmas.Runtime
import Verif.Lemmas.FmtDcsr
import Verif.Model.History

/-! # A vector that has gone through calls of `set`, `unset`, `setAll` and `Clear` has no values in foreign copies. -/
namespace GraphMat

variable {α : Type}

theorem Segment.alloc_received (g : Fresh α) (s : Segment α) : (s.alloc g).received = s.received := by
  unfold Segment.alloc
  cases s.props <;> rfl

theorem Segment.initialize_received {s s' : Segment α} (h : s.initialize = some s') : s'.received = s.received := by
  unfold Segment.initialize at h
  simp only [Option.bind_eq_bind, Option.bind_eq_some_iff] at h
  obtain ⟨b, _, h⟩ := h
  split at h
  · simp only [Option.bind_eq_some_iff] at h
    obtain ⟨_, _, h⟩ := h
    injection h with h
    subst h
    rfl
  · injection h with h
    subst h
    rfl

theorem Segment.set_received {g : Fresh α} {i : Int} {x : α} {s s' : Segment α} (h : s.set g i x = some s') :
    s'.received = s.received := by
  unfold Segment.set at h
  simp only [Option.bind_eq_bind, Option.bind_eq_some_iff] at h
  obtain ⟨s1, h1, _, _, _, _, _, _, _, _, _, _, h⟩ := h
  injection h with h
  subst h
  exact (Segment.initialize_received h1).trans (Segment.alloc_received g s)

theorem Segment.unset_received {g : Fresh α} {i : Int} {s s' : Segment α} (h : s.unset g i = some s') :
    s'.received = s.received := by
  unfold Segment.unset at h
  simp only [Option.bind_eq_bind, Option.bind_eq_some_iff] at h
  obtain ⟨s1, h1, _, _, _, _, _, _, _, _, h⟩ := h
  injection h with h
  subst h
  exact (Segment.initialize_received h1).trans (Segment.alloc_received g s)

theorem Segment.setAll_received {g : Fresh α} {x : α} {s s' : Segment α} (h : s.setAll g x = some s') :
    s'.received = s.received := by
  unfold Segment.setAll at h
  simp only [Option.bind_eq_bind, Option.bind_eq_some_iff] at h
  obtain ⟨b, _, h⟩ := h
  split at h
  · injection h with h
    subst h
    exact Segment.alloc_received g s
  · simp only [Option.bind_eq_some_iff] at h
    obtain ⟨_, _, _, _, _, _, _, _, h⟩ := h
    injection h with h
    subst h
    exact Segment.alloc_received g s

/-- A call that changes owned segments only, and leaves no new received parts. -/
structure SpVec.Frame (v v' : SpVec α) : Prop where
  rank : v'.nrank = v.nrank
  me : v'.myrank = v.myrank
  own : ∀ p, (v.segs.get p).received = [] → (v'.segs.get p).received = []
  other : ∀ p, p % v.nrank ≠ v.myrank → v'.segs.get p = v.segs.get p

theorem SpVec.Frame.refl (v : SpVec α) : v.Frame v := ⟨rfl, rfl, fun _ h => h, fun _ _ => rfl⟩

theorem SpVec.Frame.trans {v v' v'' : SpVec α} (h : v.Frame v') (h' : v'.Frame v'') : v.Frame v'' :=
  ⟨h'.rank.trans h.rank, h'.me.trans h.me, fun p e => h'.own p (h.own p e),
    fun p e => (h'.other p (by rw [h.rank, h.me]; exact e)).trans (h.other p e)⟩

theorem SpVec.modifySeg_frame {v v' : SpVec α} {p : Nat} {f : Segment α → Option (Segment α)}
    (hf : ∀ s s', f s = some s' → s.received = [] → s'.received = []) (ho : p % v.nrank = v.myrank)
    (h : v.modifySeg p f = some v') : v.Frame v' := by
  unfold SpVec.modifySeg at h
  simp only [Option.bind_eq_bind, Option.bind_eq_some_iff] at h
  obtain ⟨s, h1, s', h2, segs, h3, h⟩ := h
  injection h with h
  subst h
  have hs : s = v.segs.get p := by
    unfold Arr.read at h1
    split at h1
    · injection h1 with h1; exact h1.symm
    · cases h1
  have hw : segs = v.segs.upd p s' := by
    unfold Arr.write at h3
    split at h3
    · injection h3 with h3; exact h3.symm
    · cases h3
  subst hs hw
  refine ⟨rfl, rfl, ?_, ?_⟩
  · intro q hq
    by_cases e : q = p
    · subst e
      simp only [Arr.upd_get_self]
      exact hf _ _ h2 hq
    · simp only [Arr.upd_get_ne _ _ e]
      exact hq
  · intro q hq
    have e : q ≠ p := by rintro rfl; exact hq ho
    simp only [Arr.upd_get_ne _ _ e]

theorem SpVec.owns_true {v : SpVec α} {p : Nat} (h : v.owns p = some true) : p % v.nrank = v.myrank := by
  unfold SpVec.owns segOwner vectorPartitionFn at h
  simp only [Option.bind_eq_bind, Option.bind_eq_some_iff] at h
  obtain ⟨o, h1, h⟩ := h
  split at h1
  · cases h1
  · injection h1 with h1
    injection h with h
    rw [h1]
    exact beq_iff_eq.mp h

theorem SpVec.forOwned_frame {v v' : SpVec α} {f : Nat → Segment α → Option (Segment α)}
    (hf : ∀ j s s', f j s = some s' → s.received = [] → s'.received = []) (h : v.forOwned f = some v') : v.Frame v' := by
  unfold SpVec.forOwned at h
  refine forLoop_some_inv (fun _ w => v.Frame w) (Nat.zero_le _) (.refl v) ?_ h
  intro i s s' _ _ hb hi
  simp only [Option.bind_eq_bind, Option.bind_eq_some_iff] at hb
  obtain ⟨o, h1, hb⟩ := hb
  cases o with
  | true =>
    rw [if_pos rfl] at hb
    exact hi.trans (SpVec.modifySeg_frame (hf i) (SpVec.owns_true h1) hb)
  | false =>
    rw [if_neg (by decide)] at hb
    injection hb with hb
    subst hb
    exact hi

theorem SpVec.set_frame {v v' : SpVec α} {g : Fresh α} {i : Int} {x : α} (h : v.set g i x = some v') : v.Frame v' := by
  unfold SpVec.set at h
  simp only [Option.bind_eq_bind, Option.bind_eq_some_iff] at h
  obtain ⟨p, _, o, h1, h⟩ := h
  cases o with
  | true =>
    rw [if_pos rfl] at h
    simp only [Option.bind_eq_some_iff] at h
    obtain ⟨s, _, h⟩ := h
    split at h
    · cases h
    · simp only [Option.bind_eq_some_iff] at h
      obtain ⟨_, _, h⟩ := h
      exact SpVec.modifySeg_frame (fun s s' e e' => (Segment.set_received e).trans e') (SpVec.owns_true h1) h
  | false =>
    rw [if_neg (by decide)] at h
    injection h with h
    subst h
    exact .refl v

theorem SpVec.unset_frame {v v' : SpVec α} {g : Fresh α} {i : Int} (h : v.unset g i = some v') : v.Frame v' := by
  unfold SpVec.unset at h
  simp only [Option.bind_eq_bind, Option.bind_eq_some_iff] at h
  obtain ⟨p, _, o, h1, h⟩ := h
  cases o with
  | true =>
    rw [if_pos rfl] at h
    simp only [Option.bind_eq_some_iff] at h
    obtain ⟨s, _, h⟩ := h
    split at h
    · cases h
    · simp only [Option.bind_eq_some_iff] at h
      obtain ⟨_, _, h⟩ := h
      exact SpVec.modifySeg_frame (fun s s' e e' => (Segment.unset_received e).trans e') (SpVec.owns_true h1) h
  | false =>
    rw [if_neg (by decide)] at h
    injection h with h
    subst h
    exact .refl v

theorem SpVec.setAll_frame {v v' : SpVec α} {g : Nat → Fresh α} {x : α} (h : v.setAll g x = some v') : v.Frame v' :=
  SpVec.forOwned_frame (fun _ _ _ e e' => (Segment.setAll_received e).trans e') h

theorem SpVec.clear_frame {v v' : SpVec α} (h : v.clear = some v') : v.Frame v' :=
  SpVec.forOwned_frame (fun _ _ _ e _ => by injection e with e; subst e; rfl) h

theorem DVec.frame_quiet {n nseg nrank : Nat} {d d' : DVec α} (hd : d.WF n nseg nrank) (hr : 0 < nrank)
    {f : Nat → SpVec α → Option (SpVec α)} (h : eachRank d f = some d')
    (hf : ∀ r v v', f r v = some v' → v.Frame v') (hq : d.Quiet nseg nrank) : d'.Quiet nseg nrank := by
  obtain ⟨_, e2⟩ := eachRank_some h
  rw [hd.size] at e2
  refine ⟨?_, ?_⟩
  · intro p hp
    have hm := Nat.mod_lt p hr
    exact (hf _ _ _ (e2 _ hm)).own p (hq.1 p hp)
  · intro r p hrr hp hne i
    have := (hf _ _ _ (e2 r hrr)).other p (by rw [(hd.rank r hrr).hrank, (hd.rank r hrr).hme]; exact hne)
    unfold DVec.cell
    simp only
    rw [this]
    exact hq.2 r p hrr hp hne i

/-- Every call on a vector keeps foreign copies without values. -/
theorem VecOp.exec_quiet {n nseg nrank : Nat} {d d' : DVec α} (hd : d.WF n nseg nrank) (hr : 0 < nrank)
    {g : Nat → Nat → Fresh α} {op : VecOp α} (h : op.exec g d = some d') (hq : d.Quiet nseg nrank) :
    d'.Quiet nseg nrank := by
  cases op with
  | set w x => exact DVec.frame_quiet hd hr h (fun _ _ _ => SpVec.set_frame) hq
  | unset w => exact DVec.frame_quiet hd hr h (fun _ _ _ => SpVec.unset_frame) hq
  | setAll x => exact DVec.frame_quiet hd hr h (fun _ _ _ => SpVec.setAll_frame) hq
  | clear => exact DVec.frame_quiet hd hr h (fun _ _ _ => SpVec.clear_frame) hq

end GraphMat

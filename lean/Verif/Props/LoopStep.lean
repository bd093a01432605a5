import Verif.Lemmas.LoopStep
import Verif.Props.LoopKernels
import Verif.Props.Schedule

/-!
# C67: the parallel loops of a superstep

The parallel loops of `my_spmspv` and `my_spmspv3` (DCSC tiles) and of the loop that applies the results have no data race
and one outcome, the one that the sequential model computes.  All arrays are in memory.  (C12 states the same for lists of
accesses to the arrays that are written.)
-/
namespace GraphMat

variable {E T U V : Type}

/-- `my_spmspv`: the partitions of a built tile consist of whole words of `ybit_vector`.  `vals` need not be the values that
the constructor has stored, e.g. after `applyToAllEdges`. -/
theorem dcsc_tasks {g : TileFresh E} {threads : Nat} (ht : 0 < threads) {sort : List (TEdge E) → List (TEdge E)}
    (hsort : SortsBy compareDcsc sort) {edges : List (Edge E)} {m n rs cs : Nat} (hin : ∀ e ∈ edges, InTile m n rs cs e)
    {t : Tile E} (hb : Tile.build g threads sort edges m n rs cs = some t) {vals : Arr E} {tmp : Nat → Nat → U}
    {mul : Nat → Nat → E → T → U → U} {add : U → U → U} {xv : Arr T} {xb : Arr Word} {st st' : Arr U × Arr Word}
    (h : { t with vals := vals }.spmspv tmp mul add xv xb st = some st') (vv : Arr V) (vb : Arr Word) :
    OneOutcome (parFor t.np (dcscC tmp mul add)) (arrMem (dcA { t with vals := vals } xv xb vv vb st))
      (arrMem (dcA { t with vals := vals } xv xb vv vb st')) (fun _ => ()) := by
  obtain ⟨t', P, h1, hP, _⟩ := Tile.build_spec g ht hsort hin
  rw [hb] at h1
  injection h1 with h1
  subst h1
  unfold Tile.spmspv Tile.walk at h
  refine parFor_outcome (own := fun p => dcOwn (fun r => t.rp.get p ≤ r ∧ r < t.rp.get (p + 1))) (shared := dcShared)
    (mem := fun st => arrMem (dcA { t with vals := vals } xv xb vv vb st)) (dcOwn_disjoint hP.rows_words)
    (fun i l _ => dcOwn_not_shared _ l) ?_ h
  intro p hp s s' hg
  exact dcscC_does (t := { t with vals := vals }) (hP.rowsIn hp) hg

/-- `my_spmspv3`. -/
theorem dcsc3_tasks {g : TileFresh E} {threads : Nat} (ht : 0 < threads) {sort : List (TEdge E) → List (TEdge E)}
    (hsort : SortsBy compareDcsc sort) {edges : List (Edge E)} {m n rs cs : Nat} (hin : ∀ e ∈ edges, InTile m n rs cs e)
    {t : Tile E} (hb : Tile.build g threads sort edges m n rs cs = some t) {vals : Arr E} {tmp : Nat → Nat → U}
    {mul : E → T → V → U → U} {add : U → U → U} {xv : Arr T} {xb : Arr Word} {vv : Arr V} {vb : Arr Word}
    {st st' : Arr U × Arr Word} (h : { t with vals := vals }.spmspv3 tmp mul add xv xb vv vb st = some st') :
    OneOutcome (parFor t.np (dcsc3C tmp mul add)) (arrMem (dcA { t with vals := vals } xv xb vv vb st))
      (arrMem (dcA { t with vals := vals } xv xb vv vb st')) (fun _ => ()) := by
  obtain ⟨t', P, h1, hP, _⟩ := Tile.build_spec g ht hsort hin
  rw [hb] at h1
  injection h1 with h1
  subst h1
  unfold Tile.spmspv3 Tile.walk at h
  refine parFor_outcome (own := fun p => dcOwn (fun r => t.rp.get p ≤ r ∧ r < t.rp.get (p + 1))) (shared := dcShared)
    (mem := fun st => arrMem (dcA { t with vals := vals } xv xb vv vb st)) (dcOwn_disjoint hP.rows_words)
    (fun i l _ => dcOwn_not_shared _ l) ?_ h
  intro p hp s s' hg
  exact dcsc3C_does (t := { t with vals := vals }) (hP.rowsIn hp) hg

/-- The loop that applies the results to one segment: every iteration has its own word.  However the iterations are divided
among the threads, `local_converged` becomes what the sequential model computes. -/
theorem update_tasks {gp : GProg T U V E} {sy : Segment U} {sv sv' : Segment V} {sa sa' : Segment Bool} {lc lc' : Bool}
    (h : applyOneSegment gp sy sv sa lc = some (sv', sa', lc')) :
    ∃ (by_ : Buffer U) (bv bv' : Buffer V) (ba ba' : Buffer Bool), sy.props = some by_ ∧ sv.props = some bv ∧
      sv'.props = some bv' ∧ sa.props = some ba ∧ sa'.props = some ba' ∧ ∃ res : Nat → Bool,
      OneOutcome (parForR true sy.numInts (updateC gp)) (arrMem (updA by_.value by_.bits (bv.value, ba.value, ba.bits, lc)))
        (arrMem (updA by_.value by_.bits (bv'.value, ba'.value, ba'.bits, lc'))) res ∧
      ∀ chunks, IsSplit sy.numInts chunks → lc' = (lc && redAnd res chunks) := by
  unfold applyOneSegment at h
  simp only [Option.bind_eq_bind, Option.bind_eq_some_iff, Option.some.injEq, Prod.mk.injEq] at h
  obtain ⟨by_, h1, bv, h2, ba, h3, ⟨vv', av', ab', lcx⟩, h4, rfl, rfl, rfl⟩ := h
  refine ⟨by_, bv, _, ba, _, h1, h2, rfl, h3, rfl, ?_⟩
  unfold scanBits at h4
  obtain ⟨res, o, st, s0, sn, rel⟩ := parForR_outcome_st (d := true) (body := updateC gp) (own := updOwn)
    (shared := updShared)
    (mem := fun st : Arr V × Arr Bool × Arr Word × Bool => arrMem (updA by_.value by_.bits st))
    (fun s s' a => s'.2.2.2 = (s.2.2.2 && a))
    (by
      rintro i j l _ _ (⟨_, a⟩ | ⟨a0, a⟩) (⟨b0, b⟩ | ⟨b0, b⟩)
      · omega
      · rename_i hh; rw [b0] at hh; rcases hh with hh | hh <;> cases hh
      · rw [a0] at b0; rcases b0 with hh | hh <;> cases hh
      · omega)
    (by
      rintro i l _ (⟨a | a, _⟩ | ⟨a, _⟩) (b | b) <;> rw [a] at b <;> cases b)
    (by
      intro p hp s s' hg
      simp only [Option.bind_eq_bind, Option.bind_eq_some_iff] at hg
      obtain ⟨w, g1, g2⟩ := hg
      obtain ⟨r, q, d⟩ := scanWordC_does (own := updOwn p) (shared := updShared)
        (mem := fun st => arrMem (updA by_.value by_.bits st)) (body := updateOneC gp)
        (fun st (r : Bool) => st.2.2.2 = (s.2.2.2 && r))
        (fun b hb s1 s2 r hq hf => updateOneC_does (i := p) (by omega) hq hf) 33 w s s' true (by simp) g2
      refine ⟨r, q, ?_⟩
      unfold updateC
      exact (Does.ld (k := UpdArr.yb) (Or.inr (Or.inr rfl)) (updA by_.value by_.bits s) g1).bind d) h4
  refine ⟨res, o, fun chunks hc => ?_⟩
  rw [redAnd_eq hc]
  have : ∀ k, k ≤ sy.numInts → (st k).2.2.2 = (lc && (List.range k).all res) := by
    intro k
    induction k with
    | zero => intro _; rw [s0]; simp
    | succ k ih =>
      intro hk
      rw [rel k (by omega), ih (by omega), List.range_succ, List.all_append]
      simp [Bool.and_assoc]
  have := this _ (Nat.le_refl _)
  rw [sn] at this
  exact this

/-! ### Cases that meet the hypotheses -/

example : ∃ (t : Tile Nat) (st st3 : Arr Nat × Arr Word), 1 < t.np ∧ st.1.get 0 = 400 ∧ st3.1.get 0 = 404 ∧
    OneOutcome (parFor t.np (dcscC (fun _ _ => 3) (fun _ _ e x _ => e * x) (· + ·) : Nat → DcCode Nat Nat Nat Nat Unit))
      (arrMem (dcA t (Arr.ofList 0 (List.replicate 17 1)) (Arr.ofList 0#32 [0xFFFFFFFF#32]) (Arr.ofList 0 [])
        (Arr.ofList 0#32 []) kerSampleY))
      (arrMem (dcA t (Arr.ofList 0 (List.replicate 17 1)) (Arr.ofList 0#32 [0xFFFFFFFF#32]) (Arr.ofList 0 [])
        (Arr.ofList 0#32 []) st)) (fun _ => ()) ∧
    OneOutcome (parFor t.np (dcsc3C (fun _ _ => 3) (fun e x v _ => e * x + v) (· + ·) : Nat → DcCode Nat Nat Nat Nat Unit))
      (arrMem (dcA t (Arr.ofList 0 (List.replicate 17 1)) (Arr.ofList 0#32 [0xFFFFFFFF#32])
        (Arr.ofList 0 (List.replicate 40 2)) (Arr.ofList 0#32 [0xFFFFFFFF#32, 0xFFFFFFFF#32]) kerSampleY))
      (arrMem (dcA t (Arr.ofList 0 (List.replicate 17 1)) (Arr.ofList 0#32 [0xFFFFFFFF#32])
        (Arr.ofList 0 (List.replicate 40 2)) (Arr.ofList 0#32 [0xFFFFFFFF#32, 0xFFFFFFFF#32]) st3)) (fun _ => ()) := by
  have h : ((Tile.build ⟨fun _ => 4, fun _ _ => 4⟩ 2 (insSort compareDcsc) fmtEdges 40 17 10 20).bind (fun t =>
      (t.spmspv (fun _ _ => 3) (fun _ _ e x _ => e * x) (· + ·) (Arr.ofList 0 (List.replicate 17 1))
        (Arr.ofList 0#32 [0xFFFFFFFF#32]) kerSampleY).bind (fun st =>
      (t.spmspv3 (fun _ _ => 3) (fun e x v _ => e * x + v) (· + ·) (Arr.ofList 0 (List.replicate 17 1))
        (Arr.ofList 0#32 [0xFFFFFFFF#32]) (Arr.ofList 0 (List.replicate 40 2))
        (Arr.ofList 0#32 [0xFFFFFFFF#32, 0xFFFFFFFF#32]) kerSampleY).map (fun st3 =>
      (decide (1 < t.np), st.1.get 0, st3.1.get 0))))) = some (true, 400, 404) := by
    decide +kernel
  rw [Option.bind_eq_some_iff] at h
  obtain ⟨t, h1, h⟩ := h
  rw [Option.bind_eq_some_iff] at h
  obtain ⟨st, h2, h⟩ := h
  rw [Option.map_eq_some_iff] at h
  obtain ⟨st3, h3, h4⟩ := h
  injection h4 with h4 h5
  injection h5 with h5 h6
  exact ⟨t, st, st3, of_decide_eq_true h4, h5, h6,
    dcsc_tasks (by decide) insSort_dcsc fmtEdges_in h1 (vals := t.vals) h2 _ _,
    dcsc3_tasks (by decide) insSort_dcsc fmtEdges_in h1 (vals := t.vals) h3⟩

/-- Segments of 40 vertices of which 3, 5, 35 and 37 received a message. -/
example : ∃ r, applyOneSegment sampleAdder (sampleSegment id 40#32) (sampleSegment id 255#32)
    (sampleSegment (fun _ => false) 0#32) true = some r ∧ r.2.2 = false ∧ (sampleSegment id 40#32).numInts = 2 ∧
    ∃ res : Nat → Bool, ∀ chunks, IsSplit 2 chunks → redAnd res chunks = false := by
  have h : ((applyOneSegment sampleAdder (sampleSegment id 40#32) (sampleSegment id 255#32)
    (sampleSegment (fun _ => false) 0#32) true).map (fun r => r.2.2)) = some false := by decide +kernel
  rw [Option.map_eq_some_iff] at h
  obtain ⟨⟨sv, sa, lc⟩, h1, rfl⟩ := h
  obtain ⟨_, _, _, _, _, _, _, _, _, _, res, _, h2⟩ := update_tasks h1
  refine ⟨_, h1, rfl, rfl, res, fun chunks hc => ?_⟩
  have := h2 chunks hc
  simpa using this.symm

end GraphMat

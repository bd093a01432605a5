import Verif.Lemmas.VecSnapshot
import Verif.Props.Vertex
import Verif.Spec.Samples

/-!
# Archives of a vector (C59)
-/
namespace GraphMat

variable {α : Type}

/-! ### What can be read from a vector that was saved and loaded -/

theorem getBitvector_reload (i : Nat) (a : Arr Word) (g : Nat → Word) :
    getBitvector i (a.reload g) = getBitvector i a := by
  unfold getBitvector
  simp only [Arr.reload_read]

theorem Segment.reload_get (s : Segment α) (g : Nat → Nat → Fresh α) (i : Int) : (s.reload g).get i = s.get i := by
  unfold Segment.get Segment.reload
  cases s.props with
  | none => rfl
  | some b =>
    simp only [Option.map_some, Option.bind_eq_bind, Option.bind_some, Buffer.reload, Arr.reload_read]

theorem Segment.reload_computeNnz (s : Segment α) (g : Nat → Nat → Fresh α) :
    (s.reload g).computeNnz = s.computeNnz := by
  unfold Segment.computeNnz Segment.reload
  cases s.props with
  | none => rfl
  | some b =>
    simp only [Option.map_some]
    unfold Buffer.computeNnz Buffer.computeNnzRange Buffer.reload
    simp only [Arr.reload_read]
    rfl

theorem Segment.reload_getEdges (s : Segment α) (g : Nat → Nat → Fresh α) (k : Nat) :
    (s.reload g).getEdges k = s.getEdges k := by
  unfold Segment.getEdges Segment.reload
  cases s.props with
  | none => rfl
  | some b =>
    simp only [Option.map_some, Option.bind_eq_bind, Option.bind_some, Buffer.reload, getBitvector_reload, Arr.reload_read]

theorem Segment.reload_save (s : Segment α) (g : Nat → Nat → Fresh α) (k m : Nat) (hd : Bool) :
    (s.reload g).save k m hd = s.save k m hd := by
  unfold Segment.save
  rw [Segment.reload_computeNnz]
  unfold Segment.reload
  cases s.props with
  | none => rfl
  | some b =>
    simp only [Option.map_some, Option.bind_eq_bind, Option.bind_some, Buffer.reload, getBitvector_reload, Arr.reload_read]

theorem SpVec.WF.reload_read {n nseg nrank me : Nat} {v : SpVec α} (h : v.WF n nseg nrank me)
    (g : Nat → Nat → Nat → Fresh α) (j : Nat) :
    (v.reload g).segs.read j = (v.segs.read j).map (fun s => s.reload (g j)) := by
  unfold Arr.read SpVec.reload
  simp only [h.size, h.hseg]
  by_cases hj : j < nseg
  · simp [hj]
  · simp [hj]

/-- All reads give the same. -/
theorem SpVec.WF.reload_reads {n nseg nrank me : Nat} {v : SpVec α} (h : v.WF n nseg nrank me)
    (g : Nat → Nat → Nat → Fresh α) :
    (∀ w, (v.reload g).get w = v.get w) ∧ (v.reload g).localNNZ = v.localNNZ ∧ (v.reload g).getEdges = v.getEdges ∧
      ∀ hd, (v.reload g).save hd = v.save hd := by
  have ho : ∀ j, (v.reload g).owns j = v.owns j := fun _ => rfl
  have hst : ∀ j, (v.reload g).startId j = v.startId j := fun _ => rfl
  have hseg : (v.reload g).nseg = v.nseg := rfl
  have hn : (v.reload g).n = v.n := rfl
  have hnnz : (v.reload g).localNNZ = v.localNNZ := by
    unfold SpVec.localNNZ
    rw [hseg]
    apply forLoop_congr
    intro i s _ _
    rw [ho, h.reload_read]
    cases v.segs.read i with
    | none => rfl
    | some x => simp only [Option.map_some, Option.bind_eq_bind, Option.bind_some, Segment.reload_computeNnz]
  refine ⟨?_, hnnz, ?_, ?_⟩
  · intro w
    unfold SpVec.get
    rw [hn, hseg]
    simp only [ho, hst, h.reload_read]
    cases getPartition v.n v.nseg w with
    | none => rfl
    | some p =>
      simp only [Option.bind_eq_bind, Option.bind_some]
      cases v.segs.read p with
      | none => rfl
      | some x => simp only [Option.map_some, Option.bind_some, Segment.reload_get]
  · unfold SpVec.getEdges
    rw [hnnz, hseg]
    congr 1
    funext k
    by_cases hk : k > 0
    · rw [if_pos hk, if_pos hk]
      congr 1
      apply forLoop_congr
      intro i s _ _
      rw [ho, hst, h.reload_read]
      cases v.segs.read i with
      | none => rfl
      | some x => simp only [Option.map_some, Option.bind_eq_bind, Option.bind_some, Segment.reload_getEdges]
    · rw [if_neg hk, if_neg hk]
  · intro hd
    unfold SpVec.save
    rw [hseg]
    apply forLoop_congr
    intro i s _ _
    rw [ho, hst, h.reload_read, hn]
    cases v.segs.read i with
    | none => rfl
    | some x => simp only [Option.map_some, Option.bind_eq_bind, Option.bind_some, Segment.reload_save]

/-! ### Histories of calls -/

/-- A history of calls on a vector, the call number `k` finding memory contents `g k`. -/
def runVec (g : Nat → Nat → Nat → Fresh α) (ops : List (VecOp α)) (d : DVec α) : Option (DVec α) :=
  ops.zipIdx.foldlM (fun d (op : VecOp α × Nat) => op.1.exec (g op.2) d) d

/-- What a history does to the map a vector holds. -/
def specVec (ops : List (VecOp α)) (m : Nat → Option α) : Nat → Option α := ops.foldl (fun m op => op.spec m) m

theorem runVec_spec {n nseg nrank : Nat} (hs : 0 < nseg) (hr : 0 < nrank) (g : Nat → Nat → Nat → Fresh α)
    (ops : List (VecOp α)) (hops : ∀ op ∈ ops, op.Valid n) {d : DVec α} {m : Nat → Option α} (hd : d.WF n nseg nrank)
    (hm : ∀ w, 1 ≤ w → w ≤ n → d.sem n nseg nrank w = m w) :
    ∃ d', runVec g ops d = some d' ∧ DVec.WF n nseg nrank d' ∧
      ∀ w, 1 ≤ w → w ≤ n → DVec.sem n nseg nrank d' w = specVec ops m w := by
  have key : ∀ (ops : List (VecOp α)), (∀ op ∈ ops, op.Valid n) → ∀ (k : Nat) (d : DVec α)
      (m : Nat → Option α), DVec.WF n nseg nrank d →
      (∀ w, 1 ≤ w → w ≤ n → DVec.sem n nseg nrank d w = m w) →
      ∃ d', (ops.zipIdx k).foldlM (fun d (op : VecOp α × Nat) => op.1.exec (g op.2) d) d = some d' ∧
        DVec.WF n nseg nrank d' ∧
        ∀ w, 1 ≤ w → w ≤ n →
          DVec.sem n nseg nrank d' w = ops.foldl (fun m op => op.spec m) m w := by
    intro ops
    induction ops with
    | nil => intro _ k d m hd hm; exact ⟨d, rfl, hd, hm⟩
    | cons op ops ih =>
      intro hv k d m hd hm
      obtain ⟨d1, b1, b2, b3⟩ := VecOp.exec_spec hs hr (g k) op (hv op List.mem_cons_self) hd hm
      obtain ⟨d2, e1, e2, e3⟩ := ih (fun o ho => hv o (List.mem_cons_of_mem _ ho)) (k + 1) d1 _ b2 b3
      refine ⟨d2, ?_, e2, e3⟩
      rw [List.zipIdx_cons, List.foldlM_cons, b1]
      exact e1
  exact key ops hops 0 d m hd hm

/-- C59: make a vector, execute any history `ops` of `set`/`unset`/`setAll`/`Clear`, save the part of every rank to an
archive and load it into a default-constructed vector (new arrays may contain anything).  This succeeds, and everything
one can read from the loaded vector on any rank (`get` of every index, `get_edges`, the text files of `save`, the number
of entries) is what one reads from the original.  Any further history `more` of calls on the loaded vector then gives the
vector that the two histories describe: `getNNZ` counts its entries, and `get` on the rank that owns an index with a
value gives that value. -/
theorem vector_archive_roundtrip {n nseg nrank : Nat} (hs : 0 < nseg) (hr : 0 < nrank)
    (g g' : Nat → Nat → Nat → Fresh α) (gl : Nat → Nat → Nat → Nat → Fresh α) (ops more : List (VecOp α))
    (hops : ∀ op ∈ ops, op.Valid n) (hmore : ∀ op ∈ more, op.Valid n) :
    ∃ d0 d loaded final, DVec.new n nseg nrank = some d0 ∧ runVec g ops d0 = some d ∧
      d.throughArchive gl = some loaded ∧
      (∀ r, r < nrank → (∀ w, (loaded.get r).get w = (d.get r).get w) ∧ (loaded.get r).localNNZ = (d.get r).localNNZ ∧
        (loaded.get r).getEdges = (d.get r).getEdges ∧ ∀ hd, (loaded.get r).save hd = (d.get r).save hd) ∧
      runVec g' more loaded = some final ∧
      final.getNNZ = some ((List.range n).countP
        (fun j => (specVec (ops ++ more) (fun _ => none) (j + 1)).isSome)) ∧
      ∀ w x, 1 ≤ w → w ≤ n → specVec (ops ++ more) (fun _ => none) w = some x →
        ∃ p, getPartition n nseg w = some p ∧ (final.get (p % nrank)).get w = some (some x) := by
  obtain ⟨d0, a1, a2, a3⟩ := DVec.new_spec (α := α) n nseg nrank hs
  have h0 : ∀ w, 1 ≤ w → w ≤ n → d0.sem n nseg nrank w = (fun _ => none : Nat → Option α) w := by
    intro w h1 h2
    obtain ⟨p, hp, hlt, _⟩ := locate hs h1 h2
    rw [DVec.sem_of hp]
    unfold DVec.own
    rw [a3 _ _ (Nat.mod_lt _ hr) hlt, Segment.new_view]
  obtain ⟨d, b1, b2, b3⟩ := runVec_spec hs hr g ops hops a2 h0
  obtain ⟨l, c1, c2, c3, c4⟩ := DVec.throughArchive_spec b2 hr gl
  obtain ⟨f, e1, e2, e3⟩ := runVec_spec hs hr g' more hmore (m := specVec ops (fun _ => none)) c2 (by
    intro w h1 h2
    rw [c4, b3 w h1 h2])
  have hsp : ∀ w, specVec (ops ++ more) (fun _ => none) w = specVec more (specVec ops (fun _ => none)) w := by
    intro w
    unfold specVec
    rw [List.foldl_append]
  refine ⟨d0, d, l, f, a1, b1, c1, ?_, e1, ?_, ?_⟩
  · intro r hr'
    rw [c3 r hr']
    exact (b2.rank r hr').reload_reads (gl r)
  · rw [DVec.getNNZ_spec e2 hs hr]
    congr 1
    apply List.countP_congr
    intro j hj
    have := List.mem_range.mp hj
    rw [e3 (j + 1) (by omega) (by omega), hsp]
  · intro w x h1 h2 hx
    obtain ⟨p, hp, hlt, _⟩ := locate hs h1 h2
    refine ⟨p, hp, ?_⟩
    have hsem := e3 w h1 h2
    rw [DVec.sem_of hp, ← hsp, hx] at hsem
    exact (SpVec.get_spec (e2.rank _ (Nat.mod_lt _ hr)) hr hp).2 rfl x hsem

/-- The calls of /repo/test/test_vector_serialization.cpp:50-53, 91-94 on two ranks: entries in both segments, one of
which is on another rank than the other. -/
def sampleVecOps : List (VecOp Nat) := [.set 1 1, .set 10 2, .set 200 3, .set 300 4]

example : (∀ op ∈ sampleVecOps, op.Valid 1000) ∧ (∀ op ∈ ([.setAll 2] : List (VecOp Nat)), op.Valid 1000) ∧
    specVec sampleVecOps (fun _ => none) 300 = some 4 ∧ specVec (sampleVecOps ++ [.setAll 2]) (fun _ => none) 77 = some 2 := by
  refine ⟨?_, ?_, by decide, by decide⟩
  · intro op h
    simp [sampleVecOps] at h
    rcases h with rfl | rfl | rfl | rfl <;> simp [VecOp.Valid]
  · intro op h
    simp at h
    subst h
    trivial

/-- A small vector executed: saved, loaded into memory with other contents, read, and cleared. -/
example : ((DVec.new 40 1 1).bind (fun d => (runVec (fun _ _ _ => Fresh.sample 7) [.set 3 5, .set 34 6] d).bind (fun d =>
      (d.throughArchive (fun _ _ _ _ => Fresh.sample 8)).bind (fun d => (d.getNNZ).map (fun k =>
        (k, (d.get 0).get 3, (d.get 0).get 34)))))) = some (2, some (some 5), some (some 6)) := by
  decide +kernel

end GraphMat

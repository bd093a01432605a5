import Verif.Lemmas.VecMem

/-!
# C62: vectors release their memory exactly once, and receiving does not make it grow
-/
namespace GraphMat

/-! ### Memory comes back -/

/-- Whatever a rank does with vectors — creating, loading from archives, writing, reading, sending, receiving and deleting, in any
order and any number — nothing is followed or released that is not live, everything is released with the function that belongs
to its allocation, the partition arrays are not overrun, and at the end nothing is left.  Missing: messages made with more
partitions (16 for each thread of the sender) than there are here or were in the archives; for those it is false,
`message_overrun`. -/
theorem vector_memory_partial (threads parts : Nat) (ops : List VecStep) (hparts : parts ≤ threads * 16)
    (hops : ∀ op ∈ ops, op.Fits parts) : Balanced (vecLives threads ops) := by
  refine Runs.balanced (fun L => ?_)
  refine (vecSteps_runs hparts ops hops [] (by simp) L).bind ?_
  rintro vs X ⟨hg, hX⟩
  exact (deleteVecs_runs vs hg L).perm hX

/-- a program with two vectors on a rank with four threads; other ranks have two threads, the archive is from a rank with three -/
def vecDemo : List VecStep :=
  [.new [true, false], .restore [(false, true), (true, true)] 48, .setAll 0, .act 1 0 .write, .act 1 0 (.ship .serialized),
   .act 0 1 (.fetch .serialized 32), .act 1 1 (.collect [(.serialized, 32), (.compressed, 32), (.dense, 16)]), .edges 1 5,
   .act 1 1 .clear, .act 1 1 (.collect [(.dense, 32)]), .delete 0, .new [true], .edges 0 0]

example : Balanced (vecLives 4 vecDemo) := vector_memory_partial 4 32 _ (by decide) (by
  simp [vecDemo, VecStep.Fits, SegAct.Fits]
  omega)
/-- while the vectors exist there are blocks -/
example : ((runVecSteps 4 vecDemo []) ⟨0, []⟩).map (fun x => x.2.live.length) = some 45 := by decide +kernel
example : ((vecLives 4 vecDemo) ⟨0, []⟩).map (fun x => x.2.live.length) = some 0 := by decide +kernel

/-! ### Memory does not grow -/

/-- The number of buffers of a segment is decided by whether it was ever written and by the largest number of messages that were
received at once: eight blocks for each. -/
theorem segment_pool (threads : Nat) (acts : List SegAct) (hacts : ∀ a ∈ acts, a.Fits (threads * 16)) (h : Heap) (hh : h.Ok) :
    ∃ s h', (newSeg >>= fun s => runSegActs threads acts s.2) h = some (s, h') ∧
      h'.live.length = h.live.length + 1 +
        8 * ((if acts.any SegAct.allocates then 1 else 0) + (acts.map SegAct.load).foldl max 0) := by
  have key : Runs (newSeg >>= fun s => runSegActs threads acts s.2) h.live (fun _ X => X.length = h.live.length + 1 +
        8 * ((if acts.any SegAct.allocates then 1 else 0) + (acts.map SegAct.load).foldl max 0)) := by
    refine (newSeg_runs (threads * 16) _).bind ?_
    rintro s _ ⟨hs, he, hi, rfl⟩
    have hz : own .newObj s.1 ++ h.live = s.2.blocks ++ (own .newObj s.1 ++ h.live) := by
      rw [he]
      rfl
    rw [hz]
    refine (runSegActs_runs (Nat.le_refl _) acts hacts s.2 hi _).mono ?_
    rintro r X ⟨hr, hX, e1, e2⟩
    rw [hX.length_eq, List.length_append, hr.length, e1, e2, List.length_append, own_length hs, he]
    simp only [Option.isSome_none, Bool.false_or, List.length_nil, List.foldl_map]
    omega
  obtain ⟨s, h', X, e, hX, hl⟩ := key h ⟨hh, List.Perm.refl _⟩
  exact ⟨s, h', e, by rw [hX.2.length_eq, hl]⟩

/-- a segment that is written and shipped, and gets two and then three messages -/
def segDemo : List SegAct :=
  [.write, .ship .compressed, .collect [(.serialized, 16), (.dense, 32)], .clear,
   .collect [(.dense, 32), (.compressed, 5), (.serialized, 32)], .read]

example : ∀ a ∈ segDemo, a.Fits (2 * 16) := by
  simp [segDemo, SegAct.Fits]
  constructor <;> omega
example : ((newSeg >>= fun s => runSegActs 2 segDemo s.2) ⟨0, []⟩).map (fun x => x.2.live.length) = some 33 := by decide +kernel

private theorem foldl_max_le : ∀ (l : List Nat) (m : Nat), m ≤ l.foldl max m := by
  intro l
  induction l with
  | nil => intro m; exact Nat.le_refl m
  | cons a l ih => intro m; exact Nat.le_trans (Nat.le_max_left m a) (ih _)

private theorem foldl_max_mem : ∀ (l : List Nat) (m : Nat), ∀ x ∈ l, x ≤ l.foldl max m := by
  intro l
  induction l with
  | nil => intro m x hx; cases hx
  | cons a l ih =>
    intro m x hx
    rcases List.mem_cons.1 hx with rfl | hx
    · exact Nat.le_trans (Nat.le_max_right m x) (foldl_max_le l _)
    · exact ih _ x hx

private theorem foldl_max_bound : ∀ (l : List Nat) (m b : Nat), m ≤ b → (∀ x ∈ l, x ≤ b) → l.foldl max m ≤ b := by
  intro l
  induction l with
  | nil => intro m b hm _; exact hm
  | cons a l ih =>
    intro m b hm hl
    exact ih _ b (Nat.max_le.2 ⟨hm, hl a List.mem_cons_self⟩) (fun x hx => hl x (List.mem_cons_of_mem _ hx))

/-- Doing the same again, any number of times, needs no more memory than doing it once. -/
theorem supersteps_bounded (threads n : Nat) (acts : List SegAct) (hacts : ∀ a ∈ acts, a.Fits (threads * 16)) (h : Heap) (hh : h.Ok) :
    ∃ s h' s1 h1, (newSeg >>= fun s => runSegActs threads (List.replicate (n + 1) acts).flatten s.2) h = some (s, h') ∧
      (newSeg >>= fun s => runSegActs threads acts s.2) h = some (s1, h1) ∧ h'.live.length = h1.live.length := by
  have hmem : ∀ a, a ∈ (List.replicate (n + 1) acts).flatten ↔ a ∈ acts := by
    intro a
    simp
  obtain ⟨s, h', e, hl⟩ := segment_pool threads (List.replicate (n + 1) acts).flatten
    (fun a ha => hacts a ((hmem a).1 ha)) h hh
  obtain ⟨s1, h1, e1, hl1⟩ := segment_pool threads acts hacts h hh
  refine ⟨s, h', s1, h1, e, e1, ?_⟩
  rw [hl, hl1]
  have ha : (List.replicate (n + 1) acts).flatten.any SegAct.allocates = acts.any SegAct.allocates := by
    rw [Bool.eq_iff_iff, List.any_eq_true, List.any_eq_true]
    simp only [hmem]
  have hb : ((List.replicate (n + 1) acts).flatten.map SegAct.load).foldl max 0 = (acts.map SegAct.load).foldl max 0 := by
    refine Nat.le_antisymm ?_ ?_
    · refine foldl_max_bound _ _ _ (Nat.zero_le _) ?_
      intro x hx
      obtain ⟨a, ha, rfl⟩ := List.mem_map.1 hx
      exact foldl_max_mem _ _ _ (List.mem_map.2 ⟨a, (hmem a).1 ha, rfl⟩)
    · refine foldl_max_bound _ _ _ (Nat.zero_le _) ?_
      intro x hx
      obtain ⟨a, ha, rfl⟩ := List.mem_map.1 hx
      exact foldl_max_mem _ _ _ (List.mem_map.2 ⟨a, (hmem a).2 ha, rfl⟩)
  rw [ha, hb]

example : ((newSeg >>= fun s => runSegActs 2 (segDemo ++ (segDemo ++ segDemo)) s.2) ⟨0, []⟩).map (fun x => x.2.live.length) =
    some 33 := by decide +kernel

/-! ### What goes wrong -/

private theorem scans_fails {b : BufMem} (hb : ∀ p ∈ b.ptrs, IsBlock p) (hk : b.room < b.parts) {L : List (Nat × Alloc)}
    (hL : ∀ x ∈ b.blocks, x ∈ L) : Fails b.scans L := by
  have ht : ∀ p ∈ b.ptrs, Runs (touch p) L (fun _ X => X = L) := fun p hp =>
    runs_touch_mem (k := .newArr) (hb p hp) (fun x hx => hL x (BufMem.own_mem hp x hx))
  unfold BufMem.scans
  refine (ht _ (by simp [BufMem.ptrs])).fails ?_
  rintro _ _ rfl
  refine (ht _ (by simp [BufMem.ptrs])).fails ?_
  rintro _ _ rfl
  rw [if_neg (Nat.not_le.2 hk)]
  exact fun _ _ => rfl

private theorem recv_fails {b : BufMem} (hb : ∀ p ∈ b.ptrs, IsBlock p) {k : Nat} (hk : b.room < k) (L : List (Nat × Alloc)) :
    Fails (b.recv .serialized k) (b.blocks ++ L) := by
  unfold BufMem.recv
  dsimp only
  refine (BufMem.allocSerialized_runs (b := { b with parts := k, kind := .serialized }) hb L).fails ?_
  rintro d X ⟨⟨p, hp, rfl⟩, hX⟩
  have hd : ∀ q ∈ ({ b with parts := k, kind := .serialized, sdata := p } : BufMem).ptrs, IsBlock q := by
    intro q hq
    simp only [BufMem.ptrs, List.mem_cons, List.not_mem_nil, or_false] at hq
    rcases hq with rfl | rfl | rfl | rfl | rfl | rfl | rfl
    · exact hb _ (by simp [BufMem.ptrs])
    · exact hb _ (by simp [BufMem.ptrs])
    · exact hb _ (by simp [BufMem.ptrs])
    · exact hb _ (by simp [BufMem.ptrs])
    · exact hp
    · exact hb _ (by simp [BufMem.ptrs])
    · exact hb _ (by simp [BufMem.ptrs])
  have hin : ∀ x ∈ ({ b with parts := k, kind := .serialized, sdata := p } : BufMem).blocks, x ∈ X :=
    fun x hx => hX.mem_iff.2 (List.mem_append_left _ hx)
  refine Runs.fails (Q := fun _ Y => Y = X) (runs_touch_mem (k := .newArr) hp
    (fun x hx => hin x (BufMem.own_mem (by simp [BufMem.ptrs]) x hx))) ?_
  rintro _ _ rfl
  exact (scans_fails hd hk hin).bind

private theorem newBuf_room (threads : Nat) (L : List (Nat × Alloc)) : Runs (newBuf threads) L (fun b X =>
    b.2.room = threads * 16 ∧ BufGood (threads * 16) b ∧ X.Perm (bufBlocks b ++ L)) := by
  intro g hg
  obtain ⟨b, g', X, e, hX, hb, hpX⟩ := newBuf_runs (N := threads * 16) (Nat.le_refl _) _ g hg
  have hstep : ∀ x : (Ptr × BufMem) × Heap, newBuf threads g = some x → x.1.2.room = threads * 16 := by
    intro x hx
    cases hx
    rfl
  exact ⟨b, g', X, e, hX, hstep _ e, hb, hpX⟩

/-- A serialized message made with more partitions than there are here overruns the partition arrays of the receiver: a rank with
more threads cannot send to one with fewer. -/
theorem message_overrun (threads parts : Nat) (hparts : threads * 16 < parts) (h : Heap) (hh : h.Ok) :
    (newSeg >>= fun s => runSegActs threads [.fetch .serialized parts] s.2) h = none := by
  refine (?_ : Fails _ h.live) h ⟨hh, List.Perm.refl _⟩
  refine (newSeg_runs (threads * 16) _).fails ?_
  rintro s _ ⟨hs, he, hi, rfl⟩
  refine Fails.bind ?_
  rw [he]
  show Fails ((newBuf threads >>= fun b => pure ((⟨some b, [], [], []⟩ : SegMem), b)) >>= _ >>= _) _
  rw [bind_assoc, bind_assoc]
  refine (newBuf_room threads _).fails ?_
  rintro b X ⟨hroom, hb, hpX⟩
  have hperm : X.Perm (b.2.blocks ++ (own .newObj b.1 ++ (own .newObj s.1 ++ h.live))) := by
    refine hpX.trans ?_
    unfold bufBlocks
    perm_parts
  simp only [pure_bind]
  refine Fails.bind ?_
  show Fails (touch b.1 >>= fun _ => b.2.recv .serialized parts >>= fun c => pure _) X
  refine (ptr_touch (k := .newObj) hb.1 (fun x hx => hperm.mem_iff.2 (by simp only [List.mem_append]; tauto))).fails ?_
  rintro _ _ rfl
  refine Fails.bind ?_
  have hf := recv_fails hb.2.ptr (k := parts) (by rw [hroom]; exact hparts) (own .newObj b.1 ++ (own .newObj s.1 ++ h.live))
  exact fun q hq => hf q ⟨hq.1, hq.2.trans hperm⟩

/-- two threads here, three at the sender -/
example : (newSeg >>= fun s => runSegActs 2 [.fetch .serialized 48] s.2) ⟨0, []⟩ |>.isNone := by decide +kernel
/-- the same for contributions from other ranks -/
example : (newSeg >>= fun s => runSegActs 2 [.collect [(.serialized, 32), (.serialized, 48)]] s.2) ⟨0, []⟩ |>.isNone := by
  decide +kernel
/-- and for a vector from an archive, if the threads have become more since -/
example : ((vecLives 3 [.restore [(false, true)] 32, .act 0 0 (.fetch .serialized 48)]) ⟨0, []⟩).isNone := by decide +kernel
/-- compressed and dense messages do not use the arrays -/
example : ((vecLives 2 [.new [false], .act 0 0 (.fetch .dense 48), .act 0 0 (.fetch .compressed 64)]) ⟨0, []⟩).isSome := by
  decide +kernel

/-- `ingestEdgelist` forgets memory: one block on every rank, three on a rank that gets no edges. -/
theorem ingest_leak (threads nrank k : Nat) (hit : Nat → Bool) (mine : List Bool) (h : Heap) (hh : h.Ok) :
    ∃ h', (newVec mine >>= fun v => vecIngest threads nrank k hit v >>= deleteVec) h = some ((), h') ∧
      h'.live.length = h.live.length + if 0 < k then 1 else 3 := by
  have key : Runs (newVec mine >>= fun v => vecIngest threads nrank k hit v >>= deleteVec) h.live (fun _ X =>
      X.length = h.live.length + if 0 < k then 1 else 3) := by
    refine (newVec_runs (threads * 16) mine _).bind ?_
    rintro v X ⟨hv, hX⟩
    refine ((vecIngest_runs (Nat.le_refl _) nrank k hit hv _).perm hX).bind ?_
    rintro w Y ⟨hw, M, hY, hM⟩
    refine ((deleteVec_runs hw _).perm hY).mono ?_
    intro _ Z hZ
    rw [hZ.length_eq, List.length_append, hM]
    omega
  obtain ⟨u, h', X, e, hX, hl⟩ := key h ⟨hh, List.Perm.refl _⟩
  exact ⟨h', e, by rw [hX.2.length_eq, hl]⟩

example : ((newVec [true, false] >>= fun v => vecIngest 2 2 7 (fun i => i == 0) v >>= deleteVec) ⟨0, []⟩).map
    (fun x => x.2.live.length) = some 1 := by decide +kernel
example : ((newVec [true, false] >>= fun v => vecIngest 2 2 0 (fun _ => false) v >>= deleteVec) ⟨0, []⟩).map
    (fun x => x.2.live.length) = some 3 := by decide +kernel

end GraphMat

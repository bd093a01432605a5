import Verif.Spec.VecLife
import Verif.Lemmas.HybridMem

namespace GraphMat

/-- the arrays of a buffer -/
def BufMem.ptrs (b : BufMem) : List Ptr := [b.value, b.bits, b.cdata, b.cidx, b.sdata, b.nbytes, b.nnzs]

/-- the blocks of the arrays of a buffer -/
def BufMem.blocks (b : BufMem) : List (Nat × Alloc) :=
  own .newArr b.value ++ (own .newArr b.bits ++ (own .newArr b.cdata ++ (own .newArr b.cidx ++ (own .newArr b.sdata ++
    (own .newArr b.nbytes ++ own .newArr b.nnzs)))))

/-- the arrays exist and have room for the partitions there are, and for `N` -/
structure BufMem.Good (N : Nat) (b : BufMem) : Prop where
  ptr : ∀ p ∈ b.ptrs, IsBlock p
  parts : b.parts ≤ b.room
  room : N ≤ b.room

def bufBlocks (b : Ptr × BufMem) : List (Nat × Alloc) := own .newObj b.1 ++ b.2.blocks

def BufGood (N : Nat) (b : Ptr × BufMem) : Prop := IsBlock b.1 ∧ b.2.Good N

variable {N : Nat} {L R : List (Nat × Alloc)}

theorem BufMem.own_mem {b : BufMem} {p : Ptr} (hp : p ∈ b.ptrs) : ∀ x ∈ own .newArr p, x ∈ b.blocks := by
  intro x hx
  simp only [BufMem.ptrs, List.mem_cons, List.not_mem_nil, or_false] at hp
  unfold BufMem.blocks
  simp only [List.mem_append]
  rcases hp with rfl | rfl | rfl | rfl | rfl | rfl | rfl <;> tauto

theorem BufMem.Good.touch {b : BufMem} (hb : b.Good N) {p : Ptr} (hp : p ∈ b.ptrs) (hL : ∀ x ∈ b.blocks, x ∈ L) :
    Runs (touch p) L (fun _ X => X = L) :=
  runs_touch_mem (k := .newArr) (hb.ptr p hp) (fun x hx => hL x (BufMem.own_mem hp x hx))

theorem ptr_touch {k : Alloc} {p : Ptr} (hp : IsBlock p) (hL : ∀ x ∈ own k p, x ∈ L) :
    Runs (touch p) L (fun _ X => X = L) := runs_touch_mem hp hL

theorem newBuf_runs {threads N : Nat} (hN : N ≤ threads * 16) (L : List (Nat × Alloc)) :
    Runs (newBuf threads) L (fun b X => BufGood N b ∧ X.Perm (bufBlocks b ++ L)) := by
  unfold newBuf
  refine (runs_allocate _ _).bind ?_
  rintro p _ ⟨hp, rfl⟩
  refine (runs_allocate _ _).bind ?_
  rintro p1 _ ⟨h1, rfl⟩
  refine (runs_allocate _ _).bind ?_
  rintro p2 _ ⟨h2, rfl⟩
  refine (runs_allocate _ _).bind ?_
  rintro p3 _ ⟨h3, rfl⟩
  refine (runs_allocate _ _).bind ?_
  rintro p4 _ ⟨h4, rfl⟩
  refine (runs_allocate _ _).bind ?_
  rintro p5 _ ⟨h5, rfl⟩
  refine (runs_allocate _ _).bind ?_
  rintro p6 _ ⟨h6, rfl⟩
  refine (runs_allocate _ _).bind ?_
  rintro p7 _ ⟨h7, rfl⟩
  refine Runs.pure ⟨⟨hp, ⟨?_, Nat.le_refl _, hN⟩⟩, ?_⟩
  · intro q hq
    simp only [BufMem.ptrs, List.mem_cons, List.not_mem_nil, or_false] at hq
    rcases hq with rfl | rfl | rfl | rfl | rfl | rfl | rfl <;> assumption
  · unfold bufBlocks BufMem.blocks
    perm_parts

theorem BufMem.Good.each {b : BufMem} (hb : b.Good N) : IsBlock b.value ∧ IsBlock b.bits ∧ IsBlock b.cdata ∧ IsBlock b.cidx ∧
    IsBlock b.sdata ∧ IsBlock b.nbytes ∧ IsBlock b.nnzs := by
  refine ⟨hb.ptr _ ?_, hb.ptr _ ?_, hb.ptr _ ?_, hb.ptr _ ?_, hb.ptr _ ?_, hb.ptr _ ?_, hb.ptr _ ?_⟩ <;> simp [BufMem.ptrs]

theorem deleteBuf_runs {b : Ptr × BufMem} (hb : BufGood N b) (L : List (Nat × Alloc)) :
    Runs (deleteBuf b) (bufBlocks b ++ L) (fun _ X => X.Perm L) := by
  obtain ⟨hp, hg⟩ := hb
  obtain ⟨h1, h2, h3, h4, h5, h6, h7⟩ := hg.each
  unfold deleteBuf bufBlocks BufMem.blocks
  refine (ptr_touch (k := .newObj) hp (fun x hx => by simp only [List.mem_append]; tauto)).bind ?_
  rintro _ _ rfl
  refine (runs_release (L' := own .newObj b.1 ++ (own .newArr b.2.bits ++ (own .newArr b.2.cdata ++ (own .newArr b.2.cidx ++
    (own .newArr b.2.sdata ++ (own .newArr b.2.nbytes ++ (own .newArr b.2.nnzs ++ L))))))) h1 (by perm_parts)).bind ?_
  rintro _ _ rfl
  refine (runs_release (L' := own .newObj b.1 ++ (own .newArr b.2.cdata ++ (own .newArr b.2.cidx ++
    (own .newArr b.2.sdata ++ (own .newArr b.2.nbytes ++ (own .newArr b.2.nnzs ++ L)))))) h2 (by perm_parts)).bind ?_
  rintro _ _ rfl
  refine (runs_release (L' := own .newObj b.1 ++ (own .newArr b.2.cidx ++
    (own .newArr b.2.sdata ++ (own .newArr b.2.nbytes ++ (own .newArr b.2.nnzs ++ L))))) h3 (by perm_parts)).bind ?_
  rintro _ _ rfl
  refine (runs_release (L' := own .newObj b.1 ++
    (own .newArr b.2.sdata ++ (own .newArr b.2.nbytes ++ (own .newArr b.2.nnzs ++ L)))) h4 (by perm_parts)).bind ?_
  rintro _ _ rfl
  refine (runs_release (L' := own .newObj b.1 ++
    (own .newArr b.2.sdata ++ (own .newArr b.2.nnzs ++ L))) h6 (by perm_parts)).bind ?_
  rintro _ _ rfl
  refine (runs_release (L' := own .newObj b.1 ++ (own .newArr b.2.sdata ++ L)) h7 (by perm_parts)).bind ?_
  rintro _ _ rfl
  refine (runs_release (L' := own .newObj b.1 ++ L) h5 (by perm_parts)).bind ?_
  rintro _ _ rfl
  exact (runs_release (L' := L) hp (List.Perm.refl _)).mono (by rintro _ _ rfl; exact List.Perm.refl _)

theorem BufMem.load_runs {b : BufMem} {M : Nat} (hg : b.Good M) {N k : Nat} (hk : N ≤ k) (L : List (Nat × Alloc)) :
    Runs (b.load k) (b.blocks ++ L) (fun c X => c.Good N ∧ X.Perm (c.blocks ++ L)) := by
  obtain ⟨h1, h2, h3, h4, h5, h6, h7⟩ := hg.each
  unfold BufMem.load BufMem.blocks
  refine (runs_release (L' := own .newArr b.bits ++ (own .newArr b.cdata ++ (own .newArr b.cidx ++
    (own .newArr b.sdata ++ (own .newArr b.nbytes ++ (own .newArr b.nnzs ++ L)))))) h1 (by perm_parts)).bind ?_
  rintro _ _ rfl
  refine (runs_release (L' := own .newArr b.cdata ++ (own .newArr b.cidx ++
    (own .newArr b.sdata ++ (own .newArr b.nbytes ++ (own .newArr b.nnzs ++ L))))) h2 (by perm_parts)).bind ?_
  rintro _ _ rfl
  refine (runs_release (L' := own .newArr b.cidx ++
    (own .newArr b.sdata ++ (own .newArr b.nbytes ++ (own .newArr b.nnzs ++ L)))) h3 (by perm_parts)).bind ?_
  rintro _ _ rfl
  refine (runs_release (L' := own .newArr b.sdata ++ (own .newArr b.nbytes ++ (own .newArr b.nnzs ++ L))) h4
    (by perm_parts)).bind ?_
  rintro _ _ rfl
  refine (runs_release (L' := own .newArr b.nbytes ++ (own .newArr b.nnzs ++ L)) h5 (by perm_parts)).bind ?_
  rintro _ _ rfl
  refine (runs_release (L' := own .newArr b.nnzs ++ L) h6 (by perm_parts)).bind ?_
  rintro _ _ rfl
  refine (runs_release (L' := L) h7 (by perm_parts)).bind ?_
  rintro _ _ rfl
  refine (runs_allocate _ _).bind ?_
  rintro p1 _ ⟨h1, rfl⟩
  refine (runs_allocate _ _).bind ?_
  rintro p2 _ ⟨h2, rfl⟩
  refine (runs_allocate _ _).bind ?_
  rintro p3 _ ⟨h3, rfl⟩
  refine (runs_allocate _ _).bind ?_
  rintro p4 _ ⟨h4, rfl⟩
  refine (runs_allocate _ _).bind ?_
  rintro p5 _ ⟨h5, rfl⟩
  refine (runs_allocate _ _).bind ?_
  rintro p6 _ ⟨h6, rfl⟩
  refine (runs_allocate _ _).bind ?_
  rintro p7 _ ⟨h7, rfl⟩
  refine Runs.pure ⟨⟨?_, Nat.le_refl _, hk⟩, ?_⟩
  · intro q hq
    simp only [BufMem.ptrs, List.mem_cons, List.not_mem_nil, or_false] at hq
    rcases hq with rfl | rfl | rfl | rfl | rfl | rfl | rfl <;> assumption
  · perm_parts

theorem loadBuf_runs {threads N k : Nat} (hN : N ≤ threads * 16) (hk : N ≤ k) (L : List (Nat × Alloc)) :
    Runs (loadBuf threads k) L (fun b X => BufGood N b ∧ X.Perm (bufBlocks b ++ L)) := by
  unfold loadBuf
  refine (newBuf_runs hN L).bind ?_
  rintro b X ⟨hb, hX⟩
  have hX' : X.Perm (b.2.blocks ++ (own .newObj b.1 ++ L)) := by
    refine hX.trans ?_
    unfold bufBlocks
    perm_parts
  refine ((BufMem.load_runs hb.2 hk _).perm hX').bind ?_
  rintro c Y ⟨hc, hY⟩
  refine Runs.pure ⟨⟨hb.1, hc⟩, hY.trans ?_⟩
  unfold bufBlocks
  perm_parts

theorem BufMem.allocSerialized_runs {b : BufMem} (hg : ∀ p ∈ b.ptrs, IsBlock p) (L : List (Nat × Alloc)) :
    Runs b.allocSerialized (b.blocks ++ L)
      (fun c X => (∃ p, IsBlock p ∧ c = { b with sdata := p }) ∧ X.Perm (c.blocks ++ L)) := by
  unfold BufMem.allocSerialized
  refine (runs_release (L' := own .newArr b.value ++ (own .newArr b.bits ++ (own .newArr b.cdata ++ (own .newArr b.cidx ++
    (own .newArr b.nbytes ++ (own .newArr b.nnzs ++ L)))))) (hg b.sdata (by simp [BufMem.ptrs])) ?_).bind ?_
  · unfold BufMem.blocks
    perm_parts
  rintro _ _ rfl
  refine (runs_allocate _ _).bind ?_
  rintro p _ ⟨hp, rfl⟩
  refine Runs.pure ⟨⟨p, hp, rfl⟩, ?_⟩
  unfold BufMem.blocks
  perm_parts

theorem BufMem.Good.setData {b : BufMem} (hb : b.Good N) {p : Ptr} (hp : IsBlock p) : ({ b with sdata := p } : BufMem).Good N := by
  refine ⟨?_, hb.parts, hb.room⟩
  obtain ⟨h1, h2, h3, h4, h5, h6, h7⟩ := hb.each
  intro q hq
  simp only [BufMem.ptrs, List.mem_cons, List.not_mem_nil, or_false] at hq
  rcases hq with rfl | rfl | rfl | rfl | rfl | rfl | rfl <;> assumption

theorem BufMem.scans_runs {b : BufMem} (hb : b.Good N) (hL : ∀ x ∈ b.blocks, x ∈ L) :
    Runs b.scans L (fun _ X => X = L) := by
  unfold BufMem.scans
  refine (hb.touch (by simp [BufMem.ptrs]) hL).bind ?_
  rintro _ _ rfl
  refine (hb.touch (by simp [BufMem.ptrs]) hL).bind ?_
  rintro _ _ rfl
  rw [if_pos hb.parts]
  exact Runs.pure rfl

theorem BufMem.compressSer_runs {b : BufMem} (hb : b.Good N) (L : List (Nat × Alloc)) :
    Runs b.compressSer (b.blocks ++ L) (fun c X => c.Good N ∧ X.Perm (c.blocks ++ L)) := by
  unfold BufMem.compressSer
  refine (runs_allocate _ _).bind ?_
  rintro p1 _ ⟨h1, rfl⟩
  refine (runs_allocate _ _).bind ?_
  rintro p2 _ ⟨h2, rfl⟩
  refine (runs_allocate _ _).bind ?_
  rintro p3 _ ⟨h3, rfl⟩
  have hin : ∀ x ∈ b.blocks, x ∈ own .newArr p3 ++ (own .newArr p2 ++ (own .newArr p1 ++ (b.blocks ++ L))) := by
    intro x hx
    simp only [List.mem_append]
    tauto
  refine (hb.touch (by simp [BufMem.ptrs]) hin).bind ?_
  rintro _ _ rfl
  refine (hb.touch (by simp [BufMem.ptrs]) hin).bind ?_
  rintro _ _ rfl
  refine (BufMem.scans_runs hb hin).bind ?_
  rintro _ _ rfl
  refine ((BufMem.allocSerialized_runs hb.ptr (own .newArr p3 ++ (own .newArr p2 ++ (own .newArr p1 ++ L)))).perm
    (by perm_parts)).bind ?_
  rintro c X ⟨⟨p, hp, rfl⟩, hX⟩
  have hc := hb.setData hp
  generalize ({ b with sdata := p } : BufMem) = c at hc hX
  refine (hc.touch (by simp [BufMem.ptrs]) (fun x hx => hX.mem_iff.2 (List.mem_append_left _ hx))).bind ?_
  rintro _ _ rfl
  refine ((runs_release (L' := c.blocks ++ (own .newArr p3 ++ (own .newArr p1 ++ L))) h2 (by perm_parts)).perm hX).bind ?_
  rintro _ _ rfl
  refine (runs_release (L' := c.blocks ++ (own .newArr p3 ++ L)) h1 (by perm_parts)).bind ?_
  rintro _ _ rfl
  refine (runs_release (L' := c.blocks ++ L) h3 (by perm_parts)).bind ?_
  rintro _ _ rfl
  exact Runs.pure ⟨hc, List.Perm.refl _⟩

theorem BufMem.compressPlain_runs {b : BufMem} (hb : b.Good N) (hL : ∀ x ∈ b.blocks, x ∈ L) :
    Runs b.compressPlain L (fun _ X => X = L) := by
  unfold BufMem.compressPlain
  refine (runs_allocate _ _).bind ?_
  rintro p1 _ ⟨h1, rfl⟩
  refine (runs_allocate _ _).bind ?_
  rintro p2 _ ⟨h2, rfl⟩
  have hin : ∀ x ∈ b.blocks, x ∈ own .newArr p2 ++ (own .newArr p1 ++ L) := by
    intro x hx
    have := hL x hx
    simp only [List.mem_append]
    tauto
  refine (hb.touch (by simp [BufMem.ptrs]) hin).bind ?_
  rintro _ _ rfl
  refine (hb.touch (by simp [BufMem.ptrs]) hin).bind ?_
  rintro _ _ rfl
  refine (hb.touch (by simp [BufMem.ptrs]) hin).bind ?_
  rintro _ _ rfl
  refine (hb.touch (by simp [BufMem.ptrs]) hin).bind ?_
  rintro _ _ rfl
  refine (runs_release (L' := own .newArr p2 ++ L) h1 (by perm_parts)).bind ?_
  rintro _ _ rfl
  exact runs_release h2 (List.Perm.refl _)

theorem BufMem.decompressSer_runs {b : BufMem} (hb : b.Good N) (hL : ∀ x ∈ b.blocks, x ∈ L) :
    Runs b.decompressSer L (fun _ X => X = L) := by
  unfold BufMem.decompressSer
  refine (hb.touch (by simp [BufMem.ptrs]) hL).bind ?_
  rintro _ L rfl
  refine (runs_allocate _ _).bind ?_
  rintro p1 _ ⟨h1, rfl⟩
  have hin : ∀ x ∈ b.blocks, x ∈ own .newArr p1 ++ L := fun x hx => List.mem_append_right _ (hL x hx)
  refine (hb.touch (by simp [BufMem.ptrs]) hin).bind ?_
  rintro _ _ rfl
  refine (BufMem.scans_runs hb hin).bind ?_
  rintro _ _ rfl
  refine (hb.touch (by simp [BufMem.ptrs]) hin).bind ?_
  rintro _ _ rfl
  exact runs_release h1 (List.Perm.refl _)

theorem BufMem.decompressPlain_runs {b : BufMem} (hb : b.Good N) (hL : ∀ x ∈ b.blocks, x ∈ L) :
    Runs b.decompressPlain L (fun _ X => X = L) := by
  unfold BufMem.decompressPlain
  refine (hb.touch (by simp [BufMem.ptrs]) hL).bind ?_
  rintro _ L rfl
  refine (runs_allocate _ _).bind ?_
  rintro p1 _ ⟨h1, rfl⟩
  refine (runs_allocate _ _).bind ?_
  rintro p2 _ ⟨h2, rfl⟩
  have hin : ∀ x ∈ b.blocks, x ∈ own .newArr p2 ++ (own .newArr p1 ++ L) := by
    intro x hx
    have := hL x hx
    simp only [List.mem_append]
    tauto
  refine (hb.touch (by simp [BufMem.ptrs]) hin).bind ?_
  rintro _ _ rfl
  refine (hb.touch (by simp [BufMem.ptrs]) hin).bind ?_
  rintro _ _ rfl
  refine (hb.touch (by simp [BufMem.ptrs]) hin).bind ?_
  rintro _ _ rfl
  refine (runs_release (L' := own .newArr p2 ++ L) h1 (by perm_parts)).bind ?_
  rintro _ _ rfl
  exact runs_release h2 (List.Perm.refl _)

theorem BufMem.recv_runs {b : BufMem} (hb : b.Good N) (kind : MsgKind) {k : Nat} (hk : k ≤ N) (L : List (Nat × Alloc)) :
    Runs (b.recv kind k) (b.blocks ++ L) (fun c X => c.Good N ∧ X.Perm (c.blocks ++ L)) := by
  have hb' : ({ b with parts := k, kind := kind } : BufMem).Good N :=
    ⟨hb.ptr, Nat.le_trans hk hb.room, hb.room⟩
  have he : b.blocks = ({ b with parts := k, kind := kind } : BufMem).blocks := rfl
  unfold BufMem.recv
  dsimp only
  rw [he]
  have hin : ∀ x ∈ ({ b with parts := k, kind := kind } : BufMem).blocks,
      x ∈ ({ b with parts := k, kind := kind } : BufMem).blocks ++ L := fun x hx => List.mem_append_left _ hx
  cases kind with
  | compressed =>
    refine (hb'.touch (by simp [BufMem.ptrs]) hin).bind ?_
    rintro _ _ rfl
    refine (hb'.touch (by simp [BufMem.ptrs]) hin).bind ?_
    rintro _ _ rfl
    exact Runs.pure ⟨hb', List.Perm.refl _⟩
  | serialized =>
    refine (BufMem.allocSerialized_runs hb'.ptr L).bind ?_
    rintro d X ⟨⟨p, hp, rfl⟩, hX⟩
    have hd := hb'.setData hp
    have hin : ∀ x ∈ ({ b with parts := k, kind := .serialized, sdata := p } : BufMem).blocks, x ∈ X := fun x hx => hX.mem_iff.2 (List.mem_append_left _ hx)
    refine (hd.touch (by simp [BufMem.ptrs]) hin).bind ?_
    rintro _ _ rfl
    refine (BufMem.scans_runs hd hin).bind ?_
    rintro _ _ rfl
    exact Runs.pure ⟨hd, hX⟩
  | dense =>
    refine (hb'.touch (by simp [BufMem.ptrs]) hin).bind ?_
    rintro _ _ rfl
    refine (hb'.touch (by simp [BufMem.ptrs]) hin).bind ?_
    rintro _ _ rfl
    exact Runs.pure ⟨hb', List.Perm.refl _⟩

/-! ### Segments -/

/-- the blocks of a segment, without the segment object -/
def SegMem.blocks (s : SegMem) : List (Nat × Alloc) :=
  (s.props.elim [] bufBlocks) ++ (s.received.flatMap bufBlocks ++ s.pool.flatMap bufBlocks)

/-- all buffers of a segment are fine, and so are the messages announced -/
structure SegMem.Good (N : Nat) (s : SegMem) : Prop where
  props : ∀ b, s.props = some b → BufGood N b
  received : ∀ b ∈ s.received, BufGood N b
  pool : ∀ b ∈ s.pool, BufGood N b
  queued : ∀ m ∈ s.queued, m.2 ≤ N

theorem SegMem.alloc_runs {s : SegMem} {threads : Nat} (hN : N ≤ threads * 16) (hs : s.Good N) (L : List (Nat × Alloc)) :
    Runs (s.alloc threads) (s.blocks ++ L) (fun r X => r.1 = { s with props := some r.2 } ∧ (r.1.Good N) ∧
      X.Perm (r.1.blocks ++ L)) := by
  unfold SegMem.alloc
  cases hp : s.props with
  | some b =>
    refine Runs.pure ⟨?_, hs, List.Perm.refl _⟩
    show s = { s with props := some b }
    rw [← hp]
  | none =>
    refine (newBuf_runs hN _).bind ?_
    rintro b X ⟨hb, hX⟩
    refine Runs.pure ⟨rfl, ⟨?_, hs.received, hs.pool, hs.queued⟩, hX.trans ?_⟩
    · intro c hc
      have : b = c := Option.some.inj hc
      rw [← this]
      exact hb
    · unfold SegMem.blocks
      rw [hp]
      simp only [Option.elim]
      perm_parts

theorem SegMem.props_in {s : SegMem} {b : Ptr × BufMem} (hp : s.props = some b) : ∀ x ∈ bufBlocks b, x ∈ s.blocks := by
  intro x hx
  unfold SegMem.blocks
  rw [hp]
  exact List.mem_append_left _ hx

theorem bufBlocks_arr {b : Ptr × BufMem} (h : ∀ x ∈ bufBlocks b, x ∈ L) : ∀ x ∈ b.2.blocks, x ∈ L :=
  fun x hx => h x (List.mem_append_right _ hx)

theorem bufBlocks_obj {b : Ptr × BufMem} (h : ∀ x ∈ bufBlocks b, x ∈ L) : ∀ x ∈ own .newObj b.1, x ∈ L :=
  fun x hx => h x (List.mem_append_left _ hx)

/-- changing the segment's own buffer -/
theorem SegMem.on_props {s : SegMem} {b : Ptr × BufMem} (hp : s.props = some b) (hs : s.Good N) {f : HeapM BufMem}
    (hf : ∀ L, Runs f (b.2.blocks ++ L) (fun c X => c.Good N ∧ X.Perm (c.blocks ++ L))) (L : List (Nat × Alloc)) :
    Runs f (s.blocks ++ L) (fun c X => (({ s with props := some (b.1, c) } : SegMem).Good N) ∧
      X.Perm (({ s with props := some (b.1, c) } : SegMem).blocks ++ L)) := by
  have hperm : (s.blocks ++ L).Perm (b.2.blocks ++ (own .newObj b.1 ++ ((s.received.flatMap bufBlocks ++
      s.pool.flatMap bufBlocks) ++ L))) := by
    unfold SegMem.blocks
    rw [hp]
    simp only [Option.elim]
    unfold bufBlocks
    perm_parts
  refine ((hf _).perm hperm).mono ?_
  rintro c X ⟨hc, hX⟩
  refine ⟨⟨?_, hs.received, hs.pool, hs.queued⟩, hX.trans ?_⟩
  · intro d hd
    have : (b.1, c) = d := Option.some.inj hd
    rw [← this]
    exact ⟨(hs.props b hp).1, hc⟩
  · unfold SegMem.blocks
    simp only [Option.elim]
    unfold bufBlocks
    perm_parts

theorem SegMem.write_runs {s : SegMem} {threads : Nat} (hN : N ≤ threads * 16) (hs : s.Good N) (L : List (Nat × Alloc)) :
    Runs (s.write threads) (s.blocks ++ L) (fun r X => r.Good N ∧ X.Perm (r.blocks ++ L) ∧
      (r.queued = s.queued ∧ r.received = s.received ∧ r.pool = s.pool ∧ r.props.isSome = true)) := by
  unfold SegMem.write
  refine (SegMem.alloc_runs hN hs L).bind ?_
  rintro ⟨t, b⟩ X ⟨ht, hg, hX⟩
  dsimp only at ht hg hX ⊢
  have hp : t.props = some b := by rw [ht]
  have hb := hg.props b hp
  have hin : ∀ x ∈ bufBlocks b, x ∈ X :=
    fun x hx => hX.mem_iff.2 (List.mem_append_left _ (SegMem.props_in hp x hx))
  refine (ptr_touch hb.1 (bufBlocks_obj hin)).bind ?_
  rintro _ _ rfl
  refine (hb.2.touch (by simp [BufMem.ptrs]) (bufBlocks_arr hin)).bind ?_
  rintro _ _ rfl
  refine (hb.2.touch (by simp [BufMem.ptrs]) (bufBlocks_arr hin)).bind ?_
  rintro _ _ rfl
  refine Runs.pure ⟨hg, hX, ?_⟩
  rw [ht]
  exact ⟨rfl, rfl, rfl, rfl⟩

theorem SegMem.read_runs {s : SegMem} (hs : s.Good N) (hL : ∀ x ∈ s.blocks, x ∈ L) : Runs s.read L (fun _ X => X = L) := by
  unfold SegMem.read
  cases hp : s.props with
  | none => exact Runs.pure rfl
  | some b =>
    have hb := hs.props b hp
    have hin : ∀ x ∈ bufBlocks b, x ∈ L := fun x hx => hL x (SegMem.props_in hp x hx)
    refine (ptr_touch hb.1 (bufBlocks_obj hin)).bind ?_
    rintro _ _ rfl
    refine (hb.2.touch (by simp [BufMem.ptrs]) (bufBlocks_arr hin)).bind ?_
    rintro _ _ rfl
    exact hb.2.touch (by simp [BufMem.ptrs]) (bufBlocks_arr hin)

theorem SegMem.compress_runs {s : SegMem} {threads : Nat} (hN : N ≤ threads * 16) (kind : MsgKind) (hs : s.Good N)
    (L : List (Nat × Alloc)) :
    Runs (s.compress threads kind) (s.blocks ++ L) (fun r X => r.Good N ∧ X.Perm (r.blocks ++ L) ∧
      (r.queued = s.queued ∧ r.received = s.received ∧ r.pool = s.pool ∧ r.props.isSome = true)) := by
  unfold SegMem.compress
  refine (SegMem.alloc_runs hN hs L).bind ?_
  rintro ⟨t, b⟩ X ⟨ht, hg, hX⟩
  dsimp only at ht hg hX ⊢
  have hp : t.props = some b := by rw [ht]
  have hb := hg.props b hp
  have hin : ∀ x ∈ bufBlocks b, x ∈ X :=
    fun x hx => hX.mem_iff.2 (List.mem_append_left _ (SegMem.props_in hp x hx))
  have hrest : t.queued = s.queued ∧ t.received = s.received ∧ t.pool = s.pool ∧ t.props.isSome = true := by
    rw [ht]
    exact ⟨rfl, rfl, rfl, rfl⟩
  refine (ptr_touch hb.1 (bufBlocks_obj hin)).bind ?_
  rintro _ _ rfl
  cases kind with
  | compressed =>
    refine (BufMem.compressPlain_runs hb.2 (bufBlocks_arr hin)).bind ?_
    rintro _ _ rfl
    exact Runs.pure ⟨hg, hX, hrest⟩
  | serialized =>
    refine ((SegMem.on_props hp hg (fun L => BufMem.compressSer_runs hb.2 L) L).perm hX).bind ?_
    rintro c Y ⟨hc, hY⟩
    exact Runs.pure ⟨hc, hY, hrest.1, hrest.2.1, hrest.2.2.1, rfl⟩
  | dense => exact Runs.pure ⟨hg, hX, hrest⟩

theorem SegMem.send_runs {s : SegMem} {kind : MsgKind} (hs : s.Good N) (hp : s.props.isSome = true)
    (hL : ∀ x ∈ s.blocks, x ∈ L) : Runs (s.send kind) L (fun _ X => X = L) := by
  unfold SegMem.send
  cases hb' : s.props with
  | none => rw [hb'] at hp; cases hp
  | some b =>
    have hb := hs.props b hb'
    have hin : ∀ x ∈ bufBlocks b, x ∈ L := fun x hx => hL x (SegMem.props_in hb' x hx)
    refine (ptr_touch hb.1 (bufBlocks_obj hin)).bind ?_
    rintro _ _ rfl
    cases kind with
    | compressed =>
      refine (hb.2.touch (by simp [BufMem.ptrs]) (bufBlocks_arr hin)).bind ?_
      rintro _ _ rfl
      exact hb.2.touch (by simp [BufMem.ptrs]) (bufBlocks_arr hin)
    | serialized =>
      refine (hb.2.touch (by simp [BufMem.ptrs]) (bufBlocks_arr hin)).bind ?_
      rintro _ _ rfl
      exact BufMem.scans_runs hb.2 (bufBlocks_arr hin)
    | dense =>
      refine (hb.2.touch (by simp [BufMem.ptrs]) (bufBlocks_arr hin)).bind ?_
      rintro _ _ rfl
      exact hb.2.touch (by simp [BufMem.ptrs]) (bufBlocks_arr hin)

theorem SegMem.decompress_runs {s : SegMem} {kind : MsgKind} (hs : s.Good N) (hp : s.props.isSome = true)
    (hL : ∀ x ∈ s.blocks, x ∈ L) : Runs (s.decompress kind) L (fun _ X => X = L) := by
  unfold SegMem.decompress
  cases hb' : s.props with
  | none => rw [hb'] at hp; cases hp
  | some b =>
    have hb := hs.props b hb'
    have hin : ∀ x ∈ bufBlocks b, x ∈ L := fun x hx => hL x (SegMem.props_in hb' x hx)
    refine (ptr_touch hb.1 (bufBlocks_obj hin)).bind ?_
    rintro _ _ rfl
    cases kind with
    | compressed => exact BufMem.decompressPlain_runs hb.2 (bufBlocks_arr hin)
    | serialized => exact BufMem.decompressSer_runs hb.2 (bufBlocks_arr hin)
    | dense => exact Runs.pure rfl

theorem SegMem.recvSegment_runs {s : SegMem} {kind : MsgKind} {k : Nat} (hk : k ≤ N) (hs : s.Good N) (hp : s.props.isSome = true)
    (L : List (Nat × Alloc)) :
    Runs (s.recvSegment kind k) (s.blocks ++ L) (fun r X => r.Good N ∧ X.Perm (r.blocks ++ L) ∧
      (r.queued = s.queued ∧ r.received = s.received ∧ r.pool = s.pool ∧ r.props.isSome = true)) := by
  unfold SegMem.recvSegment
  cases hb' : s.props with
  | none => rw [hb'] at hp; cases hp
  | some b =>
    have hb := hs.props b hb'
    have hin : ∀ x ∈ bufBlocks b, x ∈ s.blocks ++ L := fun x hx => List.mem_append_left _ (SegMem.props_in hb' x hx)
    refine (ptr_touch hb.1 (bufBlocks_obj hin)).bind ?_
    rintro _ _ rfl
    refine (SegMem.on_props hb' hs (fun L => BufMem.recv_runs hb.2 kind hk L) L).bind ?_
    rintro c Y ⟨hc, hY⟩
    exact Runs.pure ⟨hc, hY, rfl, rfl, rfl, rfl⟩

theorem SegMem.recvNnz_runs {s : SegMem} {threads : Nat} (hN : N ≤ threads * 16) (hs : s.Good N) (L : List (Nat × Alloc)) :
    Runs (s.recvNnz threads) (s.blocks ++ L) (fun r X => r.Good N ∧ X.Perm (r.blocks ++ L) ∧
      (r.queued = s.queued ∧ r.received = s.received ∧ r.pool = s.pool ∧ r.props.isSome = true)) := by
  unfold SegMem.recvNnz
  refine (SegMem.alloc_runs hN hs L).bind ?_
  rintro ⟨t, b⟩ X ⟨ht, hg, hX⟩
  refine Runs.pure ⟨hg, hX, ?_⟩
  dsimp only at ht ⊢
  rw [ht]
  exact ⟨rfl, rfl, rfl, rfl⟩

theorem dropLast_append {α : Type} : ∀ {l : List α} {a : α}, l.getLast? = some a → l = l.dropLast ++ [a] := by
  intro l a h
  have hne : l ≠ [] := by
    rintro rfl
    cases h
  have e := List.dropLast_append_getLast hne
  rw [List.getLast?_eq_some_getLast hne] at h
  rw [← Option.some.inj h]
  exact e.symm

/-- receiving one message of the queue -/
theorem SegMem.recvSegmentQueue_runs {s : SegMem} {threads : Nat} (hN : N ≤ threads * 16) (hs : s.Good N)
    (hq : s.queued ≠ []) (L : List (Nat × Alloc)) :
    Runs (s.recvSegmentQueue threads) (s.blocks ++ L) (fun r X => r.Good N ∧ X.Perm (r.blocks ++ L) ∧
      (r.queued = s.queued.dropLast ∧ r.received.length = s.received.length + 1 ∧ r.pool.length = s.pool.length - 1 ∧
        r.props = s.props)) := by
  unfold SegMem.recvSegmentQueue
  refine Runs.bind (Q := fun bp X => BufGood N bp.1 ∧ (∀ b ∈ bp.2, BufGood N b) ∧ bp.2.length = s.pool.length - 1 ∧
    X.Perm (bp.1.2.blocks ++ (own .newObj bp.1.1 ++ ((s.props.elim [] bufBlocks) ++ (s.received.flatMap bufBlocks ++
      (bp.2.flatMap bufBlocks ++ L)))))) ?_ ?_
  · cases hl : s.pool.getLast? with
    | some b =>
      have e := dropLast_append hl
      refine Runs.pure ⟨hs.pool b ?_, fun c hc => hs.pool c (List.dropLast_subset _ hc), List.length_dropLast, ?_⟩
      · rw [e]
        simp
      · dsimp only
        unfold SegMem.blocks
        conv => lhs; rw [e]
        rw [List.flatMap_append, List.flatMap_cons, List.flatMap_nil, List.append_nil]
        conv => lhs; rw [bufBlocks.eq_def b]
        perm_parts
    | none =>
      have e : s.pool = [] := List.getLast?_eq_none_iff.1 hl
      refine (newBuf_runs hN _).bind ?_
      rintro b X ⟨hb, hX⟩
      refine Runs.pure ⟨hb, by simp, by rw [e]; rfl, hX.trans ?_⟩
      unfold SegMem.blocks
      rw [e]
      simp only [List.flatMap_nil]
      conv => lhs; rw [bufBlocks.eq_def b]
      perm_parts
  rintro ⟨b, pool⟩ X ⟨hb, hpool, hlen, hX⟩
  dsimp only at hb hpool hlen hX ⊢
  cases hl : s.queued.getLast? with
  | none => exact absurd (List.getLast?_eq_none_iff.1 hl) hq
  | some md =>
    have hmd : md.2 ≤ N := hs.queued md (List.mem_of_getLast? hl)
    refine (ptr_touch (k := .newObj) hb.1 (fun x hx => hX.mem_iff.2 (by simp only [List.mem_append]; tauto))).bind ?_
    rintro _ _ rfl
    refine ((BufMem.recv_runs hb.2 md.1 hmd _).perm hX).bind ?_
    rintro c Y ⟨hc, hY⟩
    refine Runs.pure ⟨⟨hs.props, ?_, hpool, fun m hm => hs.queued m (List.dropLast_subset _ hm)⟩, ?_, rfl, ?_, hlen, rfl⟩
    · intro d hd
      rcases List.mem_append.1 hd with hd | hd
      · exact hs.received d hd
      · rw [List.mem_singleton.1 hd]
        exact ⟨hb.1, hc⟩
    · refine hY.trans ?_
      unfold SegMem.blocks
      dsimp only
      rw [List.flatMap_append, List.flatMap_cons, List.flatMap_nil, List.append_nil]
      conv => rhs; rw [bufBlocks.eq_def (b.1, c)]
      perm_parts
    · simp

theorem recvQueue_runs {threads : Nat} (hN : N ≤ threads * 16) : ∀ (msgs : List (MsgKind × Nat)) (s : SegMem), s.Good N →
    s.queued.length = msgs.length → ∀ L : List (Nat × Alloc),
    Runs (msgs.foldlM (fun s _ => s.recvSegmentQueue threads) s) (s.blocks ++ L) (fun r X => r.Good N ∧ X.Perm (r.blocks ++ L) ∧
      (r.queued = [] ∧ r.received.length = s.received.length + msgs.length ∧ r.pool.length = s.pool.length - msgs.length ∧
        r.props = s.props)) := by
  intro msgs
  induction msgs with
  | nil =>
    intro s hs hq L
    rw [List.foldlM_nil]
    exact Runs.pure ⟨hs, List.Perm.refl _, List.length_eq_zero_iff.1 hq, rfl, rfl, rfl⟩
  | cons m msgs ih =>
    intro s hs hq L
    rw [List.foldlM_cons]
    rw [List.length_cons] at hq
    refine (SegMem.recvSegmentQueue_runs hN hs (by rintro e; rw [e] at hq; cases hq) L).bind ?_
    rintro r X ⟨hr, hX, e1, e2, e3, e4⟩
    refine ((ih r hr (by rw [e1, List.length_dropLast, hq]; rfl) L).perm hX).mono ?_
    rintro t Y ⟨ht, hY, f1, f2, f3, f4⟩
    refine ⟨ht, hY, f1, ?_, ?_, f4.trans e4⟩
    · rw [f2, e2, List.length_cons]
      omega
    · rw [f3, e3, List.length_cons]
      omega

theorem queue_fold : ∀ (msgs : List (MsgKind × Nat)) (s : SegMem),
    msgs.foldl (fun s m => s.recvNnzQueue m.1 m.2) s = { s with queued := msgs.reverse ++ s.queued } := by
  intro msgs
  induction msgs with
  | nil => intro s; rfl
  | cons m msgs ih =>
    intro s
    rw [List.foldl_cons, ih, List.reverse_cons, List.append_assoc]
    rfl

theorem unionBuf_runs {mine : BufMem} {b : Ptr × BufMem} (hm : mine.Good N) (hb : BufGood N b)
    (h1 : ∀ x ∈ mine.blocks, x ∈ L) (h2 : ∀ x ∈ bufBlocks b, x ∈ L) : Runs (unionBuf mine b) L (fun _ X => X = L) := by
  unfold unionBuf
  refine (ptr_touch hb.1 (bufBlocks_obj h2)).bind ?_
  rintro _ L rfl
  cases b.2.kind with
  | compressed =>
    refine (hb.2.touch (by simp [BufMem.ptrs]) (bufBlocks_arr h2)).bind ?_
    rintro _ L rfl
    refine (hb.2.touch (by simp [BufMem.ptrs]) (bufBlocks_arr h2)).bind ?_
    rintro _ L rfl
    refine (hm.touch (by simp [BufMem.ptrs]) h1).bind ?_
    rintro _ L rfl
    exact hm.touch (by simp [BufMem.ptrs]) h1
  | serialized =>
    refine (BufMem.decompressSer_runs hb.2 (bufBlocks_arr h2)).bind ?_
    rintro _ L rfl
    refine (hb.2.touch (by simp [BufMem.ptrs]) (bufBlocks_arr h2)).bind ?_
    rintro _ L rfl
    refine (hb.2.touch (by simp [BufMem.ptrs]) (bufBlocks_arr h2)).bind ?_
    rintro _ L rfl
    refine (hm.touch (by simp [BufMem.ptrs]) h1).bind ?_
    rintro _ L rfl
    exact hm.touch (by simp [BufMem.ptrs]) h1
  | dense =>
    refine (hb.2.touch (by simp [BufMem.ptrs]) (bufBlocks_arr h2)).bind ?_
    rintro _ L rfl
    refine (hb.2.touch (by simp [BufMem.ptrs]) (bufBlocks_arr h2)).bind ?_
    rintro _ L rfl
    refine (hm.touch (by simp [BufMem.ptrs]) h1).bind ?_
    rintro _ L rfl
    exact hm.touch (by simp [BufMem.ptrs]) h1

theorem runs_mapM_same {α β : Type} {f : α → HeapM β} {L : List (Nat × Alloc)} :
    ∀ (as : List α) (_ : ∀ a ∈ as, Runs (f a) L (fun _ X => X = L)), Runs (as.mapM f) L (fun _ X => X = L) := by
  intro as
  induction as with
  | nil =>
    intro _
    rw [List.mapM_nil]
    exact Runs.pure rfl
  | cons a as ih =>
    intro hf
    rw [List.mapM_cons]
    refine (hf a List.mem_cons_self).bind ?_
    rintro b _ rfl
    refine (ih (fun c hc => hf c (List.mem_cons_of_mem _ hc))).bind ?_
    rintro bs _ rfl
    exact Runs.pure rfl

theorem SegMem.received_in {s : SegMem} {b : Ptr × BufMem} (hb : b ∈ s.received) : ∀ x ∈ bufBlocks b, x ∈ s.blocks := by
  intro x hx
  unfold SegMem.blocks
  exact List.mem_append_right _ (List.mem_append_left _ (List.mem_flatMap.2 ⟨b, hb, hx⟩))

theorem SegMem.unionReceived_runs {s : SegMem} {threads : Nat} (hN : N ≤ threads * 16) (hs : s.Good N)
    (L : List (Nat × Alloc)) :
    Runs (s.unionReceived threads) (s.blocks ++ L) (fun r X => r.Good N ∧ X.Perm (r.blocks ++ L) ∧
      (r.queued = s.queued ∧ r.received = s.received ∧ r.pool = s.pool ∧ r.props.isSome = true)) := by
  unfold SegMem.unionReceived
  refine (SegMem.alloc_runs hN hs L).bind ?_
  rintro ⟨t, b⟩ X ⟨ht, hg, hX⟩
  dsimp only at ht hg hX ⊢
  have hp : t.props = some b := by rw [ht]
  have hb := hg.props b hp
  have hin : ∀ x ∈ bufBlocks b, x ∈ X :=
    fun x hx => hX.mem_iff.2 (List.mem_append_left _ (SegMem.props_in hp x hx))
  refine (ptr_touch hb.1 (bufBlocks_obj hin)).bind ?_
  rintro _ _ rfl
  refine (hb.2.touch (by simp [BufMem.ptrs]) (bufBlocks_arr hin)).bind ?_
  rintro _ _ rfl
  refine (runs_mapM_same _ (fun c hc => unionBuf_runs hb.2 (hg.received c hc) (bufBlocks_arr hin)
    (fun x hx => hX.mem_iff.2 (List.mem_append_left _ (SegMem.received_in hc x hx))))).bind ?_
  rintro _ _ rfl
  refine Runs.pure ⟨hg, hX, ?_⟩
  rw [ht]
  exact ⟨rfl, rfl, rfl, rfl⟩

theorem SegMem.setUninitReceived_runs {s : SegMem} (hs : s.Good N) (L : List (Nat × Alloc)) :
    Runs s.setUninitReceived (s.blocks ++ L) (fun r X => r.Good N ∧ X.Perm (r.blocks ++ L) ∧
      r = { s with received := [], pool := s.pool ++ s.received }) := by
  unfold SegMem.setUninitReceived
  refine (runs_mapM_same _ (fun c hc => ptr_touch (hs.received c hc).1 (bufBlocks_obj
    (fun x hx => List.mem_append_left _ (SegMem.received_in hc x hx))))).bind ?_
  rintro _ _ rfl
  refine Runs.pure ⟨⟨hs.props, by simp, ?_, hs.queued⟩, ?_, rfl⟩
  · intro b hb
    rcases List.mem_append.1 hb with hb | hb
    · exact hs.pool b hb
    · exact hs.received b hb
  · unfold SegMem.blocks
    dsimp only
    rw [List.flatMap_append, List.flatMap_nil]
    perm_parts

theorem SegMem.setUninit_runs {s : SegMem} (hs : s.Good N) (L : List (Nat × Alloc)) :
    Runs s.setUninit (s.blocks ++ L) (fun r X => r.Good N ∧ X.Perm (r.blocks ++ L) ∧
      r = { s with received := [], pool := s.pool ++ s.received }) := by
  unfold SegMem.setUninit
  refine (SegMem.setUninitReceived_runs hs L).bind ?_
  rintro r X ⟨hr, hX, e⟩
  cases hp : r.props with
  | none => exact Runs.pure ⟨hr, hX, e⟩
  | some b =>
    refine (ptr_touch (hr.props b hp).1 (bufBlocks_obj
      (fun x hx => hX.mem_iff.2 (List.mem_append_left _ (SegMem.props_in hp x hx))))).bind ?_
    rintro _ _ rfl
    exact Runs.pure ⟨hr, hX, e⟩

/-- between actions nothing is queued or received -/
structure SegMem.Idle (N : Nat) (s : SegMem) : Prop where
  good : s.Good N
  queued : s.queued = []
  received : s.received = []

theorem SegMem.Idle.keeps {s r : SegMem} (hs : s.Idle N) (hr : r.Good N) (h1 : r.queued = s.queued) (h2 : r.received = s.received) :
    r.Idle N := ⟨hr, h1.trans hs.queued, h2.trans hs.received⟩

/-- An action: the segment stays fine, its pool has at least as many buffers as messages were received at once. -/
theorem SegAct.runs {threads : Nat} (hN : N ≤ threads * 16) (a : SegAct) (ha : a.Fits N) {s : SegMem} (hs : s.Idle N)
    (L : List (Nat × Alloc)) :
    Runs (a.run threads s) (s.blocks ++ L) (fun r X => r.Idle N ∧ X.Perm (r.blocks ++ L) ∧
      r.pool.length = max s.pool.length a.load ∧ r.props.isSome = (s.props.isSome || a.allocates)) := by
  cases a with
  | write =>
    refine (SegMem.write_runs hN hs.good L).mono ?_
    rintro r X ⟨hr, hX, e1, e2, e3, e4⟩
    exact ⟨hs.keeps hr e1 e2, hX, by rw [e3]; exact (Nat.max_zero _).symm, by rw [e4]; simp [SegAct.allocates]⟩
  | read =>
    show Runs (s.read >>= fun _ => Pure.pure s) _ _
    refine (SegMem.read_runs hs.good (fun x hx => List.mem_append_left _ hx)).bind ?_
    rintro _ _ rfl
    exact Runs.pure ⟨hs, List.Perm.refl _, (Nat.max_zero _).symm, by simp [SegAct.allocates]⟩
  | ship kind =>
    show Runs (s.compress threads kind >>= fun s => s.send kind >>= fun _ => Pure.pure s) _ _
    refine (SegMem.compress_runs hN kind hs.good L).bind ?_
    rintro r X ⟨hr, hX, e1, e2, e3, e4⟩
    refine (SegMem.send_runs hr e4 (fun x hx => hX.mem_iff.2 (List.mem_append_left _ hx))).bind ?_
    rintro _ _ rfl
    exact Runs.pure ⟨hs.keeps hr e1 e2, hX, by rw [e3]; exact (Nat.max_zero _).symm, by rw [e4]; simp [SegAct.allocates]⟩
  | fetch kind k =>
    show Runs (s.recvNnz threads >>= fun s => s.recvSegment kind k >>= fun s => s.decompress kind >>= fun _ => Pure.pure s) _ _
    refine (SegMem.recvNnz_runs hN hs.good L).bind ?_
    rintro r X ⟨hr, hX, e1, e2, e3, e4⟩
    refine ((SegMem.recvSegment_runs ha hr e4 L).perm hX).bind ?_
    rintro t Y ⟨ht, hY, f1, f2, f3, f4⟩
    refine (SegMem.decompress_runs ht f4 (fun x hx => hY.mem_iff.2 (List.mem_append_left _ hx))).bind ?_
    rintro _ _ rfl
    exact Runs.pure ⟨hs.keeps ht (f1.trans e1) (f2.trans e2), hY, by rw [f3, e3]; exact (Nat.max_zero _).symm,
      by rw [f4]; simp [SegAct.allocates]⟩
  | collect msgs =>
    show Runs (msgs.foldlM (fun s _ => s.recvSegmentQueue threads) (msgs.foldl (fun s m => s.recvNnzQueue m.1 m.2) s) >>=
      fun s => s.unionReceived threads >>= fun s => s.setUninitReceived) _ _
    rw [queue_fold]
    have hs' : ({ s with queued := msgs.reverse ++ s.queued } : SegMem).Good N := by
      refine ⟨hs.good.props, hs.good.received, hs.good.pool, ?_⟩
      intro m hm
      rw [hs.queued, List.append_nil] at hm
      exact ha m (List.mem_reverse.1 hm)
    refine Runs.bind (recvQueue_runs hN msgs _ hs' (by simp [hs.queued]) L) ?_
    rintro r X ⟨hr, hX, e1, e2, e3, e4⟩
    refine ((SegMem.unionReceived_runs hN hr L).perm hX).bind ?_
    rintro t Y ⟨ht, hY, f1, f2, f3, f4⟩
    refine ((SegMem.setUninitReceived_runs ht L).perm hY).mono ?_
    rintro u Z ⟨hu, hZ, rfl⟩
    refine ⟨⟨hu, f1.trans e1, rfl⟩, hZ, ?_, ?_⟩
    · dsimp only at e2 e3 ⊢
      rw [List.length_append, f2, f3, e2, e3, hs.received]
      simp only [SegAct.load, List.length_nil]
      omega
    · dsimp only
      rw [f4]
      simp [SegAct.allocates]
  | clear =>
    refine (SegMem.setUninit_runs hs.good L).mono ?_
    rintro r X ⟨hr, hX, rfl⟩
    refine ⟨⟨hr, hs.queued, rfl⟩, hX, ?_, by simp [SegAct.allocates]⟩
    dsimp only
    rw [hs.received, List.append_nil]
    exact (Nat.max_zero _).symm

/-- the largest number of messages received at once -/
theorem runSegActs_runs {threads : Nat} (hN : N ≤ threads * 16) : ∀ (as : List SegAct), (∀ a ∈ as, a.Fits N) → ∀ (s : SegMem),
    s.Idle N → ∀ L : List (Nat × Alloc),
    Runs (runSegActs threads as s) (s.blocks ++ L) (fun r X => r.Idle N ∧ X.Perm (r.blocks ++ L) ∧
      r.pool.length = as.foldl (fun m a => max m a.load) s.pool.length ∧
      r.props.isSome = (s.props.isSome || as.any SegAct.allocates)) := by
  intro as
  induction as with
  | nil =>
    intro _ s hs L
    exact Runs.pure ⟨hs, List.Perm.refl _, rfl, by simp⟩
  | cons a as ih =>
    intro ha s hs L
    refine (SegAct.runs hN a (ha a List.mem_cons_self) hs L).bind ?_
    rintro r X ⟨hr, hX, e1, e2⟩
    refine ((ih (fun b hb => ha b (List.mem_cons_of_mem _ hb)) r hr L).perm hX).mono ?_
    rintro t Y ⟨ht, hY, f1, f2⟩
    refine ⟨ht, hY, ?_, ?_⟩
    · rw [f1, e1, List.foldl_cons]
    · rw [f2, e2, List.any_cons, Bool.or_assoc]

theorem BufGood.length {b : Ptr × BufMem} (hb : BufGood N b) : (bufBlocks b).length = 8 := by
  obtain ⟨hp, hg⟩ := hb
  obtain ⟨h1, h2, h3, h4, h5, h6, h7⟩ := hg.each
  unfold bufBlocks BufMem.blocks
  simp only [List.length_append, own_length hp, own_length h1, own_length h2, own_length h3, own_length h4, own_length h5,
    own_length h6, own_length h7]

theorem bufs_length : ∀ (bs : List (Ptr × BufMem)), (∀ b ∈ bs, BufGood N b) → (bs.flatMap bufBlocks).length = 8 * bs.length := by
  intro bs
  induction bs with
  | nil => intro _; rfl
  | cons b bs ih =>
    intro h
    rw [List.flatMap_cons, List.length_append, (h b List.mem_cons_self).length,
      ih (fun c hc => h c (List.mem_cons_of_mem _ hc)), List.length_cons]
    omega

theorem SegMem.Idle.length {s : SegMem} (hs : s.Idle N) :
    s.blocks.length = 8 * ((if s.props.isSome then 1 else 0) + s.pool.length) := by
  unfold SegMem.blocks
  rw [hs.received, List.length_append, List.length_append, bufs_length _ hs.good.pool]
  cases hp : s.props with
  | none => simp
  | some b =>
    simp only [Option.elim, Option.isSome, if_true, List.flatMap_nil, List.length_nil, (hs.good.props b hp).length]
    omega

theorem newSeg_runs (N : Nat) (L : List (Nat × Alloc)) :
    Runs newSeg L (fun s X => IsBlock s.1 ∧ s.2 = ⟨none, [], [], []⟩ ∧ s.2.Idle N ∧ X = own .newObj s.1 ++ L) := by
  unfold newSeg
  refine (runs_allocate _ _).bind ?_
  rintro p _ ⟨hp, rfl⟩
  refine Runs.pure ⟨hp, rfl, ⟨⟨by simp, by simp, by simp, by simp⟩, rfl, rfl⟩, rfl⟩

/-- blocks of a segment with the segment object -/
def segBlocks (s : Ptr × SegMem) : List (Nat × Alloc) := own .newObj s.1 ++ s.2.blocks

theorem deleteSeg_runs {s : Ptr × SegMem} (hp : IsBlock s.1) (hs : s.2.Good N) (L : List (Nat × Alloc)) :
    Runs (deleteSeg s) (segBlocks s ++ L) (fun _ X => X.Perm L) := by
  unfold deleteSeg
  refine (ptr_touch (k := .newObj) hp (fun x hx => by unfold segBlocks; simp only [List.mem_append]; tauto)).bind ?_
  rintro _ _ rfl
  have hrest : ∀ X : List (Nat × Alloc), X.Perm (s.2.received.flatMap bufBlocks ++ (s.2.pool.flatMap bufBlocks ++
      (own .newObj s.1 ++ L))) → Runs (s.2.received.mapM deleteBuf >>= fun _ => s.2.pool.mapM deleteBuf >>= fun _ =>
        release .newObj s.1) X (fun _ X => X.Perm L) := by
    intro X hX
    refine ((runs_mapM_free (blk := bufBlocks) (G := BufGood N) (fun b L hb => deleteBuf_runs hb L) _ hs.received _).perm hX).bind ?_
    intro _ Y hY
    refine ((runs_mapM_free (blk := bufBlocks) (G := BufGood N) (fun b L hb => deleteBuf_runs hb L) _ hs.pool _).perm hY).bind ?_
    intro _ Z hZ
    exact (runs_release (L' := L) hp hZ).mono (by rintro _ _ rfl; exact List.Perm.refl _)
  dsimp only
  cases hb : s.2.props with
  | none =>
    refine hrest _ ?_
    unfold segBlocks SegMem.blocks
    rw [hb]
    simp only [Option.elim]
    perm_parts
  | some b =>
    refine ((deleteBuf_runs (hs.props b hb) _).perm ?_).bind (fun _ X hX => hrest X hX)
    unfold segBlocks SegMem.blocks
    rw [hb]
    simp only [Option.elim]
    perm_parts

theorem loadSeg_runs {threads k : Nat} (hN : N ≤ threads * 16) (hk : N ≤ k) (full : Bool) (L : List (Nat × Alloc)) :
    Runs (loadSeg threads (if full then some k else none) [] [] []) L
      (fun s X => IsBlock s.1 ∧ s.2.Idle N ∧ X.Perm (segBlocks s ++ L)) := by
  unfold loadSeg
  refine (newSeg_runs N L).bind ?_
  rintro s _ ⟨hs, -, -, rfl⟩
  refine Runs.bind (Q := fun p X => (∀ b, p = some b → BufGood N b) ∧ X.Perm ((p.elim [] bufBlocks) ++ (own .newObj s.1 ++ L)))
    ?_ ?_
  · cases full with
    | false => exact Runs.pure ⟨by simp, List.Perm.refl _⟩
    | true =>
      refine (loadBuf_runs hN hk _).bind ?_
      rintro b X ⟨hb, hX⟩
      exact Runs.pure ⟨fun c hc => Option.some.inj hc ▸ hb, hX⟩
  rintro p X ⟨hp, hX⟩
  rw [List.mapM_nil]
  refine Runs.bind (Runs.pure (Q := fun bs Y => bs = [] ∧ Y = X) ⟨rfl, rfl⟩) ?_
  rintro _ X ⟨rfl, rfl⟩
  refine Runs.bind (Runs.pure (Q := fun bs Y => bs = [] ∧ Y = X) ⟨rfl, rfl⟩) ?_
  rintro _ X ⟨rfl, rfl⟩
  refine Runs.pure ⟨hs, ⟨⟨hp, by simp, by simp, by simp⟩, rfl, rfl⟩, hX.trans ?_⟩
  unfold segBlocks SegMem.blocks
  simp only [List.flatMap_nil]
  perm_parts

end GraphMat

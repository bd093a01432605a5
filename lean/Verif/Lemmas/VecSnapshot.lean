import Verif.Model.VecSnapshot
import Verif.Lemmas.Snapshot
import Verif.Lemmas.World

/-! What is written to the archive of a vector and what is read back from it. -/
namespace GraphMat

variable {α : Type}

/-- What `save` writes for a record. -/
def recToks (r : Nat × α) : Archive α := [.int r.1, .val r.2]

/-- What is written for the partitions. -/
def partToks (l : List (Nat × α)) : Archive α := .int l.length :: l.flatMap recToks

/-- What `save` writes for a buffer. -/
def Buffer.toks (b : Buffer α) : Archive α :=
  [.flag b.uninit, .signed b.nnz, .int b.value.size, .int b.bits.size] ++
  ((List.range b.value.size).map (fun i => .val (b.value.get i)) ++
  ((List.range b.bits.size).map (fun i => .word (b.bits.get i)) ++
  ((List.range b.value.size).map (fun i => .val (b.cdata.get i)) ++
  ((List.range b.value.size).map (fun i => .int (b.cidx.get i)) ++
  (.int b.sdata.length :: b.sdata.flatMap partToks)))))

/-- The buffer read back. -/
def Buffer.reload (b : Buffer α) (g : Fresh α) : Buffer α :=
  { b with value := b.value.reload g.value, bits := b.bits.reload g.bits, cdata := b.cdata.reload g.cdata,
           cidx := b.cidx.reload g.cidx }

theorem putPart_spec (l : List (Nat × α)) (ar : Archive α) : putList putRec l ar = some (ar ++ partToks l) :=
  putList_spec (L := recToks) (fun _ _ _ => rfl) ar

theorem Buffer.Dims.save {cap ni : Nat} {b : Buffer α} (h : b.Dims cap ni) (ar : Archive α) :
    b.save ar = some (ar ++ b.toks) := by
  unfold Buffer.save Buffer.toks
  simp only [Option.bind_eq_bind]
  rw [putArr_spec (Nat.le_refl _), Option.bind_some, putArr_spec (Nat.le_refl _), Option.bind_some,
    putArr_spec (Nat.le_of_eq (h.value.trans h.cdata.symm)), Option.bind_some, putArr_spec (Nat.le_of_eq (h.value.trans h.cidx.symm)), Option.bind_some,
    putList_spec (L := partToks) (fun l _ ar => putPart_spec l ar)]
  simp only [List.append_assoc]

theorem map_range_getElem {β : Type} (l : List β) (y : Nat → β) (h : ∀ i (hi : i < l.length), y i = l[i]) :
    (List.range l.length).map y = l := by
  apply List.ext_getElem
  · simp
  · intro i h1 h2
    rw [List.getElem_map, List.getElem_range]
    exact h i h2

theorem takePart_spec (l : List (Nat × α)) (ar : Archive α) :
    takeList (fun _ => takeRec) (partToks l ++ ar) = some (l, ar) := by
  cases l with
  | nil => rfl
  | cons x l =>
    unfold partToks
    rw [List.cons_append, takeList_spec (l := x :: l) (L := recToks) (y := fun i => ((x :: l)[i]?).getD x) (by
      intro i hi ar
      simp only [recToks, takeRec, getInt, getVal, List.cons_append, List.nil_append, Option.bind_eq_bind, Option.bind_some]
      rw [List.getElem?_eq_getElem hi]
      rfl), map_range_getElem]
    intro i hi
    rw [List.getElem?_eq_getElem hi]
    rfl

theorem Buffer.Dims.load {cap ni : Nat} {b : Buffer α} (h : b.Dims cap ni) (g : Fresh α) (ar : Archive α) :
    Buffer.load g (b.toks ++ ar) = some (b.reload g, ar) := by
  have hgi : ∀ (x : Nat) (ar : Archive α), getInt (Tok.int x :: ar) = some (x, ar) := fun _ _ => rfl
  have hgv : ∀ (x : α) (ar : Archive α), getVal (Tok.val x :: ar) = some (x, ar) := fun _ _ => rfl
  have hgw : ∀ (x : Word) (ar : Archive α), getWord (Tok.word x :: ar) = some (x, ar) := fun _ _ => rfl
  unfold Buffer.load Buffer.toks Buffer.reload
  simp only [List.cons_append, List.nil_append, getFlag, getSigned, hgi, Option.bind_eq_bind, Option.bind_some, List.append_assoc]
  rw [takeArr_spec hgv (by simp), Option.bind_some]
  simp only []
  rw [takeArr_spec hgw (by simp), Option.bind_some]
  simp only []
  rw [takeArr_spec hgv (by simp), Option.bind_some]
  simp only []
  rw [takeArr_spec hgi (by simp), Option.bind_some]
  simp only []
  rw [takeList_spec (l := b.sdata) (L := partToks) (y := fun i => (b.sdata[i]?).getD []) (by
    intro i hi ar
    rw [takePart_spec, List.getElem?_eq_getElem hi]
    rfl), map_range_getElem b.sdata _ (by
    intro i hi
    rw [List.getElem?_eq_getElem hi]
    rfl), Option.bind_some]
  simp only [Arr.reload, h.value, h.cdata, h.cidx]

theorem Buffer.Dims.reload {cap ni : Nat} {b : Buffer α} (h : b.Dims cap ni) (g : Fresh α) : (b.reload g).Dims cap ni :=
  ⟨h.value, h.bits, h.cdata, h.cidx⟩

theorem Arr.reload_get {β : Type} (a : Arr β) (g : Nat → β) {i : Nat} (h : i < a.size) : (a.reload g).get i = a.get i := if_pos h

theorem bitAt_reload {a : Arr Word} (g : Nat → Word) {i : Nat} (h : i / 32 < a.size) : bitAt (a.reload g) i = bitAt a i := by
  unfold bitAt
  rw [Arr.reload_get a g h]

theorem Buffer.reload_view {cap ni : Nat} {b : Buffer α} (h : b.Dims cap ni) (hn : ni = (cap + 31) / 32) (g : Fresh α) :
    (b.reload g).view = b.view := by
  funext i
  unfold Buffer.view
  show (if b.uninit = true then none else if i < b.value.size ∧ bitAt (b.bits.reload g.bits) i = true then
    some ((b.value.reload g.value).get i) else none) = _
  by_cases hi : i < b.value.size
  · rw [bitAt_reload _ (by rw [h.bits, hn]; have := h.value; omega), Arr.reload_get _ _ hi]
  · simp [hi]

theorem Buffer.Tail.reload {cap : Nat} {b : Buffer α} (h : b.Tail cap) (g : Fresh α) : (b.reload g).Tail cap := by
  intro i h1 h2
  have h2' : i / 32 < b.bits.size := h2
  show bitAt (b.bits.reload g.bits) i = false
  rw [bitAt_reload _ h2']
  exact h i h1 h2'

/-! ### Segments -/

/-- What is written for a pointer to a buffer. -/
def bufToks (b : Buffer α) : Archive α := .object :: b.toks

/-- What `save` writes for a segment. -/
def Segment.toks (s : Segment α) : Archive α :=
  [.flag s.props.isNone, .int s.capacity, .int s.numInts] ++
  ((s.props.map bufToks).getD [] ++
  ((.int s.received.length :: s.received.flatMap bufToks) ++
  (.int s.pool.length :: s.pool.flatMap bufToks)))

/-- The buffers of a list read back. -/
def reloadAll (g : Nat → Fresh α) (l : List (Buffer α)) : List (Buffer α) := l.mapIdx (fun i b => b.reload (g i))

/-- The segment read back. -/
def Segment.reload (s : Segment α) (g : Nat → Nat → Fresh α) : Segment α :=
  { s with props := s.props.map (fun b => b.reload (g 0 0)), received := reloadAll (g 1) s.received,
           pool := reloadAll (g 2) s.pool }

theorem putBuffer_spec {cap ni : Nat} {b : Buffer α} (h : b.Dims cap ni) (ar : Archive α) :
    putBuffer b ar = some (ar ++ bufToks b) := by
  unfold putBuffer bufToks
  rw [h.save, List.append_assoc]
  rfl

theorem takeBuffer_spec {cap ni : Nat} {b : Buffer α} (h : b.Dims cap ni) (g : Fresh α) (ar : Archive α) :
    takeBuffer g (bufToks b ++ ar) = some (b.reload g, ar) := h.load g ar

theorem Segment.WF.archive {s : Segment α} (h : s.WF) (ar : Archive α) : s.archive ar = some (ar ++ s.toks) := by
  unfold Segment.archive Segment.toks
  simp only [Option.bind_eq_bind]
  have hr := fun ar => putList_spec (put := putBuffer) (l := s.received) (L := bufToks)
    (fun b hb ar => putBuffer_spec (h.recv b hb) ar) ar
  have hp := fun ar => putList_spec (put := putBuffer) (l := s.pool) (L := bufToks)
    (fun b hb ar => putBuffer_spec (h.pool b hb) ar) ar
  cases hs : s.props with
  | none =>
    simp only [Option.bind_some]
    rw [hr, Option.bind_some, hp]
    simp
  | some b =>
    simp only []
    rw [putBuffer_spec (h.dims b hs), Option.bind_some, hr, Option.bind_some, hp]
    simp

theorem takeBuffers_spec {cap ni : Nat} (l : List (Buffer α)) (h : ∀ b ∈ l, b.Dims cap ni) (g : Nat → Fresh α)
    (ar : Archive α) :
    takeList (fun i => takeBuffer (g i)) (.int l.length :: (l.flatMap bufToks ++ ar)) = some (reloadAll g l, ar) := by
  cases l with
  | nil => rfl
  | cons x l =>
    rw [takeList_spec (l := x :: l) (L := bufToks) (y := fun i => (((x :: l)[i]?).getD x).reload (g i)) (by
      intro i hi ar
      rw [takeBuffer_spec (h _ (List.getElem_mem hi)), List.getElem?_eq_getElem hi]
      rfl)]
    congr 2
    unfold reloadAll
    apply List.ext_getElem
    · simp
    · intro i h1 h2
      have hi : i < (x :: l).length := by simpa using h1
      rw [List.getElem_map, List.getElem_range, List.getElem_mapIdx, List.getElem?_eq_getElem hi]
      rfl

theorem Segment.WF.restore {s : Segment α} (h : s.WF) (g : Nat → Nat → Fresh α) (ar : Archive α) :
    Segment.restore g (s.toks ++ ar) = some (s.reload g, ar) := by
  unfold Segment.restore Segment.toks Segment.reload
  cases hs : s.props with
  | none =>
    simp only [List.cons_append, List.nil_append, getFlag, getInt, Option.bind_eq_bind, Option.bind_some, List.append_assoc,
      Option.isNone_none, if_true, Option.map_none, Option.getD_none]
    rw [takeBuffers_spec _ h.recv, Option.bind_some]
    simp only []
    rw [takeBuffers_spec _ h.pool, Option.bind_some]
  | some b =>
    simp only [List.cons_append, List.nil_append, getFlag, getInt, Option.bind_eq_bind, Option.bind_some, List.append_assoc,
      Option.isNone_some, Bool.false_eq_true, if_false, Option.map_some, Option.getD_some]
    rw [takeBuffer_spec (h.dims b hs), Option.map_some, Option.bind_some]
    simp only []
    rw [takeBuffers_spec _ h.recv, Option.bind_some]
    simp only []
    rw [takeBuffers_spec _ h.pool, Option.bind_some]

theorem mem_reloadAll {g : Nat → Fresh α} {l : List (Buffer α)} {b : Buffer α} (h : b ∈ reloadAll g l) :
    ∃ b0 ∈ l, ∃ i, b = b0.reload (g i) := by
  unfold reloadAll at h
  rw [List.mem_mapIdx] at h
  obtain ⟨i, hi, e⟩ := h
  exact ⟨l[i], List.getElem_mem hi, i, e.symm⟩

theorem Segment.WF.reload {s : Segment α} (h : s.WF) (g : Nat → Nat → Fresh α) : (s.reload g).WF := by
  have hp : ∀ b, (s.reload g).props = some b → ∃ b0, s.props = some b0 ∧ b = b0.reload (g 0 0) := by
    intro b hb
    cases hs : s.props with
    | none =>
      simp [Segment.reload, hs] at hb
    | some b0 =>
      refine ⟨b0, rfl, ?_⟩
      simp only [Segment.reload, hs, Option.map_some, Option.some.injEq] at hb
      exact hb.symm
  refine ⟨h.ni, ?_, ?_, ?_, ?_⟩
  · intro b hb
    obtain ⟨b0, h0, rfl⟩ := hp b hb
    exact (h.dims b0 h0).reload _
  · intro b hb hu
    obtain ⟨b0, h0, rfl⟩ := hp b hb
    exact (h.tail b0 h0 hu).reload _
  · intro b hb
    obtain ⟨b0, h0, i, rfl⟩ := mem_reloadAll hb
    exact (h.recv b0 h0).reload _
  · intro b hb
    obtain ⟨b0, h0, i, rfl⟩ := mem_reloadAll hb
    exact (h.pool b0 h0).reload _

theorem Segment.WF.reload_view {s : Segment α} (h : s.WF) (g : Nat → Nat → Fresh α) : (s.reload g).view = s.view := by
  funext i
  unfold Segment.view Segment.reload
  cases hs : s.props with
  | none => rfl
  | some b =>
    simp only [Option.map_some]
    rw [Buffer.reload_view (h.dims b hs) h.ni]

/-! ### Vectors -/

/-- What is written for a pointer to a segment. -/
def segToks (s : Segment α) : Archive α := .object :: s.toks

/-- The segments of a vector as a list. -/
def SpVec.segList (v : SpVec α) : List (Segment α) := (List.range v.nseg).map v.segs.get

/-- What is written for a vector. -/
def SpVec.toks (v : SpVec α) : Archive α :=
  [.int v.nseg, .int v.n, .int v.nseg, .int v.nrank, .int v.myrank] ++
  ((.int v.nseg :: ((List.range v.nseg).map (fun j => j % v.nrank)).flatMap (fun k => [.int k])) ++
  ((.int (startIds v.n v.nseg).length :: (startIds v.n v.nseg).flatMap (fun k => [.int k])) ++
  (.int v.nseg :: v.segList.flatMap segToks)))

/-- The vector read back. -/
def SpVec.reload (v : SpVec α) (g : Nat → Nat → Nat → Fresh α) : SpVec α :=
  { v with segs := ⟨v.nseg, fun j => if j < v.nseg then (v.segs.get j).reload (g j) else Segment.new 0⟩ }

theorem segOwners_eq {nrank : Nat} (hr : 0 < nrank) (k : Nat) :
    (List.range k).mapM (segOwner nrank) = some ((List.range k).map (fun j => j % nrank)) := by
  apply mapM_some
  intro j _
  unfold segOwner vectorPartitionFn
  rw [if_neg (by omega)]

theorem takeInts_spec (l : List Nat) (ar : Archive α) :
    takeList (fun _ => getInt) (.int l.length :: (l.flatMap (fun k => [.int k]) ++ ar)) = some (l, ar) := by
  rw [takeList_spec (l := l) (L := fun k => [.int k]) (y := fun i => (l[i]?).getD 0) (by
    intro i hi ar
    rw [List.getElem?_eq_getElem hi]
    rfl), map_range_getElem]
  intro i hi
  rw [List.getElem?_eq_getElem hi]
  rfl

theorem SpVec.WF.archive {n nseg nrank me : Nat} {v : SpVec α} (h : v.WF n nseg nrank me) (hr : 0 < nrank)
    (ar : Archive α) : v.archive ar = some (ar ++ v.toks) := by
  unfold SpVec.archive SpVec.toks
  have hr' : 0 < v.nrank := by rw [h.hrank]; exact hr
  have hpi : ∀ (l : List Nat) (ar : Archive α), putList putInt l ar = some (ar ++ (.int l.length :: l.flatMap (fun k => [.int k]))) :=
    fun l ar => putList_spec (fun _ _ _ => rfl) ar
  simp only [Option.bind_eq_bind]
  rw [segOwners_eq hr', Option.bind_some, hpi, Option.bind_some, hpi, Option.bind_some,
    mapM_some (g := v.segs.get) (by
      intro j hj
      have := List.mem_range.mp hj
      exact Arr.read_some (by rw [h.size, ← h.hseg]; exact this)), Option.bind_some,
    putList_spec (L := segToks) (by
      intro s hs ar
      obtain ⟨j, hj, rfl⟩ := List.mem_map.mp hs
      have hj' := List.mem_range.mp hj
      unfold putSegment segToks
      rw [(h.seg j (by rw [← h.hseg]; exact hj')).archive, List.append_assoc]
      rfl)]
  simp [SpVec.segList]

theorem SpVec.WF.restore {n nseg nrank me : Nat} {v : SpVec α} (h : v.WF n nseg nrank me) (hr : 0 < nrank)
    (g : Nat → Nat → Nat → Fresh α) (ar : Archive α) :
    SpVec.restore g (v.toks ++ ar) = some (v.reload g, ar) := by
  have hr' : 0 < v.nrank := by rw [h.hrank]; exact hr
  unfold SpVec.restore SpVec.toks
  simp only [List.cons_append, List.nil_append, getInt, Option.bind_eq_bind, Option.bind_some, List.append_assoc]
  have t1 := takeInts_spec (α := α) ((List.range v.nseg).map (fun j => j % v.nrank))
  rw [List.length_map, List.length_range] at t1
  rw [t1, Option.bind_some]
  simp only []
  rw [takeInts_spec, Option.bind_some]
  simp only []
  have t2 := takeList_spec (get := fun j => takeSegment (g j)) (l := v.segList) (L := segToks)
    (y := fun j => (v.segs.get j).reload (g j)) (by
      intro j hj ar
      have hj' : j < v.nseg := by simpa [SpVec.segList] using hj
      have e : v.segList[j] = v.segs.get j := by simp [SpVec.segList]
      rw [e]
      exact (h.seg j (by rw [← h.hseg]; exact hj')).restore (g j) ar) ar
  have hl : v.segList.length = v.nseg := by simp [SpVec.segList]
  rw [hl] at t2
  rw [t2, Option.bind_some, segOwners_eq hr', if_neg (by simp)]
  simp only [SpVec.reload, List.length_map, List.length_range]
  congr 4
  funext j
  by_cases hj : j < v.nseg
  · rw [if_pos hj, List.getElem?_map, List.getElem?_range hj]
    rfl
  · rw [if_neg hj, List.getElem?_eq_none (by simpa using Nat.le_of_not_lt hj)]
    rfl

theorem SpVec.WF.reload {n nseg nrank me : Nat} {v : SpVec α} (h : v.WF n nseg nrank me)
    (g : Nat → Nat → Nat → Fresh α) : (v.reload g).WF n nseg nrank me := by
  have e : ∀ p, p < nseg → (v.reload g).segs.get p = (v.segs.get p).reload (g p) := by
    intro p hp
    exact if_pos (by rw [h.hseg]; exact hp)
  refine ⟨h.hn, h.hseg, h.hrank, h.hme, h.hseg, ?_, ?_⟩
  · intro p hp
    rw [e p hp]
    exact (h.seg p hp).reload _
  · intro p hp
    rw [e p hp]
    exact h.cap p hp

/-- Saving and loading the parts of all ranks. -/
theorem DVec.throughArchive_spec {n nseg nrank : Nat} {d : DVec α} (h : d.WF n nseg nrank) (hr : 0 < nrank)
    (g : Nat → Nat → Nat → Nat → Fresh α) :
    ∃ d', d.throughArchive g = some d' ∧ DVec.WF n nseg nrank d' ∧
      (∀ r, r < nrank → d'.get r = (d.get r).reload (g r)) ∧
      ∀ w, DVec.sem n nseg nrank d' w = d.sem n nseg nrank w := by
  obtain ⟨d', h1, h2, h3⟩ := eachRank_spec (d := d) (f := fun r v => do
      let ar ← v.archive []
      let (v', rest) ← SpVec.restore (g r) ar
      if rest.isEmpty then some v' else none)
    (P := fun r v' => v' = (d.get r).reload (g r))
    (by
      intro r hr'
      have hw := h.rank r (by rw [← h.size]; exact hr')
      refine ⟨_, ?_, rfl⟩
      rw [hw.archive hr, Option.bind_eq_bind, Option.bind_some, List.nil_append]
      have := hw.restore hr (g r) []
      rw [List.append_nil] at this
      rw [this]
      rfl)
  have hget : ∀ r, r < nrank → d'.get r = (d.get r).reload (g r) := fun r hr' => (h3 r (by rw [h.size]; exact hr')).2
  refine ⟨d', h1, ⟨by rw [h2, h.size], ?_⟩, hget, ?_⟩
  · intro r hr'
    rw [hget r hr']
    exact (h.rank r hr').reload _
  · intro w
    unfold DVec.sem
    cases hp : getPartition n nseg w with
    | none => rfl
    | some p =>
      have hpp := getPartition_some hp
      have hm := Nat.mod_lt p hr
      simp only []
      unfold DVec.own
      rw [hget _ hm]
      have hw := h.rank _ hm
      have e : ((d.get (p % nrank)).reload (g (p % nrank))).segs.get p =
          ((d.get (p % nrank)).segs.get p).reload (g (p % nrank) p) := if_pos (by rw [hw.hseg]; exact hpp.1)
      rw [e, (hw.seg p hpp.1).reload_view]

end GraphMat

import Verif.Model.Flight
import Verif.Lemmas.Comm

/-! # Lemmas about arrays and transfers: segments -/
namespace GraphMat

variable {α β : Type}

/-- The program has no undefined behaviour and ends as described. -/
def RunsTo (p : FlightM α) (f : Flight) (Q : α → Flight → Prop) : Prop := ∃ a f', p f = some (a, f') ∧ Q a f'

theorem RunsTo.bind {p : FlightM α} {k : α → FlightM β} {f : Flight} {Q : α → Flight → Prop} {R : β → Flight → Prop}
    (h : RunsTo p f Q) (hk : ∀ a f', Q a f' → RunsTo (k a) f' R) : RunsTo (p >>= k) f R := by
  obtain ⟨a, f', h1, h2⟩ := h
  obtain ⟨b, f'', h3, h4⟩ := hk a f' h2
  refine ⟨b, f'', ?_, h4⟩
  show (p f).bind (fun x => k x.1 x.2) = _
  rw [h1]
  exact h3

theorem RunsTo.pure {a : α} {f : Flight} {Q : α → Flight → Prop} (h : Q a f) : RunsTo (pure a : FlightM α) f Q :=
  ⟨a, f, rfl, h⟩

theorem RunsTo.mono {p : FlightM α} {f : Flight} {Q R : α → Flight → Prop} (h : RunsTo p f Q)
    (hQ : ∀ a f', Q a f' → R a f') : RunsTo p f R := by
  obtain ⟨a, f', h1, h2⟩ := h
  exact ⟨a, f', h1, hQ a f' h2⟩

theorem RunsTo.given {x : Option α} {a : α} {f : Flight} {Q : α → Flight → Prop} (hx : x = some a) (h : Q a f) :
    RunsTo (given x) f Q := ⟨a, f, by rw [hx]; rfl, h⟩

/-- Arrays and transfers as a program can have made them. -/
structure Flight.Ok (f : Flight) : Prop where
  live : ∀ e ∈ f.live, e.1 < f.next
  pend : ∀ t ∈ f.pending, t.span.arr < f.next

theorem Flight.Ok.key {f : Flight} (h : f.Ok) {a n : Nat} (ha : (a, n) ∈ f.live) : a < f.next := h.live _ ha

theorem key_mem {f : Flight} {a n : Nat} (ha : (a, n) ∈ f.live) : a ∈ f.live.map Prod.fst :=
  List.mem_map.mpr ⟨_, ha, rfl⟩

/-! ### Primitive steps -/

theorem runsTo_newArray {n : Nat} {f : Flight} {Q : Nat → Flight → Prop}
    (h : Q f.next { f with next := f.next + 1, live := (f.next, n) :: f.live }) : RunsTo (newArray n) f Q := ⟨_, _, rfl, h⟩

theorem runsTo_readArray {a n : Nat} {f : Flight} {Q : Unit → Flight → Prop} (ha : (a, n) ∈ f.live)
    (hp : ∀ t ∈ f.pending, t.inward = true → t.span.arr ≠ a) (h : Q () f) : RunsTo (readArray a) f Q := by
  refine ⟨(), f, ?_, h⟩
  unfold readArray
  rw [if_pos ⟨key_mem ha, hp⟩]

theorem runsTo_writeArray {a n : Nat} {f : Flight} {Q : Unit → Flight → Prop} (ha : (a, n) ∈ f.live)
    (hp : ∀ t ∈ f.pending, t.span.arr ≠ a) (h : Q () f) : RunsTo (writeArray a) f Q := by
  refine ⟨(), f, ?_, h⟩
  unfold writeArray
  rw [if_pos ⟨key_mem ha, hp⟩]

theorem runsTo_deleteArray {a n : Nat} {f : Flight} {Q : Unit → Flight → Prop} (ha : (a, n) ∈ f.live)
    (hp : ∀ t ∈ f.pending, t.span.arr ≠ a) (h : Q () { f with live := f.live.filter (fun e => e.1 ≠ a) }) :
    RunsTo (deleteArray a) f Q := by
  refine ⟨(), _, ?_, h⟩
  unfold deleteArray
  rw [if_pos ⟨key_mem ha, hp⟩]

theorem runsTo_isend {s : Span} {n : Nat} {f : Flight} {Q : Nat → Flight → Prop} (ha : (s.arr, n) ∈ f.live)
    (hn : s.lo + s.len ≤ n) (hp : ∀ t ∈ f.pending, t.inward = true → ¬ t.span.Meets s)
    (h : Q f.nextReq { f with nextReq := f.nextReq + 1, pending := f.pending ++ [⟨f.nextReq, false, s⟩] }) :
    RunsTo (isend s) f Q := by
  refine ⟨_, _, ?_, h⟩
  unfold isend
  rw [if_pos ⟨⟨_, ha, rfl, hn⟩, hp⟩]

theorem runsTo_irecv {s : Span} {n : Nat} {f : Flight} {Q : Nat → Flight → Prop} (ha : (s.arr, n) ∈ f.live)
    (hn : s.lo + s.len ≤ n) (hp : ∀ t ∈ f.pending, ¬ t.span.Meets s)
    (h : Q f.nextReq { f with nextReq := f.nextReq + 1, pending := f.pending ++ [⟨f.nextReq, true, s⟩] }) :
    RunsTo (irecv s) f Q := by
  refine ⟨_, _, ?_, h⟩
  unfold irecv
  rw [if_pos ⟨⟨_, ha, rfl, hn⟩, hp⟩]

theorem Span.not_meets {a b : Span} (h : a.arr ≠ b.arr) : ¬ a.Meets b := fun m => h m.1

theorem runsTo_waitall {reqs : List Nat} {f : Flight} {Q : Unit → Flight → Prop} (hr : f.pending.map Transfer.req = reqs)
    (h : Q () { f with pending := [] }) : RunsTo (waitall reqs) f Q := by
  refine ⟨(), _, ?_, h⟩
  unfold waitall
  rw [if_pos (by intro q hq; rw [hr]; exact hq)]
  have : f.pending.filter (fun t => t.req ∉ reqs) = [] := by
    rw [List.filter_eq_nil_iff]
    intro t ht
    have : t.req ∈ reqs := by rw [← hr]; exact List.mem_map.mpr ⟨t, ht, rfl⟩
    simpa using this
  rw [this]

/-! ### Buffers -/

/-- The arrays of a buffer. -/
def FBuf.ids (b : FBuf) : List Nat := [b.value, b.bits, b.cdata, b.cidx, b.sdata, b.nbytesScan, b.nnzScan]

/-- The arrays of a buffer are live and have the right sizes. -/
structure FBuf.Good (threads : Nat) (ser : Bool) (cap : Nat) (f : Flight) (b : FBuf) : Prop where
  value : (b.value, cap) ∈ f.live
  bits : (b.bits, fWords cap) ∈ f.live
  cdata : (b.cdata, cap) ∈ f.live
  cidx : (b.cidx, cap) ∈ f.live
  sdata : ∃ n, (b.sdata, n) ∈ f.live ∧ (ser = true → n = b.sbytes)
  nbytesScan : (b.nbytesScan, threads * 16 + 1) ∈ f.live
  nnzScan : (b.nnzScan, threads * 16 + 1) ∈ f.live
  parts : ser = true → b.parts ≤ threads * 16

theorem FBuf.Good.mono {th : Nat} {ser : Bool} {cap : Nat} {f f' : Flight} {b : FBuf} (h : b.Good th ser cap f)
    (hl : ∀ e ∈ f.live, e.1 ∈ b.ids → e ∈ f'.live) : b.Good th ser cap f' := by
  obtain ⟨h1, h2, h3, h4, ⟨n, h5, h5'⟩, h6, h7, h8⟩ := h
  refine ⟨hl _ h1 ?_, hl _ h2 ?_, hl _ h3 ?_, hl _ h4 ?_, ⟨n, hl _ h5 ?_, h5'⟩, hl _ h6 ?_, hl _ h7 ?_, h8⟩ <;> simp [FBuf.ids]

theorem FBuf.Good.lt {th : Nat} {ser : Bool} {cap : Nat} {f : Flight} {b : FBuf} (h : b.Good th ser cap f) (hf : f.Ok)
    {a : Nat} (ha : a ∈ b.ids) : a < f.next := by
  obtain ⟨h1, h2, h3, h4, ⟨n, h5, _⟩, h6, h7, _⟩ := h
  simp only [FBuf.ids, List.mem_cons, List.not_mem_nil, or_false] at ha
  rcases ha with rfl | rfl | rfl | rfl | rfl | rfl | rfl
  · exact hf.key h1
  · exact hf.key h2
  · exact hf.key h3
  · exact hf.key h4
  · exact hf.key h5
  · exact hf.key h6
  · exact hf.key h7

/-- What may change when a program works on arrays `A` and ends with arrays `B`. -/
structure Moves (A B : List Nat) (f f' : Flight) : Prop where
  ok : f'.Ok
  next : f.next ≤ f'.next
  keep : ∀ e ∈ f.live, e.1 ∉ A → e ∈ f'.live
  ids : ∀ a ∈ B, a ∈ A ∨ f.next ≤ a

theorem Moves.refl {A : List Nat} {f : Flight} (h : f.Ok) : Moves A A f f :=
  ⟨h, Nat.le_refl _, fun _ he _ => he, fun _ ha => Or.inl ha⟩

theorem newFBuf_runs {th : Nat} {ser : Bool} {cap : Nat} {f : Flight} (hf : f.Ok) :
    RunsTo (newFBuf th cap) f (fun b f' => Moves [] b.ids f f' ∧ f'.pending = f.pending ∧ b.Good th ser cap f' ∧
      b.ids.Nodup ∧ ∀ a ∈ b.ids, f.next ≤ a) := by
  refine ⟨_, _, rfl, ?_⟩
  refine ⟨⟨⟨?_, ?_⟩, ?_, ?_, ?_⟩, rfl, ?_, ?_, ?_⟩
  · intro e he
    simp only [List.mem_cons] at he
    rcases he with rfl | rfl | rfl | rfl | rfl | rfl | rfl | he
    any_goals (dsimp only; omega)
    have := hf.live e he
    dsimp only
    omega
  · intro t ht
    have := hf.pend t ht
    dsimp only
    omega
  · dsimp only; omega
  · intro e he _
    simp only [List.mem_cons]
    simp [he]
  · intro a ha
    simp only [FBuf.ids, List.mem_cons, List.not_mem_nil, or_false] at ha
    right
    omega
  · refine ⟨?_, ?_, ?_, ?_, ⟨0, ?_, fun _ => rfl⟩, ?_, ?_, fun _ => Nat.le_refl _⟩ <;> simp
  · simp [FBuf.ids]
    omega
  · intro a ha
    simp only [FBuf.ids, List.mem_cons, List.not_mem_nil, or_false] at ha
    omega

/-! ### Segments -/

/-- All buffers of a segment. -/
def FSeg.bufs (s : FSeg) : List FBuf := s.props.toList ++ s.received ++ s.pool

/-- All arrays of a segment. -/
def FSeg.ids (s : FSeg) : List Nat := s.bufs.flatMap FBuf.ids

/-- The arrays of a segment are live, have the right sizes, and are different. -/
structure FSeg.Good (threads : Nat) (ser : Bool) (f : Flight) (s : FSeg) : Prop where
  nodup : s.ids.Nodup
  bufs : ∀ b ∈ s.bufs, b.Good threads ser s.cap f
  mds : ser = true → ∀ md ∈ s.md.toList ++ s.queued, md.parts ≤ threads * 16

theorem FSeg.mem_ids {s : FSeg} {b : FBuf} {a : Nat} (hb : b ∈ s.bufs) (ha : a ∈ b.ids) : a ∈ s.ids :=
  List.mem_flatMap.mpr ⟨b, hb, ha⟩

theorem FSeg.Good.lt {th : Nat} {ser : Bool} {f : Flight} {s : FSeg} (h : s.Good th ser f) (hf : f.Ok) {a : Nat}
    (ha : a ∈ s.ids) : a < f.next := by
  obtain ⟨b, hb, ha⟩ := List.mem_flatMap.mp ha
  exact (h.bufs b hb).lt hf ha

theorem FSeg.Good.mono {th : Nat} {ser : Bool} {f f' : Flight} {s : FSeg} (h : s.Good th ser f)
    (hl : ∀ e ∈ f.live, e.1 ∈ s.ids → e ∈ f'.live) : s.Good th ser f' :=
  ⟨h.nodup, fun b hb => (h.bufs b hb).mono (fun e he ha => hl e he (FSeg.mem_ids hb ha)), h.mds⟩

/-- What later steps rely on is not lost. -/
structure FSeg.Later (s s' : FSeg) : Prop where
  cap : s'.cap = s.cap
  props : s.props.isSome → s'.props.isSome
  md : s.md.isSome → s'.md.isSome
  queued : s'.queued = s.queued

theorem FSeg.Later.refl (s : FSeg) : s.Later s := ⟨rfl, id, id, rfl⟩

theorem FSeg.Later.trans {s t u : FSeg} (h1 : s.Later t) (h2 : t.Later u) : s.Later u :=
  ⟨h2.cap.trans h1.cap, fun h => h2.props (h1.props h), fun h => h2.md (h1.md h), h2.queued.trans h1.queued⟩

/-- After a step of one segment while nothing is under way. -/
structure SegIdle (th : Nat) (ser : Bool) (s : FSeg) (f : Flight) (s' : FSeg) (f' : Flight) : Prop where
  moves : Moves s.ids s'.ids f f'
  pend : f'.pending = []
  good : s'.Good th ser f'
  later : s.Later s'

theorem Moves.trans {A B C : List Nat} {f g h : Flight} (h1 : Moves A B f g) (h2 : Moves B C g h) (hf : f.Ok) : Moves A C f h := by
  refine ⟨h2.ok, Nat.le_trans h1.next h2.next, ?_, ?_⟩
  · intro e he ha
    refine h2.keep e (h1.keep e he ha) (fun hb => ?_)
    rcases h1.ids _ hb with h | h
    · exact ha h
    · have := hf.live e he
      omega
  · intro a ha
    rcases h2.ids a ha with h | h
    · exact h1.ids a h
    · exact Or.inr (Nat.le_trans h1.next h)

theorem SegIdle.trans {th : Nat} {ser : Bool} {s t u : FSeg} {f g h : Flight} (h1 : SegIdle th ser s f t g)
    (h2 : SegIdle th ser t g u h) (hf : f.Ok) : SegIdle th ser s f u h :=
  ⟨h1.moves.trans h2.moves hf, h2.pend, h2.good, h1.later.trans h2.later⟩

theorem SegIdle.refl {th : Nat} {ser : Bool} {s : FSeg} {f : Flight} (hf : f.Ok) (hp : f.pending = [])
    (hg : s.Good th ser f) : SegIdle th ser s f s f := ⟨Moves.refl hf, hp, hg, FSeg.Later.refl s⟩

/-- Reading and writing while nothing is under way. -/
theorem idle_read {a n : Nat} {f : Flight} (ha : (a, n) ∈ f.live) (hp : f.pending = []) :
    RunsTo (readArray a) f (fun _ f' => f' = f) :=
  runsTo_readArray ha (by rw [hp]; simp) rfl

theorem idle_write {a n : Nat} {f : Flight} (ha : (a, n) ∈ f.live) (hp : f.pending = []) :
    RunsTo (writeArray a) f (fun _ f' => f' = f) :=
  runsTo_writeArray ha (by rw [hp]; simp) rfl

theorem alloc_runs {th : Nat} {ser : Bool} {s : FSeg} {f : Flight} (hf : f.Ok) (hp : f.pending = []) (hg : s.Good th ser f) :
    RunsTo (s.alloc th) f (fun x f' => SegIdle th ser s f x.1 f' ∧ x.1.props = some x.2 ∧ x.1.received = s.received) := by
  unfold FSeg.alloc
  cases hs : s.props with
  | some b => exact RunsTo.pure ⟨SegIdle.refl hf hp hg, hs, rfl⟩
  | none =>
    refine (newFBuf_runs (ser := ser) (cap := s.cap) hf).bind ?_
    rintro b f' ⟨h1, h2, h3, h4, h5⟩
    apply RunsTo.pure
    have hids : ({ s with props := some b } : FSeg).ids = b.ids ++ s.ids := by
      simp [FSeg.ids, FSeg.bufs, hs]
    refine ⟨⟨⟨h1.ok, h1.next, ?_, ?_⟩, by rw [h2, hp], ⟨?_, ?_, hg.mds⟩, ⟨rfl, fun _ => rfl, id, rfl⟩⟩, rfl, rfl⟩
    · intro e he _
      exact h1.keep e he (by simp)
    · intro a ha
      rw [hids, List.mem_append] at ha
      rcases ha with ha | ha
      · exact Or.inr (h5 a ha)
      · exact Or.inl ha
    · rw [hids, List.nodup_append]
      refine ⟨h4, hg.nodup, ?_⟩
      rintro a ha c hc rfl
      have := h5 a ha
      have := hg.lt hf hc
      omega
    · intro c hc
      have : c = b ∨ c ∈ s.bufs := by
        simp only [FSeg.bufs, Option.toList_some, hs, Option.toList_none, List.nil_append, List.mem_append,
          List.mem_cons, List.not_mem_nil, or_false] at hc ⊢
        rcases hc with (h | h) | h
        · exact Or.inl h
        · exact Or.inr (Or.inl h)
        · exact Or.inr (Or.inr h)
      rcases this with rfl | hc
      · exact h3
      · exact (hg.bufs c hc).mono (fun e he _ => h1.keep e he (by simp))

theorem FSeg.props_mem {s : FSeg} {b : FBuf} (h : s.props = some b) : b ∈ s.bufs := by
  simp [FSeg.bufs, h]

/-- Only the numbers in the buffer change. -/
theorem good_setProps {th : Nat} {ser : Bool} {s : FSeg} {f : Flight} (hg : s.Good th ser f) {b c : FBuf}
    (hb : s.props = some b) (hi : c.ids = b.ids) (hs : ser = true → c.sbytes = b.sbytes) (hpt : c.parts = b.parts) :
    ({ s with props := some c } : FSeg).Good th ser f ∧ ({ s with props := some c } : FSeg).ids = s.ids := by
  have hids : ({ s with props := some c } : FSeg).ids = s.ids := by
    simp [FSeg.ids, FSeg.bufs, hb, hi]
  refine ⟨⟨by rw [hids]; exact hg.nodup, ?_, hg.mds⟩, hids⟩
  intro d hd
  have : d = c ∨ d ∈ s.bufs := by
    simp only [FSeg.bufs, hb, Option.toList_some, List.mem_append, List.mem_cons, List.not_mem_nil, or_false] at hd ⊢
    tauto
  rcases this with rfl | hd
  · have hgb := hg.bufs b (FSeg.props_mem hb)
    obtain ⟨h1, h2, h3, h4, ⟨n, h5, h5'⟩, h6, h7, h8⟩ := hgb
    simp only [FBuf.ids, List.cons.injEq, and_true] at hi
    obtain ⟨i1, i2, i3, i4, i5, i6, i7⟩ := hi
    refine ⟨i1 ▸ h1, i2 ▸ h2, i3 ▸ h3, i4 ▸ h4, ⟨n, i5 ▸ h5, fun h => ?_⟩, i6 ▸ h6, i7 ▸ h7, fun h => ?_⟩
    · rw [hs h, h5' h]
    · rw [hpt]; exact h8 h
  · exact hg.bufs d hd

theorem fill_runs {th : Nat} {ser : Bool} {s : FSeg} {f : Flight} (nnz : Nat) (hf : f.Ok) (hp : f.pending = [])
    (hg : s.Good th ser f) : RunsTo (s.fill th nnz) f (SegIdle th ser s f) := by
  unfold FSeg.fill
  refine (alloc_runs hf hp hg).bind ?_
  rintro ⟨t, b⟩ f' ⟨h1, h2, _⟩
  dsimp only at h1 h2 ⊢
  have hb := h1.good.bufs b (FSeg.props_mem h2)
  refine (idle_read hb.bits h1.pend).bind ?_
  rintro _ _ rfl
  refine (idle_write hb.bits h1.pend).bind ?_
  rintro _ _ rfl
  refine (idle_read hb.value h1.pend).bind ?_
  rintro _ _ rfl
  refine (idle_write hb.value h1.pend).bind ?_
  rintro _ f' rfl
  apply RunsTo.pure
  obtain ⟨g1, g2⟩ := good_setProps (c := { b with nnz := nnz }) h1.good h2 rfl (fun _ => rfl) rfl
  exact h1.trans ⟨by rw [g2]; exact Moves.refl h1.moves.ok, h1.pend, g1, ⟨rfl, fun _ => rfl, id, rfl⟩⟩ hf

theorem look_runs {th : Nat} {ser : Bool} {s : FSeg} {f : Flight} (hp : f.pending = []) (hg : s.Good th ser f) :
    RunsTo s.look f (fun _ f' => f' = f) := by
  unfold FSeg.look
  cases hs : s.props with
  | none => exact RunsTo.pure rfl
  | some b =>
    have hb := hg.bufs b (FSeg.props_mem hs)
    refine (idle_read hb.bits hp).bind ?_
    rintro _ _ rfl
    exact idle_read hb.value hp

/-- The array of serialized data is replaced. -/
theorem allocSerialized_runs {th : Nat} {ser : Bool} {cap : Nat} {b : FBuf} {f : Flight} (sz : Nat) (hf : f.Ok)
    (hp : ∀ t ∈ f.pending, t.span.arr ≠ b.sdata) (hn : b.ids.Nodup)
    (hg : ({ b with sbytes := sz } : FBuf).Good th false cap f) (hpt : ser = true → b.parts ≤ th * 16) :
    RunsTo (b.allocSerialized sz) f (fun c f' => Moves b.ids c.ids f f' ∧ f'.pending = f.pending ∧ c.Good th ser cap f' ∧
      c.ids.Nodup ∧ f'.nextReq = f.nextReq ∧ c = { b with sdata := f.next, sbytes := sz } ∧ (f.next, sz) ∈ f'.live) := by
  unfold FBuf.allocSerialized
  obtain ⟨h1, h2, h3, h4, ⟨n, h5, _⟩, h6, h7, _⟩ := hg
  have hlt : ∀ a ∈ b.ids, a < f.next := by
    intro a ha
    simp only [FBuf.ids, List.mem_cons, List.not_mem_nil, or_false] at ha
    rcases ha with rfl | rfl | rfl | rfl | rfl | rfl | rfl
    · exact hf.key h1
    · exact hf.key h2
    · exact hf.key h3
    · exact hf.key h4
    · exact hf.key h5
    · exact hf.key h6
    · exact hf.key h7
  refine RunsTo.bind (Q := fun _ f' => f' = { f with live := f.live.filter (fun e => e.1 ≠ b.sdata) })
    (runsTo_deleteArray h5 hp rfl) ?_
  rintro _ _ rfl
  refine RunsTo.bind (runsTo_newArray (Q := fun a f' => a = f.next ∧ f' = { f with
      next := f.next + 1, live := (f.next, sz) :: f.live.filter (fun e => e.1 ≠ b.sdata) }) ⟨rfl, rfl⟩) ?_
  rintro _ _ ⟨rfl, rfl⟩
  apply RunsTo.pure
  have hne : b.value ≠ b.sdata ∧ b.bits ≠ b.sdata ∧ b.cdata ≠ b.sdata ∧ b.cidx ≠ b.sdata ∧ b.nbytesScan ≠ b.sdata ∧
      b.nnzScan ≠ b.sdata := by
    simp only [FBuf.ids, List.nodup_cons, List.mem_cons, List.not_mem_nil, or_false, not_or] at hn
    obtain ⟨a1, a2, a3, a4, a5, a6⟩ := hn
    refine ⟨a1.2.2.2.1, a2.2.2.1, a3.2.1, a4.1, fun h => a5.1 h.symm, fun h => a5.2 h.symm⟩
  have hmem : ∀ e ∈ f.live, e.1 ≠ b.sdata → e ∈ (f.next, sz) :: f.live.filter (fun e => e.1 ≠ b.sdata) := by
    intro e he hne
    rw [List.mem_cons, List.mem_filter]
    exact Or.inr ⟨he, by simpa using hne⟩
  refine ⟨⟨⟨?_, ?_⟩, ?_, ?_, ?_⟩, rfl, ⟨?_, ?_, ?_, ?_, ⟨sz, ?_, fun _ => rfl⟩, ?_, ?_, hpt⟩, ?_, rfl, rfl, ?_⟩
  · intro e he
    rw [List.mem_cons, List.mem_filter] at he
    dsimp only
    rcases he with rfl | ⟨he, _⟩
    · dsimp only; omega
    · have := hf.live e he
      omega
  · intro t ht
    have := hf.pend t ht
    dsimp only; omega
  · dsimp only; omega
  · intro e he hb
    refine hmem e he (fun h => hb ?_)
    rw [h]; simp [FBuf.ids]
  · intro a ha
    simp only [FBuf.ids, List.mem_cons, List.not_mem_nil, or_false] at ha ⊢
    rcases ha with h | h | h | h | h | h | h
    · exact Or.inl (Or.inl h)
    · exact Or.inl (Or.inr (Or.inl h))
    · exact Or.inl (Or.inr (Or.inr (Or.inl h)))
    · exact Or.inl (Or.inr (Or.inr (Or.inr (Or.inl h))))
    · right; omega
    · exact Or.inl (Or.inr (Or.inr (Or.inr (Or.inr (Or.inr (Or.inl h))))))
    · exact Or.inl (Or.inr (Or.inr (Or.inr (Or.inr (Or.inr (Or.inr h))))))
  · exact hmem _ h1 hne.1
  · exact hmem _ h2 hne.2.1
  · exact hmem _ h3 hne.2.2.1
  · exact hmem _ h4 hne.2.2.2.1
  · exact List.mem_cons_self
  · exact hmem _ h6 hne.2.2.2.2.1
  · exact hmem _ h7 hne.2.2.2.2.2
  · have e1 := hlt b.value (by simp [FBuf.ids])
    have e2 := hlt b.bits (by simp [FBuf.ids])
    have e3 := hlt b.cdata (by simp [FBuf.ids])
    have e4 := hlt b.cidx (by simp [FBuf.ids])
    have e6 := hlt b.nbytesScan (by simp [FBuf.ids])
    have e7 := hlt b.nnzScan (by simp [FBuf.ids])
    simp only [FBuf.ids, List.nodup_cons, List.mem_cons, List.not_mem_nil, or_false, not_or] at hn ⊢
    obtain ⟨a1, a2, a3, a4, a5, a6, a7⟩ := hn
    refine ⟨⟨a1.1, a1.2.1, a1.2.2.1, by omega, a1.2.2.2.2⟩, ⟨a2.1, a2.2.1, by omega, a2.2.2.2⟩, ⟨a3.1, by omega, a3.2.2⟩,
      ⟨by omega, a4.2⟩, ⟨by omega, by omega⟩, a6, a7⟩
  · exact List.mem_cons_self

/-- One buffer of a segment is replaced by one with other arrays. -/
theorem good_replace {th : Nat} {ser : Bool} {s : FSeg} {f f' : Flight} (hf : f.Ok) {P Q : List FBuf} {b c : FBuf}
    (hg : ∀ d ∈ P ++ b :: Q, d.Good th ser s.cap f) (hn : ((P ++ b :: Q).flatMap FBuf.ids).Nodup)
    (hm : Moves b.ids c.ids f f') (hc : c.Good th ser s.cap f') (hcn : c.ids.Nodup) :
    Moves ((P ++ b :: Q).flatMap FBuf.ids) ((P ++ c :: Q).flatMap FBuf.ids) f f' ∧
      ((P ++ c :: Q).flatMap FBuf.ids).Nodup ∧ ∀ d ∈ P ++ c :: Q, d.Good th ser s.cap f' := by
  rw [List.flatMap_append, List.flatMap_cons, List.nodup_append, List.nodup_append] at hn
  obtain ⟨n1, ⟨n2, n3, n4⟩, n5⟩ := hn
  have hout : ∀ d, d ∈ P ∨ d ∈ Q → ∀ a ∈ d.ids, a ∉ b.ids := by
    intro d hd a ha hb
    rcases hd with hd | hd
    · exact n5 a (List.mem_flatMap.mpr ⟨d, hd, ha⟩) a (List.mem_append.mpr (Or.inl hb)) rfl
    · exact n4 a hb a (List.mem_flatMap.mpr ⟨d, hd, ha⟩) rfl
  have hold : ∀ d, d ∈ P ∨ d ∈ Q → d.Good th ser s.cap f := by
    intro d hd
    apply hg d
    rw [List.mem_append, List.mem_cons]
    tauto
  have hnew : ∀ d, d ∈ P ∨ d ∈ Q → ∀ a ∈ d.ids, a ∉ c.ids := by
    intro d hd a ha hcs
    rcases hm.ids a hcs with h | h
    · exact hout d hd a ha h
    · have := (hold d hd).lt hf ha
      omega
  refine ⟨⟨hm.ok, hm.next, ?_, ?_⟩, ?_, ?_⟩
  · intro e he ha
    refine hm.keep e he (fun hb => ha ?_)
    rw [List.flatMap_append, List.flatMap_cons, List.mem_append, List.mem_append]
    exact Or.inr (Or.inl hb)
  · intro a ha
    rw [List.flatMap_append, List.flatMap_cons, List.mem_append, List.mem_append] at ha ⊢
    rcases ha with ha | ha | ha
    · exact Or.inl (Or.inl ha)
    · rcases hm.ids a ha with h | h
      · exact Or.inl (Or.inr (Or.inl h))
      · exact Or.inr h
    · exact Or.inl (Or.inr (Or.inr ha))
  · rw [List.flatMap_append, List.flatMap_cons, List.nodup_append, List.nodup_append]
    refine ⟨n1, ⟨hcn, n3, ?_⟩, ?_⟩
    · rintro a ha _ hb rfl
      obtain ⟨d, hd, hb⟩ := List.mem_flatMap.mp hb
      exact hnew d (Or.inr hd) a hb ha
    · rintro a ha e hb rfl
      rw [List.mem_append] at hb
      rcases hb with hb | hb
      · obtain ⟨d, hd, ha⟩ := List.mem_flatMap.mp ha
        exact hnew d (Or.inl hd) a ha hb
      · exact n5 a ha a (List.mem_append.mpr (Or.inr hb)) rfl
  · intro d hd
    rw [List.mem_append, List.mem_cons] at hd
    have : d = c ∨ (d ∈ P ∨ d ∈ Q) := by tauto
    rcases this with rfl | hd
    · exact hc
    · exact (hold d hd).mono (fun e he ha => hm.keep e he (hout d hd _ ha))

theorem props_bufs {s : FSeg} {b : FBuf} (h : s.props = some b) : s.bufs = [] ++ b :: (s.received ++ s.pool) := by
  simp [FSeg.bufs, h]

theorem compress_runs {th : Nat} {ser : Bool} {s : FSeg} {f : Flight} (stale found sz : Nat) (hf : f.Ok) (hp : f.pending = [])
    (hg : s.Good th ser f) :
    RunsTo (s.compress th ser stale found sz) f (fun s' f' => SegIdle th ser s f s' f' ∧ s'.props.isSome) := by
  unfold FSeg.compress
  refine (alloc_runs hf hp hg).bind ?_
  rintro ⟨t, b⟩ f1 ⟨h1, h2, _⟩
  dsimp only at h1 h2 ⊢
  have hb := h1.good.bufs b (FSeg.props_mem h2)
  refine (idle_write hb.bits h1.pend).bind ?_
  rintro _ f2 rfl
  cases hd : shouldCompress ser t.cap stale with
  | compressed =>
    dsimp only
    unfold FBuf.compressPlain
    refine RunsTo.bind (Q := fun c f' => c = { b with nnz := found } ∧ f' = f2) ?_ ?_
    · refine (idle_read hb.bits h1.pend).bind ?_
      rintro _ _ rfl
      refine (idle_read hb.value h1.pend).bind ?_
      rintro _ _ rfl
      refine (idle_write hb.cdata h1.pend).bind ?_
      rintro _ _ rfl
      refine (idle_write hb.cidx h1.pend).bind ?_
      rintro _ _ rfl
      exact RunsTo.pure ⟨rfl, rfl⟩
    · rintro _ _ ⟨rfl, rfl⟩
      apply RunsTo.pure
      obtain ⟨g1, g2⟩ := good_setProps (c := { b with nnz := found }) h1.good h2 rfl (fun _ => rfl) rfl
      exact ⟨h1.trans ⟨by rw [g2]; exact Moves.refl h1.moves.ok, h1.pend, g1, ⟨rfl, fun _ => rfl, id, rfl⟩⟩ hf, rfl⟩
  | none =>
    apply RunsTo.pure
    obtain ⟨g1, g2⟩ := good_setProps (c := { b with nnz := stale }) h1.good h2 rfl (fun _ => rfl) rfl
    exact ⟨h1.trans ⟨by rw [g2]; exact Moves.refl h1.moves.ok, h1.pend, g1, ⟨rfl, fun _ => rfl, id, rfl⟩⟩ hf, rfl⟩
  | serialized =>
    dsimp only
    have hbn : b.ids.Nodup := by
      have := h1.good.nodup
      unfold FSeg.ids at this
      rw [props_bufs h2, List.nil_append, List.flatMap_cons, List.nodup_append] at this
      exact this.1
    refine RunsTo.bind (Q := fun c f' => Moves b.ids c.ids f2 f' ∧ f'.pending = [] ∧ c.Good th ser t.cap f' ∧ c.ids.Nodup) ?_ ?_
    · unfold FBuf.compressSer
      refine (idle_read hb.bits h1.pend).bind ?_
      rintro _ _ rfl
      refine (idle_read hb.value h1.pend).bind ?_
      rintro _ _ rfl
      refine (idle_write hb.nnzScan h1.pend).bind ?_
      rintro _ _ rfl
      refine (idle_write hb.nbytesScan h1.pend).bind ?_
      rintro _ f2 rfl
      refine (allocSerialized_runs (ser := ser) (th := th) (cap := t.cap) sz h1.moves.ok (by rw [h1.pend]; simp) hbn ?_ hb.parts).bind ?_
      · obtain ⟨a1, a2, a3, a4, ⟨n, a5, _⟩, a6, a7, a8⟩ := hb
        exact ⟨a1, a2, a3, a4, ⟨n, a5, fun h => by simp at h⟩, a6, a7, fun h => by simp at h⟩
      · rintro c f3 ⟨c1, c2, c3, c4, _, _, _⟩
        have hp3 : f3.pending = [] := by rw [c2, h1.pend]
        obtain ⟨n, hs, _⟩ := c3.sdata
        refine (idle_write hs hp3).bind ?_
        rintro _ f4 rfl
        exact RunsTo.pure ⟨c1, hp3, c3, c4⟩
    · rintro c f3 ⟨c1, c2, c3, c4⟩
      apply RunsTo.pure
      have hids : t.ids = ([] ++ b :: (t.received ++ t.pool)).flatMap FBuf.ids := by
        unfold FSeg.ids; rw [props_bufs h2]
      have hids' : ({ t with props := some c } : FSeg).ids = ([] ++ c :: (t.received ++ t.pool)).flatMap FBuf.ids := by
        unfold FSeg.ids; rw [props_bufs (b := c) rfl]
      obtain ⟨g1, g2, g3⟩ := good_replace (s := t) h1.moves.ok (P := []) (Q := t.received ++ t.pool) (b := b) (c := c)
        (by rw [← props_bufs h2]; exact h1.good.bufs) (by rw [← hids]; exact h1.good.nodup) c1 c3 c4
      refine ⟨h1.trans ⟨by rw [hids, hids']; exact g1, c2, ⟨by rw [hids']; exact g2, ?_, h1.good.mds⟩,
        ⟨rfl, fun _ => rfl, id, rfl⟩⟩ hf, rfl⟩
      rw [props_bufs (b := c) rfl]
      exact g3

theorem decompressSer_runs {th : Nat} {ser : Bool} {cap : Nat} {b : FBuf} {f : Flight} (hp : f.pending = [])
    (hb : b.Good th ser cap f) : RunsTo b.decompressSer f (fun _ f' => f' = f) := by
  unfold FBuf.decompressSer
  obtain ⟨n, hs, _⟩ := hb.sdata
  refine (idle_write hb.bits hp).bind ?_
  rintro _ _ rfl
  refine (idle_read hb.nbytesScan hp).bind ?_
  rintro _ _ rfl
  refine (idle_read hs hp).bind ?_
  rintro _ _ rfl
  refine (idle_read hb.nnzScan hp).bind ?_
  rintro _ _ rfl
  exact idle_write hb.value hp

theorem decompress_runs {th : Nat} {ser : Bool} {s : FSeg} {f : Flight} (hp : f.pending = []) (hg : s.Good th ser f)
    (hs : s.props.isSome) : RunsTo (s.decompress ser) f (fun _ f' => f' = f) := by
  unfold FSeg.decompress
  obtain ⟨b, hb⟩ := Option.isSome_iff_exists.mp hs
  rw [hb]
  dsimp only
  have hgb := hg.bufs b (FSeg.props_mem hb)
  cases shouldCompress ser s.cap b.nnz with
  | compressed =>
    dsimp only
    unfold FBuf.decompressPlain
    refine (idle_write hgb.bits hp).bind ?_
    rintro _ _ rfl
    refine (idle_read hgb.cidx hp).bind ?_
    rintro _ _ rfl
    refine (idle_read hgb.cdata hp).bind ?_
    rintro _ _ rfl
    exact idle_write hgb.value hp
  | none => exact RunsTo.pure rfl
  | serialized => exact decompressSer_runs hp hgb

theorem recvNnz_runs {th : Nat} {ser : Bool} {s : FSeg} {f : Flight} (md : Md) (hf : f.Ok) (hp : f.pending = [])
    (hg : s.Good th ser f) (hm : ser = true → md.parts ≤ th * 16) :
    RunsTo (s.recvNnz th md) f (fun s' f' => SegIdle th ser s f s' f' ∧ s'.props.isSome ∧ s'.md.isSome) := by
  unfold FSeg.recvNnz
  refine (alloc_runs hf hp hg).bind ?_
  rintro ⟨t, b⟩ f1 ⟨h1, h2, _⟩
  dsimp only at h1 h2 ⊢
  apply RunsTo.pure
  refine ⟨h1.trans ⟨Moves.refl h1.moves.ok, h1.pend, ⟨h1.good.nodup, h1.good.bufs, ?_⟩,
    ⟨rfl, id, fun _ => rfl, rfl⟩⟩ hf, by rw [h2]; rfl, rfl⟩
  intro hs m hm'
  rw [Option.toList_some, List.singleton_append, List.mem_cons] at hm'
  rcases hm' with rfl | h
  · exact hm hs
  · exact h1.good.mds hs m (List.mem_append.mpr (Or.inr h))

theorem clear_ids (s : FSeg) : s.clear.bufs.flatMap FBuf.ids = (s.props.toList ++ s.pool ++ s.received).flatMap FBuf.ids := by
  unfold FSeg.clear FSeg.bufs
  cases s.props <;> simp [FBuf.ids]

theorem segClear_good {th : Nat} {ser : Bool} {s : FSeg} {f : Flight} (hf : f.Ok) (hp : f.pending = []) (hg : s.Good th ser f) :
    SegIdle th ser s f s.clear f := by
  have hperm : s.clear.ids.Perm s.ids := by
    unfold FSeg.ids
    rw [clear_ids]
    unfold FSeg.bufs
    apply List.Perm.flatMap_right
    rw [List.append_assoc, List.append_assoc]
    exact List.Perm.append_left _ List.perm_append_comm
  refine ⟨⟨hf, Nat.le_refl _, fun _ he _ => he, fun a ha => Or.inl (hperm.mem_iff.mp ha)⟩, hp,
    ⟨hperm.nodup_iff.mpr hg.nodup, ?_, hg.mds⟩, ⟨rfl, ?_, id, rfl⟩⟩
  · intro b hb
    have : (∃ d, s.props = some d ∧ b = { d with nnz := 0 }) ∨ b ∈ s.received ∨ b ∈ s.pool := by
      simp only [FSeg.clear, FSeg.bufs, List.mem_append, List.append_nil, Option.mem_toList, Option.map_eq_some_iff] at hb
      rcases hb with ⟨d, h1, h2⟩ | h | h
      · exact Or.inl ⟨d, h1, h2.symm⟩
      · exact Or.inr (Or.inr h)
      · exact Or.inr (Or.inl h)
    rcases this with ⟨d, h1, rfl⟩ | h
    · obtain ⟨a1, a2, a3, a4, a5, a6, a7, a8⟩ := hg.bufs d (FSeg.props_mem h1)
      exact ⟨a1, a2, a3, a4, a5, a6, a7, a8⟩
    · apply hg.bufs b
      simp only [FSeg.bufs, List.mem_append]
      tauto
  · intro h
    simp only [FSeg.clear]
    cases hs : s.props with
    | none => rw [hs] at h; simp at h
    | some b => rfl

theorem mapM_still {γ δ : Type} {p : γ → FlightM δ} {f : Flight} :
    ∀ {l : List γ}, (∀ x ∈ l, RunsTo (p x) f (fun _ f' => f' = f)) → RunsTo (l.mapM p) f (fun _ f' => f' = f)
  | [], _ => by rw [List.mapM_nil]; exact RunsTo.pure rfl
  | x :: l, h => by
    rw [List.mapM_cons]
    refine (h x List.mem_cons_self).bind ?_
    rintro _ _ rfl
    refine (mapM_still (fun y hy => h y (List.mem_cons_of_mem _ hy))).bind ?_
    rintro _ _ rfl
    exact RunsTo.pure rfl

theorem union_runs {th : Nat} {ser : Bool} {s : FSeg} {f : Flight} (hf : f.Ok) (hp : f.pending = [])
    (hg : s.Good th ser f) : RunsTo (s.unionReceived th ser) f (SegIdle th ser s f) := by
  unfold FSeg.unionReceived
  refine (alloc_runs hf hp hg).bind ?_
  rintro ⟨t, b⟩ f1 ⟨h1, h2, _⟩
  dsimp only at h1 h2 ⊢
  have hb := h1.good.bufs b (FSeg.props_mem h2)
  refine (idle_write hb.bits h1.pend).bind ?_
  rintro _ f2 rfl
  refine RunsTo.bind (Q := fun _ f' => f' = f2) (mapM_still ?_) ?_
  · intro d hd
    have hgd := h1.good.bufs d (by simp [FSeg.bufs, hd])
    unfold FBuf.unionInto
    cases shouldCompress ser t.cap d.nnz with
    | compressed =>
      dsimp only
      refine (idle_read hgd.cidx h1.pend).bind ?_
      rintro _ _ rfl
      refine (idle_read hgd.cdata h1.pend).bind ?_
      rintro _ _ rfl
      refine (idle_read hb.bits h1.pend).bind ?_
      rintro _ _ rfl
      refine (idle_write hb.bits h1.pend).bind ?_
      rintro _ _ rfl
      exact idle_write hb.value h1.pend
    | none =>
      dsimp only
      refine (idle_read hgd.bits h1.pend).bind ?_
      rintro _ _ rfl
      refine (idle_read hgd.value h1.pend).bind ?_
      rintro _ _ rfl
      refine (idle_write hb.value h1.pend).bind ?_
      rintro _ _ rfl
      exact idle_write hb.bits h1.pend
    | serialized =>
      dsimp only
      refine (decompressSer_runs h1.pend hgd).bind ?_
      rintro _ _ rfl
      refine (idle_read hgd.bits h1.pend).bind ?_
      rintro _ _ rfl
      refine (idle_read hgd.value h1.pend).bind ?_
      rintro _ _ rfl
      refine (idle_write hb.value h1.pend).bind ?_
      rintro _ _ rfl
      exact idle_write hb.bits h1.pend
  · rintro _ f3 rfl
    apply RunsTo.pure
    have hperm : ({ t with received := [], pool := t.pool ++ t.received } : FSeg).ids.Perm t.ids := by
      unfold FSeg.ids FSeg.bufs
      apply List.Perm.flatMap_right
      show (t.props.toList ++ [] ++ (t.pool ++ t.received)).Perm (t.props.toList ++ t.received ++ t.pool)
      rw [List.append_nil, List.append_assoc]
      exact List.Perm.append_left _ List.perm_append_comm
    refine h1.trans ⟨⟨h1.moves.ok, Nat.le_refl _, fun _ he _ => he, fun a ha => Or.inl (hperm.mem_iff.mp ha)⟩, h1.pend,
      ⟨hperm.nodup_iff.mpr h1.good.nodup, ?_, h1.good.mds⟩, ⟨rfl, id, id, rfl⟩⟩ hf
    intro d hd
    apply h1.good.bufs d
    simp only [FSeg.bufs, List.mem_append, List.append_nil] at hd ⊢
    tauto

/-! ### Sending and receiving -/

/-- After transfers of arrays `B` have been added. -/
structure AddsReq (inw : Bool) (B : List Nat) (f f' : Flight) (q : List Nat) : Prop where
  pend : ∃ new, f'.pending = f.pending ++ new ∧ new.map Transfer.req = q ∧ ∀ t ∈ new, t.inward = inw ∧ t.span.arr ∈ B

theorem sendSegment_runs {th : Nat} {ser : Bool} {s : FSeg} {f : Flight} (hf : f.Ok) (hg : s.Good th ser f)
    (hs : s.props.isSome) (hp : ∀ t ∈ f.pending, t.inward = true → t.span.arr ∉ s.ids) :
    RunsTo (s.sendSegment ser) f (fun q f' => f'.Ok ∧ f'.live = f.live ∧ f'.next = f.next ∧ AddsReq false s.ids f f' q) := by
  unfold FSeg.sendSegment
  obtain ⟨b, hb⟩ := Option.isSome_iff_exists.mp hs
  rw [hb]
  dsimp only
  have hm := FSeg.props_mem hb
  have hgb := hg.bufs b hm
  have hin : ∀ {a}, a ∈ b.ids → a ∈ s.ids := fun ha => FSeg.mem_ids hm ha
  have hno : ∀ {a}, a ∈ b.ids → ∀ t ∈ f.pending, t.inward = true → t.span.arr ≠ a := by
    rintro a ha t ht hi rfl
    exact hp t ht hi (hin ha)
  have i1 : b.value ∈ b.ids := by simp [FBuf.ids]
  have i2 : b.bits ∈ b.ids := by simp [FBuf.ids]
  have i3 : b.cdata ∈ b.ids := by simp [FBuf.ids]
  have i4 : b.cidx ∈ b.ids := by simp [FBuf.ids]
  have i5 : b.sdata ∈ b.ids := by simp [FBuf.ids]
  have i6 : b.nbytesScan ∈ b.ids := by simp [FBuf.ids]
  have i7 : b.nnzScan ∈ b.ids := by simp [FBuf.ids]
  -- two sends
  have two : ∀ (a1 a2 n1 n2 l1 l2 : Nat), (a1, n1) ∈ f.live → (a2, n2) ∈ f.live → l1 ≤ n1 → l2 ≤ n2 → a1 ∈ b.ids → a2 ∈ b.ids →
      RunsTo (do let r1 ← isend ⟨a1, 0, l1⟩
                 let r2 ← isend ⟨a2, 0, l2⟩
                 pure [r1, r2]) f
        (fun q f' => f'.Ok ∧ f'.live = f.live ∧ f'.next = f.next ∧ AddsReq false s.ids f f' q) := by
    intro a1 a2 n1 n2 l1 l2 h1 h2 hl1 hl2 ha1 ha2
    refine RunsTo.bind (runsTo_isend (Q := fun q f' => q = f.nextReq ∧ f' = { f with
        nextReq := f.nextReq + 1, pending := f.pending ++ [⟨f.nextReq, false, ⟨a1, 0, l1⟩⟩] }) h1 (by simpa using hl1)
      (fun t ht hi => Span.not_meets (hno ha1 t ht hi)) ⟨rfl, rfl⟩) ?_
    rintro _ _ ⟨rfl, rfl⟩
    refine RunsTo.bind (runsTo_isend (Q := fun q f' => q = f.nextReq + 1 ∧ f' = { f with
        nextReq := f.nextReq + 1 + 1, pending := f.pending ++ [⟨f.nextReq, false, ⟨a1, 0, l1⟩⟩] ++
          [⟨f.nextReq + 1, false, ⟨a2, 0, l2⟩⟩] }) h2 (by simpa using hl2) ?_ ⟨rfl, rfl⟩) ?_
    · intro t ht hi
      rw [List.mem_append, List.mem_singleton] at ht
      rcases ht with ht | rfl
      · exact Span.not_meets (hno ha2 t ht hi)
      · simp at hi
    rintro _ _ ⟨rfl, rfl⟩
    apply RunsTo.pure
    refine ⟨⟨hf.live, ?_⟩, rfl, rfl, ⟨⟨_, List.append_assoc _ _ _, rfl, ?_⟩⟩⟩
    · intro t ht
      simp only [List.mem_append, List.mem_singleton] at ht
      rcases ht with (ht | rfl) | rfl
      · exact hf.pend t ht
      · exact hf.key h1
      · exact hf.key h2
    · intro t ht
      simp only [List.mem_append, List.mem_singleton] at ht
      rcases ht with rfl | rfl
      · exact ⟨rfl, hin ha1⟩
      · exact ⟨rfl, hin ha2⟩
  cases hd : shouldCompress ser s.cap b.nnz with
  | compressed =>
    have hle : b.nnz ≤ s.cap := by
      unfold shouldCompress at hd
      split at hd
      · simp at hd
      · split at hd
        · simp at hd
        · omega
    exact two _ _ _ _ _ _ hgb.cdata hgb.cidx hle hle i3 i4
  | none => exact two _ _ _ _ _ _ hgb.value hgb.bits (Nat.le_refl _) (Nat.le_refl _) i1 i2
  | serialized =>
    have hser : ser = true := by
      unfold shouldCompress at hd
      cases ser with
      | true => rfl
      | false =>
        simp only [Bool.false_eq_true, if_false] at hd
        split at hd <;> simp at hd
    have hpt := hgb.parts hser
    obtain ⟨n, h5, hn⟩ := hgb.sdata
    have hn := hn hser
    refine RunsTo.bind (runsTo_isend (Q := fun q f' => q = f.nextReq ∧ f' = { f with
        nextReq := f.nextReq + 1, pending := f.pending ++ [⟨f.nextReq, false, ⟨b.sdata, 0, b.sbytes⟩⟩] }) h5 (by simp [hn])
      (fun t ht hi => Span.not_meets (hno i5 t ht hi)) ⟨rfl, rfl⟩) ?_
    rintro _ _ ⟨rfl, rfl⟩
    refine RunsTo.bind (runsTo_isend (Q := fun q f' => q = f.nextReq + 1 ∧ f' = { f with
        nextReq := f.nextReq + 1 + 1, pending := f.pending ++ [⟨f.nextReq, false, ⟨b.sdata, 0, b.sbytes⟩⟩] ++
          [⟨f.nextReq + 1, false, ⟨b.nnzScan, 0, b.parts + 1⟩⟩] }) hgb.nnzScan (by simpa using hpt) ?_ ⟨rfl, rfl⟩) ?_
    · intro t ht hi
      rw [List.mem_append, List.mem_singleton] at ht
      rcases ht with ht | rfl
      · exact Span.not_meets (hno i7 t ht hi)
      · simp at hi
    rintro _ _ ⟨rfl, rfl⟩
    refine RunsTo.bind (runsTo_isend (Q := fun q f' => q = f.nextReq + 1 + 1 ∧ f' = { f with
        nextReq := f.nextReq + 1 + 1 + 1, pending := f.pending ++ [⟨f.nextReq, false, ⟨b.sdata, 0, b.sbytes⟩⟩] ++
          [⟨f.nextReq + 1, false, ⟨b.nnzScan, 0, b.parts + 1⟩⟩] ++
          [⟨f.nextReq + 1 + 1, false, ⟨b.nbytesScan, 0, b.parts + 1⟩⟩] }) hgb.nbytesScan (by simpa using hpt) ?_ ⟨rfl, rfl⟩) ?_
    · intro t ht hi
      simp only [List.mem_append, List.mem_singleton] at ht
      rcases ht with (ht | rfl) | rfl
      · exact Span.not_meets (hno i6 t ht hi)
      · simp at hi
      · simp at hi
    rintro _ _ ⟨rfl, rfl⟩
    apply RunsTo.pure
    refine ⟨⟨hf.live, ?_⟩, rfl, rfl, ⟨⟨[⟨f.nextReq, false, ⟨b.sdata, 0, b.sbytes⟩⟩,
      ⟨f.nextReq + 1, false, ⟨b.nnzScan, 0, b.parts + 1⟩⟩, ⟨f.nextReq + 1 + 1, false, ⟨b.nbytesScan, 0, b.parts + 1⟩⟩],
      by simp, rfl, ?_⟩⟩⟩
    · intro t ht
      simp only [List.mem_append, List.mem_singleton] at ht
      rcases ht with ((ht | rfl) | rfl) | rfl
      · exact hf.pend t ht
      · exact hf.key h5
      · exact hf.key hgb.nnzScan
      · exact hf.key hgb.nbytesScan
    · intro t ht
      simp only [List.mem_cons, List.not_mem_nil, or_false] at ht
      rcases ht with rfl | rfl | rfl
      · exact ⟨rfl, hin i5⟩
      · exact ⟨rfl, hin i7⟩
      · exact ⟨rfl, hin i6⟩

theorem recvBuf_runs {th : Nat} {ser : Bool} {cap : Nat} {b : FBuf} {f : Flight} {md : Md} (hf : f.Ok)
    (hg : b.Good th ser cap f) (hn : b.ids.Nodup) (hp : ∀ t ∈ f.pending, t.span.arr ∉ b.ids)
    (hmd : ser = true → md.parts ≤ th * 16) :
    RunsTo (b.recv ser cap md) f (fun x f' => Moves b.ids x.1.ids f f' ∧ x.1.Good th ser cap f' ∧ x.1.ids.Nodup ∧
      AddsReq true x.1.ids f f' x.2) := by
  unfold FBuf.recv
  dsimp only
  have hin : ∀ {a}, a ∈ b.ids → ∀ t ∈ f.pending, t.span.arr ≠ a := by
    rintro a ha t ht rfl
    exact hp t ht ha
  have i1 : b.value ∈ b.ids := by simp [FBuf.ids]
  have i2 : b.bits ∈ b.ids := by simp [FBuf.ids]
  have i3 : b.cdata ∈ b.ids := by simp [FBuf.ids]
  have i4 : b.cidx ∈ b.ids := by simp [FBuf.ids]
  have i5 : b.sdata ∈ b.ids := by simp [FBuf.ids]
  have two : ser = false → ∀ (a1 a2 n1 n2 l1 l2 : Nat), (a1, n1) ∈ f.live → (a2, n2) ∈ f.live → l1 ≤ n1 → l2 ≤ n2 → a1 ∈ b.ids →
      a2 ∈ b.ids → a1 ≠ a2 →
      RunsTo (do let r1 ← irecv ⟨a1, 0, l1⟩
                 let r2 ← irecv ⟨a2, 0, l2⟩
                 pure (({ b with nnz := md.nnz, sbytes := md.nbytes, parts := md.parts } : FBuf), [r1, r2])) f
        (fun x f' => Moves b.ids x.1.ids f f' ∧ x.1.Good th ser cap f' ∧ x.1.ids.Nodup ∧ AddsReq true x.1.ids f f' x.2) := by
    intro hser a1 a2 n1 n2 l1 l2 h1 h2 hl1 hl2 ha1 ha2 hne
    refine RunsTo.bind (runsTo_irecv (Q := fun q f' => q = f.nextReq ∧ f' = { f with
        nextReq := f.nextReq + 1, pending := f.pending ++ [⟨f.nextReq, true, ⟨a1, 0, l1⟩⟩] }) h1 (by simpa using hl1)
      (fun t ht => Span.not_meets (hin ha1 t ht)) ⟨rfl, rfl⟩) ?_
    rintro _ _ ⟨rfl, rfl⟩
    refine RunsTo.bind (runsTo_irecv (Q := fun q f' => q = f.nextReq + 1 ∧ f' = { f with
        nextReq := f.nextReq + 1 + 1, pending := f.pending ++ [⟨f.nextReq, true, ⟨a1, 0, l1⟩⟩] ++
          [⟨f.nextReq + 1, true, ⟨a2, 0, l2⟩⟩] }) h2 (by simpa using hl2) ?_ ⟨rfl, rfl⟩) ?_
    · intro t ht
      rw [List.mem_append, List.mem_singleton] at ht
      rcases ht with ht | rfl
      · exact Span.not_meets (hin ha2 t ht)
      · exact Span.not_meets hne
    rintro _ _ ⟨rfl, rfl⟩
    apply RunsTo.pure
    refine ⟨⟨⟨hf.live, ?_⟩, Nat.le_refl _, fun _ he _ => he, fun _ ha => Or.inl ha⟩, ?_, hn, ⟨⟨_, List.append_assoc _ _ _, rfl, ?_⟩⟩⟩
    · intro t ht
      simp only [List.mem_append, List.mem_singleton] at ht
      rcases ht with (ht | rfl) | rfl
      · exact hf.pend t ht
      · exact hf.key h1
      · exact hf.key h2
    · obtain ⟨c1, c2, c3, c4, ⟨n, c5, _⟩, c6, c7, _⟩ := hg
      exact ⟨c1, c2, c3, c4, ⟨n, c5, fun h => by rw [hser] at h; simp at h⟩, c6, c7, hmd⟩
    · intro t ht
      simp only [List.mem_append, List.mem_singleton] at ht
      rcases ht with rfl | rfl
      · exact ⟨rfl, ha1⟩
      · exact ⟨rfl, ha2⟩
  have hcases : ser = false ∨ shouldCompress ser cap md.nnz = .serialized := by
    cases ser with
    | false => exact Or.inl rfl
    | true => exact Or.inr (by simp [shouldCompress])
  have hn' := hn
  simp only [FBuf.ids, List.nodup_cons, List.mem_cons, List.not_mem_nil, or_false, not_or] at hn'
  obtain ⟨a1, a2, a3, a4, a5, a6, _⟩ := hn'
  cases hd : shouldCompress ser cap md.nnz with
  | compressed =>
    have hser : ser = false := by
      rcases hcases with h | h
      · exact h
      · rw [hd] at h; simp at h
    have hle : md.nnz ≤ cap := by
      unfold shouldCompress at hd
      split at hd
      · simp at hd
      · split at hd
        · simp at hd
        · omega
    exact two hser _ _ _ _ _ _ hg.cdata hg.cidx hle hle i3 i4 a3.1
  | none =>
    have hser : ser = false := by
      rcases hcases with h | h
      · exact h
      · rw [hd] at h; simp at h
    exact two hser _ _ _ _ _ _ hg.value hg.bits (Nat.le_refl _) (Nat.le_refl _) i1 i2 a1.1
  | serialized =>
    have hser : ser = true := by
      unfold shouldCompress at hd
      cases ser with
      | true => rfl
      | false =>
        simp only [Bool.false_eq_true, if_false] at hd
        split at hd <;> simp at hd
    have hpt := hmd hser
    dsimp only
    refine (allocSerialized_runs (ser := ser) (th := th) (cap := cap)
      (b := { b with nnz := md.nnz, sbytes := md.nbytes, parts := md.parts }) md.nbytes hf (hin i5) hn ?_ hmd).bind ?_
    · obtain ⟨c1, c2, c3, c4, ⟨n, c5, _⟩, c6, c7, _⟩ := hg
      exact ⟨c1, c2, c3, c4, ⟨n, c5, fun h => by simp at h⟩, c6, c7, fun h => by simp at h⟩
    · rintro c f1 ⟨m1, m2, m3, m4, m5, m6, m7⟩
      have hsd : c.sdata = f.next := by rw [m6]
      have hsb : c.sbytes = md.nbytes := by rw [m6]
      have hcp : c.parts = md.parts := by rw [m6]
      have hfr : ∀ t ∈ f1.pending, t.span.arr ∉ c.ids := by
        intro t ht hc
        rw [m2] at ht
        rcases m1.ids _ hc with h | h
        · exact hp t ht h
        · have := hf.pend t ht
          omega
      have j5 : c.sdata ∈ c.ids := by simp [FBuf.ids]
      have j6 : c.nbytesScan ∈ c.ids := by simp [FBuf.ids]
      have j7 : c.nnzScan ∈ c.ids := by simp [FBuf.ids]
      have hin' : ∀ {a}, a ∈ c.ids → ∀ t ∈ f1.pending, t.span.arr ≠ a := by
        rintro a ha t ht rfl
        exact hfr t ht ha
      have m4' := m4
      simp only [FBuf.ids, List.nodup_cons, List.mem_cons, List.not_mem_nil, or_false, not_or] at m4'
      obtain ⟨_, _, _, _, e5, e6, _⟩ := m4'
      refine RunsTo.bind (runsTo_irecv (Q := fun q f' => q = f1.nextReq ∧ f' = { f1 with
          nextReq := f1.nextReq + 1, pending := f1.pending ++ [⟨f1.nextReq, true, ⟨c.sdata, 0, c.sbytes⟩⟩] })
        (n := md.nbytes) (by dsimp only; rw [hsd]; exact m7) (by simp [hsb])
        (fun t ht => Span.not_meets (hin' j5 t ht)) ⟨rfl, rfl⟩) ?_
      rintro _ _ ⟨rfl, rfl⟩
      refine RunsTo.bind (runsTo_irecv (Q := fun q f' => q = f1.nextReq + 1 ∧ f' = { f1 with
          nextReq := f1.nextReq + 1 + 1, pending := f1.pending ++ [⟨f1.nextReq, true, ⟨c.sdata, 0, c.sbytes⟩⟩] ++
            [⟨f1.nextReq + 1, true, ⟨c.nnzScan, 0, c.parts + 1⟩⟩] }) m3.nnzScan (by dsimp only; rw [hcp]; omega) ?_ ⟨rfl, rfl⟩) ?_
      · intro t ht
        rw [List.mem_append, List.mem_singleton] at ht
        rcases ht with ht | rfl
        · exact Span.not_meets (hin' j7 t ht)
        · exact Span.not_meets e5.2
      rintro _ _ ⟨rfl, rfl⟩
      refine RunsTo.bind (runsTo_irecv (Q := fun q f' => q = f1.nextReq + 1 + 1 ∧ f' = { f1 with
          nextReq := f1.nextReq + 1 + 1 + 1, pending := f1.pending ++ [⟨f1.nextReq, true, ⟨c.sdata, 0, c.sbytes⟩⟩] ++
            [⟨f1.nextReq + 1, true, ⟨c.nnzScan, 0, c.parts + 1⟩⟩] ++
            [⟨f1.nextReq + 1 + 1, true, ⟨c.nbytesScan, 0, c.parts + 1⟩⟩] }) m3.nbytesScan (by dsimp only; rw [hcp]; omega) ?_ ⟨rfl, rfl⟩) ?_
      · intro t ht
        simp only [List.mem_append, List.mem_singleton] at ht
        rcases ht with (ht | rfl) | rfl
        · exact Span.not_meets (hin' j6 t ht)
        · exact Span.not_meets e5.1
        · exact Span.not_meets (fun h => e6 h.symm)
      rintro _ _ ⟨rfl, rfl⟩
      apply RunsTo.pure
      refine ⟨⟨⟨m1.ok.live, ?_⟩, m1.next, m1.keep, m1.ids⟩, m3.mono (fun e he _ => he), m4,
        ⟨⟨[⟨f1.nextReq, true, ⟨c.sdata, 0, c.sbytes⟩⟩, ⟨f1.nextReq + 1, true, ⟨c.nnzScan, 0, c.parts + 1⟩⟩,
          ⟨f1.nextReq + 1 + 1, true, ⟨c.nbytesScan, 0, c.parts + 1⟩⟩], by simp [m2], rfl, ?_⟩⟩⟩
      · intro t ht
        simp only [List.mem_append, List.mem_singleton] at ht
        rcases ht with ((ht | rfl) | rfl) | rfl
        · exact m1.ok.pend t ht
        · exact m3.lt m1.ok j5
        · exact m3.lt m1.ok j7
        · exact m3.lt m1.ok j6
      · intro t ht
        simp only [List.mem_cons, List.not_mem_nil, or_false] at ht
        rcases ht with rfl | rfl | rfl
        · exact ⟨rfl, j5⟩
        · exact ⟨rfl, j7⟩
        · exact ⟨rfl, j6⟩

/-- After a step of one segment that adds receives. -/
structure SegRecv (th : Nat) (ser : Bool) (s : FSeg) (f : Flight) (s' : FSeg) (f' : Flight) (q : List Nat) : Prop where
  moves : Moves s.ids s'.ids f f'
  good : s'.Good th ser f'
  adds : AddsReq true s'.ids f f' q

theorem recvSegment_runs {th : Nat} {ser : Bool} {s : FSeg} {f : Flight} (hf : f.Ok) (hg : s.Good th ser f)
    (hs : s.props.isSome) (hm : s.md.isSome) (hp : ∀ t ∈ f.pending, t.span.arr ∉ s.ids) :
    RunsTo (s.recvSegment ser) f (fun x f' => SegRecv th ser s f x.1 f' x.2 ∧ s.Later x.1) := by
  unfold FSeg.recvSegment
  obtain ⟨b, hb⟩ := Option.isSome_iff_exists.mp hs
  obtain ⟨md, hmd⟩ := Option.isSome_iff_exists.mp hm
  rw [hb, hmd]
  dsimp only
  have hids : s.ids = ([] ++ b :: (s.received ++ s.pool)).flatMap FBuf.ids := by
    unfold FSeg.ids; rw [props_bufs hb]
  have hbn : b.ids.Nodup := by
    have := hg.nodup
    rw [hids, List.nil_append, List.flatMap_cons, List.nodup_append] at this
    exact this.1
  refine (recvBuf_runs (md := md) hf (hg.bufs b (FSeg.props_mem hb)) hbn
    (fun t ht ha => hp t ht (FSeg.mem_ids (FSeg.props_mem hb) ha)) (fun h => hg.mds h md (by rw [hmd]; simp))).bind ?_
  rintro ⟨c, q⟩ f1 ⟨c1, c3, c4, c5⟩
  dsimp only at c1 c3 c4 c5 ⊢
  apply RunsTo.pure
  have hids' : ({ s with props := some c } : FSeg).ids = ([] ++ c :: (s.received ++ s.pool)).flatMap FBuf.ids := by
    unfold FSeg.ids; rw [props_bufs (b := c) rfl]
  obtain ⟨g1, g2, g3⟩ := good_replace (s := s) hf (P := []) (Q := s.received ++ s.pool) (b := b) (c := c)
    (by rw [← props_bufs hb]; exact hg.bufs) (by rw [← hids]; exact hg.nodup) c1 c3 c4
  rw [← hmd]
  refine ⟨⟨by rw [hids]; exact hids' ▸ g1, ⟨by exact hids' ▸ g2, ?_, hg.mds⟩, ?_⟩, ⟨rfl, fun _ => rfl, id, rfl⟩⟩
  · intro d hd
    rw [props_bufs (s := { s with props := some c }) (b := c) rfl] at hd
    exact g3 d hd
  · obtain ⟨new, n1, n2, n3⟩ := c5.pend
    exact ⟨⟨new, n1, n2, fun t ht => ⟨(n3 t ht).1, FSeg.mem_ids (FSeg.props_mem (b := c) rfl) (n3 t ht).2⟩⟩⟩

end GraphMat

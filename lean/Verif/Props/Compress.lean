import Verif.Lemmas.Transfer
import Verif.Lemmas.VecList
import Verif.Spec.Merge

/-!
# C24 (compressed segments round-trip), C25 (received partial results are merged exactly once)
-/
namespace GraphMat

variable {α : Type}

/-- One transfer of a segment from a rank with `ts` threads to a rank with `tr` threads:
`compress`, `send_nnz`, `recv_nnz`, `send_segment`, `recv_segment`, `decompress`
(/repo/include/GMDP/multinode/spmspv.h:60-116). -/
def transfer (ser : Bool) (ts tr : Nat) (gs gr : Fresh α) (s r : Segment α) : Option (Segment α) := do
  let s ← s.compress ser ts gs
  let msg ← s.send ser
  let r ← r.recv ser tr gr msg
  r.decompress ser tr

theorem Segment.alloc_spec {s : Segment α} (h : s.WF) (g : Fresh α) :
    ∃ b, s.alloc g = { s with props := some b } ∧ b.Dims s.capacity s.numInts := by
  unfold Segment.alloc
  cases hp : s.props with
  | none => exact ⟨_, rfl, ⟨rfl, rfl, rfl, rfl⟩⟩
  | some b => exact ⟨b, by cases s; simp_all, h.dims b hp⟩

/-- **C24**, general form with the thread count condition for serializable element types. -/
theorem transfer_spec (ser : Bool) {ts tr : Nat} (hts : 0 < ts) (htr : 0 < tr)
    (hser : ser = true → ts ≤ tr) (gs gr : Fresh α) {s r : Segment α} (hs : s.WF) (hr : r.WF)
    (hcap : s.capacity = r.capacity) :
    ∃ r', transfer ser ts tr gs gr s r = some r' ∧ r'.WF ∧ r'.Ready ∧ r'.capacity = r.capacity ∧
      r'.received = r.received ∧ r'.pool = r.pool ∧ r'.view = s.view := by
  obtain ⟨b, h1, h2, h3, h4, h5, h6, h7⟩ := Segment.compress_spec hs ser hts gs
  obtain ⟨p, p1, p2⟩ := Segment.alloc_spec hr gr
  have hnir : s.numInts = r.numInts := by rw [hs.ni, hr.ni, hcap]
  rw [← hcap, ← hnir] at p2
  obtain ⟨msg, p', q1, q2, q3, q4, q5⟩ := Buffer.transfer (s := { s with props := some b }) rfl hs.ni h3
    ser h6 p2 (threads := tr) (fun h => by rw [h7 h]; have := hser h; omega)
  unfold transfer
  simp only [Option.bind_eq_bind]
  rw [h1, Option.bind_some, q1, Option.bind_some]
  unfold Segment.recv
  rw [p1]
  simp only [Option.bind_eq_bind, Option.bind_some]
  rw [show p.recv ser r.capacity r.numInts tr msg = some p' by
    rw [← hcap, ← hnir]; exact q2, Option.bind_some, Option.bind_some]
  simp only at q4 q5
  rw [hcap, hnir] at q4
  rw [hcap] at q5
  obtain ⟨b', k1, k2, k3, k4, k5⟩ := Segment.decompress_spec (s := { r with props := some p' }) rfl
    hr.ni q4 q3 ser htr (m := s.view) (fun i hi => Segment.view_ge hs (by rw [hcap]; exact hi)) q5
  refine ⟨_, k1, ?_, ⟨b', rfl, k2⟩, rfl, rfl, rfl, ?_⟩
  · exact hr.congr_props k3 (fun _ => k4)
  · exact k5

/-- **C24** for plain element types: whatever the contents of the sent segment and of the receiving
segment (fresh, recycled, stale counters, ...), whatever the density and thus the encoding, and
whatever the thread counts, the receiver ends up with exactly the ids and values of the sender. -/
theorem compressed_segment_round_trip {ts tr : Nat} (hts : 0 < ts) (htr : 0 < tr) (gs gr : Fresh α)
    {s r : Segment α} (hs : s.WF) (hr : r.WF) (hcap : s.capacity = r.capacity) :
    ∃ r', transfer false ts tr gs gr s r = some r' ∧ r'.WF ∧ r'.view = s.view := by
  obtain ⟨r', h1, h2, _, _, _, _, h3⟩ := transfer_spec false hts htr (by simp) gs gr hs hr hcap
  exact ⟨r', h1, h2, h3⟩

/-- **C24** for serializable element types, provided the sender has at most as many threads as the
receiver (see `serialized_segment_overflow` for why this is needed). -/
theorem serialized_segment_round_trip_partial {ts tr : Nat} (hts : 0 < ts) (hle : ts ≤ tr)
    (gs gr : Fresh α) {s r : Segment α} (hs : s.WF) (hr : r.WF) (hcap : s.capacity = r.capacity) :
    ∃ r', transfer true ts tr gs gr s r = some r' ∧ r'.WF ∧ r'.view = s.view := by
  obtain ⟨r', h1, h2, _, _, _, _, h3⟩ := transfer_spec true hts (by omega) (fun _ => hle) gs gr hs hr hcap
  exact ⟨r', h1, h2, h3⟩

/-- For serializable types a sender with more threads than the receiver makes the receiver store
`16 * ts + 1` offsets into scan arrays of `16 * tr + 1` elements: out of bounds, for every
contents. -/
theorem serialized_segment_overflow {ts tr : Nat} (hlt : tr < ts) (gs gr : Fresh α)
    {s r : Segment α} (hs : s.WF) (hr : r.WF) : transfer true ts tr gs gr s r = none := by
  obtain ⟨b, h1, h2, h3, h4, h5, h6, h7⟩ := Segment.compress_spec hs true (show 0 < ts by omega) gs
  obtain ⟨p, p1, p2⟩ := Segment.alloc_spec hr gr
  unfold transfer
  simp only [Option.bind_eq_bind]
  rw [h1, Option.bind_some]
  unfold Segment.send Segment.recv
  rw [p1]
  simp only [Option.bind_eq_bind, Option.bind_some, shouldCompress, if_true, Buffer.recv]
  rw [if_neg (by rw [h7 rfl]; omega)]
  rfl

/-- Both encodings of plain types occur. -/
theorem both_encodings (n : Nat) (h : 2 ≤ n) :
    shouldCompress false n 1 = .compressed ∧ shouldCompress false n n = .none := by
  unfold shouldCompress
  constructor
  · simp; omega
  · simp; omega

/-- Beside the C24 theorems: segments satisfying the hypotheses exist, with any contents: start from
a new segment and `set` ids. -/
example : ∃ s : Segment Nat, s.WF ∧ s.capacity = 40 ∧ s.view 33 = some 7 ∧ s.view 2 = some 5 ∧
    s.view 3 = none := by
  obtain ⟨s1, _, h1, _, c1, _, _, v1⟩ := Segment.set_spec (Segment.new_WF (α := Nat) 40)
    ⟨-3, fun _ => 0, fun _ => 5#32, fun _ => 0, fun _ => 77⟩ (idx := 34) (by omega) (by simp) 7
  obtain ⟨s2, _, h2, _, c2, _, _, v2⟩ := Segment.set_spec h1
    ⟨-3, fun _ => 0, fun _ => 5#32, fun _ => 0, fun _ => 77⟩ (idx := 3) (by omega)
    (by rw [c1]; simp) 5
  exact ⟨s2, h2, by rw [c2, c1]; rfl, by simp [v2, v1], by simp [v2], by simp [v2, v1]⟩

/-! ### Merging -/

/-- One sending rank of a row reduction: its copy of the segment, its thread count, its uninitialised
memory and that of the receive buffer (/repo/include/GMDP/multinode/spmspv.h:152-196). -/
structure Sender (α : Type) where
  /-- the partial result -/
  seg : Segment α
  /-- `omp_get_max_threads()` of the sender -/
  threads : Nat
  /-- garbage for `alloc` on the sender -/
  gs : Fresh α
  /-- garbage for a new receive buffer -/
  gr : Fresh α

/-- The row reduction of one segment at its owner: each other rank compresses and sends its partial
result, the owner queues the buffers in the order of the messages and merges them
(/repo/include/GMDP/multinode/spmspv.h:152-196). -/
def mergeFrom (ser : Bool) (tr : Nat) (add : α → α → α) (g : Fresh α) (l : List (Sender α))
    (r : Segment α) : Option (Segment α) := do
  let r ← l.foldlM (fun r x => do
    let s ← x.seg.compress ser x.threads x.gs
    let msg ← s.send ser
    r.recvQueue ser tr x.gr msg) r
  r.unionReceived ser tr add g

theorem Segment.recvQueue_spec {s r : Segment α} {b : Buffer α} (hb : s.props = some b)
    (hs : s.numInts = (s.capacity + 31) / 32) (hd : b.Dims s.capacity s.numInts) (hr : r.WF)
    (hcap : s.capacity = r.capacity) (ser : Bool) {m : Nat → Option α}
    (hc : b.Carries ser s.capacity m) {tr : Nat} (hser : ser = true → b.sdata.length ≤ tr * 16)
    (g : Fresh α) :
    ∃ msg r' b', s.send ser = some msg ∧ r.recvQueue ser tr g msg = some r' ∧ r'.WF ∧
      r'.capacity = r.capacity ∧ r'.props = r.props ∧ r'.received = r.received ++ [b'] ∧
      b'.Carries ser r.capacity m := by
  have hni : s.numInts = r.numInts := by rw [hs, hr.ni, hcap]
  have key : ∀ (p : Buffer α) (pool : List (Buffer α)), p.Dims r.capacity r.numInts →
      (∀ b ∈ pool, b.Dims r.capacity r.numInts) →
      ∃ msg b', s.send ser = some msg ∧ p.recv ser r.capacity r.numInts tr msg = some b' ∧
        ({ r with received := r.received ++ [b'], pool := pool } : Segment α).WF ∧
        b'.Carries ser r.capacity m := by
    intro p pool hp hpool
    rw [← hcap, ← hni] at hp
    obtain ⟨msg, p', q1, q2, q3, q4, q5⟩ := Buffer.transfer hb hs hd ser hc hp hser
    refine ⟨msg, p', q1, by rw [← hcap, ← hni]; exact q2, ⟨hr.ni, hr.dims, hr.tail, ?_, hpool⟩, ?_⟩
    · intro b hb
      simp only [List.mem_append, List.mem_singleton] at hb
      rcases hb with hb | hb
      · exact hr.recv b hb
      · subst hb; simp only; rw [← hcap, ← hni]; exact q4
    · rw [← hcap]; exact q5
  unfold Segment.recvQueue
  cases hl : r.pool.getLast? with
  | none =>
    obtain ⟨msg, b', a1, a2, a3, a4⟩ := key (Buffer.new g r.capacity r.numInts) r.pool
      ⟨rfl, rfl, rfl, rfl⟩ hr.pool
    exact ⟨msg, { r with received := r.received ++ [b'], pool := r.pool }, b', a1, by simp [a2], a3, rfl, rfl, rfl, a4⟩
  | some p =>
    obtain ⟨msg, b', a1, a2, a3, a4⟩ := key p r.pool.dropLast
      (hr.pool p (List.mem_of_getLast? hl)) (fun b hb => hr.pool b ((List.dropLast_sublist _).subset hb))
    exact ⟨msg, { r with received := r.received ++ [b'], pool := r.pool.dropLast }, b', a1, by simp [a2], a3, rfl, rfl, rfl, a4⟩

theorem foldl_combine (add : α → α → α) (l : List (Option α)) (o : Option α) :
    l.foldl (fun acc m => combine add acc m) o = reduceAll add (present (o :: l)) := by
  induction l generalizing o with
  | nil => cases o <;> rfl
  | cons x l ih =>
    rw [List.foldl_cons, ih]
    cases o <;> cases x <;> rfl

theorem mergeFrom_spec (ser : Bool) {tr : Nat} (htr : 0 < tr) (add : α → α → α) (g : Fresh α)
    {l : List (Sender α)} {r : Segment α} (hr : r.WF) (hrecv : r.received = [])
    (hl : ∀ x ∈ l, x.seg.WF ∧ x.seg.capacity = r.capacity ∧ 0 < x.threads ∧
      (ser = true → x.threads ≤ tr)) :
    ∃ r', mergeFrom ser tr add g l r = some r' ∧ r'.WF ∧ r'.Ready ∧ r'.capacity = r.capacity ∧
      ∀ i, i < r.capacity →
        r'.view i = reduceAll add (present (r.view i :: l.map (fun x => x.seg.view i))) := by
  have key : ∀ (l : List (Sender α)) (r : Segment α) (ms : List (Nat → Option α)), r.WF →
      List.Forall₂ (fun b m => Buffer.Carries ser r.capacity b m) r.received ms →
      (∀ x ∈ l, x.seg.WF ∧ x.seg.capacity = r.capacity ∧ 0 < x.threads ∧
        (ser = true → x.threads ≤ tr)) →
      ∃ r', l.foldlM (fun r x => do
          let s ← x.seg.compress ser x.threads x.gs
          let msg ← s.send ser
          r.recvQueue ser tr x.gr msg) r = some r' ∧ r'.WF ∧ r'.capacity = r.capacity ∧
        r'.props = r.props ∧
        List.Forall₂ (fun b m => Buffer.Carries ser r.capacity b m) r'.received
          (ms ++ l.map (fun x => x.seg.view)) := by
    intro l
    induction l with
    | nil => intro r ms h1 h2 _; exact ⟨r, rfl, h1, rfl, rfl, by simpa using h2⟩
    | cons x l ih =>
      intro r ms h1 h2 h3
      obtain ⟨x1, x2, x3, x4⟩ := h3 x List.mem_cons_self
      obtain ⟨b, c1, c2, c3, c4, c5, c6, c7⟩ := Segment.compress_spec x1 ser x3 x.gs
      obtain ⟨msg, r1, b', d1, d2, d3, d4, d5, d6, d7⟩ := Segment.recvQueue_spec
        (s := { x.seg with props := some b }) (r := r) rfl x1.ni c3 h1 x2 ser c6 (tr := tr)
        (fun h => by rw [c7 h]; have := x4 h; omega) x.gr
      obtain ⟨r', e1, e2, e3, e4, e5⟩ := ih r1 (ms ++ [x.seg.view]) d3 (by
        rw [d4, d6]
        exact List.rel_append h2 (.cons d7 .nil)) (by
        rw [d4]; exact fun x hx => h3 x (List.mem_cons_of_mem _ hx))
      refine ⟨r', ?_, e2, by rw [e3, d4], by rw [e4, d5], ?_⟩
      · rw [List.foldlM_cons]
        simp only [Option.bind_eq_bind]
        rw [c1, Option.bind_some, d1, Option.bind_some, d2]
        exact e1
      · rw [d4] at e5
        simpa using e5
  obtain ⟨r1, h1, h2, h3, h4, h5⟩ := key l r [] hr (by rw [hrecv]; exact .nil) hl
  rw [List.nil_append] at h5
  rw [← h3] at h5
  obtain ⟨r', k1, k2, k3, k4, _, _, k5⟩ := Segment.unionReceived_spec h2 ser htr add g h5
  refine ⟨r', ?_, k2, k3, by rw [k4, h3], ?_⟩
  · unfold mergeFrom
    simp only [Option.bind_eq_bind] at h1 ⊢
    rw [h1]; exact k1
  · intro i hi
    rw [k5 i (by rw [h3]; exact hi)]
    have hv : r1.view = r.view := by unfold Segment.view; rw [h4]
    rw [hv, ← foldl_combine, List.foldl_map, List.foldl_map]

/-- **C25**.  The owner of a segment, holding any partial result, merges the partial results of any
number of other ranks, each with its own contents, density (hence encoding) and thread count: for each
id the result is the reduction, in the order of the messages, of exactly the values present. -/
theorem merge_is_exact {tr : Nat} (htr : 0 < tr) (add : α → α → α) (g : Fresh α)
    {l : List (Sender α)} {r : Segment α} (hr : r.WF) (hrecv : r.received = [])
    (hl : ∀ x ∈ l, x.seg.WF ∧ x.seg.capacity = r.capacity ∧ 0 < x.threads) :
    ∃ r', mergeFrom false tr add g l r = some r' ∧ r'.WF ∧
      ∀ i, i < r.capacity →
        r'.view i = reduceAll add (present (r.view i :: l.map (fun x => x.seg.view i))) := by
  obtain ⟨r', h1, h2, _, _, h3⟩ := mergeFrom_spec false htr add g hr hrecv (fun x hx =>
    ⟨(hl x hx).1, (hl x hx).2.1, (hl x hx).2.2, by simp⟩)
  exact ⟨r', h1, h2, h3⟩

/-- **C25** for serializable element types (same condition on thread counts as in C24). -/
theorem merge_is_exact_serialized_partial {tr : Nat} (htr : 0 < tr) (add : α → α → α) (g : Fresh α)
    {l : List (Sender α)} {r : Segment α} (hr : r.WF) (hrecv : r.received = [])
    (hl : ∀ x ∈ l, x.seg.WF ∧ x.seg.capacity = r.capacity ∧ 0 < x.threads ∧ x.threads ≤ tr) :
    ∃ r', mergeFrom true tr add g l r = some r' ∧ r'.WF ∧
      ∀ i, i < r.capacity →
        r'.view i = reduceAll add (present (r.view i :: l.map (fun x => x.seg.view i))) := by
  obtain ⟨r', h1, h2, _, _, h3⟩ := mergeFrom_spec true htr add g hr hrecv (fun x hx =>
    ⟨(hl x hx).1, (hl x hx).2.1, (hl x hx).2.2.1, fun _ => (hl x hx).2.2.2⟩)
  exact ⟨r', h1, h2, h3⟩

/-- Beside the C25 theorems: two senders and an owner with overlapping ids. -/
example : ∃ (r : Segment Nat) (l : List (Sender Nat)), r.WF ∧ r.received = [] ∧ l.length = 2 ∧
    (∀ x ∈ l, x.seg.WF ∧ x.seg.capacity = r.capacity ∧ 0 < x.threads) ∧
    reduceAll (· + ·) (present (r.view 3 :: l.map (fun x => x.seg.view 3))) = some 21 ∧
    reduceAll (· + ·) (present (r.view 4 :: l.map (fun x => x.seg.view 4))) = none := by
  have mk : ∀ v : Nat, ∃ s : Segment Nat, s.WF ∧ s.capacity = 40 ∧ s.received = [] ∧
      s.view 3 = some v ∧ s.view 4 = none := by
    intro v
    obtain ⟨s1, _, h1, _, c1, r1, _, v1⟩ := Segment.set_spec (Segment.new_WF (α := Nat) 40)
      ⟨-3, fun _ => 0, fun _ => 5#32, fun _ => 0, fun _ => 77⟩ (idx := 4) (by omega) (by simp) v
    exact ⟨s1, h1, by rw [c1]; rfl, by rw [r1]; rfl, by simp [v1], by simp [v1]⟩
  obtain ⟨a, a1, a2, a3, a4, a5⟩ := mk 4
  obtain ⟨b, b1, b2, b3, b4, b5⟩ := mk 7
  obtain ⟨c, c1, c2, c3, c4, c5⟩ := mk 10
  let g : Fresh Nat := ⟨-3, fun _ => 0, fun _ => 5#32, fun _ => 0, fun _ => 77⟩
  refine ⟨a, [⟨b, 1, g, g⟩, ⟨c, 2, g, g⟩], a1, a3, rfl, ?_, ?_, ?_⟩
  · intro x hx
    simp only [List.mem_cons, List.not_mem_nil, or_false] at hx
    rcases hx with rfl | rfl
    · exact ⟨b1, by rw [a2, b2], by simp⟩
    · exact ⟨c1, by rw [a2, c2], by simp⟩
  · simp [a4, b4, c4, present, reduceAll]
  · simp [a5, b5, c5, present, reduceAll]

end GraphMat

import Verif.Model.MpiCount
import Verif.Props.Compress
import Verif.Lemmas.SpMat
import Mathlib.Tactic.SplitIfs

/-!
# C68: transfers of any size arrive complete
-/
namespace GraphMat

variable {α : Type}

theorem mpiCount_small {n : Nat} (h : n < 2147483648) : mpiCount n = n := by
  unfold mpiCount
  rw [BitVec.toInt_ofNat', Int.bmod_def]
  have : ((n : Int) % (2 ^ 32 : Nat)) = n := by omega
  rw [this, if_pos (by omega)]

theorem mpiCount_lt (n : Nat) : mpiCount n < 2147483648 := by
  unfold mpiCount
  have := (BitVec.ofNat 32 n).toInt_lt
  omega

theorem mpiMove_small {size n : Nat} {mix : Nat → α → α → α} {src dst : Arr α} (hs : 0 < size) (h1 : n ≤ src.size)
    (h2 : n ≤ dst.size) (h : n * size < 2147483648) :
    mpiMove size n mix src dst = some ⟨dst.size, fun i => if i < n then src.get i else dst.get i⟩ := by
  unfold mpiMove
  rw [mpiCount_small h]
  dsimp only
  rw [if_neg (by omega), Int.toNat_natCast, if_pos ⟨Nat.mul_le_mul_right _ h1, Nat.mul_le_mul_right _ h2⟩]
  congr 2
  funext i
  by_cases hi : i < n
  · rw [if_pos hi, if_pos (Nat.mul_le_mul_right _ hi)]
  · have : n * size ≤ i * size := Nat.mul_le_mul_right _ (by omega)
    have h' : ¬ (i + 1) * size ≤ n * size := by rw [Nat.add_mul]; omega
    rw [if_neg hi, if_neg h', if_neg (by omega)]

/-- What becomes of the last element of a transfer that is too long. -/
theorem mpiMove_large {size n : Nat} {mix : Nat → α → α → α} {src dst dst' : Arr α} (hn : 0 < n)
    (h : 2147483648 ≤ n * size) (hm : mpiMove size n mix src dst = some dst') :
    dst'.get (n - 1) = dst.get (n - 1) ∨
      ∃ k, 0 < k ∧ k < size ∧ dst'.get (n - 1) = mix k (src.get (n - 1)) (dst.get (n - 1)) := by
  unfold mpiMove at hm
  have hc := mpiCount_lt (n * size)
  dsimp only at hm
  generalize mpiCount (n * size) = c at hm hc
  have e : (n - 1 + 1) * size = n * size := by rw [Nat.sub_add_cancel hn]
  have e' : n * size = (n - 1) * size + size := by rw [← e, Nat.add_mul, Nat.one_mul]
  split_ifs at hm with h1 h2
  injection hm with hm
  subst hm
  dsimp only
  rw [if_neg (by omega)]
  by_cases h3 : (n - 1) * size < c.toNat
  · rw [if_pos h3]
    exact Or.inr ⟨_, by omega, by omega, rfl⟩
  · rw [if_neg h3]
    exact Or.inl rfl

/-- **C68**, exact condition: `n` elements of `size` bytes arrive, whatever sender and receiver held before, if and only if
they have less than 2^31 bytes.  (`hmix`: replacing not all bytes of an element does not always give the new element.) -/
theorem transfer_complete_iff {size n : Nat} (hs : 0 < size) (hn : 0 < n) {mix : Nat → α → α → α} (x y : α) (hxy : x ≠ y)
    (hmix : ∀ k, 0 < k → k < size → mix k x y ≠ x) :
    (∀ src dst : Arr α, src.size = n → dst.size = n →
      ∃ dst', mpiMove size n mix src dst = some dst' ∧ ∀ i, i < n → dst'.get i = src.get i) ↔ n * size < 2147483648 := by
  constructor
  · intro h
    by_contra hc
    obtain ⟨d, h1, h2⟩ := h ⟨n, fun _ => x⟩ ⟨n, fun _ => y⟩ rfl rfl
    have h3 := h2 (n - 1) (by omega)
    rcases mpiMove_large hn (by omega) h1 with h4 | ⟨k, k1, k2, h4⟩
    · exact hxy (h3.symm.trans h4)
    · exact hmix k k1 k2 (h4.symm.trans h3)
  · intro h src dst e1 e2
    refine ⟨_, mpiMove_small hs (by omega) (by omega) h, ?_⟩
    intro i hi
    exact if_pos hi

/-- Two-byte elements: the mixture of `x` and `y` has the low byte of `x` and the high byte of `y`. -/
example : ∀ k, 0 < k → k < 2 → (fun (_ : Nat) (x y : Nat) => x % 256 + y / 256 * 256) k 0 256 ≠ 0 := by
  intro k _ _
  show (0 % 256 + 256 / 256 * 256 : Nat) ≠ 0
  decide

theorem store_eq {a b : Arr α} {n : Nat} (h : n ≤ a.size) :
    a.store ((List.range n).map b.get) = some ⟨a.size, fun i => if i < n then b.get i else a.get i⟩ := by
  obtain ⟨c, c1, c2, c3⟩ := Arr.store_spec (a := a) (l := (List.range n).map b.get) (by simpa using h)
  rw [c1]
  cases c with
  | mk size get =>
    dsimp only at c2 c3
    subst c2
    congr 2
    funext i
    rw [c3]
    by_cases hi : i < n
    · rw [dif_pos (by simpa using hi), if_pos hi]
      simp
    · rw [dif_neg (by simpa using hi), if_neg hi]

/-- Where all counts are small, `send_segment` and `recv_segment` move what `Segment.send` and `Segment.recv` do. -/
theorem Segment.pass_small {size : Nat} (hs : 0 < size) (mix : Mixes α) (g : Fresh α) {s r : Segment α} {b : Buffer α}
    (hb : s.props = some b) (hd : b.Dims s.capacity s.numInts) (hni : s.numInts = (s.capacity + 31) / 32)
    (hr : r.WF) (hcap : s.capacity = r.capacity) (hc : 0 ≤ b.nnz)
    (h1 : s.capacity * size < 2147483648) (h2 : s.capacity * 2 < 2147483648) (tr : Nat) :
    s.pass size mix g r = (s.send false).bind (fun m => r.recv false tr g m) := by
  obtain ⟨p, p1, p2⟩ := Segment.alloc_spec hr g
  have hnir : s.numInts = r.numInts := by rw [hni, hr.ni, hcap]
  rw [← hcap, ← hnir] at p2
  unfold Segment.pass Segment.send Segment.recv
  rw [hb, p1]
  simp only [Option.bind_eq_bind, Option.bind_some]
  cases hdec : shouldCompress false s.capacity b.nnz with
  | serialized =>
    exfalso
    unfold shouldCompress at hdec
    rw [if_neg (by decide)] at hdec
    by_cases h : 2 * b.nnz > (s.capacity : Int)
    · rw [if_pos h] at hdec; exact absurd hdec (by decide)
    · rw [if_neg h] at hdec; exact absurd hdec (by decide)
  | none =>
    dsimp only
    rw [Arr.prefix_eq (by rw [hd.value]; exact Nat.le_refl _), Option.bind_some,
      Arr.prefix_eq (by rw [hd.bits]; exact Nat.le_refl _), Option.bind_some, Option.bind_some]
    unfold Buffer.recv
    rw [← hcap, ← hnir]
    simp only [hdec]
    rw [if_pos (by simp), store_eq (by rw [p2.value]; exact Nat.le_refl _), store_eq (by rw [p2.bits]; exact Nat.le_refl _),
      mpiMove_small hs (by rw [hd.value]; exact Nat.le_refl _) (by rw [p2.value]; exact Nat.le_refl _) h1,
      mpiMove_small (by decide) (by rw [hd.bits]; exact Nat.le_refl _) (by rw [p2.bits]; exact Nat.le_refl _) (by omega)]
    rfl
  | compressed =>
    dsimp only
    have hle : 2 * b.nnz ≤ s.capacity := by
      unfold shouldCompress at hdec
      rw [if_neg (by decide)] at hdec
      by_cases h : 2 * b.nnz > (s.capacity : Int)
      · rw [if_pos h] at hdec; exact absurd hdec (by decide)
      · omega
    have hn : natIdx b.nnz = some b.nnz.toNat := by unfold natIdx; rw [if_pos hc]
    have hle' : b.nnz.toNat ≤ s.capacity := by omega
    have hsz : b.nnz.toNat * size ≤ s.capacity * size := Nat.mul_le_mul_right _ hle'
    rw [hn, Option.bind_some, Option.bind_some, Arr.prefix_eq (by rw [hd.cdata]; exact hle'), Option.bind_some,
      Arr.prefix_eq (by rw [hd.cidx]; exact hle'), Option.bind_some, Option.bind_some]
    unfold Buffer.recv
    rw [← hcap]
    simp only [hdec]
    rw [if_pos (by simp; omega), store_eq (by rw [p2.cdata]; exact hle'), store_eq (by rw [p2.cidx]; exact hle'),
      mpiMove_small hs (by rw [hd.cdata]; exact hle') (by rw [p2.cdata]; exact hle') (by omega),
      mpiMove_small (by decide) (by rw [hd.cidx]; exact hle') (by rw [p2.cidx]; exact hle') (by omega)]
    rfl

/-- **C68** for segments of plain types, whatever sender and receiver hold, if the segment has less than 2^31 bytes and less
than 2^30 elements.  Missing for the full property: larger segments, see `dense_transfer_incomplete`. -/
theorem segment_transfer_partial {size ts tr : Nat} (hs : 0 < size) (hts : 0 < ts) (htr : 0 < tr) (mix : Mixes α)
    (gs gr : Fresh α) {s r : Segment α} (ws : s.WF) (wr : r.WF) (hcap : s.capacity = r.capacity)
    (h1 : s.capacity * size < 2147483648) (h2 : s.capacity * 2 < 2147483648) :
    ∃ r', Segment.passAll size mix ts tr gs gr s r = some r' ∧ r'.WF ∧ r'.view = s.view := by
  obtain ⟨r', e1, e2, e3⟩ := compressed_segment_round_trip hts htr gs gr ws wr hcap
  refine ⟨r', ?_, e2, e3⟩
  rw [← e1]
  unfold Segment.passAll transfer
  obtain ⟨b, k1, k2, k3, k4, k5, k6, k7⟩ := Segment.compress_spec ws false hts gs
  have hc : 0 ≤ b.nnz := by
    unfold Buffer.Carries at k6
    by_contra hneg
    have : shouldCompress false s.capacity b.nnz = .compressed := by
      unfold shouldCompress
      rw [if_neg (by decide), if_neg (by omega)]
    rw [this] at k6
    obtain ⟨n, n1, _⟩ := k6
    omega
  rw [k1]
  simp only [Option.bind_eq_bind, Option.bind_some]
  rw [Segment.pass_small (s := { s with props := some b }) hs mix gr rfl k3 ws.ni wr hcap hc h1 h2 tr]
  cases ({ s with props := some b } : Segment α).send false <;> rfl

/-- **C68** in terms of the graph: all segments of a vector over `n` vertices on `nrank` ranks are short enough if the
segment width is. -/
theorem vector_transfers_partial {size ts tr n nrank j : Nat} (hs : 0 < size) (hts : 0 < ts) (htr : 0 < tr) (mix : Mixes α)
    (gs gr : Fresh α) {lo hi : Nat} (hj : j < nrank) (hlo : (startIds n nrank)[j]? = some lo) (hhi : (startIds n nrank)[j + 1]? = some hi)
    {s r : Segment α} (ws : s.WF) (wr : r.WF) (cs : s.capacity = hi - lo) (cr : r.capacity = hi - lo)
    (h1 : segWidth n nrank * size < 2147483648) (h2 : segWidth n nrank * 2 < 2147483648) :
    ∃ r', Segment.passAll size mix ts tr gs gr s r = some r' ∧ r'.WF ∧ r'.view = s.view := by
  have hle : hi - lo ≤ segWidth n nrank := by
    rw [startIds_get (by omega)] at hlo hhi
    injection hlo with hlo
    injection hhi with hhi
    rw [← hlo, ← hhi]
    exact bnd_diff_le (by omega)
  have := Nat.mul_le_mul_right size hle
  exact segment_transfer_partial hs hts htr mix gs gr ws wr (by omega) (by rw [cs]; omega) (by rw [cs]; omega)

/-- 200 million vertices on four ranks with values of 8 bytes meet the conditions. -/
example : segWidth 200000000 4 * 8 < 2147483648 ∧ segWidth 200000000 4 * 2 < 2147483648 := by decide +kernel

/-- **C68 is false**: of a segment with more than half of its elements present and 2^31 bytes or more, the receiver does not
get the last element; or the program ends. -/
theorem dense_transfer_incomplete {size : Nat} (mix : Mixes α) (g : Fresh α) {s r r' : Segment α} {b p' : Buffer α}
    (hb : s.props = some b) (hnn : 2 * b.nnz > s.capacity) (h0 : 0 < s.capacity) (h : 2147483648 ≤ s.capacity * size)
    (hp : s.pass size mix g r = some r') (hp' : r'.props = some p') :
    ∃ p, (r.alloc g).props = some p ∧ (p'.value.get (s.capacity - 1) = p.value.get (s.capacity - 1) ∨
      ∃ k, 0 < k ∧ k < size ∧
        p'.value.get (s.capacity - 1) = mix.val k (b.value.get (s.capacity - 1)) (p.value.get (s.capacity - 1))) := by
  unfold Segment.pass at hp
  rw [hb] at hp
  have hdec : shouldCompress false s.capacity b.nnz = .none := by
    unfold shouldCompress
    rw [if_neg (by decide), if_pos hnn]
  simp only [Option.bind_eq_bind, Option.bind_some, hdec, Option.bind_eq_some_iff] at hp
  obtain ⟨p, q1, v, q2, w, q3, q4⟩ := hp
  injection q4 with q4
  subst q4
  injection hp' with hp'
  subst hp'
  exact ⟨p, q1, mpiMove_large h0 h q2⟩

/-- **C68 is false**, compressed segments: with 2^29 elements or more, whatever their size, the program ends, because the
numbers of the elements take 4 bytes each. -/
theorem index_transfer_fails {size n : Nat} (mix : Mixes α) (g : Fresh α) {s r : Segment α} {b : Buffer α}
    (hb : s.props = some b) (hn : b.nnz = n) (hnn : 2 * n ≤ s.capacity) (hcap : s.capacity < 2147483648) (h : 2 ^ 29 ≤ n) :
    s.pass size mix g r = none := by
  unfold Segment.pass
  rw [hb]
  have hdec : shouldCompress false s.capacity b.nnz = .compressed := by
    unfold shouldCompress
    rw [if_neg (by decide), if_neg (by omega)]
  have hnat : natIdx b.nnz = some n := by rw [hn]; simp [natIdx]
  have hc : mpiCount (n * 4) < 0 := by
    unfold mpiCount
    rw [BitVec.toInt_ofNat', Int.bmod_def]
    have : (((n * 4 : Nat) : Int) % (2 ^ 32 : Nat)) = (n * 4 : Nat) := by omega
    rw [this, if_neg (by omega)]
    omega
  simp only [Option.bind_eq_bind, Option.bind_some, hdec, hnat]
  cases (r.alloc g).props with
  | none => rfl
  | some p =>
    have hm : ∀ (x y : Arr Nat), mpiMove 4 n mix.idx x y = none := by
      intro x y
      unfold mpiMove
      rw [if_pos hc]
    simp only [Option.bind_some, hm, Option.bind_none]
    cases mpiMove size n mix.val b.cdata p.cdata <;> rfl

/-- The smallest such segment: 2^30 elements, half of them present. -/
example : 2 * 2 ^ 29 ≤ 2 ^ 30 ∧ 2 ^ 30 < 2147483648 ∧ mpiCount (2 ^ 29 * 4) = -2147483648 := by decide +kernel

/-- Four-byte elements, 2^30 of them: the count is 0.  The receiver gets the bit vector and keeps the values that it had, and
nobody notices. -/
theorem dense_transfer_silent (mix : Mixes α) (g : Fresh α) {s r : Segment α} {b : Buffer α} (ws : s.WF) (wr : r.WF)
    (hb : s.props = some b) (hnn : 2 * b.nnz > s.capacity) (cs : s.capacity = 2 ^ 30) (cr : r.capacity = 2 ^ 30) :
    ∃ p v w, (r.alloc g).props = some p ∧
      s.pass 4 mix g r = some { r.alloc g with props := some { p with nnz := b.nnz, value := v, bits := w, uninit := false } } ∧
      (∀ i, i < s.numInts → w.get i = b.bits.get i) ∧ (∀ i, v.get i = p.value.get i) ∧ v.size = s.capacity := by
  obtain ⟨p, p1, p2⟩ := Segment.alloc_spec wr g
  have hd := ws.dims b hb
  have hnir : s.numInts = r.numInts := by rw [ws.ni, wr.ni, cs, cr]
  refine ⟨p, ⟨p.value.size, fun i => p.value.get i⟩, ⟨p.bits.size, fun i => if i < s.numInts then b.bits.get i else p.bits.get i⟩,
    by rw [p1], ?_, fun i hi => if_pos hi, fun i => rfl, by rw [cs, ← cr]; exact p2.value⟩
  unfold Segment.pass
  have hdec : shouldCompress false s.capacity b.nnz = .none := by
    unfold shouldCompress
    rw [if_neg (by decide), if_pos hnn]
  rw [hb, p1]
  simp only [Option.bind_eq_bind, Option.bind_some, hdec]
  have hw : s.numInts = 2 ^ 25 := by rw [ws.ni, cs]
  have e2 : mpiMove 4 s.numInts mix.word b.bits p.bits = _ :=
    mpiMove_small (by decide) (by rw [hd.bits]; exact Nat.le_refl _) (by rw [p2.bits, hnir]; exact Nat.le_refl _)
      (by rw [hw]; decide)
  have hc : mpiCount (s.capacity * 4) = 0 := by rw [cs]; decide
  have e1 : mpiMove 4 s.capacity mix.val b.value p.value = some ⟨p.value.size, fun i => p.value.get i⟩ := by
    unfold mpiMove
    rw [hc]
    dsimp only
    rw [if_neg (by decide), if_pos ⟨Nat.zero_le _, Nat.zero_le _⟩]
    congr 2
  rw [e1, e2]
  rfl

/-- **C68 is false** for whole transfers: of 2^30 four-byte values, more than half of them present, the receiver gets which
ones are present, with the values that its own memory held (`p`). -/
theorem segment_transfer_silent {ts tr : Nat} (mix : Mixes α) (gs gr : Fresh α) {s r : Segment α} {b : Buffer α} (ws : s.WF)
    (wr : r.WF) (hb : s.props = some b) (hu : b.uninit = false) (hnn : 2 * b.nnz > s.capacity) (cs : s.capacity = 2 ^ 30)
    (cr : r.capacity = 2 ^ 30) :
    ∃ p r', (r.alloc gr).props = some p ∧ Segment.passAll 4 mix ts tr gs gr s r = some r' ∧
      ∀ i, r'.view i = (s.view i).map (fun _ => p.value.get i) := by
  obtain ⟨p, v, w, p1, p2, p3, p4, p5⟩ := dense_transfer_silent mix gr ws wr hb hnn cs cr
  obtain ⟨q, q1, q2⟩ := Segment.alloc_spec wr gr
  rw [q1] at p1
  injection p1 with p1
  subst p1
  have hd := ws.dims b hb
  have hdec : shouldCompress false (2 ^ 30) b.nnz = .none := by
    unfold shouldCompress
    rw [if_neg (by decide), if_pos (by rw [← cs]; exact hnn)]
  refine ⟨q, { r.alloc gr with props := some { q with nnz := b.nnz, value := v, bits := w, uninit := false } },
    by rw [q1], ?_, ?_⟩
  · unfold Segment.passAll
    have : s.compress false ts gs = some s := by
      have e : s.alloc gs = s := by unfold Segment.alloc; rw [hb]
      unfold Segment.compress Segment.initialize
      rw [e, hb]
      simp only [Option.bind_eq_bind, Option.bind_some, hu, Bool.false_eq_true, if_false, cs, hdec]
      cases s
      cases b
      dsimp only at hb hu cs
      subst hb hu cs
      rfl
    rw [this]
    simp only [Option.bind_eq_bind, Option.bind_some]
    rw [p2]
    simp only [Option.bind_some]
    unfold Segment.decompress
    simp only [Option.bind_eq_bind, Option.bind_some]
    rw [q1]
    simp only [cr, hdec]
  · intro i
    unfold Segment.view
    rw [hb]
    dsimp only
    unfold Buffer.view
    rw [hu]
    simp only [Bool.false_eq_true, if_false]
    rw [p5, hd.value, cs]
    by_cases hi : i < 2 ^ 30
    · have hw : i / 32 < s.numInts := by rw [ws.ni, cs]; omega
      have : bitAt w i = bitAt b.bits i := by unfold bitAt; rw [p3 _ hw]
      rw [this]
      by_cases h : bitAt b.bits i = true
      · rw [if_pos ⟨hi, h⟩, if_pos ⟨hi, h⟩, p4]; rfl
      · rw [if_neg (fun x => h x.2), if_neg (fun x => h x.2)]; rfl
    · rw [if_neg (fun x => hi x.1), if_neg (fun x => hi x.1)]; rfl

/-- All `32 * k` elements are present and have the value `x`; used for the witnesses. -/
def fullSegment (k : Nat) (x : α) : Segment α :=
  ⟨32 * k, k, some ⟨false, (32 * k : Nat), ⟨32 * k, fun _ => x⟩, ⟨k, fun _ => 0xFFFFFFFF#32⟩, ⟨32 * k, fun _ => x⟩,
    ⟨32 * k, fun _ => 0⟩, []⟩, [], []⟩

theorem fullSegment_WF (k : Nat) (x : α) : (fullSegment k x).WF := by
  refine ⟨?_, ?_, ?_, ?_, ?_⟩
  · show k = (32 * k + 31) / 32
    omega
  · intro b hb
    injection hb with hb
    subst hb
    exact ⟨rfl, rfl, rfl, rfl⟩
  · intro b hb _ i h1 h2
    injection hb with hb
    subst hb
    have h1' : 32 * k ≤ i := h1
    have h2' : i / 32 < k := h2
    exact absurd h1' (by omega)
  · intro b hb; exact absurd hb (by simp [fullSegment])
  · intro b hb; exact absurd hb (by simp [fullSegment])

theorem fullSegment_view {k : Nat} (x : α) (hk : 0 < k) : (fullSegment k x).view 7 = some x := by
  unfold Segment.view fullSegment Buffer.view
  simp only [Bool.false_eq_true, if_false]
  have : bitAt ⟨k, fun _ => 0xFFFFFFFF#32⟩ 7 = true := by
    show (0xFFFFFFFF#32).getLsbD (7 % 32) = true
    decide
  rw [if_pos ⟨by omega, this⟩]

/-- **C68 is false**, concretely: the sender holds 2^30 times the number 5, the receiver an old vector with 2^30 times the
number 7; after the transfer the receiver still has 7. -/
theorem stale_values_received (mix : Mixes Nat) (ts tr : Nat) (gs gr : Fresh Nat) :
    ∃ r', Segment.passAll 4 mix ts tr gs gr (fullSegment (2 ^ 25) 5) (fullSegment (2 ^ 25) 7) = some r' ∧
      r'.view 7 = some 7 ∧ (fullSegment (2 ^ 25) 5).view 7 = some 5 := by
  have hk : (0 : Nat) < 2 ^ 25 ∧ 32 * 2 ^ 25 = 2 ^ 30 := by omega
  revert hk
  generalize (2 : Nat) ^ 25 = k
  intro ⟨hk0, hk⟩
  obtain ⟨p, r', h1, h2, h3⟩ := segment_transfer_silent (ts := ts) (tr := tr) mix gs gr (fullSegment_WF k 5) (fullSegment_WF k 7)
    rfl rfl (show (2 * ((32 * k : Nat) : Int)) > (32 * k : Nat) by omega) hk hk
  injection h1 with h1
  subst h1
  have hv := fullSegment_view (k := k) 5 hk0
  refine ⟨r', h2, ?_, hv⟩
  rw [h3, hv]
  rfl

/-- Such segments belong to graphs that the layout admits: 2^31 - 256 vertices on two ranks. -/
example : startIds (2 ^ 31 - 256) 2 = [0, 2 ^ 30, 2 ^ 31 - 256] := by decide +kernel

/-- **C68** for serialized segments: complete if and only if there are less than 2^31 bytes. -/
theorem bytes_complete_iff {n : Nat} :
    (∀ src dst : Arr (BitVec 8), src.size = n → dst.size = n →
      ∃ dst', passBytes src dst = some dst' ∧ ∀ i, i < n → dst'.get i = src.get i) ↔ n < 2147483648 := by
  rcases Nat.eq_zero_or_pos n with rfl | hn
  · refine ⟨fun _ => by decide, fun _ src dst e1 e2 => ⟨dst, ?_, fun i hi => absurd hi (Nat.not_lt_zero _)⟩⟩
    unfold passBytes
    rw [e1, mpiMove_small (by decide) (Nat.zero_le _) (Nat.zero_le _) (by decide)]
    simp
  · have := transfer_complete_iff (size := 1) (mix := fun _ (x : BitVec 8) _ => x) (by decide) hn 0#8 1#8 (by decide)
      (fun k k1 k2 => by omega)
    rw [Nat.mul_one] at this
    rw [← this]
    constructor
    · intro h src dst e1 e2
      obtain ⟨d, d1, d2⟩ := h src dst e1 e2
      exact ⟨d, by rw [← d1]; unfold passBytes; rw [e1], d2⟩
    · intro h src dst e1 e2
      obtain ⟨d, d1, d2⟩ := h src dst e1 e2
      exact ⟨d, by rw [← d1]; unfold passBytes; rw [e1], d2⟩

variable {E : Type}

/-- **C68** for loading matrices and for shuffling: the list of a rank has an `int` number of edges, so that its messages are
complete. -/
theorem matrix_edges_complete {src dst : Arr (Edge E)} (h : (src.size : Int) ≤ INT_MAX) (hd : dst.size = src.size) :
    ∃ dst', passMatEdges src dst = some dst' ∧ ∀ i, i < src.size → dst'.get i = src.get i := by
  unfold INT_MAX at h
  exact ⟨_, mpiMove_small (by decide) (Nat.le_refl _) (by omega) (by omega), fun i hi => if_pos hi⟩

/-- **C68** for the edges of a vector (`saveVertexproperty`), if there are less than 2^31 bytes.  Missing: see
`vector_edges_fail`. -/
theorem vector_edges_partial {size : Nat} (hs : 0 < size) (mix : Nat → Edge E → Edge E → Edge E) {src dst : Arr (Edge E)}
    (h : src.size * size < 2147483648) (hd : dst.size = src.size) :
    ∃ dst', passVecEdges size mix src dst = some dst' ∧ ∀ i, i < src.size → dst'.get i = src.get i :=
  ⟨_, mpiMove_small hs (Nat.le_refl _) (by omega) h, fun i hi => if_pos hi⟩

example : ∃ dst', passVecEdges 12 (fun _ x _ => x) (⟨100, fun i => ⟨i, 1, 7⟩⟩ : Arr (Edge Nat)) ⟨100, fun _ => ⟨0, 0, 0⟩⟩ =
    some dst' ∧ ∀ i, i < 100 → dst'.get i = ⟨i, 1, 7⟩ :=
  vector_edges_partial (by decide) _ (by decide) rfl

/-- **C68 is false** for the edges of a vector: with edges of 12 bytes (`int` values), a rank that sends from 178956971 to
357913941 edges to one rank (also to itself) passes a negative count. -/
theorem vector_edges_fail (mix : Nat → Edge E → Edge E → Edge E) {src dst : Arr (Edge E)} (h1 : 178956971 ≤ src.size)
    (h2 : src.size ≤ 357913941) : passVecEdges 12 mix src dst = none := by
  unfold passVecEdges mpiMove
  dsimp only
  rw [if_pos]
  unfold mpiCount
  rw [BitVec.toInt_ofNat', Int.bmod_def]
  have : (((src.size * 12 : Nat) : Int) % (2 ^ 32 : Nat)) = (src.size * 12 : Nat) := by omega
  rw [this, if_neg (by omega)]
  omega

/-- 200 million vertices, one rank. -/
example : passVecEdges 12 (fun _ x _ => x) (⟨200000000, fun i => ⟨i, 1, 7⟩⟩ : Arr (Edge Nat)) ⟨200000000, fun _ => ⟨0, 0, 0⟩⟩ =
    none :=
  vector_edges_fail _ (by decide) (by decide)

end GraphMat

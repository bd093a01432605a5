import Verif.Lemmas.LoopKernels
import Verif.Props.Formats
import Verif.Props.Formats3

/-!
# C67: the parallel loops over a tile

The parallel loops of `my_applyedges` (DCSC tiles) and of the products for CSR, DCSR, COO and COO-SIMD tiles have no data
race and one outcome, the one that the sequential model computes.  For the formats whose partitions are computed by the
constructor the theorems are about tiles that the constructor has built: the partitions then consist of whole words of
the bit vector.  `mul` may depend on the contents of its uninitialised output (`old`).
-/
namespace GraphMat

variable {E T U V : Type}

/-- `my_applyedges`: the partitions store to different parts of `vals`.  `vals` need not be the values that the constructor
has stored, e.g. after an earlier `applyToAllEdges`. -/
theorem applyEdges_tasks {g : TileFresh E} {threads : Nat} (ht : 0 < threads) {sort : List (TEdge E) → List (TEdge E)}
    (hsort : SortsBy compareDcsc sort) {edges : List (Edge E)} {m n rs cs : Nat} (hin : ∀ e ∈ edges, InTile m n rs cs e)
    {t : Tile E} (hb : Tile.build g threads sort edges m n rs cs = some t) {op : E → V → V → E} {vp1 vp2 : Arr V}
    {vb2 : Arr Word} {vals vals' : Arr E} (h : { t with vals := vals }.applyVals op vp1 vp2 vb2 = some vals') :
    OneOutcome (parFor t.np (applyEdgesC op)) (arrMem (edgA t vp1 vp2 vb2 vals)) (arrMem (edgA t vp1 vp2 vb2 vals'))
      (fun _ => ()) := by
  obtain ⟨t', P, h1, hP, _⟩ := Tile.build_spec g ht hsort hin
  rw [hb] at h1
  injection h1 with h1
  subst h1
  have mono : ∀ i j, i ≤ j → eoff P i ≤ eoff P j := by
    intro i j hij
    induction hij with
    | refl => exact Nat.le_refl _
    | step _ ih => exact Nat.le_trans ih (Nat.le_add_right _ _)
  unfold Tile.applyVals at h
  refine parFor_outcome (own := fun p => edgOwn (eoff P p) (eoff P (p + 1))) (shared := edgShared)
    (mem := fun vals => arrMem (edgA t vp1 vp2 vb2 vals)) ?_ ?_ ?_ h
  · rintro i j l _ _ ⟨_, a1, a2⟩ ⟨_, b1, b2⟩
    rcases Nat.lt_trichotomy i j with hij | hij | hij
    · have := mono (i + 1) j hij; omega
    · exact hij
    · have := mono (j + 1) i hij; omega
  · rintro i l _ ⟨h1, _⟩ hs
    exact hs h1
  · intro p hp s s' hg
    have hg : t.applyPart op vp1 vp2 vb2 p s = some s' := hg
    obtain ⟨c0, c1⟩ := hP.cs p hp
    refine applyEdgesC_does hg c0 c1 (hP.ep p hp).1 ?_
    have ec : coff P (p + 1) = coff P p + ((P p).length + 1) := rfl
    intro j a b hj ha hb nz h1 h2
    rw [hP.ptr p hp j (by omega)] at ha
    rw [Nat.add_assoc, hP.ptr p hp (j + 1) (by omega)] at hb
    injection ha with ha
    injection hb with hb
    subst ha hb
    have hle : clen (P p) (j + 1) ≤ clen (P p) (P p).length :=
      mono_le (c := clen (P p)) (m := (P p).length) (fun i hi => by rw [clen_succ hi]; omega) (by omega) (Nat.le_refl _)
    rw [clen_all] at hle
    have ee : eoff P (p + 1) = eoff P p + (ents (P p)).length := rfl
    omega

/-- `my_csrspmspv`: the partitions are blocks of rows whose number is a multiple of 32, so they store to different elements
of `yvalue` and different words of `ybit_vector`.  For every tile; `k` holds its arrays. -/
theorem csr_tasks {t : CSR E} {threads : Nat} {mul : E → T → U → U} {add : U → U → U} {old : Nat → U} {k : KerIn E T V}
    (ka : k.a = t.a) (kj : k.ja = t.ja) (ki : k.ia = t.ia) {st st' : Arr U × Arr Word}
    (h : t.spmspv threads mul add old k.xv k.xb st = some st') :
    OneOutcome (parFor (threads * 4)
        (csrC mul add old t.m (((t.m + threads * 4 - 1) / (threads * 4) + 31) / 32 * 32) : Nat → KerCode E T V U Unit))
      (arrMem (kerA k st)) (arrMem (kerA k st')) (fun _ => ()) := by
  unfold CSR.spmspv at h
  simp only at h
  split_ifs at h with hnp
  have hd : 32 ∣ ((t.m + threads * 4 - 1) / (threads * 4) + 31) / 32 * 32 := Nat.dvd_mul_left _ _
  generalize ((t.m + threads * 4 - 1) / (threads * 4) + 31) / 32 * 32 = rpp at h hd
  obtain ⟨q, rfl⟩ := hd
  refine parFor_outcome (own := fun p => kerOwn (fun r => p * (32 * q) ≤ r ∧ r < (p + 1) * (32 * q))) (shared := kerShared)
    (mem := fun s => arrMem (kerA k s)) (kerOwn_disjoint ?_) (fun i l _ => kerOwn_not_shared _ l) ?_ h
  · rintro i j r r' hij _ ⟨a1, a2⟩ ⟨b1, b2⟩
    have h1 : (i + 1) * (32 * q) ≤ j * (32 * q) := Nat.mul_le_mul_right _ hij
    have e1 : (i + 1) * (32 * q) = 32 * ((i + 1) * q) := by rw [Nat.mul_left_comm]
    have e2 : j * (32 * q) = 32 * (j * q) := by rw [Nat.mul_left_comm]
    omega
  · intro p hp s s' hg
    refine Does.forUnit (mem := fun s => arrMem (kerA k s)) ?_ hg
    intro row h1 h2 s s' hg
    exact csrRowC_does ⟨h1, by omega⟩ ka kj ki hg

/-- `my_dcsrspmspv`, for a tile that the constructor has built (whatever it has read behind `row_ids`). -/
theorem dcsr_tasks {behind : Option Int} {g : FmtFresh E} {threads : Nat} {sort : List (Edge E) → List (Edge E)}
    (hsort : SortsBy compareSrcDst sort) {edges : List (Edge E)} {m n rs cs : Nat}
    (hin : ∀ e ∈ edges, InTile m n rs cs e) {t : DCSR E}
    (hb : DCSR.build behind g threads sort edges m n rs cs = some t) (hlen : 0 < edges.length) {mul : E → T → U → U}
    {add : U → U → U} {old : Nat → U} {k : KerIn E T V} (ka : k.a = t.a) (kj : k.ja = t.ja) (ki : k.ia = t.ia)
    (kr : k.ids = t.rowIds) (kp : k.pp = t.pp) {st st' : Arr U × Arr Word}
    (h : t.spmspv mul add old k.xv k.xb st = some st') :
    OneOutcome (parFor t.np (dcsrC mul add old : Nat → KerCode E T V U Unit)) (arrMem (kerA k st)) (arrMem (kerA k st'))
      (fun _ => ()) := by
  have w := DCSR.build_words hsort hin hb hlen
  unfold DCSR.spmspv at h
  refine parFor_outcome
    (own := fun p => kerOwn (fun r => ∃ i, t.pp.get p ≤ i ∧ i < t.pp.get (p + 1) ∧ r = (t.rowIds.get i).toNat))
    (shared := kerShared) (mem := fun s => arrMem (kerA k s)) (kerOwn_disjoint ?_) (fun i l _ => kerOwn_not_shared _ l) ?_ h
  · rintro i j r r' hij hj ⟨x, x1, x2, rfl⟩ ⟨y, y1, y2, rfl⟩
    have m1 : t.pp.get (i + 1) ≤ t.pp.get j := mono_le (c := t.pp.get) (m := t.np) w.pmono (by omega) (by omega)
    have m2 := w.le (j + 1) (by omega)
    obtain ⟨c1, c2⟩ := w.bound j (by omega) hj (by omega)
    have e1 := w.incr x (t.pp.get j - 1) (by omega) (by omega)
    have e2 := w.incr (t.pp.get j - 1) (t.pp.get j) (by omega) (by omega)
    have e3 := w.incr (t.pp.get j) y (by omega) (by omega)
    have e4 := w.nonneg x (by omega)
    omega
  · intro p hp s s' hg
    simp only [Option.bind_eq_bind, Option.bind_eq_some_iff] at hg
    obtain ⟨lo, g1, hi, g2, hg⟩ := hg
    have l1 := (Arr.read_eq_some.mp g1).2
    have l2 := (Arr.read_eq_some.mp g2).2
    rw [← kp] at g1 g2
    unfold dcsrC
    refine (ker_ld .pp (by decide) _ g1).bind ?_
    refine (ker_ld .pp (by decide) _ g2).bind ?_
    refine Does.forUnit (mem := fun s => arrMem (kerA k s)) ?_ hg
    intro i h1 h2 s s' hg
    exact dcsrRowC_does ⟨i, by omega, by omega, rfl⟩ ka kj ki kr hg

/-- The rows of different partitions are in different words. -/
theorem COO.Apart.disjoint {t : COO E} (w : t.Apart) (i j r r' : Nat) (hij : i < j) (hj : j < t.np)
    (h1 : ∃ nz, t.ps.get i ≤ nz ∧ nz < t.ps.get (i + 1) ∧ r = (t.ia.get nz - 1).toNat)
    (h2 : ∃ nz, t.ps.get j ≤ nz ∧ nz < t.ps.get (j + 1) ∧ r' = (t.ia.get nz - 1).toNat) : r / 32 ≠ r' / 32 := by
  obtain ⟨x, x1, x2, rfl⟩ := h1
  obtain ⟨y, y1, y2, rfl⟩ := h2
  obtain ⟨w0, q, w1, w2⟩ := w i j hij hj x y x1 x2 y1 y2
  omega

theorem COO.Apart.tasks {t : COO E} (w : t.Apart) {mul : E → T → U → U} {add : U → U → U} {old : Nat → U} {k : KerIn E T V}
    (ka : k.a = t.a) (kj : k.ja = t.ja) (kr : k.ids = t.ia) (kp : k.pp = t.ps) {st st' : Arr U × Arr Word}
    (h : t.spmspv mul add old k.xv k.xb st = some st') :
    OneOutcome (parFor t.np (cooC mul add old : Nat → KerCode E T V U Unit)) (arrMem (kerA k st)) (arrMem (kerA k st'))
      (fun _ => ()) := by
  unfold COO.spmspv at h
  refine parFor_outcome
    (own := fun p => kerOwn (fun r => ∃ nz, t.ps.get p ≤ nz ∧ nz < t.ps.get (p + 1) ∧ r = (t.ia.get nz - 1).toNat))
    (shared := kerShared) (mem := fun s => arrMem (kerA k s)) (kerOwn_disjoint w.disjoint)
    (fun i l _ => kerOwn_not_shared _ l) ?_ h
  intro p hp s s' hg
  simp only [Option.bind_eq_bind, Option.bind_eq_some_iff] at hg
  obtain ⟨lo, g1, hi, g2, hg⟩ := hg
  have l1 := (Arr.read_eq_some.mp g1).2
  have l2 := (Arr.read_eq_some.mp g2).2
  rw [← kp] at g1 g2
  unfold cooC
  refine (ker_ld .pp (by decide) _ g1).bind ?_
  refine (ker_ld .pp (by decide) _ g2).bind ?_
  refine Does.forUnit (mem := fun s => arrMem (kerA k s)) ?_ hg
  intro i h1 h2 s s' hg
  exact cooEntryC_does ⟨i, by omega, by omega, rfl⟩ ka kj kr hg

theorem COO.Apart.tasks3 {t : COO E} (w : t.Apart) {mul : E → T → V → U → U} {add : U → U → U} {old : Nat → U}
    {k : KerIn E T V} (ka : k.a = t.a) (kj : k.ja = t.ja) (kr : k.ids = t.ia) (kp : k.pp = t.ps) {st st' : Arr U × Arr Word}
    (h : t.spmspv3 mul add old k.xv k.xb k.vv k.vb st = some st') :
    OneOutcome (parFor t.np (coo3C mul add old : Nat → KerCode E T V U Unit)) (arrMem (kerA k st)) (arrMem (kerA k st'))
      (fun _ => ()) := by
  unfold COO.spmspv3 at h
  refine parFor_outcome
    (own := fun p => kerOwn (fun r => ∃ nz, t.ps.get p ≤ nz ∧ nz < t.ps.get (p + 1) ∧ r = (t.ia.get nz - 1).toNat))
    (shared := kerShared) (mem := fun s => arrMem (kerA k s)) (kerOwn_disjoint w.disjoint)
    (fun i l _ => kerOwn_not_shared _ l) ?_ h
  intro p hp s s' hg
  simp only [Option.bind_eq_bind, Option.bind_eq_some_iff] at hg
  obtain ⟨lo, g1, hi, g2, hg⟩ := hg
  have l1 := (Arr.read_eq_some.mp g1).2
  have l2 := (Arr.read_eq_some.mp g2).2
  rw [← kp] at g1 g2
  unfold coo3C
  refine (ker_ld .pp (by decide) _ g1).bind ?_
  refine (ker_ld .pp (by decide) _ g2).bind ?_
  refine Does.forUnit (mem := fun s => arrMem (kerA k s)) ?_ hg
  intro i h1 h2 s s' hg
  exact cooEntry3C_does ⟨i, by omega, by omega, rfl⟩ ka kj kr hg

/-- `my_coospmspv` and `my_coospmspv3` for a COO tile that the constructor has built, whatever number (C44) it read
behind `ia`. -/
theorem coo_tasks {x : Int} {g : FmtFresh E} {threads : Nat} (ht : 0 < threads)
    {sort : List (Edge E) → List (Edge E)} (hsort : SortsBy compareSrcDst sort) {edges : List (Edge E)} {m n rs cs : Nat}
    (hin : ∀ e ∈ edges, InTile m n rs cs e) (hlen : 0 < edges.length) {t : COO E}
    (hb : COO.build (some x) g threads sort edges m n rs cs = some t) {add : U → U → U} {old : Nat → U} {k : KerIn E T V}
    (ka : k.a = t.a) (kj : k.ja = t.ja) (kr : k.ids = t.ia) (kp : k.pp = t.ps) {st st' : Arr U × Arr Word} :
    (∀ mul : E → T → U → U, t.spmspv mul add old k.xv k.xb st = some st' →
      OneOutcome (parFor t.np (cooC mul add old : Nat → KerCode E T V U Unit)) (arrMem (kerA k st)) (arrMem (kerA k st'))
        (fun _ => ())) ∧
    ∀ mul : E → T → V → U → U, t.spmspv3 mul add old k.xv k.xb k.vv k.vb st = some st' →
      OneOutcome (parFor t.np (coo3C mul add old : Nat → KerCode E T V U Unit)) (arrMem (kerA k st)) (arrMem (kerA k st'))
        (fun _ => ()) := by
  obtain ⟨t', h1, _, _, _, _, _, w, _⟩ := COO.build_any x g ht hsort hin (edges[0]'hlen) hlen
  rw [hb] at h1
  injection h1 with h1
  subst h1
  exact ⟨fun _ h => w.tasks ka kj kr kp h, fun _ h => w.tasks3 ka kj kr kp h⟩

/-- `my_coospmspv` for a COO-SIMD tile that the constructor has built. -/
theorem coosimd_tasks {g : FmtFresh E} {threads : Nat} (ht : 0 < threads)
    {sort : List (TEdge E) → List (TEdge E)} (hsort : SortsBy compareSimd sort)
    {sortBins : Nat → List SimdBin → List SimdBin} (hsb : ∀ p, SortsBy compareBin (sortBins p))
    {edges : List (Edge E)} {m n rs cs : Nat} (hin : ∀ e ∈ edges, InTile m n rs cs e) (hlen : 0 < edges.length) {t : COO E}
    (hb : COO.buildSimd g threads sort sortBins edges m n rs cs = some t) {mul : E → T → U → U} {add : U → U → U}
    {old : Nat → U} {k : KerIn E T V} (ka : k.a = t.a) (kj : k.ja = t.ja) (kr : k.ids = t.ia) (kp : k.pp = t.ps)
    {st st' : Arr U × Arr Word} (h : t.spmspv mul add old k.xv k.xb st = some st') :
    OneOutcome (parFor t.np (cooC mul add old : Nat → KerCode E T V U Unit)) (arrMem (kerA k st)) (arrMem (kerA k st'))
      (fun _ => ()) := by
  obtain ⟨t', _, h1, _, _, _, _, _, _, _, w⟩ := COO.buildSimd_words g ht hsort hsb hin hlen
  rw [hb] at h1
  injection h1 with h1
  subst h1
  exact w.apart.tasks ka kj kr kp h

/-! ### Cases that meet the hypotheses -/

/-- The vectors of the examples: `x` and the vertex properties are complete, `y` is empty. -/
def kerSample (a : Arr Nat) (ja : Arr Int) (ia : Arr Nat) (ids : Arr Int) (pp : Arr Nat) : KerIn Nat Nat Nat :=
  ⟨a, ja, ia, ids, pp, Arr.ofList 0 (List.replicate 17 1), Arr.ofList 0#32 [0xFFFFFFFF#32],
    Arr.ofList 0 (List.replicate 40 2), Arr.ofList 0#32 [0xFFFFFFFF#32, 0xFFFFFFFF#32]⟩

/-- The result vector before the product. -/
def kerSampleY : Arr Nat × Arr Word := (Arr.ofList 0 (List.replicate 40 0), Arr.ofList 0#32 [0#32, 0#32])

example : ∃ (t : Tile Nat) (vals' : Arr Nat), Tile.build ⟨fun _ => 4, fun _ _ => 4⟩ 2 (insSort compareDcsc) fmtEdges 40 17 10 20 = some t ∧
    (vals'.get 0 = t.vals.get 0 + 3) ∧
    OneOutcome (parFor t.np (applyEdgesC (fun (e a b : Nat) => e + a + b)))
      (arrMem (edgA t (Arr.ofList 0 (List.replicate 17 1)) (Arr.ofList 0 (List.replicate 40 2))
        (Arr.ofList 0#32 [0xFFFFFFFF#32, 0xFFFFFFFF#32]) t.vals))
      (arrMem (edgA t (Arr.ofList 0 (List.replicate 17 1)) (Arr.ofList 0 (List.replicate 40 2))
        (Arr.ofList 0#32 [0xFFFFFFFF#32, 0xFFFFFFFF#32]) vals')) (fun _ => ()) := by
  have h : ((Tile.build ⟨fun _ => 4, fun _ _ => 4⟩ 2 (insSort compareDcsc) fmtEdges 40 17 10 20).bind (fun t =>
      (t.applyVals (fun (e a b : Nat) => e + a + b) (Arr.ofList 0 (List.replicate 17 1)) (Arr.ofList 0 (List.replicate 40 2))
        (Arr.ofList 0#32 [0xFFFFFFFF#32, 0xFFFFFFFF#32])).map (fun v => decide (v.get 0 = t.vals.get 0 + 3)))) = some true := by
    decide +kernel
  rw [Option.bind_eq_some_iff] at h
  obtain ⟨t, h1, h⟩ := h
  rw [Option.map_eq_some_iff] at h
  obtain ⟨v, h2, h3⟩ := h
  exact ⟨t, v, h1, of_decide_eq_true h3, applyEdges_tasks (by decide) insSort_dcsc fmtEdges_in h1 (vals := t.vals) h2⟩

example : ∃ (t : CSR Nat) (st : Arr Nat × Arr Word), st.1.get 0 = 400 ∧
    OneOutcome (parFor 4 (csrC (fun e x _ => e * x) (· + ·) (fun _ => 3) t.m 32 : Nat → KerCode Nat Nat Nat Nat Unit))
      (arrMem (kerA (kerSample t.a t.ja t.ia ⟨0, fun _ => 0⟩ ⟨0, fun _ => 0⟩) kerSampleY))
      (arrMem (kerA (kerSample t.a t.ja t.ia ⟨0, fun _ => 0⟩ ⟨0, fun _ => 0⟩) st)) (fun _ => ()) := by
  have h : ((CSR.build fmtFresh 1 (insSort compareSrcDst) fmtEdges 40 17 10 20).bind (fun t =>
      (t.2.spmspv 1 (fun e x _ => e * x) (· + ·) (fun _ => 3) (Arr.ofList 0 (List.replicate 17 1))
        (Arr.ofList 0#32 [0xFFFFFFFF#32]) kerSampleY).map (fun st => (t.2.m, st.1.get 0)))) = some (40, 400) := by
    decide +kernel
  rw [Option.bind_eq_some_iff] at h
  obtain ⟨⟨es, t⟩, h1, h⟩ := h
  rw [Option.map_eq_some_iff] at h
  obtain ⟨st, h2, h3⟩ := h
  injection h3 with h3 h4
  refine ⟨t, st, h4, ?_⟩
  have := csr_tasks (t := t) (threads := 1) (mul := fun e x _ => e * x) (add := (· + ·)) (old := fun _ => 3)
    (k := kerSample t.a t.ja t.ia ⟨0, fun _ => 0⟩ ⟨0, fun _ => 0⟩) rfl rfl rfl h2
  have e : t.m = 40 := h3
  rw [e] at this ⊢
  exact this

example : ∃ (t : DCSR Nat) (st : Arr Nat × Arr Word), 1 < t.np ∧ st.1.get 0 = 400 ∧
    OneOutcome (parFor t.np (dcsrC (fun e x _ => e * x) (· + ·) (fun _ => 3) : Nat → KerCode Nat Nat Nat Nat Unit))
      (arrMem (kerA (kerSample t.a t.ja t.ia t.rowIds t.pp) kerSampleY))
      (arrMem (kerA (kerSample t.a t.ja t.ia t.rowIds t.pp) st)) (fun _ => ()) := by
  have h : ((DCSR.build (some 40) fmtFresh 2 (insSort compareSrcDst) fmtEdges 40 17 10 20).bind (fun t =>
      (t.spmspv (fun e x _ => e * x) (· + ·) (fun _ => 3) (Arr.ofList 0 (List.replicate 17 1))
        (Arr.ofList 0#32 [0xFFFFFFFF#32]) kerSampleY).map (fun st => (decide (1 < t.np), st.1.get 0)))) =
      some (true, 400) := by
    decide +kernel
  rw [Option.bind_eq_some_iff] at h
  obtain ⟨t, h1, h⟩ := h
  rw [Option.map_eq_some_iff] at h
  obtain ⟨st, h2, h3⟩ := h
  injection h3 with h3 h4
  exact ⟨t, st, of_decide_eq_true h3, h4, dcsr_tasks insSort_srcDst fmtEdges_in h1 (by decide)
    (mul := fun e x _ => e * x) (add := (· + ·)) (old := fun _ => 3) (k := kerSample t.a t.ja t.ia t.rowIds t.pp)
    rfl rfl rfl rfl rfl h2⟩

example : ∃ (t : COO Nat) (st st3 : Arr Nat × Arr Word), 1 < t.np ∧ st.1.get 0 = 400 ∧ st3.1.get 0 = 404 ∧
    OneOutcome (parFor t.np (cooC (fun e x _ => e * x) (· + ·) (fun _ => 3) : Nat → KerCode Nat Nat Nat Nat Unit))
      (arrMem (kerA (kerSample t.a t.ja ⟨0, fun _ => 0⟩ t.ia t.ps) kerSampleY))
      (arrMem (kerA (kerSample t.a t.ja ⟨0, fun _ => 0⟩ t.ia t.ps) st)) (fun _ => ()) ∧
    OneOutcome (parFor t.np (coo3C (fun e x v _ => e * x + v) (· + ·) (fun _ => 3) : Nat → KerCode Nat Nat Nat Nat Unit))
      (arrMem (kerA (kerSample t.a t.ja ⟨0, fun _ => 0⟩ t.ia t.ps) kerSampleY))
      (arrMem (kerA (kerSample t.a t.ja ⟨0, fun _ => 0⟩ t.ia t.ps) st3)) (fun _ => ()) := by
  have h : ((COO.build (some 0) fmtFresh 2 (insSort compareSrcDst) fmtEdges 40 17 10 20).bind (fun t =>
      (t.spmspv (fun e x _ => e * x) (· + ·) (fun _ => 3) (Arr.ofList 0 (List.replicate 17 1))
        (Arr.ofList 0#32 [0xFFFFFFFF#32]) kerSampleY).bind (fun st =>
      (t.spmspv3 (fun e x v _ => e * x + v) (· + ·) (fun _ => 3) (Arr.ofList 0 (List.replicate 17 1))
        (Arr.ofList 0#32 [0xFFFFFFFF#32]) (Arr.ofList 0 (List.replicate 40 2))
        (Arr.ofList 0#32 [0xFFFFFFFF#32, 0xFFFFFFFF#32]) kerSampleY).map (fun st3 =>
      (decide (1 < t.np), st.1.get 0, st3.1.get 0))))) = some (true, 400, 404) := by
    decide +kernel
  simp only [Option.bind_eq_some_iff, Option.map_eq_some_iff] at h
  obtain ⟨t, h1, st, h2, st3, h3, h4⟩ := h
  injection h4 with h4 h5
  injection h5 with h5 h6
  exact ⟨t, st, st3, of_decide_eq_true h4, h5, h6,
    (coo_tasks (V := Nat) (by decide) insSort_srcDst fmtEdges_in (by decide) h1 (add := (· + ·)) (old := fun _ => 3)
      (k := kerSample t.a t.ja ⟨0, fun _ => 0⟩ t.ia t.ps) rfl rfl rfl rfl).1 (fun e x _ => e * x) h2,
    (coo_tasks (by decide) insSort_srcDst fmtEdges_in (by decide) h1 (add := (· + ·)) (old := fun _ => 3)
      (k := kerSample t.a t.ja ⟨0, fun _ => 0⟩ t.ia t.ps) rfl rfl rfl rfl).2 (fun e x v _ => e * x + v) h3⟩

example : ∃ (t : COO Nat) (st : Arr Nat × Arr Word), 1 < t.np ∧ st.1.get 0 = 400 ∧
    OneOutcome (parFor t.np (cooC (fun e x _ => e * x) (· + ·) (fun _ => 3) : Nat → KerCode Nat Nat Nat Nat Unit))
      (arrMem (kerA (kerSample t.a t.ja ⟨0, fun _ => 0⟩ t.ia t.ps) kerSampleY))
      (arrMem (kerA (kerSample t.a t.ja ⟨0, fun _ => 0⟩ t.ia t.ps) st)) (fun _ => ()) := by
  have h : ((COO.buildSimd fmtFresh 3 (insSort compareSimd) (fun _ => insSort compareBin) fmtEdges 40 17 10 20).bind (fun t =>
      (t.spmspv (fun e x _ => e * x) (· + ·) (fun _ => 3) (Arr.ofList 0 (List.replicate 17 1))
        (Arr.ofList 0#32 [0xFFFFFFFF#32]) kerSampleY).map (fun st => (decide (1 < t.np), st.1.get 0)))) =
      some (true, 400) := by
    decide +kernel
  rw [Option.bind_eq_some_iff] at h
  obtain ⟨t, h1, h⟩ := h
  rw [Option.map_eq_some_iff] at h
  obtain ⟨st, h2, h3⟩ := h
  injection h3 with h3 h4
  exact ⟨t, st, of_decide_eq_true h3, h4, coosimd_tasks (by decide) insSort_simd (fun _ => insSort_bin) fmtEdges_in
    (by decide) h1 (mul := fun e x _ => e * x) (add := (· + ·)) (old := fun _ => 3)
    (k := kerSample t.a t.ja ⟨0, fun _ => 0⟩ t.ia t.ps) rfl rfl rfl rfl h2⟩

end GraphMat

import Verif.Lemmas.Loops
import Verif.Lemmas.FmtSimd
import Verif.Model.LoopKernels

namespace GraphMat

variable {E T U V : Type}

theorem natIdx_some {i : Int} {k : Nat} (h : natIdx i = some k) : i.toNat = k := by
  unfold natIdx at h
  split_ifs at h
  injection h

theorem pred1_some {n k : Nat} (h : pred1 n = some k) : n - 1 = k := by
  cases n with
  | zero => cases h
  | succ n => injection h

/-! ### `my_applyedges` -/

/-- The arrays that `my_applyedges` only reads. -/
def edgShared (l : EdgArr × Nat) : Prop := l.1 ≠ .vals

/-- The values `lo .. hi`. -/
def edgOwn (lo hi : Nat) (l : EdgArr × Nat) : Prop := l.1 = .vals ∧ lo ≤ l.2 ∧ l.2 < hi

theorem applyEdgesC_does {t : Tile E} {op : E → V → V → E} {vp1 vp2 : Arr V} {vb2 : Arr Word} {p : Nat} {vals vals' : Arr E}
    (h : t.applyPart op vp1 vp2 vb2 p vals = some vals') {c0 c1 e0 lo hi : Nat} (hc0 : t.cs.read p = some c0)
    (hc1 : t.cs.read (p + 1) = some c1) (he0 : t.ep.read p = some e0)
    (hb : ∀ j a b, j < c1 - c0 - 1 → t.colPtrs.read (c0 + j) = some a → t.colPtrs.read (c0 + j + 1) = some b →
      ∀ nz, a ≤ nz → nz < b → lo ≤ e0 + nz ∧ e0 + nz < hi) :
    Does (edgOwn lo hi) edgShared (applyEdgesC op p : EdgCode E V Unit) (arrMem (edgA t vp1 vp2 vb2 vals)) ()
      (arrMem (edgA t vp1 vp2 vb2 vals')) := by
  unfold Tile.applyPart at h
  simp only [Option.bind_eq_bind] at h
  rw [hc0, Option.bind_some, he0, Option.bind_some, hc1, Option.bind_some] at h
  unfold applyEdgesC
  have sh : ∀ {k : EdgArr} {i : Nat}, k ≠ .vals → edgOwn lo hi (k, i) ∨ edgShared (k, i) := fun h => Or.inr h
  refine (Does.ld (k := EdgArr.cs) (sh (by decide)) (edgA t vp1 vp2 vb2 vals) hc0).bind ?_
  refine (Does.ld (k := EdgArr.ep) (sh (by decide)) (edgA t vp1 vp2 vb2 vals) he0).bind ?_
  refine (Does.ld (k := EdgArr.cs) (sh (by decide)) (edgA t vp1 vp2 vb2 vals) hc1).bind ?_
  refine Does.forUnit (mem := fun vals => arrMem (edgA t vp1 vp2 vb2 vals)) ?_ h
  intro j hj1 hj2 s s' hg
  simp only [Option.bind_eq_some_iff] at hg
  obtain ⟨col, g1, a, g2, b, g3, hg⟩ := hg
  refine (Does.ld (k := EdgArr.colIdx) (sh (by decide)) (edgA t vp1 vp2 vb2 s) g1).bind ?_
  refine (Does.ld (k := EdgArr.colPtrs) (sh (by decide)) (edgA t vp1 vp2 vb2 s) g2).bind ?_
  refine (Does.ld (k := EdgArr.colPtrs) (sh (by decide)) (edgA t vp1 vp2 vb2 s) g3).bind ?_
  refine Does.forUnit (mem := fun vals => arrMem (edgA t vp1 vp2 vb2 vals)) ?_ hg
  intro nz hn1 hn2 s s' hg
  rw [Option.bind_eq_some_iff] at hg
  obtain ⟨row, g4, hg⟩ := hg
  unfold applyEdge at hg
  simp only [Option.bind_eq_bind, Option.bind_eq_some_iff] at hg
  obtain ⟨bit, g5, hg⟩ := hg
  split_ifs at hg
  simp only [Option.bind_eq_some_iff] at hg
  obtain ⟨x, g6, y, g7, v, g8, hg⟩ := hg
  have ho : edgOwn lo hi (.vals, e0 + nz) := ⟨rfl, hb j a b hj2 g2 g3 nz hn1 hn2⟩
  refine (Does.ld (k := EdgArr.rowInds) (sh (by decide)) (edgA t vp1 vp2 vb2 s) g4).bind ?_
  refine (Does.getBit g5 (fun w hw => Does.ld (k := EdgArr.vb2) (sh (by decide)) (edgA t vp1 vp2 vb2 s) hw)).bind ?_
  refine (Does.ld (k := EdgArr.vp1) (sh (by decide)) (edgA t vp1 vp2 vb2 s) g6).bind ?_
  refine (Does.ld (k := EdgArr.vp2) (sh (by decide)) (edgA t vp1 vp2 vb2 s) g7).bind ?_
  refine (Does.ld (k := EdgArr.vals) (Or.inl ho) (edgA t vp1 vp2 vb2 s) g8).bind ?_
  exact Does.st ho (A := edgA t vp1 vp2 vb2 s) (A' := edgA t vp1 vp2 vb2 s') hg
    (by intro k' hk; cases k' <;> first | rfl | exact absurd rfl hk)

/-! ### The products -/

/-- The arrays that the products only read. -/
def kerShared (l : KerArr × Nat) : Prop := l.1 ≠ .yv ∧ l.1 ≠ .yb

/-- The elements of `yvalue` that belong to the rows `R`, and their words of `ybit_vector`. -/
def kerOwn (R : Nat → Prop) (l : KerArr × Nat) : Prop :=
  (l.1 = .yv ∧ R l.2) ∨ (l.1 = .yb ∧ ∃ r, R r ∧ l.2 = r >>> 5)

theorem kerOwn_disjoint {R : Nat → Nat → Prop} {n : Nat}
    (h : ∀ i j r r', i < j → j < n → R i r → R j r' → r / 32 ≠ r' / 32) (i j : Nat) (l : KerArr × Nat) (hi : i < n)
    (hj : j < n) (h1 : kerOwn (R i) l) (h2 : kerOwn (R j) l) : i = j := by
  have key : ∀ i j, i < j → j < n → kerOwn (R i) l → kerOwn (R j) l → False := by
    intro i j hij hj h1 h2
    rcases h1 with ⟨a1, a2⟩ | ⟨a1, r, a2, a3⟩
    · rcases h2 with ⟨_, b2⟩ | ⟨b1, _⟩
      · exact h i j _ _ hij hj a2 b2 rfl
      · rw [a1] at b1; cases b1
    · rcases h2 with ⟨b1, _⟩ | ⟨_, r', b2, b3⟩
      · rw [a1] at b1; cases b1
      · refine h i j r r' hij hj a2 b2 ?_
        rw [← shr5, ← shr5, ← a3, b3]
  rcases Nat.lt_trichotomy i j with hij | hij | hij
  · exact absurd (key i j hij hj h1 h2) id
  · exact hij
  · exact absurd (key j i hij hi h2 h1) id

theorem kerOwn_not_shared (R : Nat → Prop) (l : KerArr × Nat) (h : kerOwn R l) : ¬ kerShared l := by
  rintro ⟨h1, h2⟩
  rcases h with ⟨h, _⟩ | ⟨h, _⟩
  · exact h1 h
  · exact h2 h

section
variable {R : Nat → Prop} {k : KerIn E T V}

theorem ker_yv {row : Nat} (hr : R row) : kerOwn R (.yv, row) := Or.inl ⟨rfl, hr⟩

theorem ker_yb {row : Nat} (hr : R row) : kerOwn R (.yb, row >>> 5) := Or.inr ⟨rfl, row, hr, rfl⟩

theorem ker_ld (n : KerArr) {i : Nat} (h : n ≠ .yv ∧ n ≠ .yb) (st : Arr U × Arr Word) {v : KerArr.Ty E T V U n}
    (hv : (kerA k st n).read i = some v) :
    Does (kerOwn R) kerShared (aload n i : KerCode E T V U (KerArr.Ty E T V U n)) (arrMem (kerA k st)) v (arrMem (kerA k st)) :=
  Does.ld (Or.inr h) (kerA k st) hv

theorem ker_getX {i : Nat} {b : Bool} (st : Arr U × Arr Word) (h : getBitvector i k.xb = some b) :
    Does (kerOwn R) kerShared (getBitC (aload (τ := KerArr.Ty E T V U) KerArr.xb) i) (arrMem (kerA k st)) b (arrMem (kerA k st)) :=
  Does.getBit h (fun _ hw => ker_ld .xb (by decide) st hw)

theorem ker_getV {i : Nat} {b : Bool} (st : Arr U × Arr Word) (h : getBitvector i k.vb = some b) :
    Does (kerOwn R) kerShared (getBitC (aload (τ := KerArr.Ty E T V U) KerArr.vb) i) (arrMem (kerA k st)) b (arrMem (kerA k st)) :=
  Does.getBit h (fun _ hw => ker_ld .vb (by decide) st hw)

theorem ker_getY {row : Nat} (hr : R row) {b : Bool} (st : Arr U × Arr Word) (h : getBitvector row st.2 = some b) :
    Does (kerOwn R) kerShared (getBitC (aload (τ := KerArr.Ty E T V U) KerArr.yb) row) (arrMem (kerA k st)) b
      (arrMem (kerA k st)) :=
  Does.getBit h (fun _ hw => Does.ld (k := KerArr.yb) (Or.inl (ker_yb hr)) (kerA k st) hw)

theorem ker_setY {row : Nat} (hr : R row) {yv : Arr U} {yb yb' : Arr Word} (h : setBitvector row yb = some yb') :
    Does (kerOwn R) kerShared (setBitC (aload KerArr.yb) (astore (τ := KerArr.Ty E T V U) KerArr.yb) row)
      (arrMem (kerA k (yv, yb))) () (arrMem (kerA k (yv, yb'))) :=
  Does.setBit (mem := fun b => arrMem (kerA k (yv, b))) h
    (fun _ hw => Does.ld (k := KerArr.yb) (Or.inl (ker_yb hr)) (kerA k (yv, yb)) hw)
    (fun _ b' hw => Does.st (k := KerArr.yb) (ker_yb hr) (A := kerA k (yv, yb)) (A' := kerA k (yv, b')) hw
      (by intro k' hk; cases k' <;> first | rfl | exact absurd rfl hk))

theorem ker_ldY {row : Nat} (hr : R row) {y : U} (st : Arr U × Arr Word) (h : st.1.read row = some y) :
    Does (kerOwn R) kerShared (aload KerArr.yv row : KerCode E T V U U) (arrMem (kerA k st)) y (arrMem (kerA k st)) :=
  Does.ld (k := KerArr.yv) (Or.inl (ker_yv hr)) (kerA k st) h

theorem ker_stY {row : Nat} (hr : R row) {u : U} {yv yv' : Arr U} {yb : Arr Word} (h : yv.write row u = some yv') :
    Does (kerOwn R) kerShared (astore KerArr.yv row u : KerCode E T V U Unit) (arrMem (kerA k (yv, yb))) ()
      (arrMem (kerA k (yv', yb))) :=
  Does.st (k := KerArr.yv) (ker_yv hr) (A := kerA k (yv, yb)) (A' := kerA k (yv', yb)) h
    (by intro k' hk; cases k' <;> first | rfl | exact absurd rfl hk)

theorem rowValueC_does {row : Nat} (hr : R row) {st : Arr U × Arr Word} {bit : Bool} {y0 : Option U}
    (h1 : getBitvector row st.2 = some bit) (h2 : rowValue row bit st = some y0) :
    Does (kerOwn R) kerShared (rowValueC row : KerCode E T V U (Option U)) (arrMem (kerA k st)) y0 (arrMem (kerA k st)) := by
  unfold rowValueC
  refine (ker_getY hr st h1).bind ?_
  unfold rowValue at h2
  cases bit with
  | true =>
    simp only [if_true] at h2 ⊢
    rw [Option.map_eq_some_iff] at h2
    obtain ⟨y, h2, rfl⟩ := h2
    exact (ker_ldY hr st h2).bind (Does.pure _ _)
  | false =>
    simp only [Bool.false_eq_true, if_false] at h2 ⊢
    injection h2 with h2
    subst h2
    exact Does.pure _ _

theorem csrRowC_does {t : CSR E} {mul : E → T → U → U} {add : U → U → U} {old : Nat → U} {row : Nat} (hr : R row)
    (ka : k.a = t.a) (kj : k.ja = t.ja) (ki : k.ia = t.ia) {st st' : Arr U × Arr Word}
    (h : csrRow t mul add old k.xv k.xb row st = some st') :
    Does (kerOwn R) kerShared (csrRowC mul add old row : KerCode E T V U Unit) (arrMem (kerA k st)) () (arrMem (kerA k st')) := by
  obtain ⟨yv, yb⟩ := st
  unfold csrRow at h
  simp only [Option.bind_eq_bind, Option.bind_eq_some_iff] at h
  obtain ⟨bit, h1, y0, h2, lo, h3, hi, h4, r, h5, h⟩ := h
  rw [← ki] at h3 h4
  unfold csrRowC
  refine (rowValueC_does hr h1 h2).bind ?_
  refine (ker_ld .ia (by decide) _ h3).bind ?_
  refine (ker_ld .ia (by decide) _ h4).bind ?_
  have d := (Does.forG (Grows.const (kerOwn R)) (shared := kerShared) (reg := fun r : Option U × Arr Word => r.1)
    (mem := fun r : Option U × Arr Word => arrMem (kerA k (yv, r.2)))
    (body := fun nz (y : Option U) => (do
      let j : Int ← aload KerArr.ja (nz - 1)
      let xbit ← getBitC (aload KerArr.xb) (j - 1).toNat
      if xbit then do
        let av : E ← aload KerArr.a (nz - 1)
        let x : T ← aload KerArr.xv (j - 1).toNat
        match y with
        | some y => pure (some (add y (mul av x (old nz))))
        | none => do
          setBitC (aload KerArr.yb) (astore (τ := KerArr.Ty E T V U) KerArr.yb) row
          pure (some (mul av x (old nz)))
      else pure y : KerCode E T V U (Option U))) (fun nz _ _ r r' hg => ⟨trivial, by
      obtain ⟨y, yb⟩ := r
      simp only [Option.bind_eq_some_iff] at hg
      obtain ⟨q, g1, j, g2, col, g3, xbit, g4, hg⟩ := hg
      rw [← pred1_some g1] at g2 hg
      rw [← natIdx_some g3] at g4 hg
      rw [← kj] at g2
      refine (ker_ld .ja (by decide) _ g2).bind ?_
      refine (ker_getX _ g4).bind ?_
      cases xbit with
      | true =>
        simp only [if_true, Option.bind_eq_some_iff] at hg ⊢
        obtain ⟨av, g5, x, g6, hg⟩ := hg
        rw [← ka] at g5
        refine (ker_ld .a (by decide) _ g5).bind ?_
        refine (ker_ld .xv (by decide) _ g6).bind ?_
        cases y with
        | some y =>
          simp only [Option.some.injEq] at hg
          subst hg
          exact Does.pure _ _
        | none =>
          simp only [Option.bind_eq_some_iff, Option.some.injEq] at hg
          obtain ⟨yb', g7, hg⟩ := hg
          subst hg
          exact (ker_setY hr g7).bind (Does.pure _ _)
      | false =>
        simp only [Bool.false_eq_true, if_false, Option.some.injEq] at hg ⊢
        subst hg
        exact Does.pure _ _⟩) h5).2
  refine d.bind ?_
  obtain ⟨y, yb'⟩ := r
  cases y with
  | some y =>
    simp only [Option.bind_eq_some_iff, Option.some.injEq] at h
    obtain ⟨yv', h6, h⟩ := h
    subst h
    exact ker_stY hr h6
  | none =>
    simp only [Option.some.injEq] at h
    subst h
    exact Does.pure _ _

theorem dcsrRowC_does {t : DCSR E} {mul : E → T → U → U} {add : U → U → U} {old : Nat → U} {i : Nat}
    (hr : R (t.rowIds.get i).toNat) (ka : k.a = t.a) (kj : k.ja = t.ja) (ki : k.ia = t.ia) (kr : k.ids = t.rowIds)
    {st st' : Arr U × Arr Word} (h : dcsrRow t mul add old k.xv k.xb i st = some st') :
    Does (kerOwn R) kerShared (dcsrRowC mul add old i : KerCode E T V U Unit) (arrMem (kerA k st)) ()
      (arrMem (kerA k st')) := by
  unfold dcsrRow at h
  simp only [Option.bind_eq_bind, Option.bind_eq_some_iff] at h
  obtain ⟨r, h0, row, hrow, bit, h1, y0, h2, lo, h3, hi, h4, y, h5, h⟩ := h
  rw [(Arr.read_eq_some.mp h0).2] at hr
  rw [← natIdx_some hrow] at h1 h2 h
  rw [← ki] at h3 h4
  rw [← kr] at h0
  unfold dcsrRowC
  refine (ker_ld .ids (by decide) _ h0).bind ?_
  refine (rowValueC_does hr h1 h2).bind ?_
  refine (ker_ld .ia (by decide) _ h3).bind ?_
  refine (ker_ld .ia (by decide) _ h4).bind ?_
  have d := (Does.forG (Grows.const (kerOwn R)) (shared := kerShared) (reg := fun r : Option U => r)
    (mem := fun _ : Option U => arrMem (kerA k st))
    (body := fun nz (y : Option U) => (do
      let j : Int ← aload KerArr.ja nz
      let xbit ← getBitC (aload KerArr.xb) j.toNat
      if xbit then do
        let av : E ← aload KerArr.a nz
        let x : T ← aload KerArr.xv j.toNat
        match y with
        | some y => pure (some (add y (mul av x (old nz))))
        | none => pure (some (mul av x (old nz)))
      else pure y : KerCode E T V U (Option U))) (fun nz _ _ y y' hg => ⟨trivial, by
      simp only [Option.bind_eq_some_iff] at hg
      obtain ⟨j, g2, col, g3, xbit, g4, hg⟩ := hg
      rw [← natIdx_some g3] at g4 hg
      rw [← kj] at g2
      refine (ker_ld .ja (by decide) _ g2).bind ?_
      refine (ker_getX _ g4).bind ?_
      cases xbit with
      | true =>
        simp only [if_true, Option.bind_eq_some_iff] at hg ⊢
        obtain ⟨av, g5, x, g6, hg⟩ := hg
        rw [← ka] at g5
        refine (ker_ld .a (by decide) _ g5).bind ?_
        refine (ker_ld .xv (by decide) _ g6).bind ?_
        cases y <;>
          · simp only [Option.some.injEq] at hg
            subst hg
            exact Does.pure _ _
      | false =>
        simp only [Bool.false_eq_true, if_false, Option.some.injEq] at hg ⊢
        subst hg
        exact Does.pure _ _⟩) h5).2
  refine d.bind ?_
  obtain ⟨yv, yb⟩ := st
  cases y with
  | some y =>
    simp only [Option.bind_eq_some_iff, Option.some.injEq] at h
    obtain ⟨yb', h6, yv', h7, h⟩ := h
    subst h
    exact (ker_setY hr h6).bind (ker_stY hr h7)
  | none =>
    simp only [Option.some.injEq] at h
    subst h
    exact Does.pure _ _

theorem cooStoreC_does {add : U → U → U} {row : Nat} (hr : R row) {u : U} {yv yv' : Arr U} {yb yb' : Arr Word} {bit : Bool}
    (h1 : getBitvector row yb = some bit) (h2 : cooStore add row bit u (yv, yb) = some yv')
    (h3 : setBitvector row yb = some yb') :
    Does (kerOwn R) kerShared (cooStoreC add row u : KerCode E T V U Unit) (arrMem (kerA k (yv, yb))) ()
      (arrMem (kerA k (yv', yb'))) := by
  unfold cooStoreC
  refine (ker_getY hr (yv, yb) h1).bind ?_
  unfold cooStore at h2
  cases bit with
  | true =>
    simp only [if_true, Option.bind_eq_bind, Option.bind_eq_some_iff] at h2 ⊢
    obtain ⟨y, h2, h4⟩ := h2
    refine (ker_ldY hr (yv, yb) h2).bind ?_
    exact (ker_stY hr h4).bind (ker_setY hr h3)
  | false =>
    simp only [Bool.false_eq_true, if_false] at h2 ⊢
    exact (ker_stY hr h2).bind (ker_setY hr h3)

theorem cooEntryC_does {t : COO E} {mul : E → T → U → U} {add : U → U → U} {old : Nat → U} {nz : Nat}
    (hr : R (t.ia.get nz - 1).toNat) (ka : k.a = t.a) (kj : k.ja = t.ja) (kr : k.ids = t.ia)
    {st st' : Arr U × Arr Word} (h : cooEntry t mul add old k.xv k.xb nz st = some st') :
    Does (kerOwn R) kerShared (cooEntryC mul add old nz : KerCode E T V U Unit) (arrMem (kerA k st)) ()
      (arrMem (kerA k st')) := by
  obtain ⟨yv, yb⟩ := st
  unfold cooEntry at h
  simp only [Option.bind_eq_bind, Option.bind_eq_some_iff] at h
  obtain ⟨r, h0, row, hrow, j, h1, col, hcol, xbit, h2, h⟩ := h
  rw [(Arr.read_eq_some.mp h0).2] at hr
  rw [← natIdx_some hcol] at h2 h
  rw [← natIdx_some hrow] at h
  rw [← kr] at h0
  rw [← kj] at h1
  unfold cooEntryC
  refine (ker_ld .ids (by decide) _ h0).bind ?_
  refine (ker_ld .ja (by decide) _ h1).bind ?_
  refine (ker_getX _ h2).bind ?_
  cases xbit with
  | true =>
    simp only [if_true, Option.bind_eq_some_iff] at h ⊢
    obtain ⟨av, g5, x, g6, bit, g7, yv', g8, yb', g9, h⟩ := h
    rw [← ka] at g5
    injection h with h
    subst h
    refine (ker_ld .a (by decide) _ g5).bind ?_
    refine (ker_ld .xv (by decide) _ g6).bind ?_
    exact cooStoreC_does hr g7 g8 g9
  | false =>
    simp only [Bool.false_eq_true, if_false, Option.some.injEq] at h ⊢
    subst h
    exact Does.pure _ _

theorem cooEntry3C_does {t : COO E} {mul : E → T → V → U → U} {add : U → U → U} {old : Nat → U} {nz : Nat}
    (hr : R (t.ia.get nz - 1).toNat) (ka : k.a = t.a) (kj : k.ja = t.ja) (kr : k.ids = t.ia)
    {st st' : Arr U × Arr Word} (h : cooEntry3 t mul add old k.xv k.xb k.vv k.vb nz st = some st') :
    Does (kerOwn R) kerShared (cooEntry3C mul add old nz : KerCode E T V U Unit) (arrMem (kerA k st)) ()
      (arrMem (kerA k st')) := by
  obtain ⟨yv, yb⟩ := st
  unfold cooEntry3 at h
  simp only [Option.bind_eq_bind, Option.bind_eq_some_iff] at h
  obtain ⟨r, h0, row, hrow, j, h1, col, hcol, xbit, h2, h⟩ := h
  rw [(Arr.read_eq_some.mp h0).2] at hr
  rw [← natIdx_some hcol] at h2 h
  rw [← natIdx_some hrow] at h
  rw [← kr] at h0
  rw [← kj] at h1
  unfold cooEntry3C
  refine (ker_ld .ids (by decide) _ h0).bind ?_
  refine (ker_ld .ja (by decide) _ h1).bind ?_
  refine (ker_getX _ h2).bind ?_
  cases xbit with
  | true =>
    simp only [if_true, Option.bind_eq_some_iff] at h ⊢
    obtain ⟨v, g3, vbit, g4, h⟩ := h
    split_ifs at h
    simp only [Option.bind_eq_some_iff] at h
    obtain ⟨av, g5, x, g6, bit, g7, yv', g8, yb', g9, h⟩ := h
    rw [← ka] at g5
    injection h with h
    subst h
    refine (ker_ld .vv (by decide) _ g3).bind ?_
    refine (ker_getV _ g4).bind ?_
    refine (ker_ld .a (by decide) _ g5).bind ?_
    refine (ker_ld .xv (by decide) _ g6).bind ?_
    exact cooStoreC_does hr g7 g8 g9
  | false =>
    simp only [Bool.false_eq_true, if_false, Option.some.injEq] at h ⊢
    subst h
    exact Does.pure _ _

end

end GraphMat

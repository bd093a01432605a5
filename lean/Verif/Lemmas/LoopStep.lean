import Verif.Lemmas.LoopKernels
import Verif.Lemmas.ApplyStep
import Verif.Lemmas.ConcMap
import Verif.Lemmas.TileRep
import Verif.Model.LoopStep

namespace GraphMat

variable {E T U V : Type}

/-! ### The products -/

/-- The arrays that the products only read. -/
def dcShared (l : DcArr × Nat) : Prop := l.1 ≠ .yv ∧ l.1 ≠ .yb

/-- The elements of `yvalue` that belong to the rows `R`, and their words of `ybit_vector`. -/
def dcOwn (R : Nat → Prop) (l : DcArr × Nat) : Prop :=
  (l.1 = .yv ∧ R l.2) ∨ (l.1 = .yb ∧ ∃ r, R r ∧ l.2 = r >>> 5)

theorem dcOwn_disjoint {R : Nat → Nat → Prop} {n : Nat}
    (h : ∀ i j r r', i < j → j < n → R i r → R j r' → r / 32 ≠ r' / 32) (i j : Nat) (l : DcArr × Nat) (hi : i < n)
    (hj : j < n) (h1 : dcOwn (R i) l) (h2 : dcOwn (R j) l) : i = j := by
  have key : ∀ i j, i < j → j < n → dcOwn (R i) l → dcOwn (R j) l → False := by
    intro i j hij hj h1 h2
    rcases h1 with ⟨a1, a2⟩ | ⟨a1, r, a2, a3⟩
    · rcases h2 with ⟨_, b2⟩ | ⟨b1, _⟩
      · exact h i j _ _ hij hj a2 b2 rfl
      · rw [a1] at b1; cases b1
    · rcases h2 with ⟨b1, _⟩ | ⟨_, r', b2, b3⟩
      · rw [a1] at b1; cases b1
      · refine h i j r r' hij hj a2 b2 ?_
        rw [← shr5, ← shr5, ← a3, b3]
  rcases Nat.lt_trichotomy i j with hij | hij | hij
  · exact absurd (key i j hij hj h1 h2) id
  · exact hij
  · exact absurd (key j i hij hi h2 h1) id

theorem dcOwn_not_shared (R : Nat → Prop) (l : DcArr × Nat) (h : dcOwn R l) : ¬ dcShared l := by
  rintro ⟨h1, h2⟩
  rcases h with ⟨h, _⟩ | ⟨h, _⟩
  · exact h1 h
  · exact h2 h

section
variable {R : Nat → Prop} {t : Tile E} {xv : Arr T} {xb : Arr Word} {vv : Arr V} {vb : Arr Word}

theorem dc_ld (n : DcArr) {i : Nat} (h : n ≠ .yv ∧ n ≠ .yb) (st : Arr U × Arr Word) {v : DcArr.Ty E T V U n}
    (hv : (dcA t xv xb vv vb st n).read i = some v) :
    Does (dcOwn R) dcShared (aload n i : DcCode E T V U (DcArr.Ty E T V U n)) (arrMem (dcA t xv xb vv vb st)) v
      (arrMem (dcA t xv xb vv vb st)) :=
  Does.ld (Or.inr h) (dcA t xv xb vv vb st) hv

theorem dc_getX {i : Nat} {b : Bool} (st : Arr U × Arr Word) (h : getBitvector i xb = some b) :
    Does (dcOwn R) dcShared (getBitC (aload (τ := DcArr.Ty E T V U) DcArr.xb) i) (arrMem (dcA t xv xb vv vb st)) b
      (arrMem (dcA t xv xb vv vb st)) :=
  Does.getBit h (fun _ hw => dc_ld .xb (by decide) st hw)

theorem dc_getV {i : Nat} {b : Bool} (st : Arr U × Arr Word) (h : getBitvector i vb = some b) :
    Does (dcOwn R) dcShared (getBitC (aload (τ := DcArr.Ty E T V U) DcArr.vb) i) (arrMem (dcA t xv xb vv vb st)) b
      (arrMem (dcA t xv xb vv vb st)) :=
  Does.getBit h (fun _ hw => dc_ld .vb (by decide) st hw)

theorem dc_yv {row : Nat} (hr : R row) : dcOwn R (.yv, row) := Or.inl ⟨rfl, hr⟩

theorem dc_yb {row : Nat} (hr : R row) : dcOwn R (.yb, row >>> 5) := Or.inr ⟨rfl, row, hr, rfl⟩

theorem dc_getY {row : Nat} (hr : R row) {b : Bool} (st : Arr U × Arr Word) (h : getBitvector row st.2 = some b) :
    Does (dcOwn R) dcShared (getBitC (aload (τ := DcArr.Ty E T V U) DcArr.yb) row) (arrMem (dcA t xv xb vv vb st)) b
      (arrMem (dcA t xv xb vv vb st)) :=
  Does.getBit h (fun _ hw => Does.ld (k := DcArr.yb) (Or.inl (dc_yb hr)) (dcA t xv xb vv vb st) hw)

theorem dc_setY {row : Nat} (hr : R row) {yv : Arr U} {yb yb' : Arr Word} (h : setBitvector row yb = some yb') :
    Does (dcOwn R) dcShared (setBitC (aload DcArr.yb) (astore (τ := DcArr.Ty E T V U) DcArr.yb) row)
      (arrMem (dcA t xv xb vv vb (yv, yb))) () (arrMem (dcA t xv xb vv vb (yv, yb'))) :=
  Does.setBit (mem := fun b => arrMem (dcA t xv xb vv vb (yv, b))) h
    (fun _ hw => Does.ld (k := DcArr.yb) (Or.inl (dc_yb hr)) (dcA t xv xb vv vb (yv, yb)) hw)
    (fun _ b' hw => Does.st (k := DcArr.yb) (dc_yb hr) (A := dcA t xv xb vv vb (yv, yb)) (A' := dcA t xv xb vv vb (yv, b')) hw
      (by intro k' hk; cases k' <;> first | rfl | exact absurd rfl hk))

theorem dc_ldY {row : Nat} (hr : R row) {y : U} (st : Arr U × Arr Word) (h : st.1.read row = some y) :
    Does (dcOwn R) dcShared (aload DcArr.yv row : DcCode E T V U U) (arrMem (dcA t xv xb vv vb st)) y
      (arrMem (dcA t xv xb vv vb st)) :=
  Does.ld (k := DcArr.yv) (Or.inl (dc_yv hr)) (dcA t xv xb vv vb st) h

theorem dc_stY {row : Nat} (hr : R row) {u : U} {yv yv' : Arr U} {yb : Arr Word} (h : yv.write row u = some yv') :
    Does (dcOwn R) dcShared (astore DcArr.yv row u : DcCode E T V U Unit) (arrMem (dcA t xv xb vv vb (yv, yb))) ()
      (arrMem (dcA t xv xb vv vb (yv', yb))) :=
  Does.st (k := DcArr.yv) (dc_yv hr) (A := dcA t xv xb vv vb (yv, yb)) (A' := dcA t xv xb vv vb (yv', yb)) h
    (by intro k' hk; cases k' <;> first | rfl | exact absurd rfl hk)

/-- The rows of the entries that a partition visits all satisfy `R`. -/
def RowsIn (R : Nat → Prop) (t : Tile E) (p : Nat) : Prop :=
  ∀ c0 c1 e0 j a b nz row, t.cs.read p = some c0 → t.cs.read (p + 1) = some c1 → t.ep.read p = some e0 → j < c1 - c0 - 1 →
    t.colPtrs.read (c0 + j) = some a → t.colPtrs.read (c0 + j + 1) = some b → a ≤ nz → nz < b →
    t.rowInds.read (e0 + nz) = some row → R row

theorem dcscC_does {tmp : Nat → Nat → U} {mul : Nat → Nat → E → T → U → U} {add : U → U → U} {p : Nat}
    {st st' : Arr U × Arr Word} (hR : RowsIn R t p)
    (h : t.walkPart xv xb (fun p nz row a x st => mulAdd (mul p nz) add (tmp p nz) row a x st) p st = some st') :
    Does (dcOwn R) dcShared (dcscC tmp mul add p : DcCode E T V U Unit) (arrMem (dcA t xv xb vv vb st)) ()
      (arrMem (dcA t xv xb vv vb st')) := by
  unfold Tile.walkPart at h
  simp only [Option.bind_eq_bind, Option.bind_eq_some_iff] at h
  obtain ⟨c0, h0, e0, h1, c1, h2, h⟩ := h
  unfold dcscC
  refine (dc_ld .cs (by decide) _ h0).bind ?_
  refine (dc_ld .ep (by decide) _ h1).bind ?_
  refine (dc_ld .cs (by decide) _ h2).bind ?_
  refine Does.forUnit (mem := fun st => arrMem (dcA t xv xb vv vb st)) ?_ h
  intro j _ hj s s' hg
  simp only [Option.bind_eq_some_iff] at hg
  obtain ⟨col, g0, bit, g1, hg⟩ := hg
  refine (dc_ld .colIdx (by decide) _ g0).bind ?_
  refine (dc_getX _ g1).bind ?_
  cases bit with
  | false =>
    simp only [Bool.false_eq_true, if_false, Option.some.injEq] at hg ⊢
    subst hg
    exact Does.pure _ _
  | true =>
    simp only [if_true, Option.bind_eq_some_iff] at hg ⊢
    obtain ⟨x, g2, a, g3, b, g4, hg⟩ := hg
    refine (dc_ld .xv (by decide) _ g2).bind ?_
    refine (dc_ld .colPtrs (by decide) _ g3).bind ?_
    refine (dc_ld .colPtrs (by decide) _ g4).bind ?_
    refine Does.forUnit (mem := fun st => arrMem (dcA t xv xb vv vb st)) ?_ hg
    intro nz hn1 hn2 s s' hf
    simp only [Option.bind_eq_some_iff] at hf
    obtain ⟨row, f0, v, f1, hf⟩ := hf
    have hr : R row := hR c0 c1 e0 j a b nz row h0 h2 h1 hj g3 g4 hn1 hn2 f0
    refine (dc_ld .rowInds (by decide) _ f0).bind ?_
    refine (dc_ld .vals (by decide) _ f1).bind ?_
    unfold mulAdd at hf
    simp only [Option.bind_eq_bind, Option.bind_eq_some_iff] at hf
    obtain ⟨ybit, f2, hf⟩ := hf
    refine (dc_getY hr _ f2).bind ?_
    obtain ⟨yv, yb⟩ := s
    cases ybit with
    | true =>
      simp only [if_true, Option.bind_eq_some_iff, Option.some.injEq] at hf ⊢
      obtain ⟨y, f3, yv', f4, rfl⟩ := hf
      exact (dc_ldY hr _ f3).bind (dc_stY hr f4)
    | false =>
      simp only [Bool.false_eq_true, if_false, Option.bind_eq_some_iff, Option.some.injEq] at hf ⊢
      obtain ⟨yv', f3, yb', f4, rfl⟩ := hf
      exact (dc_stY hr f3).bind (dc_setY hr f4)

theorem dcsc3C_does {tmp : Nat → Nat → U} {mul : E → T → V → U → U} {add : U → U → U} {p : Nat}
    {st st' : Arr U × Arr Word} (hR : RowsIn R t p)
    (h : t.walkPart xv xb (fun p nz row a x st => mulAdd3 mul add (tmp p nz) vv vb row a x st) p st = some st') :
    Does (dcOwn R) dcShared (dcsc3C tmp mul add p : DcCode E T V U Unit) (arrMem (dcA t xv xb vv vb st)) ()
      (arrMem (dcA t xv xb vv vb st')) := by
  unfold Tile.walkPart at h
  simp only [Option.bind_eq_bind, Option.bind_eq_some_iff] at h
  obtain ⟨c0, h0, e0, h1, c1, h2, h⟩ := h
  unfold dcsc3C
  refine (dc_ld .cs (by decide) _ h0).bind ?_
  refine (dc_ld .ep (by decide) _ h1).bind ?_
  refine (dc_ld .cs (by decide) _ h2).bind ?_
  refine Does.forUnit (mem := fun st => arrMem (dcA t xv xb vv vb st)) ?_ h
  intro j _ hj s s' hg
  simp only [Option.bind_eq_some_iff] at hg
  obtain ⟨col, g0, bit, g1, hg⟩ := hg
  refine (dc_ld .colIdx (by decide) _ g0).bind ?_
  refine (dc_getX _ g1).bind ?_
  cases bit with
  | false =>
    simp only [Bool.false_eq_true, if_false, Option.some.injEq] at hg ⊢
    subst hg
    exact Does.pure _ _
  | true =>
    simp only [if_true, Option.bind_eq_some_iff] at hg ⊢
    obtain ⟨x, g2, a, g3, b, g4, hg⟩ := hg
    refine (dc_ld .colPtrs (by decide) _ g3).bind ?_
    refine (dc_ld .colPtrs (by decide) _ g4).bind ?_
    refine Does.forUnit (mem := fun st => arrMem (dcA t xv xb vv vb st)) ?_ hg
    intro nz hn1 hn2 s s' hf
    simp only [Option.bind_eq_some_iff] at hf
    obtain ⟨row, f0, v, f1, hf⟩ := hf
    have hr : R row := hR c0 c1 e0 j a b nz row h0 h2 h1 hj g3 g4 hn1 hn2 f0
    refine (dc_ld .rowInds (by decide) _ f0).bind ?_
    unfold mulAdd3 at hf
    simp only [Option.bind_eq_bind, Option.bind_eq_some_iff] at hf
    obtain ⟨vbit, f2, hf⟩ := hf
    refine (dc_getV _ f2).bind ?_
    refine (dc_ld .vals (by decide) _ f1).bind ?_
    cases vbit with
    | false => simp at hf
    | true =>
      simp only [Bool.not_true, Bool.false_eq_true, if_false, Option.bind_eq_some_iff] at hf
      obtain ⟨ybit, f3, w, f4, y, f5, hf⟩ := hf
      refine (dc_getY hr _ f3).bind ?_
      obtain ⟨yv, yb⟩ := s
      cases ybit with
      | true =>
        simp only [if_true, Option.bind_eq_some_iff, Option.some.injEq] at hf ⊢
        obtain ⟨yv', f6, rfl⟩ := hf
        refine (dc_ld .xv (by decide) _ g2).bind ?_
        refine (dc_ld .vv (by decide) _ f4).bind ?_
        exact (dc_ldY hr _ f5).bind (dc_stY hr f6)
      | false =>
        simp only [Bool.false_eq_true, if_false, Option.bind_eq_some_iff, Option.some.injEq] at hf ⊢
        obtain ⟨yv', f6, yb', f7, rfl⟩ := hf
        refine (dc_ld .xv (by decide) _ g2).bind ?_
        refine (dc_ld .vv (by decide) _ f4).bind ?_
        exact (dc_ldY hr _ f5).bind ((dc_stY hr f6).bind (dc_setY hr f7))

end

/-- In a built tile the entries that partition `p` visits are in its rows. -/
theorem Tile.Rep.rowsIn {t : Tile E} {P : Nat → List (Col E)} (hP : t.Rep P) {p : Nat} (hp : p < t.np) :
    RowsIn (fun r => t.rp.get p ≤ r ∧ r < t.rp.get (p + 1)) t p := by
  intro c0 c1 e0 j a b nz row h0 h1 h2 hj ha hb n1 n2 hr
  have ec : coff P (p + 1) = coff P p + ((P p).length + 1) := rfl
  rw [(hP.cs p hp).1] at h0
  rw [(hP.cs p hp).2] at h1
  rw [(hP.ep p hp).1] at h2
  injection h0 with h0
  injection h1 with h1
  injection h2 with h2
  subst h0 h1 h2
  rw [hP.ptr p hp j (by omega)] at ha
  rw [Nat.add_assoc, hP.ptr p hp (j + 1) (by omega)] at hb
  injection ha with ha
  injection hb with hb
  subst ha hb
  have hle : clen (P p) (j + 1) ≤ clen (P p) (P p).length :=
    mono_le (c := clen (P p)) (m := (P p).length) (fun i hi => by rw [clen_succ hi]; omega) (by omega) (Nat.le_refl _)
  rw [clen_all] at hle
  have hk : nz < (ents (P p)).length := by omega
  rw [hP.row p hp nz hk] at hr
  injection hr with hr
  subst hr
  have := List.getElem_mem hk
  unfold ents at this
  rw [List.mem_flatMap] at this
  obtain ⟨c, hc, he⟩ := this
  exact hP.rows p hp c hc _ he

/-- Different partitions of a built tile have rows in different words of a bit vector. -/
theorem Tile.Rep.rows_words {t : Tile E} {P : Nat → List (Col E)} (hP : t.Rep P) (i j r r' : Nat) (hij : i < j)
    (hj : j < t.np) (h1 : t.rp.get i ≤ r ∧ r < t.rp.get (i + 1)) (h2 : t.rp.get j ≤ r' ∧ r' < t.rp.get (j + 1)) :
    r / 32 ≠ r' / 32 := by
  have mono : ∀ a b, a ≤ b → b ≤ t.np → t.rp.get a ≤ t.rp.get b := by
    intro a b hab
    induction hab with
    | refl => intro _; exact Nat.le_refl _
    | step _ ih => intro hb; exact Nat.le_trans (ih (by omega)) (hP.mono _ (by omega))
  have m1 := mono (i + 1) j hij (by omega)
  have m2 := mono (j + 1) t.np hj (Nat.le_refl _)
  have hf := hP.final (by omega)
  rcases hP.align j (by omega) (by omega) with ⟨k, hk⟩ | hk
  · omega
  · omega

/-! ### Applying the results -/

/-- `parForR_outcome` for loops in which the contribution of an iteration depends on the state. -/
theorem parForR_outcome_st {Loc : Type} [DecidableEq Loc] {W : Loc → Type} {σ α : Type} {own : Nat → Loc → Prop}
    {shared : Loc → Prop} {mem : σ → (l : Loc) → W l} {n : Nat} {d : α} {body : Nat → Code Loc W α}
    {part : Nat → σ → Option σ} (Rel : σ → σ → α → Prop)
    (ho : ∀ i j l, i < n → j < n → own i l → own j l → i = j) (hs : ∀ i l, i < n → own i l → ¬ shared l)
    (h : ∀ p, p < n → ∀ s s', part p s = some s' → ∃ a, Rel s s' a ∧ Does (own p) shared (body p) (mem s) a (mem s'))
    {s s' : σ} (hl : forLoop 0 n s part = some s') :
    ∃ res : Nat → α, OneOutcome (parForR d n body) (mem s) (mem s') res ∧
      ∃ st : Nat → σ, st 0 = s ∧ st n = s' ∧ ∀ p, p < n → Rel (st p) (st (p + 1)) (res p) := by
  have hst : ∀ k, k ≤ n → ∃ s1, forLoop 0 k s part = some s1 := by
    intro k hk
    obtain ⟨r, hr⟩ := Nat.le.dest hk
    rw [← hr, forLoop_range, List.range_add, List.foldlM_append, ← forLoop_range] at hl
    cases h0 : forLoop 0 k s part with
    | none => rw [h0] at hl; cases hl
    | some s0 => exact ⟨s0, rfl⟩
  have hstep : ∀ k, k < n → ∀ s0 s1, forLoop 0 k s part = some s0 → forLoop 0 (k + 1) s part = some s1 →
      part k s0 = some s1 := by
    intro k _ s0 s1 h0 h1
    rw [forLoop_range, List.range_succ, List.foldlM_append, ← forLoop_range, h0] at h1
    simpa using h1
  have : ∃ st : Nat → σ, ∀ k, k ≤ n → forLoop 0 k s part = some (st k) := by
    refine ⟨fun k => (forLoop 0 k s part).getD s, fun k hk => ?_⟩
    obtain ⟨s1, h1⟩ := hst k hk
    show _ = some ((forLoop 0 k s part).getD s)
    rw [h1]; rfl
  obtain ⟨st, hst⟩ := this
  have hres : ∀ p, ∃ a, p < n → Rel (st p) (st (p + 1)) a ∧ Does (own p) shared (body p) (mem (st p)) a (mem (st (p + 1))) := by
    intro p
    by_cases hp : p < n
    · obtain ⟨a, ha⟩ := h p hp _ _ (hstep p hp _ _ (hst p (by omega)) (hst (p + 1) (by omega)))
      exact ⟨a, fun _ => ha⟩
    · exact ⟨d, fun h => absurd h hp⟩
  choose res hres using hres
  have e0 : st 0 = s := by
    have := hst 0 (Nat.zero_le _)
    injection this with this
    exact this.symm
  have en : st n = s' := by
    have := hst n (Nat.le_refl _)
    rw [hl] at this
    injection this with this
    exact this.symm
  -- the same loop on the numbers of the iterations
  have o := parForR_outcome (d := d) (own := own) (shared := shared) (mem := fun k => mem (st k)) (n := n) (body := body)
    (part := fun p k => if k = p then some (p + 1) else none) (res := res) ho hs (by
      intro p hp k k' hk
      split_ifs at hk with e
      injection hk with hk
      subst e hk
      exact (hres k hp).2) (s := 0) (s' := n) (by
      have : ∀ k, forLoop 0 k 0 (fun p k => if k = p then some (p + 1) else none) = some k := by
        intro k
        induction k with
        | zero => rfl
        | succ k ih =>
          rw [forLoop_range, List.range_succ, List.foldlM_append, ← forLoop_range, ih]
          simp
      exact this n)
  rw [e0, en] at o
  refine ⟨_, o, st, e0, en, fun p hp => ?_⟩
  rw [if_pos hp]
  exact (hres p hp).1

/-- The arrays that the loop only reads. -/
def updShared (l : UpdArr × Nat) : Prop := l.1 = .yv ∨ l.1 = .yb

/-- What iteration `i` may touch: the properties and `active` values of its 32 vertices and the word of `active`. -/
def updOwn (i : Nat) (l : UpdArr × Nat) : Prop := ((l.1 = .vv ∨ l.1 = .av) ∧ l.2 / 32 = i) ∨ (l.1 = .ab ∧ l.2 = i)

theorem updateOneC_does {gp : GProg T U V E} {yv : Arr U} {yb : Arr Word} {i idx : Nat} (hi : idx / 32 = i) {conv lc0 : Bool}
    {st st' : Arr V × Arr Bool × Arr Word × Bool} (hc : st.2.2.2 = (lc0 && conv)) (h : applyOne gp yv idx st = some st') :
    ∃ conv', st'.2.2.2 = (lc0 && conv') ∧
      Does (updOwn i) updShared (updateOneC gp idx conv : UpdCode U V Bool) (arrMem (updA yv yb st)) conv'
        (arrMem (updA yv yb st')) := by
  obtain ⟨vv, av, ab, lc⟩ := st
  unfold applyOne at h
  simp only [Option.bind_eq_bind, Option.bind_eq_some_iff] at h
  obtain ⟨old, h1, u, h2, vv', h3, h⟩ := h
  have o1 : updOwn i (.vv, idx) := Or.inl ⟨Or.inl rfl, hi⟩
  have o2 : updOwn i (.av, idx) := Or.inl ⟨Or.inr rfl, hi⟩
  have o3 : updOwn i (.ab, idx >>> 5) := Or.inr ⟨rfl, by rw [shr5]; exact hi⟩
  have pre : ∀ {k : V → UpdCode U V Bool} {b : Bool} {m' : (l : UpdArr × Nat) → UpdArr.Ty U V l.1},
      Does (updOwn i) updShared (k (gp.apply u old)) (arrMem (updA yv yb (vv', av, ab, lc))) b m' →
      Does (updOwn i) updShared (do
        let u : U ← aload UpdArr.yv idx
        let cur : V ← aload UpdArr.vv idx
        astore UpdArr.vv idx (gp.apply u cur)
        let new : V ← aload UpdArr.vv idx
        k new : UpdCode U V Bool) (arrMem (updA yv yb (vv, av, ab, lc))) b m' := by
    intro k b m' hk
    refine (Does.ld (k := UpdArr.yv) (Or.inr (Or.inl rfl)) (updA yv yb (vv, av, ab, lc)) h2).bind ?_
    refine (Does.ld (k := UpdArr.vv) (Or.inl o1) (updA yv yb (vv, av, ab, lc)) h1).bind ?_
    refine (Does.st o1 (A := updA yv yb (vv, av, ab, lc)) (A' := updA yv yb (vv', av, ab, lc)) h3
      (by intro k' hk; cases k' <;> first | rfl | exact absurd rfl hk)).bind ?_
    have h4 : vv'.read idx = some (gp.apply u old) := by
      rw [Arr.write_eq_some] at h3
      obtain ⟨h3, rfl⟩ := h3
      rw [Arr.read_eq_some]
      exact ⟨h3, Arr.upd_get_self _ _ _⟩
    exact (Does.ld (k := UpdArr.vv) (Or.inl o1) (updA yv yb (vv', av, ab, lc)) h4).bind hk
  unfold updateOneC
  split_ifs at h with hne
  · simp only [Option.bind_eq_some_iff, Option.some.injEq] at h
    obtain ⟨av', h5, ab', h6, rfl⟩ := h
    refine ⟨false, by simp, ?_⟩
    refine (Does.ld (k := UpdArr.vv) (Or.inl o1) (updA yv yb (vv, av, ab, lc)) h1).bind ?_
    refine pre (k := fun new => if gp.ne old new then do
      astore UpdArr.av idx true
      setBitC (aload UpdArr.ab) (astore (τ := UpdArr.Ty U V) UpdArr.ab) idx
      pure false
    else pure conv) ?_
    rw [if_pos hne]
    refine (Does.st o2 (A := updA yv yb (vv', av, ab, lc)) (A' := updA yv yb (vv', av', ab, lc)) h5
      (by intro k' hk; cases k' <;> first | rfl | exact absurd rfl hk)).bind ?_
    refine (Does.setBit (mem := fun b => arrMem (updA yv yb (vv', av', b, lc))) h6
      (fun _ hw => Does.ld (k := UpdArr.ab) (Or.inl o3) (updA yv yb (vv', av', ab, lc)) hw)
      (fun _ b' hw => Does.st (k := UpdArr.ab) o3 (A := updA yv yb (vv', av', ab, lc)) (A' := updA yv yb (vv', av', b', lc)) hw
        (by intro k' hk; cases k' <;> first | rfl | exact absurd rfl hk))).bind ?_
    have : arrMem (updA yv yb (vv', av', ab', lc)) = arrMem (updA yv yb (vv', av', ab', false)) := by
      unfold arrMem; funext l; obtain ⟨k, j⟩ := l; cases k <;> rfl
    rw [this]
    exact Does.pure _ _
  · injection h with h
    subst h
    refine ⟨conv, hc, ?_⟩
    refine (Does.ld (k := UpdArr.vv) (Or.inl o1) (updA yv yb (vv, av, ab, lc)) h1).bind ?_
    refine pre (k := fun new => if gp.ne old new then do
      astore UpdArr.av idx true
      setBitC (aload UpdArr.ab) (astore (τ := UpdArr.Ty U V) UpdArr.ab) idx
      pure false
    else pure conv) ?_
    rw [if_neg hne]
    exact Does.pure _ _

theorem scanWordC_does {Loc : Type} [DecidableEq Loc] {W : Loc → Type} {σ R : Type} {own shared : Loc → Prop}
    {mem : σ → (l : Loc) → W l} {base : Nat} {body : Nat → R → Code Loc W R} {f : Nat → σ → Option σ} (Q : σ → R → Prop)
    (h : ∀ b, b < 32 → ∀ s s' r, Q s r → f (base + b) s = some s' →
      ∃ r', Q s' r' ∧ Does own shared (body (base + b) r) (mem s) r' (mem s')) :
    ∀ (fuel : Nat) (w : Word) (s s' : σ) (r : R), Q s r → scanWord base f fuel w s = some s' →
      ∃ r', Q s' r' ∧ Does own shared (scanWordC base body fuel w r) (mem s) r' (mem s') := by
  intro fuel
  induction fuel with
  | zero => intro w s s' r _ hs; cases hs
  | succ fuel ih =>
    intro w s s' r hq hs
    unfold scanWord at hs
    unfold scanWordC
    by_cases hw : w = 0#32
    · rw [if_pos hw] at hs
      injection hs with hs
      subst hs
      rw [if_pos hw]
      exact ⟨r, hq, Does.pure _ _⟩
    · rw [if_neg hw] at hs
      rw [if_neg hw]
      simp only [Option.bind_eq_bind, Option.bind_eq_some_iff] at hs
      obtain ⟨b, h1, s1, h2, h3⟩ := hs
      have hb : b < 32 := by
        unfold bitScanForward at h1
        exact List.mem_range.mp (List.mem_of_find?_eq_some h1)
      obtain ⟨r1, q1, d1⟩ := h b hb s s1 r hq h2
      obtain ⟨r2, q2, d2⟩ := ih _ _ _ _ q1 h3
      rw [h1]
      exact ⟨r2, q2, d1.bind d2⟩

/-- A conjunction does not depend on how the iterations are divided among the threads. -/
theorem redAnd_eq {n : Nat} {res : Nat → Bool} {chunks : List (List Nat)} (h : IsSplit n chunks) :
    redAnd res chunks = (List.range n).all res := by
  have e : redAnd res chunks = chunks.flatten.all res := by
    unfold redAnd
    rw [List.all_flatten]
  rw [e]
  exact h.all_eq

end GraphMat

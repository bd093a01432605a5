import Verif.Lemmas.ConcMap
import Verif.Lemmas.LoopBuild
import Verif.Lemmas.FmtDcsr
import Verif.Lemmas.FmtSimd
import Verif.Model.LoopFmt

namespace GraphMat

variable {E : Type}

theorem arrFrom_read {α : Type} {g : Nat → α} {l : List α} {i : Nat} {x : α} (h : l[i]? = some x) :
    (arrFrom g l).read i = some x := by
  have hi : i < l.length := by
    by_contra hc
    rw [List.getElem?_eq_none (by omega)] at h
    cases h
  rw [Arr.read_eq_some]
  exact ⟨hi, by simp [arrFrom, h]⟩

theorem fillFrom_arr {α : Type} {g : Nat → α} {l : List α} {b : Arr α} (h : fillFrom g l = some b) : b.get = (arrFrom g l).get := by
  unfold fillFrom at h
  have := forLoop_some_inv (fun i (a : Arr α) => a.get = (arrFrom g (l.take i)).get) (Nat.zero_le _) (by simp [arrFrom])
    (by
      intro i s s' _ hi hg he
      rw [Option.bind_eq_bind, Option.bind_eq_some_iff] at hg
      obtain ⟨x, h1, hg⟩ := hg
      obtain ⟨_, rfl⟩ := Arr.write_eq_some.mp hg
      funext j
      show (s.upd i x).get j = ((l.take (i + 1))[j]?).getD (g j)
      by_cases hj : j = i
      · subst hj
        rw [Arr.upd_get_self, List.getElem?_take_of_lt (by omega), h1]; rfl
      · rw [Arr.upd_get_ne _ _ hj, he]
        show ((l.take i)[j]?).getD (g j) = _
        simp only [List.getElem?_take]
        by_cases hj2 : j < i
        · rw [if_pos hj2, if_pos (by omega)]
        · rw [if_neg hj2, if_neg (by omega)]) h
  rw [this, List.take_length]

/-! ### Searches -/

theorem readI_val {v : Arr Int} {i x : Int} (h : readI v i = some x) : v.read i.toNat = some x := by
  unfold readI at h
  split_ifs at h
  exact h

theorem lBinaryLoop_does {own shared : FmtArr × Nat → Prop} (hsh : ∀ j, shared (FmtArr.ia, j)) (M : FmtMem E) (item : Int) :
    ∀ (fuel : Nat) (e1 e2 : Int) (eh : Option Int) (eh' r : Int), (∀ x, eh = some x → eh' = x) →
      lBinaryLoop M.ia item fuel e1 e2 eh = some r →
      Does own shared (lBinaryLoopC item fuel e1 e2 eh') (arrMem M.arrs) r (arrMem M.arrs) := by
  intro fuel
  induction fuel with
  | zero => intro e1 e2 eh eh' r _ h; cases h
  | succ fuel ih =>
    intro e1 e2 eh eh' r he h
    unfold lBinaryLoop at h
    unfold lBinaryLoopC
    dsimp only at h ⊢
    split_ifs at h ⊢ with h1 h2
    · injection h with h
      subst h
      exact Does.pure _ _
    · simp only [Option.bind_eq_bind, Option.bind_eq_some_iff] at h
      obtain ⟨a, ha, h⟩ := h
      refine (Does.ld (k := FmtArr.ia) (Or.inr (hsh _)) M.arrs (readI_val ha)).bind ?_
      split_ifs at h ⊢
      · simp only [Option.bind_eq_some_iff] at h
        obtain ⟨b, hb, h⟩ := h
        refine (Does.ld (k := FmtArr.ia) (Or.inr (hsh _)) M.arrs (readI_val hb)).bind ?_
        split_ifs at h ⊢
        · injection h with h
          subst h
          exact Does.pure _ _
        · exact ih _ _ _ _ _ (by rintro x hx; injection hx) h
      · simp only [Option.bind_eq_some_iff] at h
        obtain ⟨b, hb, h⟩ := h
        refine (Does.ld (k := FmtArr.ia) (Or.inr (hsh _)) M.arrs (readI_val hb)).bind ?_
        split_ifs at h ⊢
        · exact ih _ _ _ _ _ (by rintro x hx; injection hx) h
        · exact ih _ _ _ _ _ (by rintro x hx; injection hx) h
    · rw [he r h]
      exact Does.pure _ _

theorem lLinearLoop_does {own shared : FmtArr × Nat → Prop} (hsh : ∀ j, shared (FmtArr.ia, j)) (M : FmtMem E)
    (item fin : Int) : ∀ (fuel : Nat) (i r : Int), lLinearLoop M.ia item fin fuel i = some r →
      Does own shared (lLinearLoopC item fin fuel i) (arrMem M.arrs) r (arrMem M.arrs) := by
  intro fuel
  induction fuel with
  | zero => intro i r h; cases h
  | succ fuel ih =>
    intro i r h
    unfold lLinearLoop at h
    unfold lLinearLoopC
    split_ifs at h ⊢ with h1
    · simp only [Option.bind_eq_bind, Option.bind_eq_some_iff] at h
      obtain ⟨a, ha, h⟩ := h
      refine (Does.ld (k := FmtArr.ia) (Or.inr (hsh _)) M.arrs (readI_val ha)).bind ?_
      split_ifs at h ⊢
      · simp only [Option.bind_eq_some_iff] at h
        obtain ⟨b, hb, h⟩ := h
        refine (Does.ld (k := FmtArr.ia) (Or.inr (hsh _)) M.arrs (readI_val hb)).bind ?_
        split_ifs at h ⊢
        · injection h with h
          subst h
          exact Does.pure _ _
        · exact ih _ _ h
      · exact ih _ _ h
    · injection h with h
      subst h
      exact Does.pure _ _

theorem lLinearSearch_does {own shared : FmtArr × Nat → Prop} (hsh : ∀ j, shared (FmtArr.ia, j)) (M : FmtMem E)
    {fuel : Nat} {start fin item r : Int} (h : lLinearSearch fuel start fin M.ia item = some r) :
    Does own shared (lLinearSearchC fuel start fin item) (arrMem M.arrs) r (arrMem M.arrs) := by
  unfold lLinearSearch at h
  rw [Option.bind_eq_bind, Option.bind_eq_some_iff] at h
  obtain ⟨a, ha, h⟩ := h
  refine (Does.ld (k := FmtArr.ia) (Or.inr (hsh _)) M.arrs (readI_val ha)).bind ?_
  split_ifs at h ⊢
  · injection h with h
    subst h
    exact Does.pure _ _
  · exact lLinearLoop_does hsh M item fin fuel start r h

/-- `partition_start`; `searchC` is the search as a program. -/
theorem parts_tasks {search : Int → Option Int} {searchC : Int → FmtCode E Int} {g : Nat → Nat} {m np rpp nnz : Nat}
    {ps : Arr Nat} (h : cooParts search g m np rpp nnz = some ps) (M : FmtMem E)
    (hs : ∀ (ps' : Arr Nat) item r (own : FmtArr × Nat → Prop), search item = some r →
      Does own (fun l => l.1 = FmtArr.ia) (searchC item) (arrMem ({ M with ps := ps' } : FmtMem E).arrs) r
        (arrMem ({ M with ps := ps' } : FmtMem E).arrs)) :
    ∃ ps', ps'.write np nnz = some ps ∧ OneOutcome (parFor np (partsC searchC m rpp))
      (arrMem ({ M with ps := ⟨np + 1, g⟩ } : FmtMem E).arrs) (arrMem ({ M with ps := ps' } : FmtMem E).arrs)
      (fun _ => ()) := by
  unfold cooParts at h
  rw [Option.bind_eq_bind, Option.bind_eq_some_iff] at h
  obtain ⟨ps', h1, h2⟩ := h
  refine ⟨ps', h2, ?_⟩
  refine parFor_outcome (own := fun p l => l = (FmtArr.ps, p)) (shared := fun l => l.1 = FmtArr.ia)
    (mem := fun ps' => arrMem ({ M with ps := ps' } : FmtMem E).arrs) ?_ ?_ ?_ h1
  · rintro i j l _ _ rfl h2
    injection h2
  · rintro i l _ rfl hs
    cases hs
  · intro p _ a a' hg
    simp only [Option.bind_eq_bind, Option.bind_eq_some_iff] at hg
    obtain ⟨x, g1, y, g2, z, g3, hg⟩ := hg
    have e3 : z = x.toNat := by
      unfold natIdx at g3
      split_ifs at g3
      injection g3 with g3
      exact g3.symm
    subst e3
    refine (hs a _ _ _ g1).bind ((hs a _ _ _ g2).bind ?_)
    exact Does.st (k := FmtArr.ps) (by rfl) (A := ({ M with ps := a } : FmtMem E).arrs)
      (A' := ({ M with ps := a' } : FmtMem E).arrs) hg
      (by intro k' hk; cases k' <;> first | rfl | exact absurd rfl hk)

/-! ### The fourth loop of the COO-SIMD constructor -/

/-- The memory of that loop. -/
def FmtMem.simdMem (M : FmtMem E) (b : SimdBuf E) (simd : Arr Nat) : (l : FmtArr × Nat) → FmtArr.Ty E l.1 :=
  arrMem ({ M with ja := b.ja, ia := b.ia, a := b.a, simd := simd } : FmtMem E).arrs

theorem put_does {own shared : FmtArr × Nat → Prop} {M : FmtMem E} {gt : Nat → TEdge E} {ts : List (TEdge E)}
    (hM : M.tmp = arrFrom gt ts) (hsh : ∀ j, shared (FmtArr.tmp, j)) {pos eid : Nat} (h1 : own (FmtArr.ja, pos))
    (h2 : own (FmtArr.ia, pos)) (h3 : own (FmtArr.a, pos)) {b b' : SimdBuf E} (h : b.put ts pos eid = some b')
    (simd : Arr Nat) : Does own shared (putC pos eid) (M.simdMem b simd) () (M.simdMem b' simd) := by
  unfold SimdBuf.put at h
  simp only [Option.bind_eq_bind, Option.bind_eq_some_iff] at h
  obtain ⟨e, g1, ja, g2, ia, g3, a, g4, h⟩ := h
  injection h with h
  subst h
  have hl : ∀ b : SimdBuf E, Does own shared (aload (τ := FmtArr.Ty E) FmtArr.tmp eid) (M.simdMem b simd) e (M.simdMem b simd) :=
    fun b => Does.ld (k := FmtArr.tmp) (Or.inr (hsh _)) _ (by
      show M.tmp.read eid = some e
      rw [hM]; exact arrFrom_read g1)
  refine (hl _).bind ?_
  refine Does.bind (m1 := M.simdMem ⟨ja, b.ia, b.a⟩ simd) (Does.st (k := FmtArr.ja) h1 g2
    (by intro k' hk; cases k' <;> first | rfl | exact absurd rfl hk)) ?_
  refine (hl _).bind ?_
  refine Does.bind (m1 := M.simdMem ⟨ja, ia, b.a⟩ simd) (Does.st (k := FmtArr.ia) h2 g3
    (by intro k' hk; cases k' <;> first | rfl | exact absurd rfl hk)) ?_
  refine (hl _).bind ?_
  exact Does.st (k := FmtArr.a) h3 g4 (by intro k' hk; cases k' <;> first | rfl | exact absurd rfl hk)

/-- Positions `lo .. hi` of the three output arrays. -/
def OwnsOut (own : FmtArr × Nat → Prop) (lo hi : Nat) : Prop :=
  ∀ pos, lo ≤ pos → pos < hi → own (FmtArr.ja, pos) ∧ own (FmtArr.ia, pos) ∧ own (FmtArr.a, pos)

theorem OwnsOut.sub {own : FmtArr × Nat → Prop} {lo hi lo' hi' : Nat} (h : OwnsOut own lo hi) (h1 : lo ≤ lo') (h2 : hi' ≤ hi) :
    OwnsOut own lo' hi' := fun pos a b => h pos (by omega) (by omega)

section simd
variable {own shared : FmtArr × Nat → Prop} {M : FmtMem E} {gt : Nat → TEdge E} {ts : List (TEdge E)}

theorem round_does (hM : M.tmp = arrFrom gt ts) (hsh : ∀ j, shared (FmtArr.tmp, j)) (bs : Arr Nat) (s : Nat)
    (simd : Arr Nat) : ∀ (bins : List SimdBin) (rot : Nat) (st : SimdBuf E × Nat × Nat)
      (r : List SimdBin × SimdBuf E × Nat × Nat), simdRound ts bs s bins rot st = some r →
      st.2.1 ≤ r.2.2.1 ∧ (OwnsOut own (st.2.1 + s) (r.2.2.1 + s) →
        Does own shared (roundC bs s bins rot st.2) (M.simdMem st.1 simd) (r.1, r.2.2) (M.simdMem r.2.1 simd)) := by
  intro bins
  induction bins with
  | nil =>
    intro rot st r h
    injection h with h
    subst h
    exact ⟨Nat.le_refl _, fun _ => Does.pure _ _⟩
  | cons b rest ih =>
    intro rot st r h
    unfold simdRound at h
    unfold roundC
    dsimp only at h ⊢
    generalize (if b.left - 1 = 0 then st.2.2 - 1 else st.2.2) = full at h ⊢
    split_ifs at h ⊢ with h1 h2 h3
    · simp only [Option.bind_eq_bind, Option.bind_eq_some_iff] at h
      obtain ⟨lo, g1, buf, g2, h⟩ := h
      rw [(Arr.read_eq_some.mp g1).2]
      injection h with h
      subst h
      refine ⟨Nat.le_succ _, fun ho => ?_⟩
      obtain ⟨o1, o2, o3⟩ := ho (st.2.1 + s) (Nat.le_refl _) (by show _ < st.2.1 + 1 + s; omega)
      exact (put_does hM hsh o1 o2 o3 g2 simd).bind (Does.pure _ _)
    · simp only [Option.bind_eq_bind, Option.bind_eq_some_iff] at h
      obtain ⟨lo, g1, buf, g2, r', g3, h⟩ := h
      rw [(Arr.read_eq_some.mp g1).2]
      injection h with h
      subst h
      obtain ⟨i1, i2⟩ := ih _ _ _ g3
      simp only at i1
      refine ⟨by simp only; omega, fun ho => ?_⟩
      simp only at ho
      obtain ⟨o1, o2, o3⟩ := ho (st.2.1 + s) (Nat.le_refl _) (by omega)
      refine (put_does hM hsh o1 o2 o3 g2 simd).bind ?_
      exact (i2 (ho.sub (by simp only; omega) (Nat.le_refl _))).bind (Does.pure _ _)
    · injection h with h
      subst h
      exact ⟨Nat.le_refl _, fun _ => Does.pure _ _⟩
    · simp only [Option.bind_eq_bind, Option.bind_eq_some_iff] at h
      obtain ⟨r', g3, h⟩ := h
      injection h with h
      subst h
      obtain ⟨i1, i2⟩ := ih _ _ _ g3
      exact ⟨i1, fun ho => (i2 ho).bind (Does.pure _ _)⟩

theorem rounds_does (hM : M.tmp = arrFrom gt ts) (hsh : ∀ j, shared (FmtArr.tmp, j)) (bs : Arr Nat) (s : Nat)
    (simd : Arr Nat) : ∀ (fuel : Nat) (st r : List SimdBin × SimdBuf E × Nat × Nat), simdRounds ts bs s fuel st = some r →
      st.2.2.1 ≤ r.2.2.1 ∧ (OwnsOut own (st.2.2.1 + s) (r.2.2.1 + s) →
        Does own shared (roundsC bs s fuel (st.1, st.2.2)) (M.simdMem st.2.1 simd) (r.1, r.2.2) (M.simdMem r.2.1 simd)) := by
  intro fuel
  induction fuel with
  | zero => intro st r h; cases h
  | succ fuel ih =>
    intro st r h
    unfold simdRounds at h
    unfold roundsC
    simp only
    split_ifs at h ⊢ with h1
    · rw [Option.bind_eq_bind, Option.bind_eq_some_iff] at h
      obtain ⟨r', g1, h⟩ := h
      obtain ⟨i1, i2⟩ := round_does (own := own) hM hsh bs s simd _ _ _ _ g1
      obtain ⟨j1, j2⟩ := ih _ _ h
      refine ⟨by omega, fun ho => ?_⟩
      exact (i2 (ho.sub (Nat.le_refl _) (by omega))).bind (j2 (ho.sub (by omega) (Nat.le_refl _)))
    · injection h with h
      subst h
      exact ⟨Nat.le_refl _, fun _ => Does.pure _ _⟩

theorem rest_does (hM : M.tmp = arrFrom gt ts) (hsh : ∀ j, shared (FmtArr.tmp, j)) (bs : Arr Nat) (s : Nat)
    (simd : Arr Nat) : ∀ (bins : List SimdBin) (st r : SimdBuf E × Nat), simdRest ts bs s bins st = some r →
      st.2 ≤ r.2 ∧ (OwnsOut own (st.2 + s) (r.2 + s) →
        Does own shared (restC bs s bins st.2) (M.simdMem st.1 simd) r.2 (M.simdMem r.1 simd)) := by
  intro bins
  induction bins with
  | nil =>
    intro st r h
    injection h with h
    subst h
    exact ⟨Nat.le_refl _, fun _ => Does.pure _ _⟩
  | cons b bins ih =>
    intro st r h
    unfold simdRest at h
    rw [List.foldlM_cons, Option.bind_eq_bind, Option.bind_eq_some_iff] at h
    obtain ⟨st1, g1, h⟩ := h
    obtain ⟨j1, j2⟩ := ih st1 r h
    have key := Does.forG (σ := SimdBuf E × Nat) (P := fun a b => a.2 ≤ b.2)
      (Own := fun a b (l : FmtArr × Nat) => (l.1 = FmtArr.ja ∨ l.1 = FmtArr.ia ∨ l.1 = FmtArr.a) ∧ a.2 + s ≤ l.2 ∧ l.2 < b.2 + s)
      ⟨fun _ => Nat.le_refl _, fun _ _ _ => Nat.le_trans, fun a b c l _ h2 h => ⟨h.1, h.2.1, by omega⟩,
        fun a b c l h1 _ h => ⟨h.1, by omega, h.2.2⟩⟩
      (shared := shared) (reg := fun st : SimdBuf E × Nat => st.2) (mem := fun st => M.simdMem st.1 simd)
      (body := fun c k => do
        putC (k + s) (bs.get b.p32 + c)
        pure (k + 1)) (by
        intro c _ _ a a' hg
        simp only [Option.bind_eq_bind, Option.bind_eq_some_iff] at hg
        obtain ⟨lo, g2, buf, g3, hg⟩ := hg
        injection hg with hg
        subst hg
        refine ⟨Nat.le_succ _, ?_⟩
        rw [(Arr.read_eq_some.mp g2).2]
        exact (put_does hM hsh ⟨Or.inl rfl, Nat.le_refl _, by show _ < a.2 + 1 + s; omega⟩
          ⟨Or.inr (Or.inl rfl), Nat.le_refl _, by show _ < a.2 + 1 + s; omega⟩
          ⟨Or.inr (Or.inr rfl), Nat.le_refl _, by show _ < a.2 + 1 + s; omega⟩ g3 simd).bind (Does.pure _ _)) g1
    obtain ⟨k1, k2⟩ := key
    refine ⟨by omega, fun ho => ?_⟩
    unfold restC
    refine (k2.mono ?_ (fun _ h => h)).bind (j2 (ho.sub (by omega) (Nat.le_refl _)))
    rintro ⟨k, pos⟩ ⟨hk, h1, h2⟩
    obtain ⟨o1, o2, o3⟩ := ho pos h1 (by simp only at h2; omega)
    rcases hk with hk | hk | hk <;> (simp only at hk; subst hk; assumption)

theorem borders_does {g : Nat → Nat} {startRow npart s e : Nat} {b : SimdBuf E} {bs simd : Arr Nat}
    (h : simdBorders g b.ia startRow npart s e = some bs) (ho : OwnsOut own s e) :
    Does own shared (bordersC g startRow npart s e) (M.simdMem b simd) bs (M.simdMem b simd) := by
  unfold simdBorders at h
  rw [Option.bind_eq_bind, Option.bind_eq_some_iff] at h
  obtain ⟨st, h1, h2⟩ := h
  unfold bordersC
  refine Does.bind (a := st) (m1 := M.simdMem b simd) ?_ ?_
  · refine (Does.forG (σ := Arr Nat × Nat) (Grows.const own) (shared := shared) (reg := fun st => st)
      (mem := fun _ => M.simdMem b simd) ?_ h1).2
    intro eid he1 he2 a a' hg
    simp only [Option.bind_eq_bind, Option.bind_eq_some_iff] at hg
    obtain ⟨x, g1, hg⟩ := hg
    refine ⟨trivial, (Does.ld (k := FmtArr.ia) (Or.inl (ho eid he1 he2).2.1) _ g1).bind ?_⟩
    simp only
    rw [hg]
    exact Does.pure _ _
  · rw [h2]
    exact Does.pure _ _

end simd

/-- What an iteration of the fourth loop may access alone. -/
def simdOwn (ps : Arr Nat) (p : Nat) (l : FmtArr × Nat) : Prop :=
  ((l.1 = FmtArr.ja ∨ l.1 = FmtArr.ia ∨ l.1 = FmtArr.a) ∧ ps.get p ≤ l.2 ∧ l.2 < ps.get (p + 1)) ∨ l = (FmtArr.simd, p)

theorem simdPart_does {M : FmtMem E} {gt : Nat → TEdge E} {ts : List (TEdge E)} (hM : M.tmp = arrFrom gt ts)
    {g : Nat → Nat} {sortBins : List SimdBin → List SimdBin} {m rpp p : Nat} {st st' : SimdBuf E × Arr Nat}
    (h : simdPart g sortBins ts M.ps m rpp p st = some st') :
    M.ps.get p ≤ M.ps.get (p + 1) ∧ Does (simdOwn M.ps p) (fun l => l.1 = FmtArr.tmp ∨ l.1 = FmtArr.ps)
      (simdPartC g sortBins m rpp p) (M.simdMem st.1 st.2) () (M.simdMem st'.1 st'.2) := by
  unfold simdPart at h
  simp only [Option.bind_eq_bind, Option.bind_eq_some_iff] at h
  obtain ⟨s, h1, e, h2, bs, h3, bins, h4, r, h5, simd, h6, q, h7, h⟩ := h
  split_ifs at h with hc
  injection h with h
  subst h
  have e1 := (Arr.read_eq_some.mp h1).2
  have e2 := (Arr.read_eq_some.mp h2).2
  have hsh : ∀ j, (fun l : FmtArr × Nat => l.1 = FmtArr.tmp ∨ l.1 = FmtArr.ps) (FmtArr.tmp, j) := fun _ => Or.inl rfl
  obtain ⟨r1, r2⟩ := rounds_does (own := simdOwn M.ps p) (shared := fun l => l.1 = FmtArr.tmp ∨ l.1 = FmtArr.ps) hM hsh bs s st.2 _ _ _ h5
  obtain ⟨q1, q2⟩ := rest_does (own := simdOwn M.ps p) (shared := fun l => l.1 = FmtArr.tmp ∨ l.1 = FmtArr.ps) hM hsh bs s simd _ _ _ h7
  simp only at r1 q1
  have hle : s ≤ e := by omega
  have ho : OwnsOut (simdOwn M.ps p) s e := by
    intro pos a b
    rw [← e1] at a
    rw [← e2] at b
    exact ⟨Or.inl ⟨Or.inl rfl, a, b⟩, Or.inl ⟨Or.inr (Or.inl rfl), a, b⟩, Or.inl ⟨Or.inr (Or.inr rfl), a, b⟩⟩
  refine ⟨by omega, ?_⟩
  unfold simdPartC
  refine (Does.ld (k := FmtArr.ps) (Or.inr (Or.inr (by rfl))) _ h1).bind ?_
  refine (Does.ld (k := FmtArr.ps) (Or.inr (Or.inr (by rfl))) _ h2).bind ?_
  refine (borders_does h3 ho).bind ?_
  simp only
  rw [h4, Option.getD_some]
  refine (r2 (ho.sub (by omega) (by omega))).bind ?_
  refine Does.bind (m1 := M.simdMem r.2.1 simd) (Does.st (k := FmtArr.simd) (Or.inr (by rfl)) h6
    (by intro k' hk; cases k' <;> first | rfl | exact absurd rfl hk)) ?_
  refine (q2 (ho.sub (by simp only; omega) (by omega))).bind (Does.pure _ _)

theorem simdParts_tasks {M : FmtMem E} {gt : Nat → TEdge E} {ts : List (TEdge E)} (hM : M.tmp = arrFrom gt ts)
    {g : Nat → Nat} {sortBins : Nat → List SimdBin → List SimdBin} {m rpp np : Nat} {st st' : SimdBuf E × Arr Nat}
    (h : forLoop 0 np st (fun p st => simdPart g (sortBins p) ts M.ps m rpp p st) = some st') :
    OneOutcome (parFor np (fun p => simdPartC g (sortBins p) m rpp p)) (M.simdMem st.1 st.2) (M.simdMem st'.1 st'.2)
      (fun _ => ()) := by
  have mono : ∀ p, p < np → M.ps.get p ≤ M.ps.get (p + 1) :=
    forLoop_some_inv (fun i _ => ∀ p, p < i → M.ps.get p ≤ M.ps.get (p + 1)) (Nat.zero_le _) (fun p hp => by omega)
      (by
        intro i a a' _ _ hg hi p hp
        by_cases hpi : p = i
        · subst hpi
          exact (simdPart_does hM hg).1
        · exact hi p (by omega)) h
  have mono2 : ∀ i j, i ≤ j → j ≤ np → M.ps.get i ≤ M.ps.get j := by
    intro i j hij
    induction hij with
    | refl => intro _; exact Nat.le_refl _
    | step _ ih =>
      intro hj
      exact Nat.le_trans (ih (by omega)) (mono _ (by omega))
  refine parFor_outcome (own := simdOwn M.ps) (shared := fun l => l.1 = FmtArr.tmp ∨ l.1 = FmtArr.ps)
    (mem := fun st => M.simdMem st.1 st.2) ?_ ?_ (fun p _ s s' hg => (simdPart_does hM hg).2) h
  · rintro i j ⟨k, l⟩ hi hj h1 h2
    rcases h1 with ⟨a1, a2, a3⟩ | h1
    · rcases h2 with ⟨b1, b2, b3⟩ | h2
      · rcases Nat.lt_trichotomy i j with hij | hij | hij
        · have := mono2 (i + 1) j hij (by omega); simp only at *; omega
        · exact hij
        · have := mono2 (j + 1) i hij (by omega); simp only at *; omega
      · injection h2 with h2 _
        subst h2
        simp at a1
    · rcases h2 with ⟨b1, _⟩ | h2
      · injection h1 with h1 _
        subst h1
        simp at b1
      · injection h1 with _ h1
        injection h2 with _ h2
        omega
  · rintro i ⟨k, l⟩ _ h1 h2
    simp only at h2
    rcases h1 with ⟨a1, _⟩ | h1
    · simp only at a1
      rcases h2 with h2 | h2 <;> (subst h2; simp at a1)
    · injection h1 with h1 _
      subst h1
      simp at h2

end GraphMat

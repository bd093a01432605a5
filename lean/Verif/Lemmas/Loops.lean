import Mathlib.Data.List.Induction
import Verif.Lemmas.Conc
import Verif.Lemmas.Transfer
import Verif.Model.Loops

namespace GraphMat

variable {Loc : Type} [DecidableEq Loc] {W : Loc → Type} {E T U V α σ : Type}

theorem Does.getBit {own shared : Loc → Prop} {load : Nat → Code Loc W Word} {m : (l : Loc) → W l} {bv : Arr Word} {idx : Nat}
    {b : Bool} (h : getBitvector idx bv = some b)
    (hl : ∀ w, bv.read (idx >>> 5) = some w → Does own shared (load (idx >>> 5)) m w m) :
    Does own shared (getBitC load idx) m b m := by
  unfold getBitvector at h
  simp only [Option.bind_eq_bind, Option.bind_eq_some_iff] at h
  obtain ⟨w, h1, h2⟩ := h
  injection h2 with h2
  subst h2
  exact (hl w h1).bind (Does.pure _ _)

theorem Does.setBit {own shared : Loc → Prop} {load : Nat → Code Loc W Word} {store : Nat → Word → Code Loc W Unit}
    {mem : Arr Word → (l : Loc) → W l} {bv bv' : Arr Word} {idx : Nat} (h : setBitvector idx bv = some bv')
    (hl : ∀ w, bv.read (idx >>> 5) = some w → Does own shared (load (idx >>> 5)) (mem bv) w (mem bv))
    (hs : ∀ w bv', bv.write (idx >>> 5) w = some bv' → Does own shared (store (idx >>> 5) w) (mem bv) () (mem bv')) :
    Does own shared (setBitC load store idx) (mem bv) () (mem bv') := by
  unfold setBitvector at h
  simp only [Option.bind_eq_bind, Option.bind_eq_some_iff] at h
  obtain ⟨w, h1, h2⟩ := h
  refine (hl w h1).bind ?_
  split_ifs at h2 ⊢ with hc
  · exact hs _ _ h2
  · injection h2 with h2
    subst h2
    exact Does.pure _ _

/-! ### `union_compressed` -/

/-- The arrays that the loop only reads. -/
def segShared (l : SegArr × Nat) : Prop := l.1 = .data ∨ l.1 = .idx

/-- The elements that belong to the compressed entries `s .. e`. -/
def segOwn (ci : Arr Nat) (s e : Nat) (l : SegArr × Nat) : Prop :=
  ∃ i, s ≤ i ∧ i < e ∧ (l = (.val, ci.get i) ∨ l = (.bits, ci.get i >>> 5))

theorem adjustC_does {own : SegArr × Nat → Prop} {cd : Arr α} {ci : Arr Nat} {s : Arr α × Arr Word} {fuel k r : Nat}
    (h : adjustIdx ci fuel k = some r) :
    Does own segShared (adjustC fuel k : SegCode α Nat) (arrMem (segA cd ci s)) r (arrMem (segA cd ci s)) := by
  induction fuel generalizing k with
  | zero =>
    injection h with h
    subst h
    exact Does.pure _ _
  | succ fuel ih =>
    unfold adjustIdx at h
    by_cases hk : k = 0
    · rw [if_pos hk] at h; cases h
    · rw [if_neg hk] at h
      simp only [Option.bind_eq_bind, Option.bind_eq_some_iff] at h
      obtain ⟨a, ha, b, hb, h⟩ := h
      unfold adjustC
      refine (Does.ld (k := SegArr.idx) (Or.inr (Or.inr rfl)) _ ha).bind ?_
      refine (Does.ld (k := SegArr.idx) (Or.inr (Or.inr rfl)) _ hb).bind ?_
      split_ifs at h ⊢ with hc
      · exact ih h
      · injection h with h
        subst h
        exact Does.pure _ _

theorem seg_store_val {own : SegArr × Nat → Prop} {cd : Arr α} {ci : Arr Nat} {v v' : Arr α} {b : Arr Word} {i : Nat} {x : α}
    (ho : own (.val, i)) (h : v.write i x = some v') :
    Does own segShared (astore SegArr.val i x : SegCode α Unit) (arrMem (segA cd ci (v, b))) ()
      (arrMem (segA cd ci (v', b))) :=
  Does.st ho (A := segA cd ci (v, b)) (A' := segA cd ci (v', b)) h (by intro k' hk; cases k' <;> first | rfl | exact absurd rfl hk)

theorem seg_setBit {own : SegArr × Nat → Prop} {cd : Arr α} {ci : Arr Nat} {v : Arr α} {b b' : Arr Word} {i : Nat}
    (ho : own (.bits, i >>> 5)) (h : setBitvector i b = some b') :
    Does own segShared (setBitC (aload SegArr.bits) (astore (τ := SegArr.Ty α) SegArr.bits) i) (arrMem (segA cd ci (v, b))) ()
      (arrMem (segA cd ci (v, b'))) :=
  Does.setBit (mem := fun b => arrMem (segA cd ci (v, b))) h
    (fun w hw => Does.ld (k := SegArr.bits) (Or.inl ho) (segA cd ci (v, b)) hw)
    (fun w b' hw => Does.st ho (A := segA cd ci (v, b)) (A' := segA cd ci (v, b')) hw
      (by intro k' hk; cases k' <;> first | rfl | exact absurd rfl hk))

theorem mergeC_does {own : SegArr × Nat → Prop} {add : α → α → α} {cd : Arr α} {ci : Arr Nat} {i idx : Nat} {x : α}
    {s s' : Arr α × Arr Word} (hi : ci.read i = some idx) (hx : cd.read i = some x) (h : mergeOne add idx x s = some s')
    (o1 : own (.val, idx)) (o2 : own (.bits, idx >>> 5)) :
    Does own segShared (mergeC add i : SegCode α Unit) (arrMem (segA cd ci s)) () (arrMem (segA cd ci s')) := by
  obtain ⟨v, b⟩ := s
  unfold mergeOne at h
  simp only [Option.bind_eq_bind, Option.bind_eq_some_iff] at h
  obtain ⟨bit, hb, h⟩ := h
  unfold mergeC
  refine (Does.ld (k := SegArr.idx) (Or.inr (Or.inr rfl)) (segA cd ci (v, b)) hi).bind ?_
  refine (Does.getBit hb (fun w hw => Does.ld (k := SegArr.bits) (Or.inl o2) (segA cd ci (v, b)) hw)).bind ?_
  cases bit with
  | true =>
    simp only [if_true] at h ⊢
    rw [Option.bind_eq_some_iff] at h
    obtain ⟨y, hy, h⟩ := h
    rw [Option.bind_eq_some_iff] at h
    obtain ⟨v', hv, h⟩ := h
    injection h with h
    subst h
    refine (Does.ld (k := SegArr.val) (Or.inl o1) (segA cd ci (v, b)) hy).bind ?_
    refine (Does.ld (k := SegArr.data) (Or.inr (Or.inl rfl)) (segA cd ci (v, b)) hx).bind ?_
    exact seg_store_val o1 hv
  | false =>
    simp only [Bool.false_eq_true, if_false] at h ⊢
    rw [Option.bind_eq_some_iff] at h
    obtain ⟨b', hb', h⟩ := h
    rw [Option.bind_eq_some_iff] at h
    obtain ⟨v', hv, h⟩ := h
    injection h with h
    subst h
    refine (seg_setBit o2 hb').bind ?_
    refine (Does.ld (k := SegArr.data) (Or.inr (Or.inl rfl)) (segA cd ci (v, b')) hx).bind ?_
    exact seg_store_val o1 hv

/-- The entries that partition `p` of `union_compressed` merges. -/
def unionBounds (ci : Arr Nat) (np nnz p : Nat) : Option (Nat × Nat) := do
  let per := (nnz + np - 1) / np
  let s := p * per
  let e := (p + 1) * per
  let e := if e > nnz then nnz else e
  let s ← (if s > 0 then adjustIdx ci (nnz - s) s else some s)
  let e ← adjustIdx ci (nnz - e) e
  some (s, e)

theorem unionC_does {add : α → α → α} {cd : Arr α} {ci : Arr Nat} {np nnz p : Nat} {s s' : Arr α × Arr Word}
    (h : (do
      let se ← unionBounds ci np nnz p
      forLoop se.1 se.2 s (fun i st => do
        let idx ← ci.read i
        let x ← cd.read i
        mergeOne add idx x st)) = some s') {lo hi : Nat} (hb : unionBounds ci np nnz p = some (lo, hi)) :
    Does (segOwn ci lo hi) segShared (unionC add np nnz p : SegCode α Unit) (arrMem (segA cd ci s)) ()
      (arrMem (segA cd ci s')) := by
  rw [hb] at h
  simp only [Option.bind_eq_bind, Option.bind_some] at h
  unfold unionBounds at hb
  simp only [Option.bind_eq_bind, Option.bind_eq_some_iff] at hb
  obtain ⟨lo', h1, hi', h2, h3⟩ := hb
  injection h3 with h3
  injection h3 with e1 e2
  subst e1 e2
  unfold unionC
  have d1 : Does (segOwn ci lo' hi') segShared
      (if p * ((nnz + np - 1) / np) > 0 then adjustC (nnz - p * ((nnz + np - 1) / np)) (p * ((nnz + np - 1) / np))
        else pure (p * ((nnz + np - 1) / np)) : SegCode α Nat) (arrMem (segA cd ci s)) lo' (arrMem (segA cd ci s)) := by
    split_ifs at h1 ⊢ with hc
    · exact adjustC_does h1
    · injection h1 with h1
      subst h1
      exact Does.pure _ _
  refine d1.bind ?_
  refine (adjustC_does h2).bind ?_
  refine Does.forUnit (mem := fun s => arrMem (segA cd ci s)) ?_ h
  intro i hi1 hi2 s s' hg
  rw [Option.bind_eq_some_iff] at hg
  obtain ⟨idx, g1, hg⟩ := hg
  rw [Option.bind_eq_some_iff] at hg
  obtain ⟨x, g2, hg⟩ := hg
  have e := (Arr.read_eq_some.mp g1).2
  exact mergeC_does g1 g2 hg ⟨i, hi1, hi2, Or.inl (by rw [e])⟩ ⟨i, hi1, hi2, Or.inr (by rw [e])⟩

theorem unionBounds_eq {ci : Arr Nat} {np nnz : Nat} (hnp : 0 < np) (hn : nnz ≤ ci.size) {p : Nat} (hp : p < np) :
    ∃ s e, unionBounds ci np nnz p = some (s, e) ∧ e ≤ nnz ∧
      (0 < p → s < nnz → 0 < s ∧ ci.get s / 32 ≠ ci.get (s - 1) / 32) ∧
      (∀ q, q < p → ∀ s' e', unionBounds ci np nnz q = some (s', e') → e' ≤ s ∨ nnz ≤ s) := by
  have hper : nnz ≤ np * ((nnz + np - 1) / np) := by
    have := Nat.div_add_mod (nnz + np - 1) np
    have := Nat.mod_lt (nnz + np - 1) hnp
    omega
  by_cases h0 : nnz = 0
  · subst h0
    refine ⟨0, 0, ?_, Nat.le_refl 0, fun _ h => by omega, fun q hq s' e' he => Or.inr (Nat.zero_le _)⟩
    unfold unionBounds
    have : (0 + np - 1) / np = 0 := Nat.div_eq_of_lt (by omega)
    rw [this]
    rfl
  have hpp : 0 < (nnz + np - 1) / np := Nat.div_pos (by omega) hnp
  generalize hP : (nnz + np - 1) / np = per at hper hpp
  -- the adjusted end of partition `q`
  have hend : ∀ q, ∃ r, adjustIdx ci (nnz - (if (q + 1) * per > nnz then nnz else (q + 1) * per))
      (if (q + 1) * per > nnz then nnz else (q + 1) * per) = some r ∧ r ≤ nnz ∧
      ∀ r', (q + 1) * per ≤ r' → r' ≤ nnz → (r' = nnz ∨ ci.get r' / 32 ≠ ci.get (r' - 1) / 32) → r ≤ r' := by
    intro q
    have hq : 0 < (q + 1) * per := Nat.mul_pos (by omega) hpp
    split_ifs with hc
    · rw [Nat.sub_self]
      exact ⟨nnz, rfl, Nat.le_refl _, fun r' h1 h2 _ => by omega⟩
    · obtain ⟨r, h1, h2, h3, _, h5⟩ := adjustIdx_spec hn (nnz - (q + 1) * per) ((q + 1) * per) (by omega) (fun _ => hq)
      exact ⟨r, h1, h3, h5⟩
  obtain ⟨e, he1, he2, he3⟩ := hend p
  by_cases hp0 : p = 0
  · subst hp0
    refine ⟨0, e, ?_, he2, fun h => by omega, fun q hq => by omega⟩
    unfold unionBounds
    rw [hP]
    simp only [Nat.zero_mul, Nat.lt_irrefl, if_false, gt_iff_lt, Option.bind_eq_bind, Option.bind_some] at he1 ⊢
    rw [he1]; rfl
  have hs0 : 0 < p * per := Nat.mul_pos (by omega) hpp
  have hstart : ∃ s, adjustIdx ci (nnz - p * per) (p * per) = some s ∧ p * per ≤ s ∧
      (s < nnz → ci.get s / 32 ≠ ci.get (s - 1) / 32) := by
    by_cases hc : p * per ≤ nnz
    · obtain ⟨r, h1, h2, h3, h4, _⟩ := adjustIdx_spec hn (nnz - p * per) (p * per) (by omega) (fun _ => hs0)
      exact ⟨r, h1, h2, fun h => h4.resolve_left (by omega)⟩
    · rw [show nnz - p * per = 0 by omega]
      exact ⟨p * per, rfl, Nat.le_refl _, fun h => by omega⟩
  obtain ⟨s, hs1, hs2, hs3⟩ := hstart
  refine ⟨s, e, ?_, he2, fun _ h => ⟨by omega, hs3 h⟩, ?_⟩
  · unfold unionBounds
    rw [hP]
    simp only [Option.bind_eq_bind]
    rw [if_pos hs0, hs1, Option.bind_some, he1]; rfl
  · intro q hq s' e' hb
    by_cases hsn : nnz ≤ s
    · exact Or.inr hsn
    left
    obtain ⟨r, hr1, hr2, hr3⟩ := hend q
    unfold unionBounds at hb
    rw [hP] at hb
    simp only [Option.bind_eq_bind, Option.bind_eq_some_iff] at hb
    obtain ⟨x, _, y, hy, hxy⟩ := hb
    rw [hr1] at hy
    injection hy with hy
    injection hxy with hxy
    injection hxy with _ hxy
    subst hy hxy
    have hle : (q + 1) * per ≤ p * per := Nat.mul_le_mul_right _ (by omega)
    exact hr3 s (by omega) (by omega) (Or.inr (hs3 (by omega)))

/-- No word belongs to two partitions. -/
theorem segOwn_disjoint {ci : Arr Nat} {n a b c d : Nat} (hinc : ∀ i j, i ≤ j → j < n → ci.get i ≤ ci.get j) (h1 : b ≤ c)
    (h2 : d ≤ n) (h3 : c < n → 0 < c ∧ ci.get c / 32 ≠ ci.get (c - 1) / 32) (l : SegArr × Nat) (ha : segOwn ci a b l)
    (hb : segOwn ci c d l) : False := by
  obtain ⟨i, i1, i2, i3⟩ := ha
  obtain ⟨j, j1, j2, j3⟩ := hb
  obtain ⟨hc, hne⟩ := h3 (by omega)
  have e1 := hinc i (c - 1) (by omega) (by omega)
  have e2 := hinc (c - 1) c (by omega) (by omega)
  have e3 := hinc c j (by omega) (by omega)
  have hw : ci.get i / 32 < ci.get j / 32 := by omega
  rcases i3 with rfl | rfl
  · rcases j3 with h | h
    · injection h with _ h
      omega
    · cases h
  · rcases j3 with h | h
    · cases h
    · injection h with _ h
      rw [shr5, shr5] at h
      omega

/-! ### `decompress` -/

/-- Position `r` is the end or the beginning of a new word. -/
def WordBound (ci : Arr Nat) (nnz r : Nat) : Prop := r < nnz → 0 < r ∧ ci.get r / 32 ≠ ci.get (r - 1) / 32

theorem skipWord_bound {ci : Arr Nat} {w nnz fuel pos r : Nat} (h : skipWord ci w fuel pos = some r) (hf : pos + fuel = nnz)
    (hp : 0 < pos) (hw : ci.get (pos - 1) / 32 = w) : pos ≤ r ∧ r ≤ nnz ∧ WordBound ci nnz r := by
  induction fuel generalizing pos with
  | zero =>
    injection h with h
    subst h
    exact ⟨Nat.le_refl _, by omega, fun h => by omega⟩
  | succ fuel ih =>
    unfold skipWord at h
    simp only [Option.bind_eq_bind, Option.bind_eq_some_iff] at h
    obtain ⟨c, hc, h⟩ := h
    have e := (Arr.read_eq_some.mp hc).2
    split_ifs at h with h1
    · obtain ⟨i1, i2, i3⟩ := ih h (by omega) (by omega) (by rw [Nat.add_sub_cancel, e]; exact h1)
      exact ⟨by omega, i2, i3⟩
    · injection h with h
      subst h
      exact ⟨Nat.le_refl _, by omega, fun _ => ⟨hp, by rw [e, hw]; exact h1⟩⟩

theorem nextBound_bound {ci : Arr Nat} {nnz per a r : Nat} (h : nextBound ci nnz per a = some r) (ha : a ≤ nnz) :
    a ≤ r ∧ r ≤ nnz ∧ WordBound ci nnz r := by
  unfold nextBound at h
  simp only at h
  generalize hm : (if a + per > nnz then nnz else a + per) = m at h
  have hm' : a ≤ m ∧ m ≤ nnz := by split_ifs at hm <;> omega
  split_ifs at h with hc
  · simp only [Option.bind_eq_bind, Option.bind_eq_some_iff] at h
    obtain ⟨c, hr, h⟩ := h
    have e := (Arr.read_eq_some.mp hr).2
    obtain ⟨k, hk⟩ : ∃ k, nnz - m = k + 1 := ⟨nnz - m - 1, by omega⟩
    rw [hk] at h
    unfold skipWord at h
    simp only [Option.bind_eq_bind] at h
    rw [hr, Option.bind_some, if_pos rfl] at h
    obtain ⟨i1, i2, i3⟩ := skipWord_bound h (nnz := nnz) (by omega) (by omega) (by rw [Nat.add_sub_cancel, e])
    exact ⟨by omega, i2, i3⟩
  · injection h with h
    subst h
    exact ⟨hm'.1, hm'.2, fun h => by omega⟩

theorem decompressBounds_bound {ci : Arr Nat} {nnz per k : Nat} :
    ∀ {start : Nat} {l : List (Nat × Nat)}, decompressBounds ci nnz per k start = some l → start ≤ nnz →
    l.length = k ∧ ∀ p s e, l[p]? = some (s, e) → start ≤ s ∧ s ≤ e ∧ e ≤ nnz ∧ WordBound ci nnz e ∧ (0 < p → WordBound ci nnz s) ∧
      ∀ q, q < p → ∀ s' e', l[q]? = some (s', e') → e' ≤ s := by
  induction k with
  | zero =>
    intro start l h _
    injection h with h
    subst h
    exact ⟨rfl, fun p s e hp => by simp at hp⟩
  | succ k ih =>
    intro start l h hs
    unfold decompressBounds at h
    simp only [Option.bind_eq_bind, Option.bind_eq_some_iff] at h
    obtain ⟨m, hm, rest, hr, h⟩ := h
    injection h with h
    subst h
    obtain ⟨b1, b2, b3⟩ := nextBound_bound hm hs
    obtain ⟨i1, i2⟩ := ih hr b2
    refine ⟨by simp [i1], ?_⟩
    intro p s e hp
    cases p with
    | zero =>
      simp only [List.getElem?_cons_zero, Option.some.injEq, Prod.mk.injEq] at hp
      obtain ⟨rfl, rfl⟩ := hp
      exact ⟨Nat.le_refl _, b1, b2, b3, fun h => by omega, fun q hq => by omega⟩
    | succ p =>
      rw [List.getElem?_cons_succ] at hp
      obtain ⟨j1, j2, j3, j4, j5, j6⟩ := i2 p s e hp
      refine ⟨by omega, j2, j3, j4, ?_, ?_⟩
      · intro _
        cases p with
        | zero =>
          -- the first of the rest begins where this one ends
          have : s = m := by
            cases k with
            | zero => simp [decompressBounds] at hr; subst hr; simp at hp
            | succ k =>
              unfold decompressBounds at hr
              simp only [Option.bind_eq_bind, Option.bind_eq_some_iff] at hr
              obtain ⟨m', _, rest', _, hr⟩ := hr
              injection hr with hr
              subst hr
              simp only [List.getElem?_cons_zero, Option.some.injEq, Prod.mk.injEq] at hp
              exact hp.1.symm
          rw [this]; exact b3
        | succ p => exact j5 (by omega)
      · intro q hq s' e' hq'
        cases q with
        | zero =>
          simp only [List.getElem?_cons_zero, Option.some.injEq, Prod.mk.injEq] at hq'
          obtain ⟨_, rfl⟩ := hq'
          exact j1
        | succ q =>
          rw [List.getElem?_cons_succ] at hq'
          exact j6 q (by omega) s' e' hq'

theorem scatterC_does {own : SegArr × Nat → Prop} {cd : Arr α} {ci : Arr Nat} {i idx : Nat} {x : α}
    {s s' : Arr α × Arr Word} (hi : ci.read i = some idx) (hx : cd.read i = some x) (h : scatter idx x s = some s')
    (o1 : own (.val, idx)) (o2 : own (.bits, idx >>> 5)) :
    Does own segShared (do
      let idx : Nat ← aload SegArr.idx i
      setBitC (aload SegArr.bits) (astore (τ := SegArr.Ty α) SegArr.bits) idx
      let x : α ← aload SegArr.data i
      astore SegArr.val idx x : SegCode α Unit) (arrMem (segA cd ci s)) () (arrMem (segA cd ci s')) := by
  obtain ⟨v, b⟩ := s
  unfold scatter at h
  simp only [Option.bind_eq_bind, Option.bind_eq_some_iff] at h
  obtain ⟨b', hb, v', hv, h⟩ := h
  injection h with h
  subst h
  refine (Does.ld (k := SegArr.idx) (Or.inr (Or.inr rfl)) (segA cd ci (v, b)) hi).bind ?_
  refine (seg_setBit o2 hb).bind ?_
  refine (Does.ld (k := SegArr.data) (Or.inr (Or.inl rfl)) (segA cd ci (v, b')) hx).bind ?_
  exact seg_store_val o1 hv

theorem foldlM_forLoop {β : Type} (f : σ → β → Option σ) (d : β) (l : List β) (s : σ) :
    l.foldlM f s = forLoop 0 l.length s (fun p s => f s (l.getD p d)) := by
  rw [forLoop_range]
  induction l using List.reverseRecOn generalizing s with
  | nil => rfl
  | append_singleton l x ih =>
    rw [List.foldlM_append, ih, List.length_append, List.length_singleton, List.range_succ, List.foldlM_append]
    have e : (List.range l.length).foldlM (fun s p => f s (l.getD p d)) s =
        (List.range l.length).foldlM (fun s p => f s ((l ++ [x]).getD p d)) s := by
      apply foldlM_ext
      intro p hp s
      rw [List.mem_range] at hp
      rw [List.getD_eq_getElem?_getD, List.getD_eq_getElem?_getD, List.getElem?_append_left hp]
    rw [e]
    congr 1
    funext s
    simp

/-! ### Loops over bits -/

theorem Does.forBitsG {R : Type} {P : σ → σ → Prop} {Own : σ → σ → Loc → Prop} (G : Grows P Own) {shared : Loc → Prop}
    {reg : σ → R} {mem : σ → (l : Loc) → W l} {load : Nat → Code Loc W Word} {bv : Arr Word}
    {body : Nat → R → Code Loc W R} {g : Nat → σ → Option σ} {lo hi : Nat}
    (hl : ∀ ii w s (own : Loc → Prop), bv.read ii = some w → Does own shared (load ii) (mem s) w (mem s))
    (h : ∀ i, lo ≤ i / 32 → i / 32 < hi → ∀ s s', g i s = some s' →
      P s s' ∧ Does (Own s s') shared (body i (reg s)) (mem s) (reg s') (mem s'))
    {s s' : σ} (hf : forBits bv lo hi s g = some s') :
    P s s' ∧ Does (Own s s') shared (forBitsC load lo hi (reg s) body) (mem s) (reg s') (mem s') := by
  unfold forBits at hf
  unfold forBitsC
  refine Does.forG G ?_ hf
  intro ii h1 h2 s s' hg
  rw [Option.bind_eq_bind, Option.bind_eq_some_iff] at hg
  obtain ⟨w, hw, hg⟩ := hg
  split_ifs at hg with hc
  · injection hg with hg
    subst hg
    refine ⟨G.refl _, (hl ii w s _ hw).bind ?_⟩
    rw [if_pos hc]
    exact Does.pure _ _
  · have key := Does.forG (reg := reg) (mem := mem) (shared := shared) G (lo := ii * 32) (hi := (ii + 1) * 32)
      (body := fun i r => do
        let b ← getBitC load i
        if b then body i r else Pure.pure r) (g := fun i s => do
          let b ← getBitvector i bv
          if b then g i s else some s) (by
        intro i h3 h4 s s' hg
        rw [Option.bind_eq_bind, Option.bind_eq_some_iff] at hg
        obtain ⟨b, hb, hg⟩ := hg
        have e : i / 32 = ii := by omega
        cases b with
        | true =>
          obtain ⟨p1, d1⟩ := h i (by omega) (by omega) s s' hg
          exact ⟨p1, (Does.getBit hb (fun w hw => hl _ w s _ hw)).bind d1⟩
        | false =>
          injection hg with hg
          subst hg
          exact ⟨G.refl _, (Does.getBit hb (fun w hw => hl _ w s _ hw)).bind (Does.pure _ _)⟩) hg
    refine ⟨key.1, (hl ii w s _ hw).bind ?_⟩
    rw [if_neg hc]
    exact key.2

/-! ### A loop that fills an array -/

/-- Filling an array in a loop. -/
theorem fillLoop {β : Type} {n : Nat} {f : Nat → Option β} {l : List β} (hl : (List.range n).mapM f = some l) (a : Arr β)
    (ha : n ≤ a.size) : ∃ a', forLoop 0 n a (fun p a => (f p).bind (fun x => a.write p x)) = some a' ∧ a'.size = a.size ∧
      ∀ p, p < n → f p = some (a'.get p) := by
  have key : ∀ k, k ≤ n → ∃ a', forLoop 0 k a (fun p a => (f p).bind (fun x => a.write p x)) = some a' ∧ a'.size = a.size ∧
      ∀ p, p < k → f p = some (a'.get p) := by
    intro k
    induction k with
    | zero => intro _; exact ⟨a, rfl, rfl, fun p hp => by omega⟩
    | succ k ih =>
      intro hk
      obtain ⟨a1, h1, h2, h3⟩ := ih (by omega)
      have hx : ∃ x, f k = some x := by
        have hmem : k ∈ List.range n := List.mem_range.mpr (by omega)
        clear h1 ih
        generalize List.range n = r at hl hmem
        induction r generalizing l with
        | nil => cases hmem
        | cons b r ihr =>
          rw [List.mapM_cons] at hl
          cases hb : f b with
          | none => rw [hb] at hl; cases hl
          | some x =>
            rw [hb] at hl
            rcases List.mem_cons.mp hmem with e | e
            · subst e; exact ⟨x, hb⟩
            · cases hr : r.mapM f with
              | none => rw [hr] at hl; cases hl
              | some l' => exact ihr hr e
      obtain ⟨x, hx⟩ := hx
      refine ⟨a1.upd k x, ?_, by simpa using h2, ?_⟩
      · rw [forLoop_range, List.range_succ, List.foldlM_append, ← forLoop_range, h1]
        simp only [Option.bind_eq_bind, Option.bind_some, List.foldlM_cons, List.foldlM_nil, hx]
        rw [Arr.write_some (by omega)]
        rfl
      · intro p hp
        by_cases e : p = k
        · subst e; rw [hx]; simp
        · rw [Arr.upd_get_ne _ _ e]; exact h3 p (by omega)
  exact key n (Nat.le_refl n)

/-! ### `compress` -/

/-- The arrays that the copying loop only reads. -/
def cmpShared (l : CmpArr × Nat) : Prop := l.1 = .val ∨ l.1 = .bits ∨ l.1 = .scan

/-- The positions `a .. b` of the compressed arrays. -/
def cmpOwn (a b : Nat) (l : CmpArr × Nat) : Prop := (l.1 = .cdata ∨ l.1 = .cidx) ∧ a ≤ l.2 ∧ l.2 < b

/-- The arrays that the counting loop only reads. -/
def cntShared (l : CmpArr × Nat) : Prop := l.1 = .bits

theorem countC_does {b : Buffer α} {st : Arr α × Arr Nat} {scan cnt cnt' : Arr Nat} {np p : Nat}
    (h : (b.computeNnzRange (partLo b.bits.size np p) (partHi b.bits.size np p)).bind (fun x => cnt.write p x) = some cnt') :
    Does (fun l => l = (CmpArr.cnt, p)) cntShared (countC b.bits.size np p : CmpCode α Unit)
      (arrMem (cmpA b.value b.bits cnt scan st)) () (arrMem (cmpA b.value b.bits cnt' scan st)) := by
  rw [Option.bind_eq_some_iff] at h
  obtain ⟨x, h1, h2⟩ := h
  unfold countC
  unfold Buffer.computeNnzRange at h1
  refine (Does.forG (Grows.const _) (reg := fun x : Nat => x)
    (mem := fun _ => arrMem (cmpA b.value b.bits cnt scan st)) ?_ h1).2.bind ?_
  · intro ii _ _ s s' hg
    rw [Option.bind_eq_bind, Option.bind_eq_some_iff] at hg
    obtain ⟨w, hw, hg⟩ := hg
    injection hg with hg
    subst hg
    refine ⟨trivial, (Does.ld (k := CmpArr.bits) (Or.inr (show cntShared _ from rfl)) (cmpA b.value b.bits cnt scan st) hw).bind ?_⟩
    exact Does.pure _ _
  · exact Does.st (k := CmpArr.cnt) (own := fun l => l = (CmpArr.cnt, p)) rfl (A := cmpA b.value b.bits cnt scan st) (A' := cmpA b.value b.bits cnt' scan st) h2
      (by intro k' hk; cases k' <;> first | rfl | exact absurd rfl hk)

theorem copyC_does {value : Arr α} {bits : Arr Word} {cnt scan : Arr Nat} {np p nz : Nat} {st : Arr α × Arr Nat}
    {r : Arr α × Arr Nat × Nat} (hs : scan.read p = some nz)
    (h : forBits bits (partLo bits.size np p) (partHi bits.size np p) (st.1, st.2, nz)
      (fun i (st : Arr α × Arr Nat × Nat) => do
        let v ← value.read i
        let cd ← st.1.write st.2.2 v
        let ci ← st.2.1.write st.2.2 i
        some (cd, ci, st.2.2 + 1)) = some r) :
    nz ≤ r.2.2 ∧ Does (cmpOwn nz r.2.2) cmpShared (copyC bits.size np p : CmpCode α Unit)
      (arrMem (cmpA value bits cnt scan st)) () (arrMem (cmpA value bits cnt scan (r.1, r.2.1))) := by
  have G : Grows (Loc := CmpArr × Nat) (fun s s' : Arr α × Arr Nat × Nat => s.2.2 ≤ s'.2.2)
      (fun s s' => cmpOwn s.2.2 s'.2.2) := by
    refine ⟨fun _ => Nat.le_refl _, fun _ _ _ h1 h2 => Nat.le_trans h1 h2, ?_, ?_⟩
    · rintro a b c l h1 h2 ⟨o1, o2, o3⟩; exact ⟨o1, o2, by omega⟩
    · rintro a b c l h1 h2 ⟨o1, o2, o3⟩; exact ⟨o1, by omega, o3⟩
  have key := Does.forBitsG G (shared := cmpShared) (reg := fun s : Arr α × Arr Nat × Nat => s.2.2)
    (mem := fun s => arrMem (cmpA value bits cnt scan (s.1, s.2.1)))
    (load := (aload CmpArr.bits : Nat → CmpCode α Word))
    (body := fun i (nz : Nat) => do
      let v : α ← aload CmpArr.val i
      astore CmpArr.cdata nz v
      astore CmpArr.cidx nz i
      pure (nz + 1))
    (fun ii w s own hw => Does.ld (k := CmpArr.bits) (Or.inr (Or.inr (Or.inl rfl)))
      (cmpA value bits cnt scan (s.1, s.2.1)) hw) (by
    intro i _ _ s s' hg
    simp only [Option.bind_eq_bind, Option.bind_eq_some_iff] at hg
    obtain ⟨v, hv, cd, hcd, ci, hci, hg⟩ := hg
    injection hg with hg
    subst hg
    refine ⟨Nat.le_succ _, ?_⟩
    refine (Does.ld (k := CmpArr.val) (Or.inr (Or.inl rfl)) (cmpA value bits cnt scan (s.1, s.2.1)) hv).bind ?_
    refine (Does.st (k := CmpArr.cdata) ⟨Or.inl rfl, Nat.le_refl _, Nat.lt_succ_self _⟩ (A := cmpA value bits cnt scan (s.1, s.2.1))
      (A' := cmpA value bits cnt scan (cd, s.2.1)) hcd
      (by intro k' hk; cases k' <;> first | rfl | exact absurd rfl hk)).bind ?_
    refine (Does.st (k := CmpArr.cidx) ⟨Or.inr rfl, Nat.le_refl _, Nat.lt_succ_self _⟩ (A := cmpA value bits cnt scan (cd, s.2.1))
      (A' := cmpA value bits cnt scan (cd, ci)) hci
      (by intro k' hk; cases k' <;> first | rfl | exact absurd rfl hk)).bind ?_
    exact Does.pure _ _) h
  refine ⟨key.1, ?_⟩
  unfold copyC
  refine (Does.ld (k := CmpArr.scan) (Or.inr (Or.inr (Or.inr rfl))) (cmpA value bits cnt scan st) hs).bind ?_
  exact key.2.bind (Does.pure _ _)

/-- Where the copying of a partition ends. -/
theorem copy_end {value : Arr α} {l : List Nat} {s r : Arr α × Arr Nat × Nat}
    (h : l.foldlM (fun (st : Arr α × Arr Nat × Nat) i => do
        let v ← value.read i
        let cd ← st.1.write st.2.2 v
        let ci ← st.2.1.write st.2.2 i
        some (cd, ci, st.2.2 + 1)) s = some r) : r.2.2 = s.2.2 + l.length := by
  induction l generalizing s with
  | nil => injection h with h; subst h; rfl
  | cons i l ih =>
    rw [List.foldlM_cons] at h
    simp only [Option.bind_eq_bind, Option.bind_eq_some_iff] at h
    obtain ⟨s1, ⟨v, _, cd, _, ci, _, hs⟩, h⟩ := h
    injection hs with hs
    subst hs
    have := ih h
    simp only [List.length_cons] at this ⊢
    omega

/-! ### `mapreduce_dense_segment` -/

/-- `local_reduced` when the first iterations have the results `rs`. -/
def redOf (red : Arr T) (rs : List (Option T)) : Arr T :=
  ⟨red.size, fun i => if i % 16 = 0 then (match rs[i / 16]? with
    | some (some x) => x
    | _ => red.get i) else red.get i⟩

/-- `firstSet` when the first iterations have the results `rs`. -/
def firstOf (first : Arr Bool) (rs : List (Option T)) : Arr Bool :=
  ⟨first.size, fun i => if i % 16 = 0 then (match rs[i / 16]? with
    | some o => o.isSome
    | none => first.get i) else first.get i⟩

theorem redOf_none (red : Arr T) (rs : List (Option T)) : redOf red (rs ++ [none]) = redOf red rs := by
  unfold redOf
  congr 1
  funext i
  split_ifs
  · rcases Nat.lt_trichotomy (i / 16) rs.length with h | h | h
    · rw [List.getElem?_append_left h]
    · rw [h]; simp
    · rw [List.getElem?_eq_none (by simp; omega), List.getElem?_eq_none (by omega)]
  · rfl

theorem redOf_upd (red : Arr T) (rs : List (Option T)) (o : Option T) (x : T) :
    redOf red (rs ++ [some x]) = (redOf red (rs ++ [o])).upd (rs.length * 16) x := by
  unfold redOf Arr.upd
  congr 1
  funext i
  simp only
  by_cases hi : i = rs.length * 16
  · subst hi
    rw [if_pos rfl, if_pos (by omega), show rs.length * 16 / 16 = rs.length by omega]
    simp
  · rw [if_neg hi]
    split_ifs with h16
    · have hne : i / 16 ≠ rs.length := by omega
      rcases Nat.lt_or_ge (i / 16) rs.length with h | h
      · rw [List.getElem?_append_left h, List.getElem?_append_left h]
      · rw [List.getElem?_eq_none (by simp; omega), List.getElem?_eq_none (by simp; omega)]
    · rfl

theorem firstOf_upd (first : Arr Bool) (rs : List (Option T)) (o : Option T) :
    firstOf first (rs ++ [o]) = (firstOf first rs).upd (rs.length * 16) o.isSome := by
  unfold firstOf Arr.upd
  congr 1
  funext i
  simp only
  by_cases hi : i = rs.length * 16
  · subst hi
    rw [if_pos rfl, if_pos (by omega), show rs.length * 16 / 16 = rs.length by omega]
    simp
  · rw [if_neg hi]
    split_ifs with h16
    · have hne : i / 16 ≠ rs.length := by omega
      rcases Nat.lt_or_ge (i / 16) rs.length with h | h
      · rw [List.getElem?_append_left h]
      · rw [List.getElem?_eq_none (by simp; omega), List.getElem?_eq_none (by omega)]
    · rfl

theorem firstOf_upd' (first : Arr Bool) (rs : List (Option T)) (o o' : Option T) :
    firstOf first (rs ++ [o]) = (firstOf first (rs ++ [o'])).upd (rs.length * 16) o.isSome := by
  rw [firstOf_upd, firstOf_upd first rs o']
  unfold Arr.upd
  congr 1
  funext i
  simp only
  split_ifs <;> rfl

/-- The array that the loop only reads. -/
def redShared (l : RedArr × Nat) : Prop := l.1 = .bits

/-- What belongs to iteration `p`. -/
def redOwn (per nnz p : Nat) (l : RedArr × Nat) : Prop :=
  (l.1 = .val ∧ min (per * p) nnz ≤ l.2 ∧ l.2 < min (per * (p + 1)) nnz) ∨ ((l.1 = .red ∨ l.1 = .first) ∧ l.2 = p * 16)

theorem mapReduceC_does {map : V → T → T × V} {op : T → T → T} {tmp : Nat → T} {bits : Arr Word} {red : Arr T}
    {first : Arr Bool} {threads nnz : Nat} {rs : List (Option T)} {value : Arr V} {r : Arr V × Option T}
    (hr : rs.length * 16 < red.size) (hf : rs.length * 16 < first.size)
    (h : mapReducePart map op tmp bits (min ((nnz + threads - 1) / threads * rs.length) nnz)
      (min ((nnz + threads - 1) / threads * (rs.length + 1)) nnz) value = some r) :
    Does (redOwn ((nnz + threads - 1) / threads) nnz rs.length) redShared
      (mapReduceC map op tmp threads nnz rs.length : RedCode V T Unit)
      (arrMem (redA value bits (redOf red rs) (firstOf first rs))) ()
      (arrMem (redA r.1 bits (redOf red (rs ++ [r.2])) (firstOf first (rs ++ [r.2])))) := by
  unfold mapReduceC
  simp only
  generalize (nnz + threads - 1) / threads = per at h
  have o1 : redOwn per nnz rs.length (RedArr.red, rs.length * 16) := Or.inr ⟨Or.inl rfl, rfl⟩
  have o2 : redOwn per nnz rs.length (RedArr.first, rs.length * 16) := Or.inr ⟨Or.inr rfl, rfl⟩
  refine (Does.st (k := RedArr.first) o2 (A := redA value bits (redOf red rs) (firstOf first rs))
    (A' := redA value bits (redOf red (rs ++ [none])) (firstOf first (rs ++ [(none : Option T)]))) ?_ ?_).bind ?_
  · show (firstOf first rs).write (rs.length * 16) false = some (firstOf first (rs ++ [none]))
    rw [firstOf_upd, Arr.write_some (by exact hf)]; rfl
  · intro k' hk
    cases k' <;> first | rfl | exact absurd rfl hk | exact redOf_none red rs
  unfold mapReducePart at h
  refine Does.forUnit
    (mem := fun s : Arr V × Option T => arrMem (redA s.1 bits (redOf red (rs ++ [s.2])) (firstOf first (rs ++ [s.2])))) ?_ h
  intro i hi1 hi2 s s' hg
  obtain ⟨v, o⟩ := s
  rw [Option.bind_eq_bind, Option.bind_eq_some_iff] at hg
  obtain ⟨bit, hb, hg⟩ := hg
  refine (Does.getBit hb (fun w hw => Does.ld (k := RedArr.bits) (Or.inr (show redShared _ from rfl))
    (redA v bits (redOf red (rs ++ [o])) (firstOf first (rs ++ [o]))) hw)).bind ?_
  cases bit with
  | false =>
    injection hg with hg
    subst hg
    exact Does.pure _ _
  | true =>
    simp only [if_true, Option.bind_eq_bind, Option.bind_eq_some_iff] at hg ⊢
    obtain ⟨x, hx, v', hv, hg⟩ := hg
    have o3 : redOwn per nnz rs.length (RedArr.val, i) := Or.inl ⟨rfl, hi1, hi2⟩
    refine (Does.ld (k := RedArr.val) (Or.inl o3) (redA v bits (redOf red (rs ++ [o])) (firstOf first (rs ++ [o]))) hx).bind ?_
    refine (Does.st (k := RedArr.val) o3 (A := redA v bits (redOf red (rs ++ [o])) (firstOf first (rs ++ [o])))
      (A' := redA v' bits (redOf red (rs ++ [o])) (firstOf first (rs ++ [o]))) hv
      (by intro k' hk; cases k' <;> first | rfl | exact absurd rfl hk)).bind ?_
    have hfirst : (firstOf first (rs ++ [o])).read (rs.length * 16) = some o.isSome := by
      rw [firstOf_upd, Arr.read_eq_some]
      exact ⟨hf, by simp⟩
    refine (Does.ld (k := RedArr.first) (Or.inl o2) (redA v' bits (redOf red (rs ++ [o])) (firstOf first (rs ++ [o])))
      hfirst).bind ?_
    cases o with
    | some a =>
      injection hg with hg
      subst hg
      simp only [Option.isSome_some, if_true]
      have hred : (redOf red (rs ++ [some a])).read (rs.length * 16) = some a := by
        rw [redOf_upd red rs none, Arr.read_eq_some]
        exact ⟨hr, by simp⟩
      refine (Does.ld (k := RedArr.red) (Or.inl o1) (redA v' bits (redOf red (rs ++ [some a]))
        (firstOf first (rs ++ [some a]))) hred).bind ?_
      refine Does.st (k := RedArr.red) o1 (A := redA v' bits (redOf red (rs ++ [some a])) (firstOf first (rs ++ [some a])))
        (A' := redA v' bits (redOf red (rs ++ [some (op a (map x (tmp i)).1)]))
          (firstOf first (rs ++ [some (op a (map x (tmp i)).1)]))) ?_ ?_
      · show (redOf red (rs ++ [some a])).write (rs.length * 16) _ = some (redOf red _)
        rw [redOf_upd red rs (some a) (op a (map x (tmp i)).1), Arr.write_some (by exact hr)]
      · intro k' hk
        cases k' <;> first | rfl | exact absurd rfl hk | skip
        show firstOf first _ = firstOf first _
        rw [firstOf_upd, firstOf_upd]; rfl
    | none =>
      injection hg with hg
      subst hg
      simp only [Option.isSome_none, Bool.false_eq_true, if_false]
      refine (Does.st (k := RedArr.red) o1 (A := redA v' bits (redOf red (rs ++ [none])) (firstOf first (rs ++ [(none : Option T)])))
        (A' := redA v' bits (redOf red (rs ++ [some (map x (tmp i)).1])) (firstOf first (rs ++ [(none : Option T)]))) ?_
        (by intro k' hk; cases k' <;> first | rfl | exact absurd rfl hk)).bind ?_
      · show (redOf red (rs ++ [none])).write (rs.length * 16) _ = some (redOf red _)
        rw [redOf_upd red rs none, Arr.write_some (by exact hr)]
      · refine Does.st (k := RedArr.first) o2 (A' := redA v' bits (redOf red (rs ++ [some (map x (tmp i)).1]))
          (firstOf first (rs ++ [some (map x (tmp i)).1]))) ?_
          (by intro k' hk; cases k' <;> first | rfl | exact absurd rfl hk)
        show (firstOf first (rs ++ [none])).write (rs.length * 16) true = some (firstOf first _)
        rw [firstOf_upd' first rs (some (map x (tmp i)).1) none, Arr.write_some (by exact hf)]; rfl

end GraphMat

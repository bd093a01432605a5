import Verif.Lemmas.Loops
import Verif.Lemmas.ConcMap
import Verif.Lemmas.Compress
import Verif.Model.LoopSer

namespace GraphMat

variable {α R : Type}

section
variable {Loc : Type} [DecidableEq Loc] {W : Loc → Type}

/-- A loop whose private variables and memory before iteration `k` are known. -/
theorem Does.forAt {own shared : Loc → Prop} (reg : Nat → R) (mem : Nat → (l : Loc) → W l) {body : Nat → R → Code Loc W R}
    {lo hi : Nat} (hle : lo ≤ hi)
    (h : ∀ k, lo ≤ k → k < hi → Does own shared (body k (reg k)) (mem k) (reg (k + 1)) (mem (k + 1))) :
    Does own shared (Code.for lo hi (reg lo) body) (mem lo) (reg hi) (mem hi) := by
  have hl : forLoop lo hi lo (fun k s => if s = k then some (k + 1) else none) = some hi := by
    obtain ⟨n, rfl⟩ := Nat.le.dest hle
    unfold forLoop
    rw [Nat.add_sub_cancel_left]
    clear h hle
    induction n generalizing lo with
    | zero => rfl
    | succ n ih =>
      rw [List.range'_succ, List.foldlM_cons]
      dsimp only
      rw [if_pos rfl]
      refine Eq.trans (ih (lo := lo + 1)) ?_
      congr 1; omega
  refine (Does.forInv (σ := Nat) (reg := reg) (mem := mem) (fun i s => s = i) hle ?_ rfl hl).2
  rintro k h1 h2 s s' rfl hg
  rw [if_pos rfl] at hg
  injection hg with hg
  subst hg
  exact ⟨rfl, h s h1 h2⟩

/-- A parallel loop such that the memory before iteration `p` of the sequential loop is known. -/
theorem parFor_at {own : Nat → Loc → Prop} {shared : Loc → Prop} (mem : Nat → (l : Loc) → W l) {n : Nat}
    {body : Nat → Code Loc W Unit} (ho : ∀ i j l, i < n → j < n → own i l → own j l → i = j)
    (hs : ∀ i l, i < n → own i l → ¬ shared l)
    (h : ∀ p, p < n → Does (own p) shared (body p) (mem p) () (mem (p + 1))) :
    OneOutcome (parFor n body) (mem 0) (mem n) (fun _ => ()) := by
  refine parFor_outcome (σ := Nat) (own := own) (shared := shared) (mem := mem)
    (part := fun p s => if s = p then some (p + 1) else none) ho hs ?_ ?_
  · intro p hp s s' hg
    split_ifs at hg with e
    injection hg with hg
    subst e hg
    exact h s hp
  · have : ∀ k, forLoop 0 k 0 (fun p s => if s = p then some (p + 1) else none) = some k := by
      intro k
      induction k with
      | zero => rfl
      | succ k ih =>
        rw [forLoop_range, List.range_succ, List.foldlM_append, ← forLoop_range, ih]
        simp
    exact this n

end

/-! ### Archives -/

theorem ByteArchive.bytes_nil (ar : ByteArchive α) : ar.bytes [] = ar.head := rfl

theorem ByteArchive.bytes_snoc (ar : ByteArchive α) (l : List (Nat × α)) (e : Nat × α) :
    ar.bytes (l ++ [e]) = ar.bytes l ++ ar.put l e.1 e.2 := by
  have h1 : ∀ (l : List (Nat × α)) (st : List (Nat × α) × List Byte),
      (l.foldl (fun (st : List (Nat × α) × List Byte) e => (st.1 ++ [e], st.2 ++ ar.put st.1 e.1 e.2)) st).1 = st.1 ++ l := by
    intro l
    induction l with
    | nil => intro st; simp
    | cons e l ih => intro st; rw [List.foldl_cons, ih]; simp
  unfold ByteArchive.bytes
  rw [List.foldl_append, List.foldl_cons, List.foldl_nil]
  simp only [h1, List.nil_append]

/-! ### Packing -/

/-- The arrays that the first loop writes. -/
def packOut (k : SerArr) : Prop := k = .strm ∨ k = .nnz ∨ k = .nbytes

theorem packC_does {ar : ByteArchive α} {val : Arr α} {bits : Arr Word} {np p : Nat} {part : List (Nat × α)}
    (h : forBits bits (partLo bits.size np p) (partHi bits.size np p) ([] : List (Nat × α))
      (fun i acc => do
        let v ← val.read i
        some (acc ++ [(i, v)])) = some part) (m : (l : SerArr × Nat) → SerArr.Ty α l.1)
    (hv : ∀ j, m (.val, j) = val.get j) (hb : ∀ j, m (.bits, j) = bits.get j) (hst : m (.strm, p) = []) :
    ∃ m', Does (fun l => packOut l.1 ∧ l.2 = p) (fun l => ¬ packOut l.1) (packC ar bits.size np p : SerCode α Unit) m () m' ∧
      m' (.strm, p) = ar.bytes part ∧ m' (.nnz, p) = part.length ∧ m' (.nbytes, p) = (ar.bytes part).length := by
  have o1 : packOut .strm := Or.inl rfl
  have o2 : packOut .nnz := Or.inr (Or.inl rfl)
  have o3 : packOut .nbytes := Or.inr (Or.inr rfl)
  have n1 : ¬ packOut .val := by rintro (h | h | h) <;> cases h
  have n2 : ¬ packOut .bits := by rintro (h | h | h) <;> cases h
  let M : List (Nat × α) → (l : SerArr × Nat) → SerArr.Ty α l.1 := fun done =>
    Function.update (Function.update m (.nnz, p) done.length) (.strm, p) (ar.bytes done)
  have Mo : ∀ done k j, k ≠ .nnz → k ≠ .strm → M done (k, j) = m (k, j) := by
    intro done k j h1 h2
    show Function.update (Function.update m _ _) _ _ _ = _
    rw [Function.update_of_ne (by intro h; injection h with h; exact h2 h),
      Function.update_of_ne (by intro h; injection h with h; exact h1 h)]
  have Ms : ∀ done, M done (.strm, p) = ar.bytes done := fun done => Function.update_self _ _ _
  have Mn : ∀ done, M done (.nnz, p) = done.length := by
    intro done
    show Function.update (Function.update m _ _) _ _ _ = _
    rw [Function.update_of_ne (by intro h; injection h with h; cases h), Function.update_self]
  have loop := (Does.forBitsG (Grows.const (fun l : SerArr × Nat => packOut l.1 ∧ l.2 = p))
    (shared := fun l : SerArr × Nat => ¬ packOut l.1) (reg := fun done : List (Nat × α) => done) (mem := M)
    (load := aload (τ := SerArr.Ty α) SerArr.bits)
    (body := fun i (done : List (Nat × α)) => (do
      let v : α ← aload SerArr.val i
      let s : List Byte ← aload SerArr.strm p
      astore SerArr.strm p (s ++ ar.put done i v)
      let k : Nat ← aload SerArr.nnz p
      astore SerArr.nnz p (k + 1 : Nat)
      pure (done ++ [(i, v)]) : SerCode α (List (Nat × α))))
    (by
      intro ii w s own hw
      refine Does.rdv (Or.inr n2) ?_
      rw [Mo _ _ _ (by decide) (by decide), hb]
      exact (Arr.read_eq_some.mp hw).2)
    (by
      intro i _ _ s s' hg
      refine ⟨trivial, ?_⟩
      simp only [Option.bind_eq_bind, Option.bind_eq_some_iff, Option.some.injEq] at hg
      obtain ⟨v, g1, rfl⟩ := hg
      refine (Does.rdv (Or.inr n1) (v := v) ?_).bind ?_
      · rw [Mo _ _ _ (by decide) (by decide), hv]
        exact (Arr.read_eq_some.mp g1).2
      refine (Does.rdv (Or.inl ⟨o1, rfl⟩) (Ms s)).bind ?_
      refine (Does.wrv ⟨o1, rfl⟩ _ _).bind ?_
      refine (Does.rdv (Or.inl ⟨o2, rfl⟩) (v := s.length) ?_).bind ?_
      · rw [Function.update_of_ne (by intro h; injection h with h; cases h)]
        exact Mn s
      refine (Does.wrv ⟨o2, rfl⟩ _ _).bind ?_
      refine Does.to (Does.pure (s ++ [(i, v)]) _) ?_
      show _ = Function.update (Function.update m (.nnz, p) (s ++ [(i, v)]).length) (.strm, p) (ar.bytes (s ++ [(i, v)]))
      rw [ar.bytes_snoc]
      funext l
      obtain ⟨k, j⟩ := l
      by_cases e1 : (k, j) = (SerArr.nnz, p)
      · cases e1
        rw [Function.update_self, Function.update_of_ne (by intro h; injection h with h; cases h), Function.update_self]
        simp
      · rw [Function.update_of_ne e1]
        by_cases e2 : (k, j) = (SerArr.strm, p)
        · cases e2
          rw [Function.update_self, Function.update_self]
        · rw [Function.update_of_ne e2, Function.update_of_ne e2, Function.update_of_ne e1]
          show Function.update (Function.update m _ _) _ _ _ = _
          rw [Function.update_of_ne e2, Function.update_of_ne e1]) h).2
  refine ⟨Function.update (M part) (.nbytes, p) (ar.bytes part).length, ?_, ?_, ?_, ?_⟩
  · unfold packC
    refine (Does.wrv ⟨o2, rfl⟩ m _).bind ?_
    refine (Does.rdv (Or.inl ⟨o1, rfl⟩) (v := ([] : List Byte)) ?_).bind ?_
    · rw [Function.update_of_ne (by intro h; injection h with h; cases h)]
      exact hst
    refine (Does.wrv ⟨o1, rfl⟩ _ _).bind ?_
    refine loop.bind ?_
    refine (Does.rdv (Or.inl ⟨o1, rfl⟩) (Ms part)).bind ?_
    exact Does.wrv ⟨o3, rfl⟩ _ _
  · rw [Function.update_of_ne (by intro h; injection h with h; cases h)]
    exact Ms part
  · rw [Function.update_of_ne (by intro h; injection h with h; cases h)]
    exact Mn part
  · rw [Function.update_self]

/-! ### Concatenated pieces -/

/-- The position of piece `p` in the concatenation. -/
def pieceLo {β : Type} (l : List (List β)) (p : Nat) : Nat := (l.take p).flatten.length

theorem pieceLo_succ {β : Type} (l : List (List β)) (p : Nat) : pieceLo l (p + 1) = pieceLo l p + (l.getD p []).length := by
  unfold pieceLo
  rw [List.take_add_one, List.flatten_append, List.length_append, List.getD_eq_getElem?_getD]
  cases l[p]? <;> simp

theorem pieceLo_mono {β : Type} (l : List (List β)) {p q : Nat} (h : p ≤ q) : pieceLo l p ≤ pieceLo l q := by
  induction h with
  | refl => exact Nat.le_refl _
  | step _ ih => exact Nat.le_trans ih (by rw [pieceLo_succ]; omega)

theorem pieceLo_get {β : Type} (l : List (List β)) (p k : Nat) (d : β) (h : k < (l.getD p []).length) :
    l.flatten.getD (pieceLo l p + k) d = (l.getD p []).getD k d := by
  unfold pieceLo
  induction l generalizing p with
  | nil => simp at h
  | cons a l ih =>
    cases p with
    | zero =>
      simp only [List.getD_cons_zero] at h ⊢
      simp [List.getD_eq_getElem?_getD, List.getElem?_append_left h]
    | succ p =>
      simp only [List.getD_cons_succ] at h ⊢
      rw [List.take_succ_cons, List.flatten_cons, List.flatten_cons, List.length_append, ← ih p h,
        List.getD_eq_getElem?_getD, List.getD_eq_getElem?_getD, Nat.add_assoc, List.getElem?_append_right (by omega)]
      congr 2
      omega

theorem pieceLo_all {β : Type} (l : List (List β)) {n : Nat} (h : l.length ≤ n) : pieceLo l n = l.flatten.length := by
  unfold pieceLo
  rw [List.take_of_length_le h]

/-- What the second loop of `compress` may touch: the stream and the piece of `serialized_data` of partition `p`. -/
def flushOwn (ps : List (List Byte)) (p : Nat) (l : SerArr × Nat) : Prop :=
  l = (.strm, p) ∨ (l.1 = .data ∧ pieceLo ps p ≤ l.2 ∧ l.2 < pieceLo ps (p + 1))

/-- What `decompress` may touch: the stream of partition `p` and the elements in its words. -/
def unpackOwn (lo hi p : Nat) (l : SerArr × Nat) : Prop :=
  l = (.strm, p) ∨ (l.1 = .val ∧ lo ≤ l.2 / 32 ∧ l.2 / 32 < hi) ∨ (l.1 = .bits ∧ lo ≤ l.2 ∧ l.2 < hi)

end GraphMat

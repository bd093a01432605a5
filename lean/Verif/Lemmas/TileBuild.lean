import Verif.Lemmas.Tile

/-! The arrays of a DCSC tile, described column by column. -/
namespace GraphMat

variable {E : Type} {σ : Type}

/-- Induction from the right end of a list. -/
@[elab_as_elim]
theorem rev_ind {α : Type} {motive : List α → Prop} (l : List α) (nil : motive [])
    (append_singleton : ∀ l a, motive l → motive (l ++ [a])) : motive l := by
  have : ∀ n (l : List α), l.length = n → motive l := by
    intro n
    induction n with
    | zero => intro l hl; rw [List.length_eq_zero_iff] at hl; subst hl; exact nil
    | succ n ih =>
      intro l hl
      rcases List.eq_nil_or_concat l with h | ⟨D, c, h⟩
      · subst h; exact nil
      · rw [List.concat_eq_append] at h
        subst h
        exact append_singleton D c (ih D (by simpa using hl))
  exact this _ l rfl

/-- A column of a partition: its number and its entries (row, value) in stored order. -/
abbrev Col (E : Type) := Nat × List (Nat × E)

/-- All entries of some columns, in stored order. -/
def ents (C : List (Col E)) : List (Nat × E) := C.flatMap (·.2)

/-- All entries of some columns as (row, column, value). -/
def flat (C : List (Col E)) : List (Nat × Nat × E) :=
  C.flatMap (fun c => c.2.map (fun e => (e.1, c.1, e.2)))

/-- Number of entries in the first `j` columns. -/
def clen (C : List (Col E)) (j : Nat) : Nat := ((C.take j).map (·.2.length)).sum

/-- Add an edge to the list of columns as the build loop does. -/
def snocCol (C : List (Col E)) (e : TEdge E) : List (Col E) :=
  match C.getLast? with
  | none => [(e.dst, [(e.src, e.val)])]
  | some c => if c.1 < e.dst then C ++ [(e.dst, [(e.src, e.val)])]
              else C.dropLast ++ [(c.1, c.2 ++ [(e.src, e.val)])]

/-- The columns of a list of edges. -/
def colsOf (L : List (TEdge E)) : List (Col E) := L.foldl snocCol []

/-- `current_column` after the given columns. -/
def curOf (C : List (Col E)) : Int :=
  match C.getLast? with
  | none => -1
  | some c => c.1

theorem colsOf_snoc (L : List (TEdge E)) (e : TEdge E) : colsOf (L ++ [e]) = snocCol (colsOf L) e := by
  unfold colsOf; rw [List.foldl_append]; rfl

theorem curOf_snoc (C : List (Col E)) (c : Col E) : curOf (C ++ [c]) = c.1 := by
  unfold curOf; rw [List.getLast?_concat]

theorem snocCol_new {C : List (Col E)} {e : TEdge E} (h : curOf C < e.dst) :
    snocCol C e = C ++ [(e.dst, [(e.src, e.val)])] := by
  unfold snocCol curOf at *
  cases hC : C.getLast? with
  | none => rw [List.getLast?_eq_none_iff] at hC; subst hC; rfl
  | some c => rw [hC] at h; simp only at h ⊢; rw [if_pos (by omega)]

theorem snocCol_old {C : List (Col E)} {e : TEdge E} (h : ¬ curOf C < e.dst) :
    ∃ D c es, C = D ++ [(c, es)] ∧ snocCol C e = D ++ [(c, es ++ [(e.src, e.val)])] ∧ e.dst ≤ c := by
  rcases List.eq_nil_or_concat C with hC | ⟨D, c, hC⟩
  · subst hC; simp [curOf] at h; omega
  · rw [List.concat_eq_append] at hC
    subst hC
    rw [curOf_snoc] at h
    refine ⟨D, c.1, c.2, rfl, ?_, by omega⟩
    unfold snocCol
    rw [List.getLast?_concat]
    simp only
    rw [if_neg (by omega), List.dropLast_concat]

theorem ents_append (C D : List (Col E)) : ents (C ++ D) = ents C ++ ents D := by
  unfold ents; rw [List.flatMap_append]

theorem flat_append (C D : List (Col E)) : flat (C ++ D) = flat C ++ flat D := by
  unfold flat; rw [List.flatMap_append]

theorem clen_all (C : List (Col E)) : clen C C.length = (ents C).length := by
  unfold clen ents; rw [List.take_length, List.length_flatMap]

theorem clen_append {C D : List (Col E)} {j : Nat} (h : j ≤ C.length) : clen (C ++ D) j = clen C j := by
  unfold clen; rw [List.take_append_of_le_length h]

theorem clen_zero (C : List (Col E)) : clen C 0 = 0 := rfl

theorem clen_succ {C : List (Col E)} {j : Nat} (h : j < C.length) : clen C (j + 1) = clen C j + C[j].2.length := by
  unfold clen
  rw [List.take_add_one, List.getElem?_eq_getElem h, Option.toList_some, List.map_append, List.sum_append]
  simp

theorem ents_getElem {C : List (Col E)} {j k : Nat} (hj : j < C.length) (hk : k < C[j].2.length) :
    (ents C)[clen C j + k]? = some (C[j].2[k]) := by
  induction C generalizing j with
  | nil => simp at hj
  | cons c C ih =>
    have e : ents (c :: C) = c.2 ++ ents C := rfl
    cases j with
    | zero =>
      rw [clen_zero, e, Nat.zero_add]
      simp only [List.getElem_cons_zero] at hk ⊢
      rw [List.getElem?_append_left hk, List.getElem?_eq_getElem hk]
    | succ j =>
      have e2 : clen (c :: C) (j + 1) = c.2.length + clen C j := by
        unfold clen; simp
      simp only [List.getElem_cons_succ] at hk ⊢
      rw [e, e2, List.getElem?_append_right (by omega)]
      rw [show c.2.length + clen C j + k - c.2.length = clen C j + k by omega]
      exact ih (by simpa using hj) hk

theorem ents_colsOf (L : List (TEdge E)) : ents (colsOf L) = L.map (fun e => (e.src, e.val)) := by
  induction L using rev_ind with
  | nil => rfl
  | append_singleton L e ih =>
    rw [colsOf_snoc, List.map_append]
    by_cases h : curOf (colsOf L) < e.dst
    · rw [snocCol_new h, ents_append, ih]; rfl
    · obtain ⟨D, c, es, h1, h2, _⟩ := snocCol_old h
      rw [h2, ← ih, h1, ents_append, ents_append, List.append_assoc]; simp [ents]

theorem colsOf_length_snoc (L : List (TEdge E)) (e : TEdge E) :
    (colsOf L).length ≤ (colsOf (L ++ [e])).length := by
  rw [colsOf_snoc]
  by_cases h : curOf (colsOf L) < e.dst
  · rw [snocCol_new h]; simp
  · obtain ⟨D, c, es, h1, h2, _⟩ := snocCol_old h
    rw [h2, h1]; simp

theorem colsOf_length_take (L : List (TEdge E)) (k : Nat) :
    (colsOf (L.take k)).length ≤ (colsOf L).length := by
  induction L using rev_ind with
  | nil => simp
  | append_singleton L e ih =>
    rcases Nat.lt_or_ge L.length k with h | h
    · rw [List.take_of_length_le (by simp; omega)]; exact Nat.le_refl _
    · rw [List.take_append_of_le_length h]
      exact Nat.le_trans ih (colsOf_length_snoc L e)

/-- The order that `compare_dcsc` imposes inside a partition. -/
def ColOrder (a b : TEdge E) : Prop := a.dst < b.dst ∨ (a.dst = b.dst ∧ a.src ≤ b.src)

theorem colsOf_spec {L : List (TEdge E)} (hL : L.Pairwise ColOrder) :
    flat (colsOf L) = L.map (fun e => (e.src, e.dst, e.val)) ∧
    (colsOf L).Pairwise (fun a b => a.1 < b.1) ∧ (∀ c ∈ colsOf L, c.2 ≠ []) ∧
    (∀ e, L.getLast? = some e → curOf (colsOf L) = e.dst) := by
  induction L using rev_ind with
  | nil => exact ⟨rfl, List.Pairwise.nil, by simp [colsOf], by simp⟩
  | append_singleton L e ih =>
    rw [List.pairwise_append] at hL
    obtain ⟨i1, i2, i3, i4⟩ := ih hL.1
    rw [colsOf_snoc, List.map_append]
    by_cases h : curOf (colsOf L) < e.dst
    · rw [snocCol_new h]
      refine ⟨?_, ?_, ?_, ?_⟩
      · rw [flat_append, i1]; rfl
      · rw [List.pairwise_append]
        refine ⟨i2, List.pairwise_singleton _ _, ?_⟩
        intro a ha b hb
        rw [List.mem_singleton] at hb
        subst hb
        show a.1 < e.dst
        rcases List.eq_nil_or_concat (colsOf L) with hC | ⟨D, c, hC⟩
        · rw [hC] at ha; simp at ha
        · rw [List.concat_eq_append] at hC
          rw [hC, curOf_snoc] at h
          rw [hC] at ha i2
          rw [List.pairwise_append] at i2
          rw [List.mem_append] at ha
          rcases ha with ha | ha
          · have := i2.2.2 a ha c (by simp)
            omega
          · rw [List.mem_singleton] at ha; subst ha; omega
      · intro c hc
        rw [List.mem_append] at hc
        rcases hc with hc | hc
        · exact i3 c hc
        · rw [List.mem_singleton] at hc; subst hc; simp
      · intro e' he'
        rw [List.getLast?_concat] at he'
        injection he' with he'
        rw [curOf_snoc, he']
    · obtain ⟨D, c, es, h1, h2, h3⟩ := snocCol_old h
      have hc : c = e.dst := by
        cases hl : L.getLast? with
        | none =>
          rw [List.getLast?_eq_none_iff] at hl
          subst hl
          simp [colsOf] at h1
        | some e' =>
          have hcur := i4 e' hl
          rw [h1, curOf_snoc] at hcur
          have := hL.2.2 e' (List.mem_of_getLast? hl) e (by simp)
          simp only at hcur
          rcases this with hh | hh <;> omega
      rw [h2]
      refine ⟨?_, ?_, ?_, ?_⟩
      · rw [← i1, h1, flat_append, flat_append, List.append_assoc]
        congr 1
        unfold flat
        simp [hc]
      · rw [h1, List.pairwise_append] at i2
        rw [List.pairwise_append]
        refine ⟨i2.1, List.pairwise_singleton _ _, ?_⟩
        intro a ha b hb
        rw [List.mem_singleton] at hb
        subst hb
        exact i2.2.2 a ha (c, es) (by simp)
      · intro c' hc'
        rw [List.mem_append] at hc'
        rcases hc' with hc' | hc'
        · exact i3 c' (by rw [h1, List.mem_append]; exact Or.inl hc')
        · rw [List.mem_singleton] at hc'; subst hc'; simp
      · intro e' he'
        rw [List.getLast?_concat] at he'
        injection he' with he'
        rw [curOf_snoc, ← he', hc]

theorem countCols_spec {S : List (TEdge E)} {ep : Arr Nat} {p lo hi : Nat} {L : List (TEdge E)}
    (h1 : ep.read p = some lo) (h2 : ep.read (p + 1) = some hi) (hhi : hi = lo + L.length)
    (hL : ∀ k (hk : k < L.length), S[lo + k]? = some L[k]) :
    countCols S ep p = some (colsOf L).length := by
  unfold countCols
  rw [h1, h2]
  simp only [Option.bind_eq_bind, Option.bind_some]
  rw [forLoop_list (l := L) (F := fun st e => if st.1 < (e.dst : Int) then some ((e.dst : Int), st.2 + 1) else some st)
    hhi (fun k hk s => by rw [hL k hk]; rfl)]
  have key : ∀ L : List (TEdge E), L.foldlM (fun (st : Int × Nat) e =>
      if st.1 < (e.dst : Int) then some ((e.dst : Int), st.2 + 1) else some st) ((-1 : Int), 0)
      = some (curOf (colsOf L), (colsOf L).length) := by
    intro L
    induction L using rev_ind with
    | nil => rfl
    | append_singleton L e ih =>
      rw [List.foldlM_append, ih, colsOf_snoc]
      show (List.foldlM _ _ _ : Option _) = _
      rw [List.foldlM_cons]
      by_cases h : curOf (colsOf L) < e.dst
      · rw [if_pos h, snocCol_new h, curOf_snoc]
        simp
      · rw [if_neg h]
        obtain ⟨D, c, es, e1, e2, _⟩ := snocCol_old h
        rw [e2, e1, curOf_snoc, curOf_snoc]
        simp
  rw [key]
  rfl

theorem scanCols_spec (g : Nat → Nat) {len : Nat → Nat} {np : Nat} :
    ∃ cs, scanCols g ((List.range np).map len) np = some (cs, psum (fun p => len p + 1) np) ∧
      cs.size = np + 1 ∧ ∀ p, p ≤ np → cs.get p = psum (fun p => len p + 1) p := by
  unfold scanCols
  simp only [Option.bind_eq_bind]
  obtain ⟨st, h1, h2, h3, h4⟩ := forLoop_inv (lo := 0) (hi := np) (s := ((⟨np + 1, g⟩ : Arr Nat), 0))
    (body := fun p st => (st.1.write p st.2).bind fun cs => (((List.range np).map len)[p]?).bind fun k =>
      some (cs, st.2 + (k + 1)))
    (fun p st => st.1.size = np + 1 ∧ st.2 = psum (fun p => len p + 1) p ∧
      ∀ q, q < p → st.1.get q = psum (fun p => len p + 1) q)
    (Nat.zero_le _) ⟨rfl, rfl, by intro q hq; omega⟩ (by
      intro p st _ hp ⟨i1, i2, i3⟩
      rw [Arr.write_some (by omega), Option.bind_some, List.getElem?_map, List.getElem?_range hp]
      refine ⟨_, rfl, by simpa using i1, ?_, ?_⟩
      · simp only [psum]; omega
      · intro q hq
        simp only [Arr.upd_get]
        by_cases h : q = p
        · rw [if_pos h, i2, h]
        · rw [if_neg h]; exact i3 q (by omega))
  rw [h1, Option.bind_some, Arr.write_some (by omega), Option.bind_some]
  refine ⟨st.1.upd np st.2, by rw [h3], by simpa using h2, ?_⟩
  intro p hp
  rw [Arr.upd_get]
  by_cases h : p = np
  · rw [if_pos h, h3, h]
  · rw [if_neg h]; exact h4 p (by omega)

/-! ### The build loop -/

/-- What the build loop has written after the edges `L` of a partition whose entries start at `lo`
and whose columns start at `c0`. -/
structure BufOK (b0 : TileBuf E) (lo c0 : Nat) (L : List (TEdge E)) (b : TileBuf E) : Prop where
  sv : b.vals.size = b0.vals.size
  sr : b.rowInds.size = b0.rowInds.size
  si : b.colIdx.size = b0.colIdx.size
  sp : b.colPtrs.size = b0.colPtrs.size
  val : ∀ k (hk : k < L.length), b.vals.get (lo + k) = L[k].val
  row : ∀ k (hk : k < L.length), b.rowInds.get (lo + k) = L[k].src
  idx : ∀ j (hj : j < (colsOf L).length), b.colIdx.get (c0 + j) = (colsOf L)[j].1
  ptr : ∀ j, j < (colsOf L).length → b.colPtrs.get (c0 + j) = clen (colsOf L) j
  fval : ∀ i, (i < lo ∨ lo + L.length ≤ i) → b.vals.get i = b0.vals.get i
  frow : ∀ i, (i < lo ∨ lo + L.length ≤ i) → b.rowInds.get i = b0.rowInds.get i
  fidx : ∀ i, (i < c0 ∨ c0 + (colsOf L).length ≤ i) → b.colIdx.get i = b0.colIdx.get i
  fptr : ∀ i, (i < c0 ∨ c0 + (colsOf L).length ≤ i) → b.colPtrs.get i = b0.colPtrs.get i

theorem BufOK.step {b0 b : TileBuf E} {lo c0 : Nat} {L : List (TEdge E)} {S : List (TEdge E)} {e : TEdge E}
    (h : BufOK b0 lo c0 L b) (he : S[lo + L.length]? = some e) (h1 : lo + L.length < b0.vals.size)
    (h2 : lo + L.length < b0.rowInds.size) (h3 : c0 + (colsOf L).length < b0.colIdx.size)
    (h4 : c0 + (colsOf L).length < b0.colPtrs.size) :
    ∃ b', buildEdge S lo c0 (lo + L.length) (b, curOf (colsOf L), (colsOf L).length) =
        some (b', curOf (colsOf (L ++ [e])), (colsOf (L ++ [e])).length) ∧
      BufOK b0 lo c0 (L ++ [e]) b' := by
  unfold buildEdge
  rw [he]
  simp only [Option.bind_eq_bind, Option.bind_some]
  rw [show lo + (lo + L.length - lo) = lo + L.length by omega]
  rw [Arr.write_some (by rw [h.sv]; exact h1), Option.bind_some,
    Arr.write_some (by rw [h.sr]; exact h2), Option.bind_some]
  have hv : ∀ k (hk : k < (L ++ [e]).length), (b.vals.upd (lo + L.length) e.val).get (lo + k) = (L ++ [e])[k].val := by
    intro k hk
    rw [Arr.upd_get]
    by_cases hkl : k = L.length
    · subst hkl; simp
    · have hk' : k < L.length := by simp at hk; omega
      rw [if_neg (by omega), h.val k hk', List.getElem_append_left hk']
  have hr : ∀ k (hk : k < (L ++ [e]).length), (b.rowInds.upd (lo + L.length) e.src).get (lo + k) = (L ++ [e])[k].src := by
    intro k hk
    rw [Arr.upd_get]
    by_cases hkl : k = L.length
    · subst hkl; simp
    · have hk' : k < L.length := by simp at hk; omega
      rw [if_neg (by omega), h.row k hk', List.getElem_append_left hk']
  have hfv : ∀ i, (i < lo ∨ lo + (L ++ [e]).length ≤ i) → (b.vals.upd (lo + L.length) e.val).get i = b0.vals.get i := by
    intro i hi
    simp at hi
    rw [Arr.upd_get_ne _ _ (by omega)]; exact h.fval i (by omega)
  have hfr : ∀ i, (i < lo ∨ lo + (L ++ [e]).length ≤ i) → (b.rowInds.upd (lo + L.length) e.src).get i = b0.rowInds.get i := by
    intro i hi
    simp at hi
    rw [Arr.upd_get_ne _ _ (by omega)]; exact h.frow i (by omega)
  by_cases hc : curOf (colsOf L) < e.dst
  · rw [if_pos hc, Arr.write_some (by rw [h.si]; exact h3), Option.bind_some,
      Arr.write_some (by rw [h.sp]; exact h4), Option.bind_some]
    have hcols : colsOf (L ++ [e]) = colsOf L ++ [(e.dst, [(e.src, e.val)])] := by
      rw [colsOf_snoc, snocCol_new hc]
    refine ⟨_, by rw [hcols, curOf_snoc]; simp only [List.length_append, List.length_singleton]; rfl, ?_⟩
    refine ⟨by simpa using h.sv, by simpa using h.sr, by simpa using h.si, by simpa using h.sp, hv, hr, ?_, ?_, hfv, hfr, ?_, ?_⟩
    · intro j hj
      simp only [Arr.upd_get]
      by_cases hjl : j = (colsOf L).length
      · subst hjl; simp [hcols]
      · have hj' : j < (colsOf L).length := by rw [hcols] at hj; simp at hj; omega
        rw [if_neg (by omega), h.idx j hj']
        simp only [hcols]
        rw [List.getElem_append_left hj']
    · intro j hj
      simp only [Arr.upd_get]
      rw [hcols]
      by_cases hjl : j = (colsOf L).length
      · subst hjl
        rw [if_pos rfl, clen_append (Nat.le_refl _), clen_all, ents_colsOf]
        simp
      · have hj' : j < (colsOf L).length := by rw [hcols] at hj; simp at hj; omega
        rw [if_neg (by omega), h.ptr j hj', clen_append (by omega)]
    · intro i hi
      rw [hcols] at hi; simp at hi
      simp only
      rw [Arr.upd_get_ne _ _ (by omega)]; exact h.fidx i (by omega)
    · intro i hi
      rw [hcols] at hi; simp at hi
      simp only
      rw [Arr.upd_get_ne _ _ (by omega)]; exact h.fptr i (by omega)
  · rw [if_neg hc]
    obtain ⟨D, c, es, e1, e2, _⟩ := snocCol_old hc
    have hcols : colsOf (L ++ [e]) = D ++ [(c, es ++ [(e.src, e.val)])] := by rw [colsOf_snoc, e2]
    have hlen : (colsOf (L ++ [e])).length = (colsOf L).length := by rw [hcols, e1]; simp
    refine ⟨_, by rw [hlen, hcols, e1, curOf_snoc, curOf_snoc], ?_⟩
    refine ⟨by simpa using h.sv, by simpa using h.sr, by simpa using h.si, by simpa using h.sp, hv, hr, ?_, ?_, hfv, hfr, ?_, ?_⟩
    · intro j hj
      have hj' : j < (colsOf L).length := by omega
      rw [h.idx j hj']
      simp only [hcols, e1]
      by_cases hd : j < D.length
      · rw [List.getElem_append_left hd, List.getElem_append_left hd]
      · rw [List.getElem_append_right (by omega), List.getElem_append_right (by omega)]
        simp
    · intro j hj
      have hj' : j < (colsOf L).length := by omega
      rw [h.ptr j hj', hcols, e1]
      have : j ≤ D.length := by rw [e1] at hj'; simp at hj'; omega
      rw [clen_append this, clen_append this]
    · intro i hi; rw [hlen] at hi; exact h.fidx i hi
    · intro i hi; rw [hlen] at hi; exact h.fptr i hi

/-- The state after one partition. -/
structure PartOK (b0 : TileBuf E) (lo c0 n : Nat) (L : List (TEdge E)) (b : TileBuf E) : Prop where
  sv : b.vals.size = b0.vals.size
  sr : b.rowInds.size = b0.rowInds.size
  si : b.colIdx.size = b0.colIdx.size
  sp : b.colPtrs.size = b0.colPtrs.size
  val : ∀ k (hk : k < L.length), b.vals.get (lo + k) = L[k].val
  row : ∀ k (hk : k < L.length), b.rowInds.get (lo + k) = L[k].src
  idx : ∀ j (hj : j < (colsOf L).length), b.colIdx.get (c0 + j) = (colsOf L)[j].1
  last : b.colIdx.get (c0 + (colsOf L).length) = n + 1
  ptr : ∀ j, j ≤ (colsOf L).length → b.colPtrs.get (c0 + j) = clen (colsOf L) j
  fval : ∀ i, (i < lo ∨ lo + L.length ≤ i) → b.vals.get i = b0.vals.get i
  frow : ∀ i, (i < lo ∨ lo + L.length ≤ i) → b.rowInds.get i = b0.rowInds.get i
  fidx : ∀ i, (i < c0 ∨ c0 + (colsOf L).length + 1 ≤ i) → b.colIdx.get i = b0.colIdx.get i
  fptr : ∀ i, (i < c0 ∨ c0 + (colsOf L).length + 1 ≤ i) → b.colPtrs.get i = b0.colPtrs.get i

theorem buildPart_spec {S : List (TEdge E)} {ep cs : Arr Nat} {n p lo c0 : Nat} {L : List (TEdge E)}
    {b0 : TileBuf E} (he0 : ep.read p = some lo) (he1 : ep.read (p + 1) = some (lo + L.length))
    (hc0 : cs.read p = some c0) (hc1 : cs.read (p + 1) = some (c0 + ((colsOf L).length + 1)))
    (hL : ∀ k (hk : k < L.length), S[lo + k]? = some L[k])
    (h1 : lo + L.length ≤ b0.vals.size) (h2 : lo + L.length ≤ b0.rowInds.size)
    (h3 : c0 + (colsOf L).length < b0.colIdx.size) (h4 : c0 + (colsOf L).length < b0.colPtrs.size) :
    ∃ b, buildPart S ep cs n p b0 = some b ∧ PartOK b0 lo c0 n L b := by
  unfold buildPart
  rw [he0, he1, hc0, hc1]
  simp only [Option.bind_eq_bind, Option.bind_some]
  obtain ⟨st, hst, ⟨b, rfl, hb⟩⟩ := forLoop_inv (lo := lo) (hi := lo + L.length) (s := (b0, (-1 : Int), 0))
    (body := buildEdge S lo c0)
    (fun i st => ∃ b, st = (b, curOf (colsOf (L.take (i - lo))), (colsOf (L.take (i - lo))).length) ∧
      BufOK b0 lo c0 (L.take (i - lo)) b)
    (by omega)
    ⟨b0, by rw [Nat.sub_self]; rfl, by
      rw [Nat.sub_self]
      exact ⟨rfl, rfl, rfl, rfl, by simp, by simp, by simp [colsOf], by simp [colsOf], fun _ _ => rfl, fun _ _ => rfl,
        fun _ _ => rfl, fun _ _ => rfl⟩⟩ (by
      intro i st hi1 hi2 ⟨b, hst, hb⟩
      subst hst
      obtain ⟨k, rfl⟩ : ∃ k, i = lo + k := ⟨i - lo, by omega⟩
      rw [Nat.add_sub_cancel_left] at hb ⊢
      have hk : k < L.length := by omega
      have hlen : (L.take k).length = k := by simp; omega
      have hcl := colsOf_length_take L k
      have := BufOK.step (S := S) (e := L[k]) hb (by rw [hlen]; exact hL k hk) (by omega) (by omega) (by omega) (by omega)
      rw [hlen] at this
      obtain ⟨b', e1, e2⟩ := this
      rw [show lo + k + 1 - lo = k + 1 by omega]
      have ht : L.take (k + 1) = L.take k ++ [L[k]] := by
        rw [List.take_add_one, List.getElem?_eq_getElem hk]; rfl
      rw [ht]
      exact ⟨_, e1, b', rfl, e2⟩)
  rw [hst]
  simp only [Option.bind_some]
  rw [Nat.add_sub_cancel_left, List.take_length] at hb
  rw [show c0 + ((colsOf L).length + 1) - c0 - 1 = (colsOf L).length by omega,
    show lo + L.length - lo = L.length by omega]
  rw [Arr.write_some (by rw [hb.sp]; exact h4), Option.bind_some, Arr.write_some (by rw [hb.si]; exact h3),
    Option.bind_some]
  refine ⟨_, rfl, ?_⟩
  refine ⟨hb.sv, hb.sr, by simpa using hb.si, by simpa using hb.sp, hb.val, hb.row, ?_, by simp, ?_, hb.fval, hb.frow, ?_, ?_⟩
  · intro j hj
    simp only
    rw [Arr.upd_get_ne _ _ (by omega)]; exact hb.idx j hj
  · intro j hj
    simp only [Arr.upd_get]
    by_cases hjl : j = (colsOf L).length
    · subst hjl
      rw [if_pos rfl, clen_all, ents_colsOf]; simp
    · rw [if_neg (by omega)]; exact hb.ptr j (by omega)
  · intro i hi
    simp only
    rw [Arr.upd_get_ne _ _ (by omega)]; exact hb.fidx i (by omega)
  · intro i hi
    simp only
    rw [Arr.upd_get_ne _ _ (by omega)]; exact hb.fptr i (by omega)

end GraphMat

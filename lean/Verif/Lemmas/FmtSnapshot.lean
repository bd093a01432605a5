import Verif.Model.FmtSnapshot
import Verif.Lemmas.VecSnapshot
import Verif.Lemmas.FmtHybrid

/-! What is written to the archive of a tile of the other formats and what is read back from it. -/
namespace GraphMat

variable {E T U : Type}

theorem getInt_cons (x : Nat) (ar : Archive E) : getInt (Tok.int x :: ar) = some (x, ar) := rfl

theorem getVal_cons (x : E) (ar : Archive E) : getVal (Tok.val x :: ar) = some (x, ar) := rfl

theorem getSigned_cons (x : Int) (ar : Archive E) : getSigned (Tok.signed x :: ar) = some (x, ar) := rfl

/-- What is written for the first `k` elements of an array. -/
def arrToks {α : Type} (enc : α → Tok E) (a : Arr α) (k : Nat) : Archive E := (List.range k).map (fun i => enc (a.get i))

theorem putArr_toks {α : Type} {enc : α → Tok E} {a : Arr α} {k : Nat} (h : a.size = k) (ar : Archive E) :
    putArr enc a k ar = some (ar ++ arrToks enc a k) := putArr_spec (Nat.le_of_eq h.symm) ar

theorem takeArr_toks {α : Type} {get : Archive E → Option (α × Archive E)} {enc : α → Tok E}
    (hg : ∀ x ar, get (enc x :: ar) = some (x, ar)) {a : Arr α} {k : Nat} (h : a.size = k) (f : Nat → α)
    (rest : Archive E) : takeArr get ⟨k, f⟩ k (arrToks enc a k ++ rest) = some (a.reload f, rest) := by
  unfold arrToks
  rw [takeArr_spec hg (Nat.le_refl k)]
  unfold Arr.reload
  rw [h]

/-! ### CSR -/

/-- The arrays of the CSR tile have the sizes that `save` reads. -/
def CSR.Sized (t : CSR E) : Prop := 0 < t.nnz → t.a.size = t.nnz ∧ t.ja.size = t.nnz ∧ t.ia.size = t.m + 1

/-- What `save` writes for a CSR tile. -/
def CSR.toks (t : CSR E) : Archive E :=
  [.int t.m, .int t.n, .int t.nnz] ++
  (if t.nnz > 0 then arrToks .val t.a t.nnz ++ (arrToks .signed t.ja t.nnz ++ arrToks .int t.ia (t.m + 1)) else [])

/-- The CSR tile read back. -/
def CSR.reload (t : CSR E) (g : FmtFresh E) : CSR E :=
  if t.nnz > 0 then { t with a := t.a.reload g.vals, ja := t.ja.reload (g.ints 0), ia := t.ia.reload (g.nats 0) }
  else ⟨t.m, t.n, t.nnz, ⟨0, g.vals⟩, ⟨0, g.ints 0⟩, ⟨0, g.nats 0⟩⟩

theorem CSR.Sized.archive {t : CSR E} (h : t.Sized) (ar : Archive E) : t.archive ar = some (ar ++ t.toks) := by
  unfold CSR.archive CSR.toks
  simp only [Option.bind_eq_bind]
  by_cases hn : t.nnz > 0
  · obtain ⟨h1, h2, h3⟩ := h hn
    rw [if_pos hn, if_pos hn, putArr_toks h1, Option.bind_some, putArr_toks h2, Option.bind_some, putArr_toks h3]
    simp only [List.append_assoc]
  · rw [if_neg hn, if_neg hn, List.append_nil]

theorem CSR.Sized.restore {t : CSR E} (h : t.Sized) (g : FmtFresh E) (ar : Archive E) :
    CSR.restore g (t.toks ++ ar) = some (t.reload g, ar) := by
  unfold CSR.restore CSR.toks CSR.reload
  simp only [List.cons_append, List.nil_append, getInt_cons, Option.bind_eq_bind, Option.bind_some]
  by_cases hn : t.nnz > 0
  · obtain ⟨h1, h2, h3⟩ := h hn
    simp only [if_pos hn, List.append_assoc, takeArr_toks getVal_cons h1, takeArr_toks getSigned_cons h2,
      takeArr_toks getInt_cons h3, Option.bind_some]
  · simp only [if_neg hn, List.nil_append]

theorem CSR.reload_getEdges (t : CSR E) (g : FmtFresh E) (out : Nat → Edge E) (rs cs : Nat) :
    (t.reload g).getEdges out rs cs = t.getEdges out rs cs := by
  unfold CSR.reload CSR.getEdges
  by_cases hn : t.nnz > 0
  · simp only [if_pos hn, Arr.reload_read]
  · simp only [if_neg hn]

theorem CSR.reload_mult (t : CSR E) (g : FmtFresh E) (threads : Nat) (gy : Fresh U) (old : Nat → U) (mul : E → T → U → U)
    (add : U → U → U) : (t.reload g).mult threads gy old mul add = t.mult threads gy old mul add := by
  funext sx sy
  unfold CSR.reload CSR.mult CSR.spmspv
  by_cases hn : t.nnz > 0
  · have hr : csrRow (T := T) { t with a := t.a.reload g.vals, ja := t.ja.reload (g.ints 0), ia := t.ia.reload (g.nats 0) }
        mul add old = csrRow t mul add old := by
      funext xv xb row st
      unfold csrRow
      simp only [Arr.reload_read]
    simp only [if_pos hn, hr]
  · simp only [if_neg hn]

theorem CSR.Holds.sized {t : CSR E} {m n : Nat} {l : List (Nat × Nat × E)} (h : t.Holds m n l) : t.Sized := by
  intro hn
  rcases h.2.2.2 with h | ⟨c, ent, h, _⟩
  · omega
  · exact ⟨h.asz, h.jsz, h.isz⟩

/-! ### COO and COO-SIMD -/

/-- The arrays of the COO tile have the sizes that `save` reads. -/
def COO.Sized (simd : Bool) (t : COO E) : Prop :=
  0 < t.nnz → t.a.size = t.nnz ∧ t.ja.size = t.nnz ∧ t.ia.size = t.nnz ∧ t.ps.size = t.np + 1 ∧
    (simd = true → t.simd.size = t.np + 1)

/-- What `save` writes for `simd_nnz`. -/
def simdToks (simd : Bool) (t : COO E) : Archive E := if simd then arrToks .int t.simd (t.np + 1) else []

/-- What `save` writes for a COO tile. -/
def COO.toks (simd : Bool) (t : COO E) : Archive E :=
  [.int t.m, .int t.n, .int t.nnz, .int t.np] ++
  (if t.nnz > 0 then arrToks .val t.a t.nnz ++ (arrToks .signed t.ja t.nnz ++ (arrToks .signed t.ia t.nnz ++
    (arrToks .int t.ps (t.np + 1) ++ simdToks simd t))) else [])

/-- The COO tile read back. -/
def COO.reload (simd : Bool) (t : COO E) (g : FmtFresh E) : COO E :=
  if t.nnz > 0 then
    { t with a := t.a.reload g.vals, ja := t.ja.reload (g.ints 4), ia := t.ia.reload (g.ints 5),
             ps := t.ps.reload (g.nats 4), simd := if simd then t.simd.reload (g.nats 5) else ⟨0, g.nats 5⟩ }
  else ⟨t.m, t.n, t.nnz, t.np, ⟨0, g.vals⟩, ⟨0, g.ints 4⟩, ⟨0, g.ints 5⟩, ⟨0, g.nats 4⟩, ⟨0, g.nats 5⟩⟩

theorem COO.Sized.archive {simd : Bool} {t : COO E} (h : t.Sized simd) (ar : Archive E) :
    t.archive simd ar = some (ar ++ t.toks simd) := by
  unfold COO.archive COO.toks
  simp only [Option.bind_eq_bind]
  by_cases hn : t.nnz > 0
  · obtain ⟨h1, h2, h3, h4, h5⟩ := h hn
    rw [if_pos hn, if_pos hn, putArr_toks h1, Option.bind_some, putArr_toks h2, Option.bind_some, putArr_toks h3,
      Option.bind_some, putArr_toks h4, Option.bind_some]
    unfold putSimd simdToks
    cases simd with
    | true => rw [if_pos rfl, if_pos rfl, putArr_toks (h5 rfl)]; simp only [List.append_assoc]
    | false => simp only [Bool.false_eq_true, if_false, List.append_assoc, List.append_nil]
  · rw [if_neg hn, if_neg hn, List.append_nil]

theorem COO.Sized.restore {simd : Bool} {t : COO E} (h : t.Sized simd) (g : FmtFresh E) (ar : Archive E) :
    COO.restore simd g (t.toks simd ++ ar) = some (t.reload simd g, ar) := by
  unfold COO.restore COO.toks COO.reload
  simp only [List.cons_append, List.nil_append, getInt_cons, Option.bind_eq_bind, Option.bind_some]
  by_cases hn : t.nnz > 0
  · obtain ⟨h1, h2, h3, h4, h5⟩ := h hn
    simp only [if_pos hn, List.append_assoc, takeArr_toks getVal_cons h1, takeArr_toks getSigned_cons h2,
      takeArr_toks getSigned_cons h3, takeArr_toks getInt_cons h4, Option.bind_some]
    unfold takeSimd simdToks
    cases simd with
    | true => simp only [if_true, takeArr_toks getInt_cons (h5 rfl), Option.bind_some]
    | false => simp only [Bool.false_eq_true, if_false, List.nil_append, Option.bind_some]
  · simp only [if_neg hn, List.nil_append]

theorem COO.reload_nnz (simd : Bool) (t : COO E) (g : FmtFresh E) : (t.reload simd g).nnz = t.nnz := by
  unfold COO.reload
  split <;> rfl

theorem COO.reload_getEdges (simd : Bool) (t : COO E) (g : FmtFresh E) (rs cs : Nat) :
    (t.reload simd g).getEdges rs cs = t.getEdges rs cs := by
  unfold COO.reload COO.getEdges
  by_cases hn : t.nnz > 0
  · simp only [if_pos hn, Arr.reload_read]
  · have hz : t.nnz = 0 := by omega
    simp only [hz]
    rfl

theorem COO.reload_spmspv (simd : Bool) {t : COO E} (hn : t.nnz > 0) (g : FmtFresh E) (mul : E → T → U → U)
    (add : U → U → U) (old : Nat → U) (xv : Arr T) (xb : Arr Word) (st : Arr U × Arr Word) :
    (t.reload simd g).spmspv mul add old xv xb st = t.spmspv mul add old xv xb st := by
  have hr : cooEntry (t.reload simd g) mul add old xv xb = cooEntry t mul add old xv xb := by
    funext nz st
    unfold COO.reload cooEntry
    simp only [if_pos hn, Arr.reload_read]
  unfold COO.spmspv
  rw [hr]
  unfold COO.reload
  simp only [if_pos hn, Arr.reload_read]

theorem COO.reload_mult (simd : Bool) (t : COO E) (g : FmtFresh E) (gy : Fresh U) (old : Nat → U) (mul : E → T → U → U)
    (add : U → U → U) : (t.reload simd g).mult gy old mul add = t.mult gy old mul add := by
  funext sx sy
  unfold COO.mult
  rw [COO.reload_nnz]
  by_cases hn : t.nnz > 0
  · simp only [if_pos hn, COO.reload_spmspv simd hn]
  · simp only [if_neg hn]

theorem COO.Holds.sized {t : COO E} {m n : Nat} {l : List (Nat × Nat × E)} (h : t.Holds m n l) : t.Sized false := by
  intro hn
  rcases h.2.2.2 with h | ⟨ent, h, hp, _⟩
  · omega
  · exact ⟨h.asz, h.jsz, h.isz, hp.psz, fun h => by cases h⟩

theorem simdPart_size {g : Nat → Nat} {sortBins : List SimdBin → List SimdBin} {ts : List (TEdge E)} {ps : Arr Nat}
    {m rpp p : Nat} {st st' : SimdBuf E × Arr Nat} (h : simdPart g sortBins ts ps m rpp p st = some st') :
    st'.2.size = st.2.size := by
  unfold simdPart at h
  simp only [Option.bind_eq_bind, Option.bind_eq_some_iff] at h
  obtain ⟨s, _, e, _, bs, _, bins, _, r, _, simd, hw, q, _, hif⟩ := h
  have hs : simd.size = st.2.size := by
    unfold Arr.write at hw
    split at hw
    · cases hw; rfl
    · cases hw
  split at hif
  · cases hif; exact hs
  · cases hif

theorem COO.buildSimd_size {g : FmtFresh E} {threads : Nat} {sort : List (TEdge E) → List (TEdge E)}
    {sortBins : Nat → List SimdBin → List SimdBin} {edges : List (Edge E)} {m n rs cs : Nat} {t : COO E}
    (h : COO.buildSimd g threads sort sortBins edges m n rs cs = some t) (hn : 0 < t.nnz) : t.simd.size = t.np + 1 := by
  unfold COO.buildSimd at h
  by_cases hl : edges.length > 0
  · rw [if_pos hl] at h
    simp only [Option.bind_eq_bind, Option.bind_eq_some_iff] at h
    obtain ⟨ts, _, ia, _, h⟩ := h
    split at h
    · cases h
    · simp only [Option.bind_eq_some_iff] at h
      obtain ⟨ps, _, st, hst, h⟩ := h
      cases h
      exact forLoop_some_inv (fun _ (st : SimdBuf E × Arr Nat) => st.2.size = threads * 4 + 1) (Nat.zero_le _) rfl
        (fun i s s' _ _ hb hs => by rw [simdPart_size hb, hs]) hst
  · rw [if_neg hl] at h
    cases h
    exact absurd hn (Nat.lt_irrefl 0)

theorem COO.Holds.sized_simd {t : COO E} {m n : Nat} {l : List (Nat × Nat × E)} (h : t.Holds m n l)
    (hs : 0 < t.nnz → t.simd.size = t.np + 1) : t.Sized true := by
  intro hn
  obtain ⟨h1, h2, h3, h4, _⟩ := h.sized hn
  exact ⟨h1, h2, h3, h4, fun _ => hs hn⟩

/-! ### DCSR -/

/-- The arrays of the DCSR tile have these sizes. -/
def DCSR.Sized (t : DCSR E) : Prop :=
  0 < t.nnz → t.a.size = t.nnz ∧ t.ja.size = t.nnz ∧ t.ia.size = t.numRows + 1 ∧ t.rowIds.size = t.numRows ∧
    t.numRows ≤ t.m

/-- `ia` as it is saved. -/
def DCSR.iaSeen (t : DCSR E) (f : Nat → Nat) : Arr Nat := t.ia.beyond (t.m + 1) (some f)

/-- What `save` writes for a DCSR tile; behind the array `ia` the memory holds `f`. -/
def DCSR.toks (f : Nat → Nat) (t : DCSR E) : Archive E :=
  [.int t.m, .int t.n, .int t.numRows, .int t.nnz, .int t.np] ++
  (if t.nnz > 0 then arrToks .val t.a t.nnz ++ (arrToks .signed t.ja t.nnz ++ (arrToks .int (t.iaSeen f) (t.m + 1) ++
    arrToks .signed t.rowIds t.numRows)) else [])

/-- The DCSR tile read back. -/
def DCSR.reload (f : Nat → Nat) (t : DCSR E) (g : FmtFresh E) : DCSR E :=
  if t.nnz > 0 then
    { t with pp := ⟨0, g.nats 2⟩, a := t.a.reload g.vals, ja := t.ja.reload (g.ints 3),
             ia := (t.iaSeen f).reload (g.nats 1), rowIds := t.rowIds.reload (g.ints 2) }
  else ⟨t.m, t.n, t.numRows, t.nnz, t.np, ⟨0, g.nats 2⟩, ⟨0, g.vals⟩, ⟨0, g.ints 3⟩, ⟨0, g.nats 1⟩, ⟨0, g.ints 2⟩⟩

theorem DCSR.iaSeen_size {t : DCSR E} (f : Nat → Nat) (h1 : t.ia.size = t.numRows + 1) (h2 : t.numRows ≤ t.m) :
    (t.iaSeen f).size = t.m + 1 := by
  show max t.ia.size (t.m + 1) = t.m + 1
  omega

theorem DCSR.Sized.archive {t : DCSR E} (h : t.Sized) (f : Nat → Nat) (ar : Archive E) :
    t.archive (some f) ar = some (ar ++ t.toks f) := by
  unfold DCSR.archive DCSR.toks
  simp only [Option.bind_eq_bind]
  by_cases hn : t.nnz > 0
  · obtain ⟨h1, h2, h3, h4, h5⟩ := h hn
    rw [if_pos hn, if_pos hn, putArr_toks h1, Option.bind_some, putArr_toks h2, Option.bind_some]
    show (putArr Tok.int (t.iaSeen f) (t.m + 1) _).bind _ = _
    rw [putArr_toks (DCSR.iaSeen_size f h3 h5), Option.bind_some, putArr_toks h4]
    simp only [List.append_assoc]
  · rw [if_neg hn, if_neg hn, List.append_nil]

/-- Nothing behind the end is read if the tile has no edges or no empty row. -/
theorem DCSR.Sized.archive_strict {t : DCSR E} (h : t.Sized) (hm : t.nnz = 0 ∨ t.numRows = t.m) (f : Nat → Nat)
    (ar : Archive E) : t.archive none ar = some (ar ++ t.toks f) := by
  by_cases hn : t.nnz > 0
  · obtain ⟨h1, h2, h3, h4, h5⟩ := h hn
    have hm : t.numRows = t.m := by omega
    unfold DCSR.archive DCSR.toks
    simp only [Option.bind_eq_bind]
    have hia : arrToks Tok.int (t.iaSeen f) (t.m + 1) = arrToks (E := E) Tok.int t.ia (t.m + 1) := by
      unfold arrToks
      apply List.map_congr_left
      intro i hi
      rw [List.mem_range] at hi
      show Tok.int (if i < t.ia.size then t.ia.get i else f i) = _
      rw [if_pos (by omega)]
    rw [if_pos hn, if_pos hn, putArr_toks h1, Option.bind_some, putArr_toks h2, Option.bind_some, hia]
    show (putArr Tok.int t.ia (t.m + 1) _).bind _ = _
    rw [putArr_toks (by omega), Option.bind_some, putArr_toks h4]
    simp only [List.append_assoc]
  · unfold DCSR.archive DCSR.toks
    simp only [Option.bind_eq_bind]
    rw [if_neg hn, if_neg hn, List.append_nil]

theorem DCSR.Sized.restore {t : DCSR E} (h : t.Sized) (f : Nat → Nat) (g : FmtFresh E) (ar : Archive E) :
    DCSR.restore g (t.toks f ++ ar) = some (t.reload f g, ar) := by
  unfold DCSR.restore DCSR.toks DCSR.reload
  simp only [List.cons_append, List.nil_append, getInt_cons, Option.bind_eq_bind, Option.bind_some]
  by_cases hn : t.nnz > 0
  · obtain ⟨h1, h2, h3, h4, h5⟩ := h hn
    simp only [if_pos hn, List.append_assoc, takeArr_toks getVal_cons h1, takeArr_toks getSigned_cons h2,
      takeArr_toks getInt_cons (DCSR.iaSeen_size f h3 h5), takeArr_toks getSigned_cons h4, Option.bind_some]
  · simp only [if_neg hn, List.nil_append]

theorem DCSR.Sized.reload_getEdges {t : DCSR E} (h : t.Sized) (f : Nat → Nat) (g : FmtFresh E) (out : Nat → Edge E)
    (rs cs : Nat) : (t.reload f g).getEdges out rs cs = t.getEdges out rs cs := by
  unfold DCSR.reload DCSR.getEdges
  by_cases hn : t.nnz > 0
  · obtain ⟨h1, h2, h3, h4, h5⟩ := h hn
    have hr : ∀ i, i ≤ t.numRows → ((t.iaSeen f).reload (g.nats 1)).read i = t.ia.read i := by
      intro i hi
      rw [Arr.reload_read, Arr.read_some (by rw [DCSR.iaSeen_size f h3 h5]; omega), Arr.read_some (by omega)]
      show some (if i < t.ia.size then t.ia.get i else f i) = _
      rw [if_pos (by omega)]
    simp only [if_pos hn, Arr.reload_read, Option.bind_eq_bind]
    congr 1
    apply forLoop_congr
    intro i _ hi st
    rw [← hr i (by omega), ← hr (i + 1) (by omega), Arr.reload_read, Arr.reload_read]
  · simp only [if_neg hn]

theorem DCSR.Holds.sized {t : DCSR E} {m n : Nat} {l : List (Nat × Nat × E)} (h : t.Holds m n l) : t.Sized := by
  intro hn
  rcases h.2.2.2 with h | ⟨r, c, ent, h, _⟩
  · omega
  · exact ⟨h.asz, h.jsz, h.isz, h.rsz, h.rle⟩

/-- Reading `ia` beyond its end. -/
theorem putArr_short {α : Type} {enc : α → Tok E} {a : Arr α} {k : Nat} (h : a.size < k) (ar : Archive E) :
    putArr enc a k ar = none := by
  unfold putArr
  obtain ⟨d, rfl⟩ : ∃ d, k = a.size + 1 + d := ⟨k - (a.size + 1), by omega⟩
  induction d with
  | zero =>
    rw [Nat.add_zero, forLoop_succ_right (Nat.zero_le _)]
    cases forLoop 0 a.size ar _ with
    | none => rfl
    | some ar' =>
      have : a.read a.size = none := by
        unfold Arr.read
        rw [if_neg (Nat.lt_irrefl _)]
      rw [Option.bind_some, this]
      rfl
  | succ d ih =>
    rw [← Nat.add_assoc, forLoop_succ_right (Nat.zero_le _), ih (by omega)]
    rfl

theorem DCSR.Sized.archive_none {t : DCSR E} (h : t.Sized) (hn : 0 < t.nnz) (hm : t.numRows < t.m) (ar : Archive E) :
    t.archive none ar = none := by
  obtain ⟨h1, h2, h3, h4, h5⟩ := h hn
  unfold DCSR.archive
  simp only [Option.bind_eq_bind]
  rw [if_pos hn, putArr_toks h1, Option.bind_some, putArr_toks h2, Option.bind_some]
  show (putArr Tok.int t.ia (t.m + 1) _).bind _ = _
  rw [putArr_short (by omega)]
  rfl

/-- A DCSR tile with edges that was read back cannot be multiplied. -/
theorem DCSR.reload_kernel {t : DCSR E} (hn : 0 < t.nnz) (hp : 0 < t.np) (f : Nat → Nat) (g : FmtFresh E) (old : Nat → U)
    (mul : E → T → U → U) (add : U → U → U) (sx : Segment T) (st : Arr U × Arr Word) :
    (t.reload f g).kernel old mul add sx st = none := by
  unfold DCSR.reload DCSR.kernel
  simp only [if_pos hn, Option.bind_eq_bind]
  cases sx.props with
  | none => rfl
  | some bx =>
    rw [Option.bind_some]
    unfold DCSR.spmspv
    dsimp only
    rw [forLoop_succ_left hp]
    rfl

theorem multWith_none {g : Fresh U} {kernel : Segment T → Arr U × Arr Word → Option (Arr U × Arr Word)} {sx : Segment T}
    (h : ∀ st, kernel sx st = none) (sy : Segment U) : multWith g kernel sx sy = none := by
  unfold multWith
  simp only [Option.bind_eq_bind, h, Option.bind_none]
  cases (sy.alloc g).initialize with
  | none => rfl
  | some s => rw [Option.bind_some]; cases s.props <;> rfl

/-! ### Hybrid -/

/-- What is written for a hybrid tile with edges. -/
def Hybrid.toks (f : Nat → Nat) (t : Hybrid E) (t1 : DCSR E) (t2 : COO E) : Archive E :=
  [.int t.m, .int t.n, .int t.nnz, .int t.nnz1, .int (t.nnz - t.nnz1)] ++ (.object :: (t1.toks f ++ (.object :: t2.toks true)))

theorem Hybrid.archive_spec {behind : Option (Nat → Nat)} {f : Nat → Nat} {t : Hybrid E} {t1 : DCSR E} {t2 : COO E}
    (hn : t.nnz > 0) (h1 : t.t1 = some t1) (h2 : t.t2 = some t2)
    (a1 : ∀ ar, t1.archive behind ar = some (ar ++ t1.toks f)) (a2 : t2.Sized true) (ar : Archive E) :
    t.archive behind ar = some (ar ++ t.toks f t1 t2) := by
  unfold Hybrid.archive Hybrid.toks
  simp only [Option.bind_eq_bind]
  rw [if_pos hn, h1, Option.bind_some, a1, Option.bind_some, h2, Option.bind_some, a2.archive]
  simp only [List.append_assoc, List.cons_append, List.nil_append]

theorem Hybrid.restore_spec {f : Nat → Nat} {t : Hybrid E} {t1 : DCSR E} {t2 : COO E}
    (hn : t.nnz > 0) (a1 : t1.Sized) (a2 : t2.Sized true) (g : FmtFresh E) (ar : Archive E) :
    Hybrid.restore g (t.toks f t1 t2 ++ ar) =
      some (⟨t.m, t.n, t.nnz, t.nnz1, some (t1.reload f g), some (t2.reload true g)⟩, ar) := by
  unfold Hybrid.restore Hybrid.toks
  simp only [List.cons_append, List.nil_append, getInt_cons, Option.bind_eq_bind, Option.bind_some, List.append_assoc,
    if_pos hn, takeDcsr, a1.restore, takeCoo, a2.restore]

end GraphMat

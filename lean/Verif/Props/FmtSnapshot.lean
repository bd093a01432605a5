import Verif.Lemmas.FmtSnapshot
import Verif.Props.Formats
import Verif.Spec.Archive

/-!
# C60: tiles of every format survive an archive

A tile that is saved and loaded returns the same edges and multiplies like the original.  Proved for CSR, COO-SIMD and DCSC
tiles; for COO tiles with the restriction that their constructor needs (C44).  It is false for DCSR tiles, and so for hybrid
tiles with a row of at least 16 edges: `save` reads behind the end of `ia`, and `load` does not restore `partition_ptrs`.
-/
namespace GraphMat

variable {E T U : Type}

/-- **CSR tiles survive an archive** (C60). -/
theorem csr_archive_roundtrip (g g' : FmtFresh E) {threads : Nat} (ht : 0 < threads)
    {sort : List (Edge E) → List (Edge E)} (hsort : SortsBy compareSrcDst sort)
    {edges : List (Edge E)} {m n rs cs : Nat} (hin : EdgesIn m n rs cs edges)
    {mul : E → T → U → U} {pm : E → T → U} (hm : ∀ e x old, mul e x old = pm e x) (add : U → U → U) :
    ∃ es t, CSR.build g threads sort edges m n rs cs = some (es, t) ∧
      ArchiveGives t.archive (CSR.restore g') (fun t' =>
        (∀ out, ReturnsEdges edges (t'.getEdges out rs cs)) ∧
        ∀ threads' gy old, 0 < threads' → MultipliesBy m n rs cs edges pm add (t'.mult threads' gy old mul add)) := by
  obtain ⟨es, t, l, h1, h2, _, h3⟩ := CSR.build_holds g ht hsort hin
  refine ⟨es, t, h1, t.toks, h2.sized.archive, fun more => ⟨_, h2.sized.restore g' more, ?_, ?_⟩⟩
  · intro out
    rw [CSR.reload_getEdges, h2.getEdges]
    exact returns_of_entries hin h3
  · intro threads' gy old ht'
    rw [CSR.reload_mult]
    exact multiplies_of_adds hin h3 gy (fun sx hx rx cx => h2.adds hx rx cx ht' hm add old)

/-- **COO-SIMD tiles survive an archive** (C60). -/
theorem coosimd_archive_roundtrip (g g' : FmtFresh E) {threads : Nat} (ht : 0 < threads)
    {sort : List (TEdge E) → List (TEdge E)} (hsort : SortsBy compareSimd sort)
    {sortBins : Nat → List SimdBin → List SimdBin} (hsb : ∀ p, SortsBy compareBin (sortBins p))
    {edges : List (Edge E)} {m n rs cs : Nat} (hin : EdgesIn m n rs cs edges)
    {mul : E → T → U → U} {pm : E → T → U} (hm : ∀ e x old, mul e x old = pm e x) (add : U → U → U) :
    ∃ t, COO.buildSimd g threads sort sortBins edges m n rs cs = some t ∧
      ArchiveGives (t.archive true) (COO.restore true g') (fun t' =>
        ReturnsEdges edges (t'.getEdges rs cs) ∧
        (∀ gy old, MultipliesBy m n rs cs edges pm add (t'.mult gy old mul add)) ∧
        t'.np = t.np ∧ (edges ≠ [] → ∀ p, t'.simd.read p = t.simd.read p)) := by
  obtain ⟨t, l, h1, h2, h3, _⟩ := COO.buildSimd_holds g ht hsort hsb hin
  have hs := h2.sized_simd (COO.buildSimd_size h1)
  have hnnz : t.nnz = edges.length := by rw [h2.2.2.1, h3.length_eq, List.length_map]
  refine ⟨t, h1, t.toks true, hs.archive, fun more => ⟨_, hs.restore g' more, ?_, ?_, ?_, ?_⟩⟩
  · rw [COO.reload_getEdges, h2.getEdges]
    exact returns_of_entries hin h3
  · intro gy old
    rw [COO.reload_mult]
    exact multiplies_of_adds hin h3 gy (fun sx hx rx cx => h2.adds hx rx cx hm add old)
  · unfold COO.reload
    split <;> rfl
  · intro hne p
    unfold COO.reload
    rw [if_pos (by rw [hnnz]; exact List.length_pos_iff.mpr hne)]
    exact Arr.reload_read _ _ _

/-- **DCSC tiles survive an archive** (C60). -/
theorem dcsc_archive_roundtrip (g g' : TileFresh E) {threads : Nat} (ht : 0 < threads)
    {sort : List (TEdge E) → List (TEdge E)} (hsort : SortsBy compareDcsc sort)
    {edges : List (Edge E)} {m n rs cs : Nat} (hin : EdgesIn m n rs cs edges)
    {mul : Nat → Nat → E → T → U → U} {pm : E → T → U} (hm : ∀ p nz e x old, mul p nz e x old = pm e x)
    (add : U → U → U) :
    ∃ t, Tile.build g threads sort edges m n rs cs = some t ∧
      ArchiveGives t.save (Tile.load g') (fun t' =>
        ReturnsEdges edges (t'.getEdges rs cs) ∧
        ∀ gy tmp, MultipliesBy m n rs cs edges pm add (multSegment gy tmp mul add t')) := by
  obtain ⟨t, P, h1, h2, h3, h4, h5, h6⟩ := Tile.build_spec g ht hsort hin
  obtain ⟨d1, d2, d3, d4⟩ := t.reload_dims g'
  have h2' := h2.reload g'
  refine ⟨t, h1, t.toks, h2.save, fun more => ⟨_, h2.load g' more, ?_, ?_⟩⟩
  · rw [h2'.getEdges]
    rw [d4]
    exact returns_of_entries hin h6
  · intro gy tmp sx sy hx rx hy cx cy
    obtain ⟨sy', s1, s2, s3, s4, _, _, s7⟩ := multSegment_spec h2' hx rx hy (by rw [cx, d2, h4]) (by rw [cy, d1, h3]) gy tmp hm add
    refine ⟨sy', s1, s2, s3, by rw [s4, cy], ?_⟩
    intro i
    rw [s7, d4]
    exact reduces_products hin h6 _ _ _ _ _

/-- **COO tiles survive an archive** (C60), where their constructor is correct: the memory behind `ia` is readable and, if
the tile has only one edge, holds a positive number.  Missing for the full property: that restriction on the constructor (see
`coo_reads_behind`); saving and loading need none. -/
theorem coo_archive_roundtrip_partial (behind : Int) (g g' : FmtFresh E) {threads : Nat} (ht : 0 < threads)
    {sort : List (Edge E) → List (Edge E)} (hsort : SortsBy compareSrcDst sort)
    {edges : List (Edge E)} {m n rs cs : Nat} (hin : EdgesIn m n rs cs edges) (hb : edges.length = 1 → 1 ≤ behind)
    {mul : E → T → U → U} {pm : E → T → U} (hm : ∀ e x old, mul e x old = pm e x) (add : U → U → U) :
    ∃ t, COO.build (some behind) g threads sort edges m n rs cs = some t ∧
      ArchiveGives (t.archive false) (COO.restore false g') (fun t' =>
        ReturnsEdges edges (t'.getEdges rs cs) ∧
        ∀ gy old, MultipliesBy m n rs cs edges pm add (t'.mult gy old mul add)) := by
  obtain ⟨t, l, h1, h2, h3⟩ := COO.build_holds g ht hsort hin hb
  refine ⟨t, h1, t.toks false, h2.sized.archive, fun more => ⟨_, h2.sized.restore g' more, ?_, ?_⟩⟩
  · rw [COO.reload_getEdges, h2.getEdges]
    exact returns_of_entries hin h3
  · intro gy old
    rw [COO.reload_mult]
    exact multiplies_of_adds hin h3 gy (fun sx hx rx cx => h2.adds hx rx cx hm add old)

/-! ### DCSR -/

/-- **The edges of DCSR tiles survive an archive** (C60), where the memory behind `row_ids` (constructor) and behind `ia`
(`save`) is readable, whatever it holds.  Missing for the full property: these reads, and multiplication
(`dcsr_restored_cannot_multiply`). -/
theorem dcsr_archive_edges_partial (behind : Int) (f : Nat → Nat) (g g' : FmtFresh E) {threads : Nat} (ht : 0 < threads)
    {sort : List (Edge E) → List (Edge E)} (hsort : SortsBy compareSrcDst sort)
    {edges : List (Edge E)} {m n rs cs : Nat} (hin : EdgesIn m n rs cs edges) :
    ∃ t, DCSR.build (some behind) g threads sort edges m n rs cs = some t ∧
      ArchiveGives (t.archive (some f)) (DCSR.restore g') (fun t' => ∀ out, ReturnsEdges edges (t'.getEdges out rs cs)) := by
  obtain ⟨t, l, h1, h2, h3⟩ := DCSR.build_holds (behind := some behind) g ht hsort hin (fun _ => by simp)
  refine ⟨t, h1, t.toks f, h2.sized.archive f, fun more => ⟨_, h2.sized.restore f g' more, ?_⟩⟩
  intro out
  rw [h2.sized.reload_getEdges, h2.getEdges]
  exact returns_of_entries hin h3

/-- **C60 fails for DCSR tiles: `save` reads behind the end of `ia`** if the tile has edges, but less than rows. -/
theorem dcsr_archive_reads_behind (behind : Int) (g : FmtFresh E) {threads : Nat} (ht : 0 < threads)
    {sort : List (Edge E) → List (Edge E)} (hsort : SortsBy compareSrcDst sort)
    {edges : List (Edge E)} {m n rs cs : Nat} (hin : EdgesIn m n rs cs edges) (hne : edges ≠ [])
    (hlt : edges.length < m) :
    ∃ t, DCSR.build (some behind) g threads sort edges m n rs cs = some t ∧ ∀ ar, t.archive none ar = none := by
  obtain ⟨t, l, h1, h2, h3⟩ := DCSR.build_holds (behind := some behind) g ht hsort hin (fun _ => by simp)
  have hl : t.nnz = edges.length := by rw [h2.2.2.1, h3.length_eq, List.length_map]
  have hp := List.length_pos_iff.mpr hne
  refine ⟨t, h1, h2.sized.archive_none (by omega) ?_⟩
  rcases h2.2.2.2 with h | ⟨r, c, ent, h, _⟩
  · omega
  · have := h.rnz
    rw [h2.1]
    omega

/-- **C60 fails for DCSR tiles: what is loaded cannot be multiplied**, even where the memory behind the arrays is readable:
`partition_ptrs` is used uninitialised, for every tile with edges and all vectors. -/
theorem dcsr_restored_cannot_multiply (behind : Int) (f : Nat → Nat) (g g' : FmtFresh E) {threads : Nat} (ht : 0 < threads)
    {sort : List (Edge E) → List (Edge E)} (hsort : SortsBy compareSrcDst sort)
    {edges : List (Edge E)} {m n rs cs : Nat} (hin : EdgesIn m n rs cs edges) (hne : edges ≠ [])
    (mul : E → T → U → U) (add : U → U → U) :
    ∃ t, DCSR.build (some behind) g threads sort edges m n rs cs = some t ∧
      ArchiveGives (t.archive (some f)) (DCSR.restore g') (fun t' =>
        ∀ gy old sx sy, multWith gy (t'.kernel old mul add) sx sy = none) := by
  obtain ⟨t, l, h1, h2, h3⟩ := DCSR.build_holds (behind := some behind) g ht hsort hin (fun _ => by simp)
  have hl : t.nnz = edges.length := by rw [h2.2.2.1, h3.length_eq, List.length_map]
  have hp := List.length_pos_iff.mpr hne
  refine ⟨t, h1, t.toks f, h2.sized.archive f, fun more => ⟨_, h2.sized.restore f g' more, ?_⟩⟩
  intro gy old sx sy
  rcases h2.2.2.2 with h | ⟨r, c, ent, h, _⟩
  · omega
  · exact multWith_none (fun st => DCSR.reload_kernel (by omega) h.npos f g' old mul add sx st) sy

/-! ### Hybrid -/

/-- **Hybrid tiles survive an archive** (C60) if no row has 16 edges.  Missing for the full property: tiles with such rows
(`hybrid_archive_edges_partial`, `hybrid_restored_cannot_multiply`) and tiles without edges, which cannot be multiplied in
the first place (`hybrid_empty_fails`). -/
theorem hybrid_archive_roundtrip_partial (g g' : FmtFresh E) {threads : Nat} (ht : 0 < threads)
    {s : HybridSorts E}
    (h1 : SortsBy compareSrcDst s.own) (h2 : SortsBy compareSrcDst s.csr)
    (h4 : SortsBy compareSimd s.simd) (h5 : ∀ p, SortsBy compareBin (s.bins p))
    {edges : List (Edge E)} {m n rs cs : Nat} (hin : EdgesIn m n rs cs edges) (hne : edges ≠ [])
    (hb : ∀ e ∈ edges, edges.countP (fun f => decide (f.src = e.src)) < 16)
    {mul : E → T → U → U} {pm : E → T → U} (hm : ∀ e x old, mul e x old = pm e x) (add : U → U → U) :
    ∃ t, Hybrid.build none g threads s edges m n rs cs = some t ∧
      ArchiveGives (t.archive none) (Hybrid.restore g') (fun t' =>
        (∀ out, ReturnsEdges edges (t'.getEdges out rs cs)) ∧
        ∀ gy old1 old2, MultipliesBy m n rs cs edges pm add (t'.mult gy old1 old2 mul add)) := by
  obtain ⟨big, small, p1, p2, _, n1, p4⟩ := Hybrid.build_split (behind := none) g ht h1 h2 hin hne
  have hbig : big = [] := by
    cases big with
    | nil => rfl
    | cons e big =>
      have a1 := p2 e (by simp)
      have a2 := hb e (p1.mem_iff.mp (by simp))
      omega
  subst hbig
  have hp : small.Perm edges := p1
  have hin2 : EdgesIn m n rs cs small := fun e he => hin e (hp.mem_iff.mp he)
  obtain ⟨t2, l2, b1, b2, b3, _⟩ := COO.buildSimd_holds g ht h4 h5 hin2
  have hs2 := b2.sized_simd (COO.buildSimd_size b1)
  have hl2 : l2.Perm (edges.map (localOf rs cs)) := b3.trans (hp.map _)
  have e1 : DCSR.build none g threads s.dcsr [] m n rs cs = some (DCSR.empty g m n) := rfl
  rw [e1, Option.bind_some, b1, Option.bind_some] at p4
  have hn : 0 < edges.length := List.length_pos_iff.mpr hne
  have hs1 : (DCSR.empty g m n).Sized := fun h => absurd h (Nat.lt_irrefl 0)
  refine ⟨_, p4, _, Hybrid.archive_spec (f := fun _ => 0) hn rfl rfl (hs1.archive_strict (.inl rfl) _) hs2,
    fun more => ⟨_, Hybrid.restore_spec hn hs1 hs2 g' more, ?_, ?_⟩⟩
  · intro out
    unfold Hybrid.getEdges
    simp only [Option.bind_eq_bind, Option.bind_some]
    rw [if_pos hn, COO.reload_getEdges, b2.getEdges, hs1.reload_getEdges]
    exact returns_of_entries hin hl2
  · intro gy old1 old2
    refine multiplies_of_adds hin hl2 gy (fun sx hx rx cx => (b2.adds hx rx cx hm add old2).congr ?_)
    intro st _
    show (some st).bind (fun st => (some (t2.reload true g')).bind fun t2 => if t2.nnz > 0 then _ else _) = _
    rw [Option.bind_some, Option.bind_some, COO.reload_nnz]
    by_cases h : t2.nnz > 0
    · rw [if_pos h, if_pos h]
      cases sx.props with
      | none => rfl
      | some bx => exact COO.reload_spmspv true h g' mul add old2 bx.value bx.bits st
    · rw [if_neg h, if_neg h]

/-- **The edges of hybrid tiles survive an archive** (C60), where the memory behind `row_ids` and `ia` of the DCSR part is
readable.  Missing for the full property: these reads, and multiplication. -/
theorem hybrid_archive_edges_partial (behind : Int) (f : Nat → Nat) (g g' : FmtFresh E) {threads : Nat} (ht : 0 < threads)
    {s : HybridSorts E}
    (h1 : SortsBy compareSrcDst s.own) (h2 : SortsBy compareSrcDst s.csr) (h3 : SortsBy compareSrcDst s.dcsr)
    (h4 : SortsBy compareSimd s.simd) (h5 : ∀ p, SortsBy compareBin (s.bins p))
    {edges : List (Edge E)} {m n rs cs : Nat} (hin : EdgesIn m n rs cs edges) (hne : edges ≠ []) :
    ∃ t, Hybrid.build (some behind) g threads s edges m n rs cs = some t ∧
      ArchiveGives (t.archive (some f)) (Hybrid.restore g') (fun t' =>
        ∀ out, ReturnsEdges edges (t'.getEdges out rs cs)) := by
  obtain ⟨big, small, p1, _, _, n1, p4⟩ := Hybrid.build_split (behind := some behind) g ht h1 h2 hin hne
  obtain ⟨t1, l1, a1, a2, a3⟩ := DCSR.build_holds (behind := some behind) g ht h3 (edges := big) (m := m) (n := n)
    (rs := rs) (cs := cs) (fun e he => hin e (p1.mem_iff.mp (List.mem_append_left _ he))) (fun _ => by simp)
  obtain ⟨t2, l2, b1, b2, b3, _⟩ := COO.buildSimd_holds g ht h4 h5 (edges := small) (m := m) (n := n)
    (rs := rs) (cs := cs) (fun e he => hin e (p1.mem_iff.mp (List.mem_append_right _ he)))
  have hs2 := b2.sized_simd (COO.buildSimd_size b1)
  rw [a1, Option.bind_some, b1, Option.bind_some] at p4
  have hn : 0 < edges.length := List.length_pos_iff.mpr hne
  refine ⟨_, p4, _, Hybrid.archive_spec hn rfl rfl (a2.sized.archive f) hs2,
    fun more => ⟨_, Hybrid.restore_spec hn a2.sized hs2 g' more, ?_⟩⟩
  intro out
  unfold Hybrid.getEdges
  simp only [Option.bind_eq_bind, Option.bind_some]
  rw [if_pos hn, COO.reload_getEdges, b2.getEdges, a2.sized.reload_getEdges, a2.getEdges, Option.bind_some,
    Option.bind_some, ← List.map_append]
  refine returns_of_entries hin ((a3.append b3).trans ?_)
  rw [← List.map_append]
  exact p1.map _

/-- **C60 fails for hybrid tiles with a row of at least 16 edges**: what is loaded cannot be multiplied, even where the memory
behind the arrays is readable, for all vectors. -/
theorem hybrid_restored_cannot_multiply (behind : Int) (f : Nat → Nat) (g g' : FmtFresh E) {threads : Nat}
    (ht : 0 < threads) {s : HybridSorts E}
    (h1 : SortsBy compareSrcDst s.own) (h2 : SortsBy compareSrcDst s.csr) (h3 : SortsBy compareSrcDst s.dcsr)
    (h4 : SortsBy compareSimd s.simd) (h5 : ∀ p, SortsBy compareBin (s.bins p))
    {edges : List (Edge E)} {m n rs cs : Nat} (hin : EdgesIn m n rs cs edges)
    {d : Edge E} (hd : d ∈ edges) (hrow : 16 ≤ edges.countP (fun f => decide (f.src = d.src)))
    (mul : E → T → U → U) (add : U → U → U) :
    ∃ t, Hybrid.build (some behind) g threads s edges m n rs cs = some t ∧
      ArchiveGives (t.archive (some f)) (Hybrid.restore g') (fun t' =>
        ∀ gy old1 old2 sx sy, t'.mult gy old1 old2 mul add sx sy = none) := by
  have hne : edges ≠ [] := List.ne_nil_of_mem hd
  obtain ⟨big, small, p1, _, p3, n1, p4⟩ := Hybrid.build_split (behind := some behind) g ht h1 h2 hin hne
  obtain ⟨t1, l1, a1, a2, a3⟩ := DCSR.build_holds (behind := some behind) g ht h3 (edges := big) (m := m) (n := n)
    (rs := rs) (cs := cs) (fun e he => hin e (p1.mem_iff.mp (List.mem_append_left _ he))) (fun _ => by simp)
  obtain ⟨t2, l2, b1, b2, b3, _⟩ := COO.buildSimd_holds g ht h4 h5 (edges := small) (m := m) (n := n)
    (rs := rs) (cs := cs) (fun e he => hin e (p1.mem_iff.mp (List.mem_append_right _ he)))
  have hs2 := b2.sized_simd (COO.buildSimd_size b1)
  rw [a1, Option.bind_some, b1, Option.bind_some] at p4
  have hn : 0 < edges.length := List.length_pos_iff.mpr hne
  have hdb : d ∈ big := by
    rcases List.mem_append.mp (p1.mem_iff.mpr hd) with h | h
    · exact h
    · have := p3 d h
      omega
  have hn1 : t1.nnz = big.length := by rw [a2.2.2.1, a3.length_eq, List.length_map]
  have hb1 : 0 < big.length := List.length_pos_iff.mpr (List.ne_nil_of_mem hdb)
  refine ⟨_, p4, _, Hybrid.archive_spec hn rfl rfl (a2.sized.archive f) hs2,
    fun more => ⟨_, Hybrid.restore_spec hn a2.sized hs2 g' more, ?_⟩⟩
  intro gy old1 old2 sx sy
  unfold Hybrid.mult
  refine multWith_none (fun st => ?_) sy
  rcases a2.2.2.2 with h | ⟨r, c, ent, h, _⟩
  · omega
  · simp only [Option.bind_eq_bind, Option.bind_some]
    rw [DCSR.reload_kernel (by omega) h.npos]
    rfl

/-- **C60 fails for hybrid tiles: `save` reads behind the end of `ia` of the DCSR part** if some row has at least 16 edges
and the tile has less edges than rows. -/
theorem hybrid_archive_reads_behind (behind : Int) (g : FmtFresh E) {threads : Nat}
    (ht : 0 < threads) {s : HybridSorts E}
    (h1 : SortsBy compareSrcDst s.own) (h2 : SortsBy compareSrcDst s.csr) (h3 : SortsBy compareSrcDst s.dcsr)
    (h4 : SortsBy compareSimd s.simd) (h5 : ∀ p, SortsBy compareBin (s.bins p))
    {edges : List (Edge E)} {m n rs cs : Nat} (hin : EdgesIn m n rs cs edges)
    {d : Edge E} (hd : d ∈ edges) (hrow : 16 ≤ edges.countP (fun f => decide (f.src = d.src)))
    (hlt : edges.length < m) :
    ∃ t, Hybrid.build (some behind) g threads s edges m n rs cs = some t ∧ ∀ ar, t.archive none ar = none := by
  have hne : edges ≠ [] := List.ne_nil_of_mem hd
  obtain ⟨big, small, p1, _, p3, n1, p4⟩ := Hybrid.build_split (behind := some behind) g ht h1 h2 hin hne
  obtain ⟨t1, l1, a1, a2, a3⟩ := DCSR.build_holds (behind := some behind) g ht h3 (edges := big) (m := m) (n := n)
    (rs := rs) (cs := cs) (fun e he => hin e (p1.mem_iff.mp (List.mem_append_left _ he))) (fun _ => by simp)
  obtain ⟨t2, l2, b1, b2, b3, _⟩ := COO.buildSimd_holds g ht h4 h5 (edges := small) (m := m) (n := n)
    (rs := rs) (cs := cs) (fun e he => hin e (p1.mem_iff.mp (List.mem_append_right _ he)))
  rw [a1, Option.bind_some, b1, Option.bind_some] at p4
  have hn : edges.length > 0 := List.length_pos_iff.mpr hne
  have hdb : d ∈ big := by
    rcases List.mem_append.mp (p1.mem_iff.mpr hd) with h | h
    · exact h
    · have := p3 d h
      omega
  have hn1 : t1.nnz = big.length := by rw [a2.2.2.1, a3.length_eq, List.length_map]
  have hb1 : 0 < big.length := List.length_pos_iff.mpr (List.ne_nil_of_mem hdb)
  have hle := p1.length_eq
  rw [List.length_append] at hle
  refine ⟨_, p4, fun ar => ?_⟩
  unfold Hybrid.archive
  simp only [Option.bind_eq_bind]
  rw [if_pos hn, Option.bind_some, a2.sized.archive_none (by omega) ?_]
  · rfl
  · rcases a2.2.2.2 with h | ⟨r, c, ent, h, _⟩
    · omega
    · have := h.rnz
      rw [a2.1]
      omega

/-! ### Concrete cases -/

/-- Other fresh memory, for loading. -/
def fmtFresh' : FmtFresh Nat := ⟨fun _ => 1, fun _ _ => 12, fun _ i => i, fun _ _ => ⟨3, 3, 3⟩⟩

/-- Edges of the 40 x 17 tile behind row 10 and column 20 without a row of 16 edges. -/
def fmtFew : List (Edge Nat) := fmtEdges.drop 5

theorem fmtFew_in : EdgesIn 40 17 10 20 fmtFew := fun e he => fmtEdges_in e (List.mem_of_mem_drop he)

/-- The hypotheses of the round trips are met by the 20 edges of `fmtEdges`. -/
example : ∃ es t, CSR.build fmtFresh 2 (insSort compareSrcDst) fmtEdges 40 17 10 20 = some (es, t) ∧
    ArchiveGives t.archive (CSR.restore fmtFresh') (fun t' =>
      (∀ out, ReturnsEdges fmtEdges (t'.getEdges out 10 20)) ∧
      ∀ threads' gy old, 0 < threads' →
        MultipliesBy 40 17 10 20 fmtEdges (fun e x => e * x) (· + ·) (t'.mult threads' gy old (fun e x _ => e * x) (· + ·))) :=
  csr_archive_roundtrip fmtFresh fmtFresh' (by decide) insSort_srcDst fmtEdges_in (mul := fun e x (_ : Nat) => e * x)
    (pm := fun e x => e * x) (fun _ _ _ => rfl) (· + ·)

example : ∃ t, COO.buildSimd fmtFresh 3 (insSort compareSimd) (fun _ => insSort compareBin) fmtEdges 40 17 10 20 = some t ∧
    ArchiveGives (t.archive true) (COO.restore true fmtFresh') (fun t' => ReturnsEdges fmtEdges (t'.getEdges 10 20)) := by
  obtain ⟨t, h1, toks, h2, h3⟩ := coosimd_archive_roundtrip fmtFresh fmtFresh' (threads := 3) (by decide) insSort_simd
    (fun _ => insSort_bin) fmtEdges_in (mul := fun e x (_ : Nat) => e * x) (fun _ _ _ => rfl) (· + ·)
  exact ⟨t, h1, toks, h2, fun more => by obtain ⟨t', a, b, _⟩ := h3 more; exact ⟨t', a, b⟩⟩

example : ∃ t, Tile.build ⟨fun _ => 4, fun _ _ => 4⟩ 2 (insSort compareDcsc) fmtEdges 40 17 10 20 = some t ∧
    ArchiveGives t.save (Tile.load ⟨fun _ => 9, fun _ _ => 6⟩) (fun t' => ReturnsEdges fmtEdges (t'.getEdges 10 20)) := by
  obtain ⟨t, h1, toks, h2, h3⟩ := dcsc_archive_roundtrip ⟨fun _ => 4, fun _ _ => 4⟩ ⟨fun _ => 9, fun _ _ => 6⟩
    (threads := 2) (by decide) insSort_dcsc fmtEdges_in (mul := fun _ _ e x (_ : Nat) => e * x) (fun _ _ _ _ _ => rfl) (· + ·)
  exact ⟨t, h1, toks, h2, fun more => by obtain ⟨t', a, b, _⟩ := h3 more; exact ⟨t', a, b⟩⟩

example : ∃ t, COO.build (some 0) fmtFresh 2 (insSort compareSrcDst) fmtEdges 40 17 10 20 = some t ∧
    ArchiveGives (t.archive false) (COO.restore false fmtFresh') (fun t' => ReturnsEdges fmtEdges (t'.getEdges 10 20)) := by
  obtain ⟨t, h1, toks, h2, h3⟩ := coo_archive_roundtrip_partial 0 fmtFresh fmtFresh' (threads := 2) (by decide)
    insSort_srcDst fmtEdges_in (fun h => absurd h (by decide))
    (mul := fun e x (_ : Nat) => e * x) (fun _ _ _ => rfl) (· + ·)
  exact ⟨t, h1, toks, h2, fun more => by obtain ⟨t', a, b, _⟩ := h3 more; exact ⟨t', a, b⟩⟩

example : ∃ t, DCSR.build (some 0) fmtFresh 2 (insSort compareSrcDst) fmtEdges 40 17 10 20 = some t ∧
    ArchiveGives (t.archive (some fun _ => 6)) (DCSR.restore fmtFresh')
      (fun t' => ∀ out, ReturnsEdges fmtEdges (t'.getEdges out 10 20)) :=
  dcsr_archive_edges_partial _ _ _ _ (by decide) insSort_srcDst fmtEdges_in

example : ∃ t, DCSR.build (some 0) fmtFresh 2 (insSort compareSrcDst) fmtEdges 40 17 10 20 = some t ∧
    ∀ ar, t.archive none ar = none :=
  dcsr_archive_reads_behind _ _ (by decide) insSort_srcDst fmtEdges_in (by decide) (by decide)

/-- A DCSR tile with an edge in every row is saved without reading behind its arrays: the number of rows matters in
`dcsr_archive_reads_behind`. -/
example : (do
    let t ← DCSR.build (some 0) fmtFresh 1 (insSort compareSrcDst) [⟨1, 1, 5⟩, ⟨2, 1, 6⟩] 2 1 0 0
    t.archive none []).isSome = true := by decide +kernel

example : ∃ t, DCSR.build (some 0) fmtFresh 2 (insSort compareSrcDst) fmtEdges 40 17 10 20 = some t ∧
    ArchiveGives (t.archive (some fun _ => 6)) (DCSR.restore fmtFresh') (fun t' =>
      ∀ gy old sx sy, multWith gy (t'.kernel old (fun e x (_ : Nat) => e * x) (· + ·)) sx sy = none) :=
  dcsr_restored_cannot_multiply _ _ _ _ (by decide) insSort_srcDst fmtEdges_in (by decide) _ _

example : ∃ t, Hybrid.build none fmtFresh 1 fmtSorts fmtFew 40 17 10 20 = some t ∧
    ArchiveGives (t.archive none) (Hybrid.restore fmtFresh') (fun t' =>
      (∀ out, ReturnsEdges fmtFew (t'.getEdges out 10 20)) ∧
      ∀ gy old1 old2, MultipliesBy 40 17 10 20 fmtFew (fun e x => e * x) (· + ·)
        (t'.mult gy old1 old2 (fun e x _ => e * x) (· + ·))) :=
  hybrid_archive_roundtrip_partial (s := fmtSorts) fmtFresh fmtFresh' (by decide) insSort_srcDst insSort_srcDst
    insSort_simd (fun _ => insSort_bin) fmtFew_in (by decide) (by decide +kernel) (mul := fun e x (_ : Nat) => e * x)
    (pm := fun e x => e * x) (fun _ _ _ => rfl) (· + ·)

example : ∃ t, Hybrid.build (some 0) fmtFresh 1 fmtSorts fmtEdges 40 17 10 20 = some t ∧
    ArchiveGives (t.archive (some fun _ => 6)) (Hybrid.restore fmtFresh') (fun t' =>
      ∀ out, ReturnsEdges fmtEdges (t'.getEdges out 10 20)) :=
  hybrid_archive_edges_partial (s := fmtSorts) _ _ _ _ (by decide) insSort_srcDst insSort_srcDst insSort_srcDst insSort_simd
    (fun _ => insSort_bin) fmtEdges_in (by decide)

example : ∃ t, Hybrid.build (some 0) fmtFresh 1 fmtSorts fmtEdges 40 17 10 20 = some t ∧
    ArchiveGives (t.archive (some fun _ => 6)) (Hybrid.restore fmtFresh') (fun t' =>
      ∀ gy old1 old2 sx sy, t'.mult gy old1 old2 (fun e x (_ : Nat) => e * x) (· + ·) sx sy = none) :=
  hybrid_restored_cannot_multiply (s := fmtSorts) _ _ _ _ (by decide) insSort_srcDst insSort_srcDst insSort_srcDst
    insSort_simd (fun _ => insSort_bin) fmtEdges_in (d := ⟨12, 37, 0⟩) (by simp [fmtEdges])
    (by decide +kernel) _ _

example : ∃ t, Hybrid.build (some 0) fmtFresh 1 fmtSorts fmtEdges 40 17 10 20 = some t ∧ ∀ ar, t.archive none ar = none :=
  hybrid_archive_reads_behind (s := fmtSorts) _ _ (by decide) insSort_srcDst insSort_srcDst insSort_srcDst
    insSort_simd (fun _ => insSort_bin) fmtEdges_in (d := ⟨12, 37, 0⟩) (by simp [fmtEdges])
    (by decide +kernel) (by decide)

end GraphMat

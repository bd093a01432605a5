import Verif.Lemmas.FmtHybrid
import Verif.Spec.Formats
import Verif.Spec.Samples

/-!
# C44: the tile formats are interchangeable

Proved for all edge lists, vectors, thread counts and contents of fresh memory: CSR, COO-SIMD and DCSC tiles hold exactly
their edges and multiply correctly.  DCSR and COO tiles (and hybrid tiles, which contain a DCSR tile) are built by code that
reads one `int` behind the end of an array.  For these there are theorems ending in `_partial` for the case that this memory
can be read (and, for COO, holds a number that is not too small), and theorems that show what happens otherwise.
-/
namespace GraphMat

variable {E T U : Type}

/-! ### Contributions of local entries are products of edges -/

theorem contrib_products {m n rs cs : Nat} {edges : List (Edge E)} (hin : EdgesIn m n rs cs edges) (xm : Nat → Option T)
    (pm : E → T → U) (i : Nat) :
    contrib xm (fun _ => pm) (edges.map (localOf rs cs)) i = rowProducts rs cs xm pm edges i := by
  unfold contrib rowProducts
  rw [List.filterMap_map]
  apply List.filterMap_congr
  intro e he
  obtain ⟨h1, h2, h3, h4⟩ := hin e he
  show (if (e.src - 1 - (rs : Int)).toNat = i then _ else none) = _
  have ec : (e.dst - 1 - (cs : Int)).toNat = (e.dst - (cs : Int) - 1).toNat := by omega
  by_cases hi : e.src = (rs : Int) + i + 1
  · rw [if_pos hi, if_pos (by omega)]
    show (xm (e.dst - 1 - (cs : Int)).toNat).map (pm e.val) = _
    rw [ec]
  · rw [if_neg hi, if_neg (by omega)]

theorem reduces_products {m n rs cs : Nat} {edges : List (Edge E)} (hin : EdgesIn m n rs cs edges)
    {l : List (Nat × Nat × E)} (hl : l.Perm (edges.map (localOf rs cs))) (xm : Nat → Option T) (pm : E → T → U)
    (add : U → U → U) (y : Option U) (i : Nat) :
    Reduces add (y.toList ++ rowProducts rs cs xm pm edges i) (accum add y (contrib xm (fun _ => pm) l i)) := by
  rw [← contrib_products hin]
  have h1 : Reduces add y.toList y := by
    cases y with
    | none => exact Reduces.nil add
    | some y => exact Reduces.one add y
  refine (h1.accum (contrib xm (fun _ => pm) l i)).perm ?_
  exact List.Perm.append_left _ (hl.filterMap _)

theorem returns_of_entries {m n rs cs : Nat} {edges : List (Edge E)} (hin : EdgesIn m n rs cs edges)
    {l : List (Nat × Nat × E)} (hl : l.Perm (edges.map (localOf rs cs))) :
    ReturnsEdges edges (some (l.map (unlocal rs cs))) := by
  refine ⟨_, rfl, ?_⟩
  refine (hl.map _).trans ?_
  rw [List.map_map]
  have : edges.map (unlocal rs cs ∘ localOf rs cs) = edges := by
    conv => rhs; rw [← List.map_id edges]
    apply List.map_congr_left
    intro e he
    exact unlocal_localOf (hin e he)
  rw [this]

theorem multiplies_of_adds {m n rs cs : Nat} {edges : List (Edge E)} (hin : EdgesIn m n rs cs edges)
    {l : List (Nat × Nat × E)} (hl : l.Perm (edges.map (localOf rs cs))) {pm : E → T → U} {add : U → U → U} (g : Fresh U)
    {kernel : Segment T → Arr U × Arr Word → Option (Arr U × Arr Word)}
    (hk : ∀ sx, sx.WF → sx.Ready → sx.capacity = n → KernelAdds m add sx.view pm (kernel sx) l) :
    MultipliesBy m n rs cs edges pm add (multWith g kernel) := by
  intro sx sy hx rx hy cx cy
  obtain ⟨sy', h1, h2, h3, h4, h5⟩ := multWith_spec hy cy g (hk sx hx rx cx)
  refine ⟨sy', h1, h2, h3, by rw [h4, cy], ?_⟩
  intro i
  rw [h5]
  exact reduces_products hin hl _ _ _ _ _

/-! ### CSR -/

/-- **CSR tiles** (C44). -/
theorem csr_tile_correct (g : FmtFresh E) {threads : Nat} (ht : 0 < threads)
    {sort : List (Edge E) → List (Edge E)} (hsort : SortsBy compareSrcDst sort)
    {edges : List (Edge E)} {m n rs cs : Nat} (hin : EdgesIn m n rs cs edges)
    {mul : E → T → U → U} {pm : E → T → U} (hm : ∀ e x old, mul e x old = pm e x) (add : U → U → U) :
    ∃ es t, CSR.build g threads sort edges m n rs cs = some (es, t) ∧ t.nnz = edges.length ∧
      (∀ out, ReturnsEdges edges (t.getEdges out rs cs)) ∧
      ∀ threads' gy old, 0 < threads' → MultipliesBy m n rs cs edges pm add (t.mult threads' gy old mul add) := by
  obtain ⟨es, t, l, h1, h2, _, h3⟩ := CSR.build_holds g ht hsort hin
  refine ⟨es, t, h1, ?_, ?_, ?_⟩
  · rw [h2.2.2.1, h3.length_eq, List.length_map]
  · intro out
    rw [h2.getEdges]
    exact returns_of_entries hin h3
  · intro threads' gy old ht'
    exact multiplies_of_adds hin h3 gy (fun sx hx rx cx => h2.adds hx rx cx ht' hm add old)

/-! ### COO-SIMD -/

/-- **COO-SIMD tiles** (C44): they hold the edges, multiply correctly, and the first `simd_nnz[p]` entries of each partition
are groups of 32 entries in different blocks of 32 rows (the assertions under `__DEBUG`). -/
theorem coosimd_tile_correct (g : FmtFresh E) {threads : Nat} (ht : 0 < threads)
    {sort : List (TEdge E) → List (TEdge E)} (hsort : SortsBy compareSimd sort)
    {sortBins : Nat → List SimdBin → List SimdBin} (hsb : ∀ p, SortsBy compareBin (sortBins p))
    {edges : List (Edge E)} {m n rs cs : Nat} (hin : EdgesIn m n rs cs edges)
    {mul : E → T → U → U} {pm : E → T → U} (hm : ∀ e x old, mul e x old = pm e x) (add : U → U → U) :
    ∃ t, COO.buildSimd g threads sort sortBins edges m n rs cs = some t ∧ t.nnz = edges.length ∧
      ReturnsEdges edges (t.getEdges rs cs) ∧
      (∀ gy old, MultipliesBy m n rs cs edges pm add (t.mult gy old mul add)) ∧
      ∀ p, p < t.np → t.simd.get p % 32 = 0 ∧ t.ps.get p + t.simd.get p ≤ t.ps.get (p + 1) ∧
        ∀ i j, i < t.simd.get p → j < t.simd.get p → i / 32 = j / 32 → i ≠ j →
          (t.ia.get (t.ps.get p + i) - 1) / 32 ≠ (t.ia.get (t.ps.get p + j) - 1) / 32 := by
  obtain ⟨t, l, h1, h2, h3, h4⟩ := COO.buildSimd_holds g ht hsort hsb hin
  refine ⟨t, h1, ?_, ?_, ?_, h4⟩
  · rw [h2.2.2.1, h3.length_eq, List.length_map]
  · rw [h2.getEdges]
    exact returns_of_entries hin h3
  · intro gy old
    exact multiplies_of_adds hin h3 gy (fun sx hx rx cx => h2.adds hx rx cx hm add old)

/-! ### DCSC -/

/-- **DCSC tiles** (C44). -/
theorem dcsc_tile_correct (g : TileFresh E) {threads : Nat} (ht : 0 < threads)
    {sort : List (TEdge E) → List (TEdge E)} (hsort : SortsBy compareDcsc sort)
    {edges : List (Edge E)} {m n rs cs : Nat} (hin : EdgesIn m n rs cs edges)
    {mul : Nat → Nat → E → T → U → U} {pm : E → T → U} (hm : ∀ p nz e x old, mul p nz e x old = pm e x)
    (add : U → U → U) :
    ∃ t, Tile.build g threads sort edges m n rs cs = some t ∧ t.nnz = edges.length ∧
      ReturnsEdges edges (t.getEdges rs cs) ∧
      ∀ gy tmp, MultipliesBy m n rs cs edges pm add (multSegment gy tmp mul add t) := by
  obtain ⟨t, P, h1, h2, h3, h4, h5, h6⟩ := Tile.build_spec g ht hsort hin
  refine ⟨t, h1, h5, ?_, ?_⟩
  · rw [h2.getEdges]
    exact returns_of_entries hin h6
  · intro gy tmp sx sy hx rx hy cx cy
    obtain ⟨sy', s1, s2, s3, s4, _, _, s7⟩ := multSegment_spec h2 hx rx hy (by rw [cx, h4]) (by rw [cy, h3]) gy tmp hm add
    refine ⟨sy', s1, s2, s3, by rw [s4, cy], ?_⟩
    intro i
    rw [s7]
    exact reduces_products hin h6 _ _ _ _ _

/-! ### DCSR -/

/-- **DCSR tiles** (C44), where the memory behind `row_ids` is readable, whatever it holds.  Missing for the full property:
the constructor reads that memory without owning it, see `dcsr_reads_behind`. -/
theorem dcsr_tile_correct_partial (behind : Int) (g : FmtFresh E) {threads : Nat} (ht : 0 < threads)
    {sort : List (Edge E) → List (Edge E)} (hsort : SortsBy compareSrcDst sort)
    {edges : List (Edge E)} {m n rs cs : Nat} (hin : EdgesIn m n rs cs edges)
    {mul : E → T → U → U} {pm : E → T → U} (hm : ∀ e x old, mul e x old = pm e x) (add : U → U → U) :
    ∃ t, DCSR.build (some behind) g threads sort edges m n rs cs = some t ∧ t.nnz = edges.length ∧
      (∀ out, ReturnsEdges edges (t.getEdges out rs cs)) ∧
      ∀ gy old, MultipliesBy m n rs cs edges pm add (multWith gy (t.kernel old mul add)) := by
  obtain ⟨t, l, h1, h2, h3⟩ := DCSR.build_holds (behind := some behind) g ht hsort hin (fun _ => by simp)
  refine ⟨t, h1, ?_, ?_, ?_⟩
  · rw [h2.2.2.1, h3.length_eq, List.length_map]
  · intro out
    rw [h2.getEdges]
    exact returns_of_entries hin h3
  · intro gy old
    exact multiplies_of_adds hin h3 gy (fun sx hx rx cx => h2.adds hx rx cx hm add old)

/-- **C44 fails for DCSR tiles**: the constructor reads behind the end of `row_ids` for every non-empty tile with at most
`np (np - 2)` rows, where `np` is four times the number of threads (with 16 threads: 3968 rows). -/
theorem dcsr_reads_behind (g : FmtFresh E) {threads : Nat} (ht : 0 < threads)
    {sort : List (Edge E) → List (Edge E)} (hsort : SortsBy compareSrcDst sort)
    {edges : List (Edge E)} {m n rs cs : Nat} (hin : EdgesIn m n rs cs edges) (hne : edges ≠ [])
    (hm : m ≤ threads * 4 * (threads * 4 - 2)) :
    DCSR.build none g threads sort edges m n rs cs = none :=
  DCSR.build_none g ht hsort hin (List.length_pos_iff.mpr hne) hm

/-! ### COO -/

/-- **COO tiles** (C44), where the memory behind `ia` is readable and, if the tile has only one edge, holds a positive number.
Missing for the full property: the constructor always reads that memory (`coo_reads_behind`), and the only edge of a tile is
lost if the number there is not positive (`coo_loses_edge`). -/
theorem coo_tile_correct_partial (behind : Int) (g : FmtFresh E) {threads : Nat} (ht : 0 < threads)
    {sort : List (Edge E) → List (Edge E)} (hsort : SortsBy compareSrcDst sort)
    {edges : List (Edge E)} {m n rs cs : Nat} (hin : EdgesIn m n rs cs edges) (hb : edges.length = 1 → 1 ≤ behind)
    {mul : E → T → U → U} {pm : E → T → U} (hm : ∀ e x old, mul e x old = pm e x) (add : U → U → U) :
    ∃ t, COO.build (some behind) g threads sort edges m n rs cs = some t ∧ t.nnz = edges.length ∧
      ReturnsEdges edges (t.getEdges rs cs) ∧
      ∀ gy old, MultipliesBy m n rs cs edges pm add (t.mult gy old mul add) := by
  obtain ⟨t, l, h1, h2, h3⟩ := COO.build_holds g ht hsort hin hb
  refine ⟨t, h1, ?_, ?_, ?_⟩
  · rw [h2.2.2.1, h3.length_eq, List.length_map]
  · rw [h2.getEdges]
    exact returns_of_entries hin h3
  · intro gy old
    exact multiplies_of_adds hin h3 gy (fun sx hx rx cx => h2.adds hx rx cx hm add old)

/-- **C44 fails for COO tiles**: the constructor reads behind the end of `ia` for every non-empty tile. -/
theorem coo_reads_behind (g : FmtFresh E) {threads : Nat} (ht : 0 < threads)
    {sort : List (Edge E) → List (Edge E)} (hsort : SortsBy compareSrcDst sort)
    {edges : List (Edge E)} {m n rs cs : Nat} (hin : EdgesIn m n rs cs edges) (hne : edges ≠ []) :
    COO.build none g threads sort edges m n rs cs = none :=
  COO.build_none g ht hsort hin (List.length_pos_iff.mpr hne)

/-- **C44 fails for COO tiles with one edge**: where the number behind `ia` is not positive, the edge is in no partition.
`get_edges` returns it, but the tile multiplies like a tile without edges. -/
theorem coo_single_edge_lost {behind : Int} (hb : behind ≤ 0) (g : FmtFresh E) {threads : Nat} (ht : 0 < threads)
    {sort : List (Edge E) → List (Edge E)} (hsort : SortsBy compareSrcDst sort)
    {e : Edge E} {m n rs cs : Nat} (hin : EdgesIn m n rs cs [e]) (mul : E → T → U → U) (pm : E → T → U) (add : U → U → U) :
    ∃ t, COO.build (some behind) g threads sort [e] m n rs cs = some t ∧ ReturnsEdges [e] (t.getEdges rs cs) ∧
      ∀ gy old, MultipliesBy m n rs cs [] pm add (t.mult gy old mul add) := by
  obtain ⟨t, h1, h2, h3, h4, h5, _, _, h6⟩ := COO.build_any behind g ht hsort hin e (by simp)
  obtain ⟨h6, h7⟩ := h6 rfl hb
  refine ⟨t, h1, ?_, ?_⟩
  · rw [h5.getEdges, show (fun k => unlocal rs cs (entOf rs cs e (sort [e]) k)) =
      unlocal rs cs ∘ entOf rs cs e (sort [e]) from rfl, ← List.map_map, h4, entOf_map]
    exact returns_of_entries hin ((hsort [e]).1.map _)
  · intro gy old
    refine multiplies_of_adds (fun e he => absurd he (by simp)) (List.Perm.refl _) gy (fun sx hx rx cx => ?_)
    obtain ⟨bx, x1, _, _⟩ := Segment.ready_pview hx rx
    refine KernelAdds.nil.congr ?_
    intro st _
    split_ifs
    · rw [x1]
      show t.spmspv mul add old bx.value bx.bits st = some st
      unfold COO.spmspv
      have : ∀ k, k ≤ t.np → forLoop 0 k st (fun p st => do
          let lo ← t.ps.read p
          let hi ← t.ps.read (p + 1)
          forLoop lo hi st (cooEntry t mul add old bx.value bx.bits)) = some st := by
        intro k
        induction k with
        | zero => intro _; rfl
        | succ k ih =>
          intro hk
          rw [forLoop_succ_right (by omega), ih (by omega), Option.bind_some]
          rw [Arr.read_some (by omega), Arr.read_some (by omega), h7 k (by omega), h7 (k + 1) hk]
          rfl
      exact this _ (Nat.le_refl _)
    · rfl

/-! ### Hybrid -/

/-- **Hybrid tiles** (C44), where the memory behind `row_ids` of the DCSR part is readable, or no row has 16 edges.  Missing
for the full property: that read, and tiles without edges (`hybrid_empty_fails`). -/
theorem hybrid_tile_correct_partial (behind : Option Int) (g : FmtFresh E) {threads : Nat} (ht : 0 < threads)
    {s : HybridSorts E}
    (h1 : SortsBy compareSrcDst s.own) (h2 : SortsBy compareSrcDst s.csr) (h3 : SortsBy compareSrcDst s.dcsr)
    (h4 : SortsBy compareSimd s.simd) (h5 : ∀ p, SortsBy compareBin (s.bins p))
    {edges : List (Edge E)} {m n rs cs : Nat} (hin : EdgesIn m n rs cs edges) (hne : edges ≠ [])
    (hb : behind ≠ none ∨ ∀ e ∈ edges, edges.countP (fun f => decide (f.src = e.src)) < 16)
    {mul : E → T → U → U} {pm : E → T → U} (hm : ∀ e x old, mul e x old = pm e x) (add : U → U → U) :
    ∃ t, Hybrid.build behind g threads s edges m n rs cs = some t ∧ t.nnz = edges.length ∧
      (∀ out, ReturnsEdges edges (t.getEdges out rs cs)) ∧
      ∀ gy old1 old2, MultipliesBy m n rs cs edges pm add (t.mult gy old1 old2 mul add) := by
  obtain ⟨t, l, a1, a2, a3⟩ := Hybrid.build_holds g ht h1 h2 h3 h4 h5 hin hne hb
  refine ⟨t, a1, ?_, ?_, ?_⟩
  · rw [a2.2.2.1, a3.length_eq, List.length_map]
  · intro out
    rw [a2.getEdges]
    exact returns_of_entries hin a3
  · intro gy old1 old2
    exact multiplies_of_adds hin a3 gy (fun sx hx rx cx => a2.adds hx rx cx hm add old1 old2)

/-- **C44 fails for hybrid tiles without edges**: the multiplication follows uninitialised pointers. -/
theorem hybrid_empty_fails (m n : Nat) (g : Fresh U) (old1 old2 : Nat → U) (mul : E → T → U → U) (add : U → U → U)
    (sx : Segment T) (sy : Segment U) : (Hybrid.empty m n : Hybrid E).mult g old1 old2 mul add sx sy = none := by
  unfold Hybrid.mult multWith Hybrid.empty
  simp only [Option.bind_eq_bind]
  cases (sy.alloc g).initialize with
  | none => rfl
  | some s =>
    rw [Option.bind_some]
    cases s.props with
    | none => rfl
    | some b => rfl

/-! ### Interchangeability -/

/-- What an associative and commutative reduction makes of `MultipliesBy`. -/
theorem MultipliesBy.value {m n rs cs : Nat} {edges : List (Edge E)} {pm : E → T → U} {add : U → U → U}
    {mult : Segment T → Segment U → Option (Segment U)} (h : MultipliesBy m n rs cs edges pm add mult)
    (hassoc : ∀ a b c, add (add a b) c = add a (add b c)) (hcomm : ∀ a b, add a b = add b a)
    {sx : Segment T} {sy : Segment U} (hx : sx.WF) (rx : sx.Ready) (hy : sy.WF) (cx : sx.capacity = n)
    (cy : sy.capacity = m) :
    ∃ sy', mult sx sy = some sy' ∧ ∀ i, sy'.view i = productOf rs cs edges pm add sx.view sy.view i := by
  obtain ⟨sy', h1, _, _, _, h2⟩ := h sx sy hx rx hy cx cy
  exact ⟨sy', h1, fun i => (h2 i).unique hassoc hcomm⟩

/-- **All formats are interchangeable** (C44), for tiles with edges and where the memory behind the arrays is readable and, if
there is only one edge, holds a positive number: the six formats return the same edges, and multiply with the same result if the
reduction is associative and commutative.  Missing for the full property: see the theorems about DCSR, COO and hybrid
tiles.  (Each format may use its own number of threads.) -/
theorem formats_interchangeable_partial (behind : Int) (g : FmtFresh E) (gt : TileFresh E) {th : Fin 6 → Nat}
    (ht : ∀ k, 0 < th k)
    {sort1 sort2 sort3 : List (Edge E) → List (Edge E)} {sort4 sort5 : List (TEdge E) → List (TEdge E)}
    {bins : Nat → List SimdBin → List SimdBin} {s : HybridSorts E}
    (hs1 : SortsBy compareSrcDst sort1) (hs2 : SortsBy compareSrcDst sort2) (hs3 : SortsBy compareSrcDst sort3)
    (hs4 : SortsBy compareSimd sort4) (hs5 : SortsBy compareDcsc sort5) (hbins : ∀ p, SortsBy compareBin (bins p))
    (h1 : SortsBy compareSrcDst s.own) (h2 : SortsBy compareSrcDst s.csr) (h3 : SortsBy compareSrcDst s.dcsr)
    (h4 : SortsBy compareSimd s.simd) (h5 : ∀ p, SortsBy compareBin (s.bins p))
    {edges : List (Edge E)} {m n rs cs : Nat} (hin : EdgesIn m n rs cs edges) (hne : edges ≠ [])
    (hb : edges.length = 1 → 1 ≤ behind)
    {mul : E → T → U → U} {pm : E → T → U} (hm : ∀ e x old, mul e x old = pm e x) {add : U → U → U}
    (hassoc : ∀ a b c, add (add a b) c = add a (add b c)) (hcomm : ∀ a b, add a b = add b a)
    {sx : Segment T} {sy : Segment U} (hx : sx.WF) (rx : sx.Ready) (hy : sy.WF) (cx : sx.capacity = n)
    (cy : sy.capacity = m) (gy : Fresh U) (old old' : Nat → U) (tmp : Nat → Nat → U) (out : Nat → Edge E) :
    ∃ es csr dcsr coo simd dcsc hyb,
      CSR.build g (th 0) sort1 edges m n rs cs = some (es, csr) ∧
      DCSR.build (some behind) g (th 1) sort2 edges m n rs cs = some dcsr ∧
      COO.build (some behind) g (th 2) sort3 edges m n rs cs = some coo ∧
      COO.buildSimd g (th 3) sort4 bins edges m n rs cs = some simd ∧
      Tile.build gt (th 4) sort5 edges m n rs cs = some dcsc ∧
      Hybrid.build (some behind) g (th 5) s edges m n rs cs = some hyb ∧
      (∀ r ∈ [csr.getEdges out rs cs, dcsr.getEdges out rs cs, coo.getEdges rs cs, simd.getEdges rs cs,
        dcsc.getEdges rs cs, hyb.getEdges out rs cs], ReturnsEdges edges r) ∧
      ∀ r ∈ [csr.mult (th 0) gy old mul add sx sy, multWith gy (dcsr.kernel old mul add) sx sy,
        coo.mult gy old mul add sx sy, simd.mult gy old mul add sx sy,
        multSegment gy tmp (fun _ _ => mul) add dcsc sx sy, hyb.mult gy old old' mul add sx sy],
        ∃ sy', r = some sy' ∧ ∀ i, sy'.view i = productOf rs cs edges pm add sx.view sy.view i := by
  obtain ⟨es, csr, a1, _, a2, a3⟩ := csr_tile_correct g (ht 0) hs1 hin hm add
  obtain ⟨dcsr, b1, _, b2, b3⟩ := dcsr_tile_correct_partial behind g (ht 1) hs2 hin hm add
  obtain ⟨coo, c1, _, c2, c3⟩ := coo_tile_correct_partial behind g (ht 2) hs3 hin hb hm add
  obtain ⟨simd, d1, _, d2, d3, _⟩ := coosimd_tile_correct g (ht 3) hs4 hbins hin hm add
  obtain ⟨dcsc, e1, _, e2, e3⟩ := dcsc_tile_correct gt (ht 4) hs5 hin (mul := fun _ _ => mul) (fun _ _ => hm) add
  obtain ⟨hyb, f1, _, f2, f3⟩ := hybrid_tile_correct_partial (some behind) g (ht 5) h1 h2 h3 h4 h5 hin hne
    (.inl (by simp)) hm add
  refine ⟨es, csr, dcsr, coo, simd, dcsc, hyb, a1, b1, c1, d1, e1, f1, ?_, ?_⟩
  · intro r hr
    simp only [List.mem_cons, List.not_mem_nil, or_false] at hr
    rcases hr with rfl | rfl | rfl | rfl | rfl | rfl
    · exact a2 out
    · exact b2 out
    · exact c2
    · exact d2
    · exact e2
    · exact f2 out
  · intro r hr
    simp only [List.mem_cons, List.not_mem_nil, or_false] at hr
    rcases hr with rfl | rfl | rfl | rfl | rfl | rfl
    · exact (a3 _ _ _ (ht 0)).value hassoc hcomm hx rx hy cx cy
    · exact (b3 _ _).value hassoc hcomm hx rx hy cx cy
    · exact (c3 _ _).value hassoc hcomm hx rx hy cx cy
    · exact (d3 _ _).value hassoc hcomm hx rx hy cx cy
    · exact (e3 _ _).value hassoc hcomm hx rx hy cx cy
    · exact (f3 _ _ _).value hassoc hcomm hx rx hy cx cy

/-! ### Concrete cases -/

theorem insSort_srcDst : SortsBy compareSrcDst (insSort (compareSrcDst (E := E))) := by
  refine insSort_sorts ?_ ?_
  · intro a b h
    rw [compareSrcDst_eq] at *
    simp at *
    omega
  · intro a b c h1 h2
    rw [compareSrcDst_eq] at *
    simp at *
    omega

theorem compareSimd_eq (a b : TEdge E) : compareSimd a b = decide (a.tile < b.tile ∨ (a.tile = b.tile ∧
    (a.dst < b.dst ∨ (a.dst = b.dst ∧ a.src < b.src)))) := by
  unfold compareSimd
  repeat' split
  all_goals · simp; omega

theorem insSort_simd : SortsBy compareSimd (insSort (compareSimd (E := E))) := by
  refine insSort_sorts ?_ ?_
  · intro a b h
    rw [compareSimd_eq] at *
    simp at *
    omega
  · intro a b c h1 h2
    rw [compareSimd_eq] at *
    simp at *
    omega

theorem insSort_bin : SortsBy compareBin (insSort compareBin) := by
  refine insSort_sorts ?_ ?_
  · intro a b h
    unfold compareBin at *
    simp at *
    omega
  · intro a b c h1 h2
    unfold compareBin at *
    simp at *
    omega

/-- Twenty edges of a 40 x 17 tile behind row 10 and column 20: one row with 17 edges, one edge twice. -/
def fmtEdges : List (Edge Nat) :=
  (List.range 17).map (fun j => ⟨12, (37 - j : Nat), j⟩) ++ [⟨50, 21, 100⟩, ⟨11, 30, 200⟩, ⟨11, 30, 200⟩]

/-- Fresh memory for the examples. -/
def fmtFresh : FmtFresh Nat := ⟨fun _ => 77, fun _ _ => -3, fun _ _ => 5, fun _ _ => ⟨1, 1, 9⟩⟩

/-- Sorting functions for the examples. -/
def fmtSorts : HybridSorts Nat :=
  ⟨insSort compareSrcDst, insSort compareSrcDst, insSort compareSrcDst, insSort compareSimd, fun _ => insSort compareBin⟩

/-- The vector for the examples: a value in every column but the second. -/
def fmtX (n : Nat) : Option (Segment Nat) := do
  let s ← (Segment.new n).setAll (.sample 3) 1
  if 1 < n then s.unset (.sample 3) 2 else some s

/-- Multiply by an empty segment, adding, and show the rows. -/
def fmtRows (m n : Nat) (mult : Segment Nat → Segment Nat → Option (Segment Nat)) (rows : List Nat) :
    Option (List (Option Nat)) := do
  let sx ← fmtX n
  let r ← mult sx (Segment.new m)
  some (rows.map r.view)

theorem fmtEdges_in : EdgesIn 40 17 10 20 fmtEdges := by
  intro e he
  have : fmtEdges.all (fun e => decide ((10 : Int) < e.src ∧ e.src ≤ 50 ∧ (20 : Int) < e.dst ∧ e.dst ≤ 37)) = true := by
    decide +kernel
  have := List.all_eq_true.mp this e he
  simp at this
  omega

theorem fmtX_ready : ∃ sx, fmtX 17 = some sx ∧ sx.WF ∧ sx.Ready ∧ sx.capacity = 17 := by
  obtain ⟨s, h1, h2, _, h3, _⟩ := Segment.setAll_spec (Segment.new_WF (α := Nat) 17) (.sample 3) 1
  obtain ⟨s', h4, h5, h6, h7, _⟩ := Segment.unset_spec h2 (.sample 3) (idx := 2) (by omega) (by rw [h3]; decide)
  refine ⟨s', ?_, h5, h6, by rw [h7, h3]; rfl⟩
  unfold fmtX
  rw [h1]
  exact h4

/-- The hypotheses of `formats_interchangeable_partial` (and so those of the theorems about each format) hold for this
tile. -/
example : ∃ sx : Segment Nat, fmtX 17 = some sx ∧ ∃ es csr dcsr coo simd dcsc hyb,
    CSR.build fmtFresh 1 (insSort compareSrcDst) fmtEdges 40 17 10 20 = some (es, csr) ∧
    DCSR.build (some 0) fmtFresh 2 (insSort compareSrcDst) fmtEdges 40 17 10 20 = some dcsr ∧
    COO.build (some 0) fmtFresh 2 (insSort compareSrcDst) fmtEdges 40 17 10 20 = some coo ∧
    COO.buildSimd fmtFresh 3 (insSort compareSimd) (fun _ => insSort compareBin) fmtEdges 40 17 10 20 = some simd ∧
    Tile.build ⟨fun _ => 4, fun _ _ => 4⟩ 2 (insSort compareDcsc) fmtEdges 40 17 10 20 = some dcsc ∧
    Hybrid.build (some 0) fmtFresh 1 fmtSorts fmtEdges 40 17 10 20 = some hyb ∧
    (∀ r ∈ [csr.getEdges (fun _ => ⟨0, 0, 0⟩) 10 20, dcsr.getEdges (fun _ => ⟨0, 0, 0⟩) 10 20, coo.getEdges 10 20,
      simd.getEdges 10 20, dcsc.getEdges 10 20, hyb.getEdges (fun _ => ⟨0, 0, 0⟩) 10 20], ReturnsEdges fmtEdges r) ∧
    ∀ r ∈ [csr.mult 1 (.sample 3) (fun _ => 3) (fun e x _ => e * x) (· + ·) sx (Segment.new 40),
      multWith (.sample 3) (dcsr.kernel (fun _ => 3) (fun e x _ => e * x) (· + ·)) sx (Segment.new 40),
      coo.mult (.sample 3) (fun _ => 3) (fun e x _ => e * x) (· + ·) sx (Segment.new 40),
      simd.mult (.sample 3) (fun _ => 3) (fun e x _ => e * x) (· + ·) sx (Segment.new 40),
      multSegment (.sample 3) (fun _ _ => 3) (fun _ _ e x _ => e * x) (· + ·) dcsc sx (Segment.new 40),
      hyb.mult (.sample 3) (fun _ => 3) (fun _ => 3) (fun e x _ => e * x) (· + ·) sx (Segment.new 40)],
      ∃ sy', r = some sy' ∧
        ∀ i, sy'.view i = productOf 10 20 fmtEdges (fun e x => e * x) (· + ·) sx.view (Segment.new 40).view i := by
  obtain ⟨sx, h1, h2, h3, h4⟩ := fmtX_ready
  refine ⟨sx, h1, ?_⟩
  exact formats_interchangeable_partial 0 fmtFresh ⟨fun _ => 4, fun _ _ => 4⟩ (th := fun k => [1, 2, 2, 3, 2, 1].getD k.val 1) (by decide)
    insSort_srcDst insSort_srcDst insSort_srcDst insSort_simd insSort_dcsc (fun _ => insSort_bin)
    (s := fmtSorts) insSort_srcDst insSort_srcDst insSort_srcDst insSort_simd (fun _ => insSort_bin)
    fmtEdges_in (by decide) (fun h => absurd h (by decide))
    (mul := fun e x _ => e * x) (fun _ _ _ => rfl) Nat.add_assoc Nat.add_comm h2 h3 (Segment.new_WF 40) h4 rfl
    (.sample 3) (fun _ => 3) (fun _ => 3) (fun _ _ => 3) (fun _ => ⟨0, 0, 0⟩)

/-- Its product: the second row has 17 edges, one of them in a column without a value. -/
example : (do
    let t ← Hybrid.build (some 0) fmtFresh 1 fmtSorts fmtEdges 40 17 10 20
    fmtRows 40 17 (t.mult (.sample 3) (fun _ => 3) (fun _ => 3) (fun e x _ => e * x) (· + ·)) [0, 1, 2, 39]) =
    some [some 400, some 121, none, some 100] := by decide +kernel

/-- The hypotheses of the theorems about failing constructors are met by this tile: with two threads it has less than
8 * 6 rows. -/
example : DCSR.build none fmtFresh 2 (insSort compareSrcDst) fmtEdges 40 17 10 20 = none :=
  dcsr_reads_behind _ (by decide) insSort_srcDst fmtEdges_in (by decide) (by decide)

example : COO.build none fmtFresh 2 (insSort compareSrcDst) fmtEdges 40 17 10 20 = none :=
  coo_reads_behind _ (by decide) insSort_srcDst fmtEdges_in (by decide)

/-- A DCSR tile with enough rows for its threads does not read behind the array: the number of rows matters in
`dcsr_reads_behind`. -/
example : (DCSR.build none fmtFresh 1 (insSort compareSrcDst)
    ((List.range 16).map (fun i => ⟨(32 * i + 1 : Nat), 1, 5⟩)) 512 1 0 0).isSome = true := by decide +kernel

/-- **C44 fails for COO tiles, in the product**: where the memory behind `ia` is readable and holds 0, the only edge of this
tile is in no partition.  `get_edges` returns it, the product does not contain it. -/
theorem coo_loses_edge : ∃ t, COO.build (some 0) fmtFresh 1 (insSort compareSrcDst) [⟨1, 1, 7⟩] 1 1 0 0 = some t ∧
    (t.getEdges 0 0).map (List.map (fun e => (e.src, e.dst, e.val))) = some [(1, 1, 7)] ∧
    fmtRows 1 1 (t.mult (.sample 3) (fun _ => 3) (fun e x _ => e * x) (· + ·)) [0] = some [none] ∧
    productOf 0 0 [⟨1, 1, 7⟩] (fun e x => e * x) (· + ·) (fun _ => some 1) (fun _ => none) 0 = some 7 := by
  have h : ((COO.build (some 0) fmtFresh 1 (insSort compareSrcDst) [⟨1, 1, 7⟩] 1 1 0 0).map (fun t =>
      ((t.getEdges 0 0).map (List.map (fun e => (e.src, e.dst, e.val))),
        fmtRows 1 1 (t.mult (.sample 3) (fun _ => 3) (fun e x _ => e * x) (· + ·)) [0]))) =
      some (some [(1, 1, 7)], some [none]) := by decide +kernel
  cases ht : COO.build (some 0) fmtFresh 1 (insSort compareSrcDst) [⟨1, 1, 7⟩] 1 1 0 0 with
  | none => rw [ht] at h; cases h
  | some t =>
    rw [ht, Option.map_some] at h
    injection h with h
    injection h with h1 h2
    exact ⟨t, rfl, h1, h2, by decide +kernel⟩

/-- An edge in the middle of a tile, four partitions. -/
example : EdgesIn 20 30 0 0 [(⟨5, 9, 7⟩ : Edge Nat)] ∧ (-3 : Int) ≤ 0 := by
  refine ⟨?_, by decide⟩
  intro e he
  simp at he
  subst he
  decide

end GraphMat

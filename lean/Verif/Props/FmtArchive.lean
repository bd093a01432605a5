import Verif.Lemmas.FmtArchive
import Verif.Props.FmtMat
import Verif.Props.TestVec

/-!
# Distributed matrices of every tile format survive archives (C86)
-/
namespace GraphMat

variable {E T U V Til : Type} {m n nrank : Nat} {G G' : Grid nrank} {blobs : List (List (Edge E))} {srt srt' : MatSorts E}
  {env env' : FmtEnv E} {threads threads' : Nat} {mul : E → T → U → U} {pm : E → T → U}

/-! ### Formats for which everything holds -/

/-- C86 for CSR tiles: a matrix of any size, cut into any grid and placed on any ranks, that is saved and loaded returns its edges, transposes
and multiplies correctly. -/
theorem csr_matrix_archive (io : IOEnv E) (he : env.OK) (he' : env'.OK) (hs : srt.OK) (hs' : srt'.OK) (ht : 0 < threads) (ht' : 0 < threads')
    (hr : 0 < nrank) (hlen : blobs.length = nrank) (hin : ∀ e ∈ blobs.flatten, InMat m n e)
    (hm : ∀ e x old, mul e x old = pm e x) (add : U → U → U) :
    MatrixRestores (csrFmt env threads) (csrFmt env' threads') (csrIO io) srt srt' m n G G' blobs ∧
    RestoredMultiplies (csrFmt env threads) (csrIO io) srt m n G blobs pm add
      (fun mult => ∃ (th : Nat) (gy : Nat → Nat → Nat → Fresh U) (old : Nat → Nat → Nat → Nat → U), 0 < th ∧ mult = fun k => csrMult th (gy k) (old k) mul add) :=
  ⟨lawful_restores (csr_laws he ht) (csr_io io threads hm add).reads (csr_laws he' ht') hs hs' hr hlen hin (fun _ _ _ _ => trivial)
      (fun _ _ _ _ => trivial) (fun _ _ _ _ => trivial),
    lawful_restored_multiplies (csr_laws he ht) (csr_io io threads hm add) hs hr hlen hin (fun _ _ _ _ => trivial) (fun _ _ _ _ => trivial)
      (fun _ _ => trivial) (fun _ _ _ _ => .inr fun _ => trivial)⟩

/-- C86 for COO-SIMD tiles. -/
theorem coosimd_matrix_archive (io : IOEnv E) (he : env.OK) (he' : env'.OK) (hs : srt.OK) (hs' : srt'.OK) (ht : 0 < threads) (ht' : 0 < threads')
    (hr : 0 < nrank) (hlen : blobs.length = nrank) (hin : ∀ e ∈ blobs.flatten, InMat m n e)
    (hm : ∀ e x old, mul e x old = pm e x) (add : U → U → U) :
    MatrixRestores (simdFmt env threads) (simdFmt env' threads') (simdIO io) srt srt' m n G G' blobs ∧
    RestoredMultiplies (simdFmt env threads) (simdIO io) srt m n G blobs pm add
      (fun mult => ∃ (gy : Nat → Nat → Nat → Fresh U) (old : Nat → Nat → Nat → Nat → U), mult = fun k => cooMult (gy k) (old k) mul add) :=
  ⟨lawful_restores (simd_sized_laws he ht) (simd_io io threads hm add).reads (simd_laws he' ht') hs hs' hr hlen hin (fun _ _ _ _ => trivial)
      (fun _ _ _ _ => trivial) (fun _ _ _ _ => trivial),
    lawful_restored_multiplies (simd_sized_laws he ht) (simd_io io threads hm add) hs hr hlen hin (fun _ _ _ _ => trivial)
      (fun _ _ _ _ => trivial) (fun _ _ => trivial) (fun _ _ _ _ => .inr fun _ => trivial)⟩

/-- C86 for DCSC tiles. -/
theorem dcsc_matrix_archive (io : IOEnv E) (he : env.OK) (he' : env'.OK) (hs : srt.OK) (hs' : srt'.OK) (ht : 0 < threads) (ht' : 0 < threads')
    (hr : 0 < nrank) (hlen : blobs.length = nrank) (hin : ∀ e ∈ blobs.flatten, InMat m n e)
    (hm : ∀ e x old, mul e x old = pm e x) (add : U → U → U) :
    MatrixRestores (dcscFmt env threads) (dcscFmt env' threads') (dcscIO io) srt srt' m n G G' blobs ∧
    RestoredMultiplies (dcscFmt env threads) (dcscIO io) srt m n G blobs pm add
      (fun mult => ∃ (gy : Nat → Nat → Nat → Fresh U) (tmp : Nat → Nat → Nat → Nat → Nat → U), mult = fun k => dcscMult (gy k) (tmp k) mul add) :=
  ⟨lawful_restores (dcsc_laws he ht) (dcsc_io io threads hm add).reads (dcsc_laws he' ht') hs hs' hr hlen hin (fun _ _ _ _ => trivial)
      (fun _ _ _ _ => trivial) (fun _ _ _ _ => trivial),
    lawful_restored_multiplies (dcsc_laws he ht) (dcsc_io io threads hm add) hs hr hlen hin (fun _ _ _ _ => trivial) (fun _ _ _ _ => trivial)
      (fun _ _ => trivial) (fun _ _ _ _ => .inr fun _ => trivial)⟩

/-! ### Formats for which a part holds -/

/-- C86 for COO tiles, as far as it holds.  Missing: as in `coo_matrix_correct_partial`, since such matrices cannot be built or multiplied in
the first place. -/
theorem coo_matrix_archive_partial (io : IOEnv E) (he : env.OK) (he' : env'.OK) (hs : srt.OK) (hs' : srt'.OK) (ht : 0 < threads)
    (ht' : 0 < threads') (hr : 0 < nrank) (hlen : blobs.length = nrank) (hin : ∀ e ∈ blobs.flatten, InMat m n e)
    (hm : ∀ e x old, mul e x old = pm e x) (add : U → U → U)
    (hb : Readable env m n G blobs.flatten) (hb' : Readable env' n m G' (blobs.flatten.map swapEdge)) :
    MatrixRestores (cooFmt env threads) (cooFmt env' threads') (cooIO io) srt srt' m n G G' blobs ∧
    ((∀ i j, i < G.nty → j < G.ntx → ∃ b, env.behind (G.ow i j) i j = some b ∧ ((cellEdges m n G blobs.flatten i j).length = 1 → 1 ≤ b)) →
      RestoredMultiplies (cooFmt env threads) (cooIO io) srt m n G blobs pm add
        (fun mult => ∃ (gy : Nat → Nat → Nat → Fresh U) (old : Nat → Nat → Nat → Nat → U), mult = fun k => cooMult (gy k) (old k) mul add)) :=
  ⟨lawful_restores (coo_saved_laws he ht) (coo_read_io he ht io) (coo_read_laws he' ht') hs hs' hr hlen hin hb (fun _ _ _ _ => trivial) hb',
    fun h => lawful_restored_multiplies (coo_laws he ht) (coo_io io threads hm add) hs hr hlen hin h (fun _ _ _ _ => trivial)
      (fun _ _ => trivial) (fun _ _ _ _ => .inr fun _ => trivial)⟩

/-- C86 for DCSR tiles, as far as it holds: where the memory behind `row_ids` and `ia` can be read, what is loaded has the edges.  Missing: the
rest (`dcsr_archive_fails`); there is no `mult_segment` for them. -/
theorem dcsr_matrix_archive_partial (io : IOEnv E) (he : env.OK) (he' : env'.OK) (hs : srt.OK) (hs' : srt'.OK) (ht : 0 < threads)
    (ht' : 0 < threads') (hr : 0 < nrank) (hlen : blobs.length = nrank) (hin : ∀ e ∈ blobs.flatten, InMat m n e)
    (hb : Readable env m n G blobs.flatten) (hb' : Readable env' n m G' (blobs.flatten.map swapEdge))
    (hio : ∀ i j, i < G.nty → j < G.ntx → io.beyond (G.ow i j) i j ≠ none) :
    MatrixRestores (dcsrFmt env threads) (dcsrFmt env' threads') (dcsrIO io) srt srt' m n G G' blobs :=
  lawful_restores (dcsr_laws he ht) (dcsr_io io threads) (dcsr_laws he' ht') hs hs' hr hlen hin hb hio hb'

/-- No row of a tile has 16 edges. -/
def LightRows (m n : Nat) (G : Grid nrank) (entries : List (Edge E)) : Prop :=
  ∀ i j, i < G.nty → j < G.ntx → ∀ e ∈ cellEdges m n G entries i j, (cellEdges m n G entries i j).countP (fun f => decide (f.src = e.src)) < 16

/-- C86 for hybrid tiles, as far as it holds.  If no row of a tile has 16 edges, nothing behind the arrays is read and what is loaded has the
edges; it multiplies if every tile has an edge.  With other rows it has the edges if the memory behind the arrays can be read.  Missing: the
multiplications with other rows (`hybrid_restored_matrix_fails`) or empty tiles (`hybrid_matrix_empty_tile`). -/
theorem hybrid_matrix_archive_partial (io : IOEnv E) (he : env.OK) (he' : env'.OK) (hs : srt.OK) (hs' : srt'.OK) (ht : 0 < threads)
    (ht' : 0 < threads') (hr : 0 < nrank) (hlen : blobs.length = nrank) (hin : ∀ e ∈ blobs.flatten, InMat m n e)
    (hm : ∀ e x old, mul e x old = pm e x) (add : U → U → U)
    (hb' : ∀ i j, i < G'.nty → j < G'.ntx → env'.behind (G'.ow i j) i j ≠ none ∨
      ∀ e ∈ cellEdges n m G' (blobs.flatten.map swapEdge) i j,
        (cellEdges n m G' (blobs.flatten.map swapEdge) i j).countP (fun f => decide (f.src = e.src)) < 16) :
    (LightRows m n G blobs.flatten →
      MatrixRestores (hybridFmt env threads) (hybridFmt env' threads') (hybridIO io) srt srt' m n G G' blobs ∧
      ((∀ i j, i < G.nty → j < G.ntx → cellEdges m n G blobs.flatten i j ≠ []) →
        RestoredMultiplies (hybridFmt env threads) (hybridIO io) srt m n G blobs pm add
          (fun mult => ∃ (gy : Nat → Nat → Nat → Fresh U) (old old' : Nat → Nat → Nat → Nat → U), mult = fun k => hybridMult (gy k) (old k) (old' k) mul add))) ∧
    ((∀ i j, i < G.nty → j < G.ntx → env.behind (G.ow i j) i j ≠ none ∧ io.beyond (G.ow i j) i j ≠ none) →
      MatrixRestores (hybridFmt env threads) (hybridFmt env' threads') (hybridIO io) srt srt' m n G G' blobs) := by
  refine ⟨fun hl => ⟨?_, fun hne => ?_⟩, fun h => ?_⟩
  · exact lawful_restores (hybrid_whole_laws he ht true) (hybrid_io io threads true hm add).reads (hybrid_laws he' ht') hs hs' hr hlen hin
      (fun i j hi hj => .inr (hl i j hi hj)) (fun _ _ _ _ => .inl rfl) hb'
  · exact lawful_restored_multiplies (hybrid_whole_laws he ht true) (hybrid_io io threads true hm add) hs hr hlen hin
      (fun i j hi hj => .inr (hl i j hi hj)) (fun _ _ _ _ => .inl rfl) (fun _ h => ⟨rfl, h⟩) (fun i j hi hj => .inl (hne i j hi hj))
  · exact lawful_restores (hybrid_whole_laws he ht false) (hybrid_io io threads false hm add).reads (hybrid_laws he' ht') hs hs' hr hlen hin
      (fun i j hi hj => .inl ⟨rfl, (h i j hi hj).1⟩) (fun i j hi hj => .inr (h i j hi hj).2) hb'

/-! ### Where the claim fails -/

theorem FMat.spmspv_fails {Is : Til → Nat → Nat → List (Nat × Nat × E) → Prop} {D : List (FMat Til)} {T' : Nat → Nat → Til}
    {L : Nat → Nat → List (Nat × Nat × E)} {all : List (Edge E)} (d5 : FMat.Rep Is D m n G.ntx G.nty nrank G.ow T' L all) {i j : Nat}
    (hi : i < G.nty) (hj : j < G.ntx) {mult : Nat → Nat → Nat → Til → Segment T → Segment U → Option (Segment U)}
    (hfail : ∀ sx sy, mult (G.ow i j) i j (T' i j) sx sy = none) (me : MulEnv T U V) (th : Nat) (add : U → U → U) (x : DVec T) (y : DVec U)
    (hy : y.size = nrank) : FMat.spmspv me th nrank D mult add x y = none := by
  unfold FMat.spmspv
  simp only [Option.bind_eq_bind]
  refine bind_fails fun M hM => bind_fails fun cp _ => bind_fails fun rp _ => bind_fails fun x1 _ => ?_
  refine none_fails ?_
  unfold eachRank
  rw [forLoop_range]
  refine foldlM_fails (b := G.ow i j) ?_ (List.mem_range.mpr (by rw [hy]; exact G.how i j)) _
  intro s
  refine bind_fails fun yv _ => ?_
  refine none_fails ?_
  refine bind_fails fun xv _ => ?_
  rw [d5.head (G.how i j), Option.bind_some, FMat.foldTiles_spec]
  refine foldlM_fails (b := (i, j)) ?_ (List.mem_filter.mpr ⟨mem_cells.mpr ⟨hi, hj⟩, by simp⟩) _
  intro yv
  refine bind_fails fun sx _ => ?_
  unfold SpVec.modifySeg
  simp only [Option.bind_eq_bind]
  refine bind_fails fun sy _ => ?_
  show Option.bind (mult (G.ow i j) i j (T' i j) sx sy) _ = none
  rw [hfail]
  rfl

/-- **C86 fails for hybrid tiles**: if a row of some tile has at least 16 edges, no multiplication with the loaded matrix succeeds, whatever the
vectors and even where all memory behind arrays can be read. -/
theorem hybrid_restored_matrix_fails (io : IOEnv E) (he : env.OK) (hs : srt.OK) (ht : 0 < threads) (hr : 0 < nrank)
    (hlen : blobs.length = nrank) (hin : ∀ e ∈ blobs.flatten, InMat m n e)
    (hb : ∀ i j, i < G.nty → j < G.ntx → env.behind (G.ow i j) i j ≠ none ∧ io.beyond (G.ow i j) i j ≠ none)
    {i j : Nat} (hi : i < G.nty) (hj : j < G.ntx) (hrow : ∃ e ∈ cellEdges m n G blobs.flatten i j,
      16 ≤ (cellEdges m n G blobs.flatten i j).countP (fun f => decide (f.src = e.src))) :
    ∃ out D D', FMat.ofEdges (hybridFmt env threads) m n G.ntx G.nty nrank G.pfn srt blobs = some (out, D) ∧
      FMat.reload (hybridIO io) (fun i j => G.pfn j i nrank) D = some D' ∧
      ∀ (me : MulEnv T U V) (th : Nat) gy old old' (add : U → U → U) (x : DVec T) (y : DVec U), y.size = nrank →
        FMat.spmspv me th nrank D' (hybridMult gy old old' mul add) add x y = none := by
  obtain ⟨out, D, T1, L, d1, _, _, _, d5⟩ := FMat.ofEdges_spec hs (hybrid_split_laws he ht) G.hy G.hx hr G.hpfn G.how hlen hin
    (fun i j hi hj => (hb i j hi hj).1)
  have key : ∀ add : U → U → U, ∃ D' T', FMat.reload (hybridIO io) (fun i j => G.pfn j i nrank) D = some D' ∧
      FMat.Rep (fun t _ _ l => Heavy l → ∀ gy old old' r i j sx sy, hybridMult (T := T) (U := U) gy old old' mul add r i j t sx sy = none) D'
        m n G.ntx G.nty nrank G.ow T' L blobs.flatten := fun add =>
    d5.reload (hybrid_split_io io mul add) (fun i j hi hj => (hb i j hi hj).2) (fun i j _ => G.hpfn i j)
  have hheavy : Heavy (L i j) := by
    refine Heavy.perm ?_ (d5.tile i j hi hj).2.symm
    refine (heavy_iff (m := bnd m G.nty (i + 1) - bnd m G.nty i) (n := bnd n G.ntx (j + 1) - bnd n G.ntx j) ?_).mpr hrow
    intro e he
    obtain ⟨h1, h2⟩ := List.mem_filter.mp he
    have h2 : tileOf m n G.nty G.ntx e = (i, j) := by simpa using h2
    obtain ⟨_, _, _, a1, a2, a3, a4⟩ := tileOf_spec G.hy G.hx (hin e h1)
    rw [h2] at a1 a2 a3 a4
    simp only at a1 a2 a3 a4
    unfold InTile
    omega
  by_cases hU : Nonempty (U → U → U)
  · obtain ⟨D', _, e1, _⟩ := key hU.some
    refine ⟨out, D, D', d1, e1, ?_⟩
    intro me th gy old old' add x y hy
    obtain ⟨D2, T2, f1, f2⟩ := key add
    have : D2 = D' := Option.some.inj (f1.symm.trans e1)
    subst this
    exact FMat.spmspv_fails f2 hi hj (fun sx sy => (f2.tile i j hi hj).1 hheavy gy old old' _ _ _ sx sy) me th add x y hy
  · exfalso
    by_cases hu : Nonempty U
    · exact hU ⟨fun a _ => a⟩
    · exact hU ⟨fun a _ => absurd ⟨a⟩ hu⟩

/-- Memory for loaded tiles, for the examples. -/
def IOEnv.sample (f : Option (Nat → Nat)) (x : E) : IOEnv E where
  g _ _ _ := ⟨fun _ => x, fun _ _ => 5, fun _ _ => 5, fun _ _ => ⟨5, 5, x⟩⟩
  gt _ _ _ := ⟨fun _ => x, fun _ _ => 6⟩
  beyond _ _ _ := f

/-- **C86 fails for DCSR tiles**: `save` reads behind the end of `ia`; where that is not readable it fails. -/
theorem dcsr_archive_fails :
    ((FMat.ofEdges (dcsrFmt (.sample (some 4) 9) 1) 5 5 1 1 1 partitionFn1d .ins [[⟨1, 2, 3⟩, ⟨4, 2, 3⟩]]).isSome = true) ∧
    (FMat.ofEdges (dcsrFmt (.sample (some 4) 9) 1) 5 5 1 1 1 partitionFn1d .ins [[⟨1, 2, 3⟩, ⟨4, 2, 3⟩]]).bind
      (fun A => FMat.reload (dcsrIO (.sample none 9)) (fun i j => partitionFn1d j i 1) A.2) = none :=
  ⟨by decide +kernel, Option.isNone_iff_eq_none.mp (by decide +kernel)⟩

/-! ### The repository's test at every size -/

theorem testFmtArchive_true {F : TileFmt E Til} {io : TileIO E Til} {ok : Nat → Nat → Nat → List (Edge E) → Prop} {okio : Nat → Nat → Nat → Prop}
    {Is : Til → Nat → Nat → List (Nat × Nat × E) → Prop} (hF : F.Laws ok Is) (hio : io.Laws okio Is (TileReads F))
    (sort : List (Edge E) → List (Edge E)) {eq : E → E → Bool} (heq : ∀ x, eq x x = true) (g : Nat → Nat → Edge E) (k : Nat → Edge E)
    {dist : Nat → Nat} {draws n : Nat} (hdr : Draws n draws dist) (one : E) {srt : MatSorts E} (hsrt : srt.OK) {nrank : Nat} (hr : 0 < nrank)
    (hfit : n * min 16 n ≤ IMAX) (hokio : ∀ i j, i < nrank → j < nrank → okio (i % nrank) i j)
    (hok : ∀ es : List (Edge E), (∀ e ∈ es, es.countP (fun f => decide (f.src = e.src)) ≤ min 16 n) → ∀ i j, i < nrank → j < nrank →
      ok (i % nrank) i j (es.filter (fun e => decide (tileOf n n nrank nrank e = (i, j))))) :
    testFmtArchive F io (fun i j => partitionFn1d j i nrank) sort eq g k dist draws one srt nrank n = some true := by
  obtain ⟨els, es, e1, e2, _, e4, _, e6⟩ := test_random_generator g one hr 16 hdr hfit
  obtain ⟨o1, o2⟩ := own1d nrank hr
  obtain ⟨out, D, T, L, d1, _, _, _, d5⟩ := FMat.ofEdges_spec (m := n) (n := n) hsrt hF hr hr hr o1 o2 (blobs := els.map EdgeList.list)
    (by simp [e2.length]) (by
      rw [e2.flatten]
      intro e he
      exact (e4 e he).1) (by
      rw [e2.flatten]
      refine hok es ?_
      intro e he
      obtain ⟨⟨v1, v2, _⟩, _⟩ := e4 e he
      obtain ⟨v, hv⟩ : ∃ v : Nat, e.src = v := ⟨e.src.toNat, by omega⟩
      rw [hv, e6 v (by omega) (by omega)])
  obtain ⟨D', T', r1, r2⟩ := d5.reload hio hokio (other := fun i j => partitionFn1d j i nrank) (fun i j _ => o1 i j)
  obtain ⟨el, l1⟩ : ∃ el, els[0]? = some el := ⟨_, List.getElem?_eq_getElem (by rw [e2.length]; exact hr)⟩
  obtain ⟨_, m1, m2⟩ := e2.rankLists.made el (List.mem_of_getElem? l1)
  unfold testFmtArchive
  simp only [e1, l1, m1, m2, Int.toNat_natCast, d1, r1, Option.bind_eq_bind, Option.bind_some]
  rw [mapM_some (g := fun _ => true)]
  · simp
  · intro r hrr
    rw [List.mem_range] at hrr
    rw [d5.head hrr, r2.head hrr]
    simp only [Option.bind_some]
    rw [FMat.Rep.getEdges hF d5 hr hr r, FMat.Rep.getEdges hF.reads r2 hr hr r]
    have hm : ∀ T : Nat → Nat → Til, (fmatOf n n nrank nrank nrank (fun i _ => i % nrank) T r).m = n := fun _ => rfl
    have hn : ∀ T : Nat → Nat → Til, (fmatOf n n nrank nrank nrank (fun i _ => i % nrank) T r).n = n := fun _ => rfl
    simp only [Option.bind_some, hm, hn]
    exact compareEdges_self sort heq _ _ _ _

/-- `matrix_serialization_test` for a format with any size that fits, any ranks and draws, however equal edges are sorted. -/
def ArchiveTestPasses (F : TileFmt E Til) (io : TileIO E Til) (srt : MatSorts E) (eq : E → E → Bool) (n nrank : Nat) : Prop :=
  ∀ (sort : List (Edge E) → List (Edge E)) (g : Nat → Nat → Edge E) (k : Nat → Edge E) (dist : Nat → Nat) (draws : Nat) (one : E),
    Draws n draws dist → n * min 16 n ≤ IMAX →
    testFmtArchive F io (fun i j => partitionFn1d j i nrank) sort eq g k dist draws one srt nrank n = some true

/-- C86: `test_matrix_serialization` passes at every size with DCSC, CSR and COO-SIMD tiles; with COO tiles where the `int` behind `ia` can be
read; with hybrid tiles below 16 vertices, and where the memory behind the arrays of the DCSR part can be read.  Missing: the runs where it
cannot. -/
theorem fmt_archive_tests_pass_partial (io : IOEnv E) {eq : E → E → Bool} (heq : ∀ x, eq x x = true) (he : env.OK) (hs : srt.OK) (ht : 0 < threads)
    (hr : 0 < nrank) :
    ArchiveTestPasses (dcscFmt env threads) (dcscIO io) srt eq n nrank ∧
    ArchiveTestPasses (csrFmt env threads) (csrIO io) srt eq n nrank ∧
    ArchiveTestPasses (simdFmt env threads) (simdIO io) srt eq n nrank ∧
    ((∀ r i j, env.behind r i j ≠ none) → ArchiveTestPasses (cooFmt env threads) (cooIO io) srt eq n nrank) ∧
    (n < 16 ∨ (∀ r i j, env.behind r i j ≠ none ∧ io.beyond r i j ≠ none) →
      ArchiveTestPasses (hybridFmt env threads) (hybridIO io) srt eq n nrank) := by
  have hm : ∀ (e : E) (x old : E), (fun e _ _ => e) e x old = (fun e _ => e) e x := fun _ _ _ => rfl
  refine ⟨?_, ?_, ?_, fun hb => ?_, fun hb => ?_⟩
  · intro sort g k dist draws one hdr hfit
    exact testFmtArchive_true (dcsc_laws he ht) (dcsc_io io threads hm (fun a _ => a)).reads sort heq g k hdr one hs hr hfit
      (fun _ _ _ _ => trivial) (fun _ _ _ _ _ _ => trivial)
  · intro sort g k dist draws one hdr hfit
    exact testFmtArchive_true (csr_laws he ht) (csr_io io threads hm (fun a _ => a)).reads sort heq g k hdr one hs hr hfit
      (fun _ _ _ _ => trivial) (fun _ _ _ _ _ _ => trivial)
  · intro sort g k dist draws one hdr hfit
    exact testFmtArchive_true (simd_sized_laws he ht) (simd_io io threads hm (fun a _ => a)).reads sort heq g k hdr one hs hr hfit
      (fun _ _ _ _ => trivial) (fun _ _ _ _ _ _ => trivial)
  · intro sort g k dist draws one hdr hfit
    exact testFmtArchive_true (coo_saved_laws he ht) (coo_read_io he ht io) sort heq g k hdr one hs hr hfit
      (fun _ _ _ _ => trivial) (fun _ _ _ _ _ _ _ => hb _ _ _)
  · intro sort g k dist draws one hdr hfit
    rcases hb with hb | hb
    · refine testFmtArchive_true (hybrid_whole_laws he ht true) (hybrid_io io threads true hm (fun a _ => a)).reads sort heq g k hdr one hs hr hfit
        (fun _ _ _ _ => .inl rfl) (fun es hes i j _ _ => .inr fun e he => ?_)
      have h1 := hes e (List.mem_of_mem_filter he)
      have h2 := (List.filter_sublist (l := es) (p := fun e => decide (tileOf n n nrank nrank e = (i, j)))).countP_le
        (p := fun f => decide (f.src = e.src))
      omega
    · exact testFmtArchive_true (hybrid_whole_laws he ht false) (hybrid_io io threads false hm (fun a _ => a)).reads sort heq g k hdr one hs hr hfit
        (fun _ _ _ _ => .inr (hb _ _ _).2) (fun _ _ _ _ _ _ => .inl ⟨rfl, (hb _ _ _).1⟩)

/-! ### Concrete cases -/

/-- The matrix of C85 on three ranks meets the conditions. -/
example : MatrixRestores (csrFmt (.sample none 9) 2) (csrFmt (.sample none 8) 3) (csrIO (.sample none 1)) .ins .ins 1030 600
    (.rows 2 3 3 (by decide) (by decide) (by decide)) (.rows 3 1 3 (by decide) (by decide) (by decide)) fmtBlobs :=
  (csr_matrix_archive (T := Nat) (U := Nat) (mul := fun e x _ => e * x) (pm := fun e x => e * x) (.sample none 1) (FmtEnv.sample_ok _ _)
    (FmtEnv.sample_ok _ _) MatSorts.ins_ok MatSorts.ins_ok (by decide) (by decide) (by decide) rfl fmtBlobs_in (fun _ _ _ => rfl) (· + ·)).1

example : MatrixRestores (simdFmt (.sample none 9) 2) (simdFmt (.sample none 8) 3) (simdIO (.sample none 1)) .ins .ins 1030 600
    (.rows 2 3 3 (by decide) (by decide) (by decide)) (.rows 3 1 3 (by decide) (by decide) (by decide)) fmtBlobs :=
  (coosimd_matrix_archive (T := Nat) (U := Nat) (mul := fun e x _ => e * x) (pm := fun e x => e * x) (.sample none 1) (FmtEnv.sample_ok _ _)
    (FmtEnv.sample_ok _ _) MatSorts.ins_ok MatSorts.ins_ok (by decide) (by decide) (by decide) rfl fmtBlobs_in (fun _ _ _ => rfl) (· + ·)).1

example : MatrixRestores (dcscFmt (.sample none 9) 2) (dcscFmt (.sample none 8) 3) (dcscIO (.sample none 1)) .ins .ins 1030 600
    (.rows 2 3 3 (by decide) (by decide) (by decide)) (.rows 3 1 3 (by decide) (by decide) (by decide)) fmtBlobs :=
  (dcsc_matrix_archive (T := Nat) (U := Nat) (mul := fun e x _ => e * x) (pm := fun e x => e * x) (.sample none 1) (FmtEnv.sample_ok _ _)
    (FmtEnv.sample_ok _ _) MatSorts.ins_ok MatSorts.ins_ok (by decide) (by decide) (by decide) rfl fmtBlobs_in (fun _ _ _ => rfl) (· + ·)).1

example : RestoredMultiplies (cooFmt (.sample (some 4) 9) 2) (cooIO (.sample none 1)) .ins 1030 600
    (.rows 2 3 3 (by decide) (by decide) (by decide)) fmtBlobs (fun e x => e * x) (· + ·)
    (fun mult => ∃ (gy : Nat → Nat → Nat → Fresh Nat) (old : Nat → Nat → Nat → Nat → Nat), mult = fun k => cooMult (gy k) (old k) (fun e x _ => e * x) (· + ·)) := by
  have h := coo_matrix_archive_partial (E := Nat) (T := Nat) (U := Nat) (m := 1030) (n := 600)
    (G := .rows 2 3 3 (by decide) (by decide) (by decide)) (G' := .rows 3 1 3 (by decide) (by decide) (by decide))
    (env := .sample (some 4) 9) (env' := .sample (some 1) 8) (srt := .ins) (srt' := .ins) (threads := 2) (threads' := 3) (blobs := fmtBlobs)
    (mul := fun e x _ => e * x) (pm := fun e x => e * x) (.sample none 1) (FmtEnv.sample_ok _ _) (FmtEnv.sample_ok _ _) MatSorts.ins_ok MatSorts.ins_ok
    (by decide) (by decide) (by decide) rfl fmtBlobs_in (fun _ _ _ => rfl) (· + ·)
  exact (h (fun _ _ _ _ _ => Option.some_ne_none 4) (fun _ _ _ _ _ => Option.some_ne_none 1)).2
    (fun _ _ _ _ => ⟨4, rfl, fun _ => by decide⟩)

example : MatrixRestores (dcsrFmt (.sample (some (-5)) 9) 2) (dcsrFmt (.sample (some 0) 8) 3) (dcsrIO (.sample (some fun k => k) 1)) .ins .ins 1030 600
    (.rows 2 3 3 (by decide) (by decide) (by decide)) (.rows 3 1 3 (by decide) (by decide) (by decide)) fmtBlobs :=
  dcsr_matrix_archive_partial (.sample (some fun k => k) 1) (FmtEnv.sample_ok _ _) (FmtEnv.sample_ok _ _) MatSorts.ins_ok MatSorts.ins_ok (by decide)
    (by decide) (by decide) rfl fmtBlobs_in (fun _ _ _ _ _ => by simp [FmtEnv.sample]) (fun _ _ _ _ _ => by simp [FmtEnv.sample])
    (fun _ _ _ _ => Option.some_ne_none _)

theorem fmtBlobs_light : LightRows 1030 600 (.rows 1 3 3 (by decide) (by decide) (by decide)) fmtBlobs.flatten := by
  have h : ∀ i < 3, ∀ j < 1, ∀ e ∈ cellEdges 1030 600 (.rows 1 3 3 (by decide) (by decide) (by decide)) fmtBlobs.flatten i j,
      (cellEdges 1030 600 (.rows 1 3 3 (by decide) (by decide) (by decide)) fmtBlobs.flatten i j).countP (fun f => decide (f.src = e.src)) < 16 := by
    decide +kernel
  exact fun i j hi hj => h i hi j hj

/-- Nothing behind the arrays is readable here. -/
example : RestoredMultiplies (hybridFmt (.sample none 9) 2) (hybridIO (.sample none 1)) .ins 1030 600
    (.rows 1 3 3 (by decide) (by decide) (by decide)) fmtBlobs (fun e x => e * x) (· + ·)
    (fun mult => ∃ (gy : Nat → Nat → Nat → Fresh Nat) (old old' : Nat → Nat → Nat → Nat → Nat),
      mult = fun k => hybridMult (gy k) (old k) (old' k) (fun e x _ => e * x) (· + ·)) := by
  have h := hybrid_matrix_archive_partial (E := Nat) (T := Nat) (U := Nat) (m := 1030) (n := 600)
    (G := .rows 1 3 3 (by decide) (by decide) (by decide)) (G' := .rows 1 1 3 (by decide) (by decide) (by decide))
    (env := .sample none 9) (env' := .sample (some 1) 8) (srt := .ins) (srt' := .ins) (threads := 2) (threads' := 3) (blobs := fmtBlobs)
    (mul := fun e x _ => e * x) (pm := fun e x => e * x) (.sample none 1) (FmtEnv.sample_ok _ _) (FmtEnv.sample_ok _ _) MatSorts.ins_ok MatSorts.ins_ok
    (by decide) (by decide) (by decide) rfl fmtBlobs_in (fun _ _ _ => rfl) (· + ·)
  exact ((h (fun _ _ _ _ => Or.inl (Option.some_ne_none 1))).1 fmtBlobs_light).2 (fun i j hi hj => fmtBlobs_cells.1 i hi j hj)

/-- A 20 by 17 matrix with a row of 16 edges. -/
def heavyBlobs : List (List (Edge Nat)) := [⟨3, 17, 5⟩ :: (List.range 16).map (fun (k : Nat) => ⟨7, (k : Int) + 1, k⟩)]

theorem heavyBlobs_in : (∀ e ∈ heavyBlobs.flatten, InMat 20 17 e) ∧
    ∃ e ∈ cellEdges 20 17 (.rows 1 1 1 (by decide) (by decide) (by decide)) heavyBlobs.flatten 0 0,
      16 ≤ (cellEdges 20 17 (.rows 1 1 1 (by decide) (by decide) (by decide)) heavyBlobs.flatten 0 0).countP (fun f => decide (f.src = e.src)) := by
  unfold InMat
  decide +kernel

example : ∃ out D D', FMat.ofEdges (hybridFmt (.sample (some 4) 9) 2) 20 17 1 1 1 partitionFn1d .ins heavyBlobs = some (out, D) ∧
    FMat.reload (hybridIO (.sample (some fun k => k) 1)) (fun i j => partitionFn1d j i 1) D = some D' ∧
    ∀ (me : MulEnv Nat Nat Nat) (th : Nat) gy old old' (add : Nat → Nat → Nat) (x : DVec Nat) (y : DVec Nat), y.size = 1 →
      FMat.spmspv me th 1 D' (hybridMult gy old old' (fun e x _ => e * x) add) add x y = none := by
  have h := hybrid_restored_matrix_fails (E := Nat) (T := Nat) (U := Nat) (V := Nat) (m := 20) (n := 17)
    (G := .rows 1 1 1 (by decide) (by decide) (by decide)) (env := .sample (some 4) 9) (srt := .ins) (threads := 2) (blobs := heavyBlobs)
    (mul := fun e x _ => e * x) (.sample (some fun k => k) 1) (FmtEnv.sample_ok _ _) MatSorts.ins_ok (by decide) (by decide) rfl heavyBlobs_in.1
  exact h (fun _ _ _ _ => ⟨Option.some_ne_none 4, Option.some_ne_none _⟩) (i := 0) (j := 0) (by decide) (by decide) heavyBlobs_in.2

/-- The sizes 500 and 5 of the test, on 3 ranks; with 5 vertices nothing behind the arrays needs to be readable. -/
example : testFmtArchive (csrFmt (.sample none (9 : Int)) 2) (csrIO (.sample none 1)) (fun i j => partitionFn1d j i 3)
    (insSort (edgeCompare (fun a b => decide (a < b)))) (fun a b => decide (a = b)) (fun _ _ => ⟨0, 0, 0⟩) (fun _ => ⟨0, 0, 0⟩)
    (fun q => q % 500 + 1) 500 1 .ins 3 500 = some true :=
  (fmt_archive_tests_pass_partial (n := 500) (nrank := 3) (.sample none 1) (by simp) (FmtEnv.sample_ok _ _) MatSorts.ins_ok (by decide)
    (by decide)).2.1 _ _ _ _ _ _ (draws_round 500 (by decide)) (by decide)

example : testFmtArchive (hybridFmt (.sample none (9 : Int)) 2) (hybridIO (.sample none 1)) (fun i j => partitionFn1d j i 3)
    (insSort (edgeCompare (fun a b => decide (a < b)))) (fun a b => decide (a = b)) (fun _ _ => ⟨0, 0, 0⟩) (fun _ => ⟨0, 0, 0⟩)
    (fun q => q % 5 + 1) 5 1 .ins 3 5 = some true :=
  (fmt_archive_tests_pass_partial (n := 5) (nrank := 3) (.sample none 1) (by simp) (FmtEnv.sample_ok _ _) MatSorts.ins_ok (by decide)
    (by decide)).2.2.2.2 (.inl (by decide)) _ _ _ _ _ _ (draws_round 5 (by decide)) (by decide)

end GraphMat

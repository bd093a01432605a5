import Verif.Lemmas.FmtTest

/-!
# Distributed matrices whatever their tile format (C85)
-/
namespace GraphMat

variable {E T U V : Type} {m n nrank : Nat} {G G' : Grid nrank} {blobs : List (List (Edge E))} {srt srt' : MatSorts E}
  {env env' : FmtEnv E} {threads threads' : Nat} {mul : E → T → U → U} {pm : E → T → U}

/-! ### Formats for which everything holds -/

/-- C85 for CSR tiles: a matrix of any size, cut into any grid and placed on any ranks, returns its edges, transposes and multiplies
correctly. -/
theorem csr_matrix_correct (he : env.OK) (he' : env'.OK) (hs : srt.OK) (hs' : srt'.OK) (ht : 0 < threads) (ht' : 0 < threads')
    (hr : 0 < nrank) (hlen : blobs.length = nrank) (hin : ∀ e ∈ blobs.flatten, InMat m n e)
    (hm : ∀ e x old, mul e x old = pm e x) (add : U → U → U) :
    MatrixReads (csrFmt env threads) (csrFmt env' threads') srt srt' m n G G' blobs ∧
    MatrixMultiplies (csrFmt env threads) (csrFmt env' threads') srt srt' m n G G' blobs pm add
      (fun mult => ∃ (th : Nat) (gy : Nat → Nat → Nat → Fresh U) (old : Nat → Nat → Nat → Nat → U), 0 < th ∧ mult = fun k => csrMult th (gy k) (old k) mul add) := by
  refine ⟨lawful_reads (csr_laws he ht) (csr_laws he' ht') hs hs' hr hlen hin (fun _ _ _ _ => trivial) (fun _ _ _ _ => trivial),
    lawful_multiplies (csr_laws he ht) (csr_laws he' ht') hs hs' hr hlen hin (fun _ _ _ _ => trivial) (fun _ _ _ _ => trivial)
      (Q := fun _ => True) (fun _ _ => trivial) (fun _ _ _ _ => .inr fun _ => trivial) (fun _ _ _ _ => .inr fun _ => trivial) add ?_⟩
  rintro _ ⟨th, gy, old, hth, rfl⟩ k r i j t m n l hI _
  exact csr_mult hm add hth (gy k) (old k) hI r i j

/-- C85 for COO-SIMD tiles. -/
theorem coosimd_matrix_correct (he : env.OK) (he' : env'.OK) (hs : srt.OK) (hs' : srt'.OK) (ht : 0 < threads) (ht' : 0 < threads')
    (hr : 0 < nrank) (hlen : blobs.length = nrank) (hin : ∀ e ∈ blobs.flatten, InMat m n e)
    (hm : ∀ e x old, mul e x old = pm e x) (add : U → U → U) :
    MatrixReads (simdFmt env threads) (simdFmt env' threads') srt srt' m n G G' blobs ∧
    MatrixMultiplies (simdFmt env threads) (simdFmt env' threads') srt srt' m n G G' blobs pm add
      (fun mult => ∃ (gy : Nat → Nat → Nat → Fresh U) (old : Nat → Nat → Nat → Nat → U), mult = fun k => cooMult (gy k) (old k) mul add) := by
  refine ⟨lawful_reads (simd_laws he ht) (simd_laws he' ht') hs hs' hr hlen hin (fun _ _ _ _ => trivial) (fun _ _ _ _ => trivial),
    lawful_multiplies (simd_laws he ht) (simd_laws he' ht') hs hs' hr hlen hin (fun _ _ _ _ => trivial) (fun _ _ _ _ => trivial)
      (Q := fun _ => True) (fun _ _ => trivial) (fun _ _ _ _ => .inr fun _ => trivial) (fun _ _ _ _ => .inr fun _ => trivial) add ?_⟩
  rintro _ ⟨gy, old, rfl⟩ k r i j t m n l hI _
  exact coo_mult hm add (gy k) (old k) hI r i j

/-- C85 for DCSC tiles. -/
theorem dcsc_matrix_correct (he : env.OK) (he' : env'.OK) (hs : srt.OK) (hs' : srt'.OK) (ht : 0 < threads) (ht' : 0 < threads')
    (hr : 0 < nrank) (hlen : blobs.length = nrank) (hin : ∀ e ∈ blobs.flatten, InMat m n e)
    (hm : ∀ e x old, mul e x old = pm e x) (add : U → U → U) :
    MatrixReads (dcscFmt env threads) (dcscFmt env' threads') srt srt' m n G G' blobs ∧
    MatrixMultiplies (dcscFmt env threads) (dcscFmt env' threads') srt srt' m n G G' blobs pm add
      (fun mult => ∃ (gy : Nat → Nat → Nat → Fresh U) (tmp : Nat → Nat → Nat → Nat → Nat → U), mult = fun k => dcscMult (gy k) (tmp k) mul add) := by
  refine ⟨lawful_reads (dcsc_laws he ht) (dcsc_laws he' ht') hs hs' hr hlen hin (fun _ _ _ _ => trivial) (fun _ _ _ _ => trivial),
    lawful_multiplies (dcsc_laws he ht) (dcsc_laws he' ht') hs hs' hr hlen hin (fun _ _ _ _ => trivial) (fun _ _ _ _ => trivial)
      (Q := fun _ => True) (fun _ _ => trivial) (fun _ _ _ _ => .inr fun _ => trivial) (fun _ _ _ _ => .inr fun _ => trivial) add ?_⟩
  rintro _ ⟨gy, tmp, rfl⟩ k r i j t m n l hI _
  exact dcsc_mult hm add (gy k) (tmp k) hI r i j

/-! ### Formats for which a part holds -/

/-- The `int` behind the arrays of every tile with edges can be read. -/
def Readable (env : FmtEnv E) (m n : Nat) (G : Grid nrank) (entries : List (Edge E)) : Prop :=
  ∀ i j, i < G.nty → j < G.ntx → cellEdges m n G entries i j ≠ [] → env.behind (G.ow i j) i j ≠ none

/-- C85 for COO tiles, as far as it holds.  Missing: matrices with a tile whose constructor cannot read the `int` behind `ia`
(`coo_matrix_reads_behind`), and multiplications with matrices that have a tile with exactly one edge where that `int` is not positive
(`coo_spmv_test_fails`). -/
theorem coo_matrix_correct_partial (he : env.OK) (he' : env'.OK) (hs : srt.OK) (hs' : srt'.OK) (ht : 0 < threads) (ht' : 0 < threads')
    (hr : 0 < nrank) (hlen : blobs.length = nrank) (hin : ∀ e ∈ blobs.flatten, InMat m n e)
    (hm : ∀ e x old, mul e x old = pm e x) (add : U → U → U)
    (hb : Readable env m n G blobs.flatten) (hb' : Readable env' n m G' (blobs.flatten.map swapEdge)) :
    MatrixReads (cooFmt env threads) (cooFmt env' threads') srt srt' m n G G' blobs ∧
    ((∀ i j, i < G.nty → j < G.ntx → ∃ b, env.behind (G.ow i j) i j = some b ∧ ((cellEdges m n G blobs.flatten i j).length = 1 → 1 ≤ b)) →
      (∀ i j, i < G'.nty → j < G'.ntx → ∃ b, env'.behind (G'.ow i j) i j = some b ∧
        ((cellEdges n m G' (blobs.flatten.map swapEdge) i j).length = 1 → 1 ≤ b)) →
      MatrixMultiplies (cooFmt env threads) (cooFmt env' threads') srt srt' m n G G' blobs pm add
        (fun mult => ∃ (gy : Nat → Nat → Nat → Fresh U) (old : Nat → Nat → Nat → Nat → U), mult = fun k => cooMult (gy k) (old k) mul add)) := by
  refine ⟨lawful_reads (coo_read_laws he ht) (coo_read_laws he' ht') hs hs' hr hlen hin hb hb', fun h1 h2 =>
    lawful_multiplies (coo_laws he ht) (coo_laws he' ht') hs hs' hr hlen hin h1 h2
      (Q := fun _ => True) (fun _ _ => trivial) (fun _ _ _ _ => .inr fun _ => trivial) (fun _ _ _ _ => .inr fun _ => trivial) add ?_⟩
  rintro _ ⟨gy, old, rfl⟩ k r i j t m n l hI _
  exact coo_mult hm add (gy k) (old k) hI r i j

/-- C85 for DCSR tiles, as far as it holds: they can be read and transposed where the `int` behind `row_ids` can be read.  There is no
`mult_segment` for them. -/
theorem dcsr_matrix_correct_partial (he : env.OK) (he' : env'.OK) (hs : srt.OK) (hs' : srt'.OK) (ht : 0 < threads) (ht' : 0 < threads')
    (hr : 0 < nrank) (hlen : blobs.length = nrank) (hin : ∀ e ∈ blobs.flatten, InMat m n e)
    (hb : Readable env m n G blobs.flatten) (hb' : Readable env' n m G' (blobs.flatten.map swapEdge)) :
    MatrixReads (dcsrFmt env threads) (dcsrFmt env' threads') srt srt' m n G G' blobs :=
  lawful_reads (dcsr_laws he ht) (dcsr_laws he' ht') hs hs' hr hlen hin hb hb'

/-- C85 for hybrid tiles, as far as it holds: where the `int` behind the arrays of the DCSR part can be read or no row of a tile has 16
edges, such matrices can be read and transposed; if moreover every tile has an edge, they multiply.  Missing: the others
(`hybrid_matrix_empty_tile`). -/
theorem hybrid_matrix_correct_partial (he : env.OK) (he' : env'.OK) (hs : srt.OK) (hs' : srt'.OK) (ht : 0 < threads) (ht' : 0 < threads')
    (hr : 0 < nrank) (hlen : blobs.length = nrank) (hin : ∀ e ∈ blobs.flatten, InMat m n e)
    (hm : ∀ e x old, mul e x old = pm e x) (add : U → U → U)
    (hb : ∀ i j, i < G.nty → j < G.ntx → env.behind (G.ow i j) i j ≠ none ∨
      ∀ e ∈ cellEdges m n G blobs.flatten i j, (cellEdges m n G blobs.flatten i j).countP (fun f => decide (f.src = e.src)) < 16)
    (hb' : ∀ i j, i < G'.nty → j < G'.ntx → env'.behind (G'.ow i j) i j ≠ none ∨
      ∀ e ∈ cellEdges n m G' (blobs.flatten.map swapEdge) i j,
        (cellEdges n m G' (blobs.flatten.map swapEdge) i j).countP (fun f => decide (f.src = e.src)) < 16) :
    MatrixReads (hybridFmt env threads) (hybridFmt env' threads') srt srt' m n G G' blobs ∧
    ((∀ i j, i < G.nty → j < G.ntx → cellEdges m n G blobs.flatten i j ≠ []) →
      (∀ i j, i < G'.nty → j < G'.ntx → cellEdges n m G' (blobs.flatten.map swapEdge) i j ≠ []) →
      MatrixMultiplies (hybridFmt env threads) (hybridFmt env' threads') srt srt' m n G G' blobs pm add
        (fun mult => ∃ (gy : Nat → Nat → Nat → Fresh U) (old old' : Nat → Nat → Nat → Nat → U), mult = fun k => hybridMult (gy k) (old k) (old' k) mul add)) := by
  refine ⟨lawful_reads (hybrid_laws he ht) (hybrid_laws he' ht') hs hs' hr hlen hin hb hb', fun h1 h2 =>
    lawful_multiplies (hybrid_laws he ht) (hybrid_laws he' ht') hs hs' hr hlen hin hb hb'
      (Q := fun l => l ≠ []) (fun _ h => h) (fun i j hi hj => .inl (h1 i j hi hj)) (fun i j hi hj => .inl (h2 i j hi hj)) add ?_⟩
  rintro _ ⟨gy, old, old', rfl⟩ k r i j t m n l hI hl
  exact hybrid_mult hm add (gy k) (old k) (old' k) hI hl r i j

/-! ### Where the claim fails -/

theorem foldlM_fails {σ β : Type} {f : σ → β → Option σ} {b : β} (h : ∀ s, f s b = none) :
    ∀ {l : List β} (_ : b ∈ l) (s : σ), l.foldlM f s = none := by
  intro l
  induction l with
  | nil => intro hb; exact absurd hb (by simp)
  | cons a l ih =>
    intro hb s
    rw [List.foldlM_cons]
    rcases List.mem_cons.mp hb with rfl | hb
    · rw [h s]; rfl
    · cases f s a with
      | none => rfl
      | some s' => exact ih hb s'

theorem bind_fails {α β : Type} {o : Option α} {f : α → Option β} (h : ∀ a, o = some a → f a = none) : o.bind f = none := by
  cases o with
  | none => rfl
  | some a => exact h a rfl

theorem none_fails {α β : Type} {o : Option α} {f : α → Option β} (h : o = none) : o.bind f = none := by
  rw [h]; rfl

/-- **C85 fails for hybrid tiles**: if one tile of the matrix has no edges, every multiplication follows an uninitialised pointer, whatever
the vectors and the memory. -/
theorem hybrid_matrix_empty_tile (he : env.OK) (hs : srt.OK) (ht : 0 < threads) (hr : 0 < nrank)
    (hlen : blobs.length = nrank) (hin : ∀ e ∈ blobs.flatten, InMat m n e)
    (hb : ∀ i j, i < G.nty → j < G.ntx → env.behind (G.ow i j) i j ≠ none) {i j : Nat} (hi : i < G.nty) (hj : j < G.ntx)
    (hempty : cellEdges m n G blobs.flatten i j = []) :
    ∃ out D, FMat.ofEdges (hybridFmt env threads) m n G.ntx G.nty nrank G.pfn srt blobs = some (out, D) ∧
      ∀ (me : MulEnv T U V) (th : Nat) gy old old' (add : U → U → U) (x : DVec T) (y : DVec U), y.size = nrank →
        FMat.spmspv me th nrank D (hybridMult gy old old' mul add) add x y = none := by
  obtain ⟨out, D, T', L, d1, _, _, _, d5⟩ := FMat.ofEdges_spec hs (hybrid_laws he ht) G.hy G.hx hr G.hpfn G.how hlen hin
    (fun i j hi hj => .inl (hb i j hi hj))
  refine ⟨out, D, d1, ?_⟩
  intro me th gy old old' add x y hy
  have htile : T' i j = Hybrid.empty (bnd m G.nty (i + 1) - bnd m G.nty i) (bnd n G.ntx (j + 1) - bnd n G.ntx j) := by
    obtain ⟨h1, h2⟩ := d5.tile i j hi hj
    rcases h1 with h1 | h1
    · exact h1.1
    · have := h2.length_eq
      unfold cellEdges at hempty
      rw [hempty] at this
      exact absurd (List.length_eq_zero_iff.mp this) h1.2
  unfold FMat.spmspv
  simp only [Option.bind_eq_bind]
  refine bind_fails fun M hM => bind_fails fun cp _ => bind_fails fun rp _ => bind_fails fun x1 _ => ?_
  refine none_fails ?_
  unfold eachRank
  rw [forLoop_range]
  refine foldlM_fails (b := G.ow i j) ?_ (List.mem_range.mpr (by rw [hy]; exact G.how i j)) _
  intro s
  refine bind_fails fun yv _ => ?_
  refine none_fails ?_
  refine bind_fails fun xv _ => ?_
  rw [d5.head (G.how i j), Option.bind_some, FMat.foldTiles_spec]
  refine foldlM_fails (b := (i, j)) ?_ (List.mem_filter.mpr ⟨mem_cells.mpr ⟨hi, hj⟩, by simp⟩) _
  intro yv
  refine bind_fails fun sx _ => ?_
  unfold SpVec.modifySeg
  simp only [Option.bind_eq_bind]
  refine bind_fails fun sy _ => ?_
  show Option.bind (hybridMult gy old old' mul add (G.ow i j) i j (T' i j) sx sy) _ = none
  rw [htile]
  unfold hybridMult
  rw [hybrid_empty_fails]
  rfl

/-! ### The repository's tests at every size -/

/-- The two calls of `matrix_test` per format (/repo/test/test_matrix_basics.cpp:119-165) with any size that fits, any ranks, any draws. -/
def MatrixTestPasses (F F' F'' : TileFmt Int Til) (srt srt' srt'' : MatSorts Int) (sort : List (Edge Int) → List (Edge Int)) : Prop :=
  ∀ (n nrank : Nat) (g : Nat → Nat → Edge Int) (k : Nat → Edge Int) (w : Nat), 0 < nrank → 1 ≤ w →
    (w * n ≤ IMAX → ∃ els, generated g nrank (genIdentity (g 0) 1 n) = some els ∧
      testFmtMatrix F F' F'' sort (fun a b => decide (a = b)) srt srt' srt'' k w els = some true) ∧
    ∀ dist draws, Draws n draws dist → w * (n * min 16 n) ≤ IMAX → ∃ els, generated g nrank (genRandom (g 0) dist draws 1 n 16) = some els ∧
      testFmtMatrix F F' F'' sort (fun a b => decide (a = b)) srt srt' srt'' k w els = some true

theorem matrixTest_of_laws {Til : Type} {F F' F'' : TileFmt Int Til} {ok ok' ok'' : Nat → Nat → Nat → List (Edge Int) → Prop}
    {Is : Til → Nat → Nat → List (Nat × Nat × Int) → Prop} (hF : F.Laws ok Is) (hF' : F'.Laws ok' Is) (hF'' : F''.Laws ok'' Is)
    (hok : ∀ r i j es, ok r i j es) (hok' : ∀ r i j es, ok' r i j es) (hok'' : ∀ r i j es, ok'' r i j es)
    {sort : List (Edge Int) → List (Edge Int)} (hs : SortsBy (edgeCompare (fun a b => decide (a < b))) sort)
    {srt srt' srt'' : MatSorts Int} (hsrt : srt.OK) (hsrt' : srt'.OK) (hsrt'' : srt''.OK) : MatrixTestPasses F F' F'' srt srt' srt'' sort := by
  intro n nrank g k w hr hw
  refine ⟨fun h => ?_, fun dist draws hdr h => ?_⟩
  · obtain ⟨els, e1, e2⟩ := (test_generators g (1 : Int) hr).2.2.2 (Nat.le_trans (Nat.le_mul_of_pos_left _ hw) h)
    exact ⟨els, e1, testFmtMatrix_true hF hF' hF'' hok hok' hok'' hr int_keyed (fun l => (hs l).1) (hs.on _) hsrt hsrt' hsrt'' k hw e2 loop_valid
      (fun _ _ => trivial) (by unfold loopEdges; simpa using h)⟩
  · obtain ⟨els, es, e1, e2, e3, e4, _⟩ := test_random_generator g (1 : Int) hr 16 hdr (Nat.le_trans (Nat.le_mul_of_pos_left _ hw) h)
    exact ⟨els, e1, testFmtMatrix_true hF hF' hF'' hok hok' hok'' hr int_keyed (fun l => (hs l).1) (hs.on _) hsrt hsrt' hsrt'' k hw e2
      (fun e he => (e4 e he).1) (fun _ _ => trivial) (by rw [e3]; exact h)⟩

/-- C85: `test_matrix_basics` passes at every size for all six formats, where the `int` behind the arrays of COO and DCSR tiles can be read.
Missing: the runs where it cannot (`coo_matrix_reads_behind`). -/
theorem fmt_matrix_tests_pass_partial {env env' env'' : FmtEnv Int} {threads threads' threads'' : Nat} (he : env.OK) (he' : env'.OK)
    (he'' : env''.OK) (ht : 0 < threads) (ht' : 0 < threads') (ht'' : 0 < threads'') {sort : List (Edge Int) → List (Edge Int)}
    (hs : SortsBy (edgeCompare (fun a b => decide (a < b))) sort) {srt srt' srt'' : MatSorts Int} (hsrt : srt.OK) (hsrt' : srt'.OK)
    (hsrt'' : srt''.OK) :
    MatrixTestPasses (csrFmt env threads) (csrFmt env' threads') (csrFmt env'' threads'') srt srt' srt'' sort ∧
    MatrixTestPasses (dcscFmt env threads) (dcscFmt env' threads') (dcscFmt env'' threads'') srt srt' srt'' sort ∧
    MatrixTestPasses (simdFmt env threads) (simdFmt env' threads') (simdFmt env'' threads'') srt srt' srt'' sort ∧
    ((∀ r i j, env.behind r i j ≠ none ∧ env'.behind r i j ≠ none ∧ env''.behind r i j ≠ none) →
      MatrixTestPasses (cooFmt env threads) (cooFmt env' threads') (cooFmt env'' threads'') srt srt' srt'' sort ∧
      MatrixTestPasses (dcsrFmt env threads) (dcsrFmt env' threads') (dcsrFmt env'' threads'') srt srt' srt'' sort ∧
      MatrixTestPasses (hybridFmt env threads) (hybridFmt env' threads') (hybridFmt env'' threads'') srt srt' srt'' sort) := by
  refine ⟨?_, ?_, ?_, fun hb => ⟨?_, ?_, ?_⟩⟩
  · exact matrixTest_of_laws (csr_laws he ht) (csr_laws he' ht') (csr_laws he'' ht'') (fun _ _ _ _ => trivial) (fun _ _ _ _ => trivial)
      (fun _ _ _ _ => trivial) hs hsrt hsrt' hsrt''
  · exact matrixTest_of_laws (dcsc_laws he ht) (dcsc_laws he' ht') (dcsc_laws he'' ht'') (fun _ _ _ _ => trivial) (fun _ _ _ _ => trivial)
      (fun _ _ _ _ => trivial) hs hsrt hsrt' hsrt''
  · exact matrixTest_of_laws (simd_laws he ht) (simd_laws he' ht') (simd_laws he'' ht'') (fun _ _ _ _ => trivial) (fun _ _ _ _ => trivial)
      (fun _ _ _ _ => trivial) hs hsrt hsrt' hsrt''
  · exact matrixTest_of_laws (coo_read_laws he ht) (coo_read_laws he' ht') (coo_read_laws he'' ht'') (fun r i j _ _ => (hb r i j).1)
      (fun r i j _ _ => (hb r i j).2.1) (fun r i j _ _ => (hb r i j).2.2) hs hsrt hsrt' hsrt''
  · exact matrixTest_of_laws (dcsr_laws he ht) (dcsr_laws he' ht') (dcsr_laws he'' ht'') (fun r i j _ _ => (hb r i j).1)
      (fun r i j _ _ => (hb r i j).2.1) (fun r i j _ _ => (hb r i j).2.2) hs hsrt hsrt' hsrt''
  · exact matrixTest_of_laws (hybrid_laws he ht) (hybrid_laws he' ht') (hybrid_laws he'' ht'') (fun r i j _ => .inl (hb r i j).1)
      (fun r i j _ => .inl (hb r i j).2.1) (fun r i j _ => .inl (hb r i j).2.2) hs hsrt hsrt' hsrt''

/-- `create_spmv_identity_test` for a format: `mults` are its ways to multiply.  Numbers as in `testSpmv`; the sizes are those with which the
random vector has an entry or the ranks share the work. -/
def SpmvTestPasses (F : TileFmt E Til) (srt : MatSorts E) (sort : List (Edge E) → List (Edge E)) (eq : E → E → Bool) (add : E → E → E) (one : E)
    (mults : (Nat → Nat → Nat → Til → Segment E → Segment E → Option (Segment E)) → Prop) (n nrank : Nat) : Prop :=
  ∀ (g : Nat → Nat → Edge E) (k : Nat → Edge E) (w : Nat) (dist : Nat → Nat) (draws : Nat) (gm : Nat → Nat → Nat → Edge E)
    (gi : Nat → IngestFresh E) (env : MulEnv E E E) (threads : Nat) mult, 1 ≤ w → Draws n draws dist → 0 < threads → n ≤ IMAX →
    w * (n / 10) ≤ IMAX → mults mult → testFmtSpmv F mult add sort eq g k w dist draws one srt gm gi env threads nrank n = some true

/-- C85: the multiplication test of `test_spmv` passes at every size with CSR, DCSC and COO-SIMD tiles, and with COO tiles where the `int` behind
`ia` is readable and, in tiles with one edge, positive; so always on one rank if it is readable.  Missing: the rest
(`coo_spmv_test_fails`). -/
theorem fmt_spmv_tests_pass_partial {env : FmtEnv E} {threads n nrank : Nat} (he : env.OK) (ht : 0 < threads) (hr : 0 < nrank)
    (hbig : 10 ≤ n ∨ 2 ≤ nrank) {S : E → Prop} {lt eq : E → E → Bool} {key : E → Rat} (hk : Keyed S lt eq key)
    {sort : List (Edge E) → List (Edge E)} (hsort : SortsOn S lt sort) {mul add : E → E → E} {one : E} (h1 : S one) (hone : mul one one = one)
    {srt : MatSorts E} (hsrt : srt.OK) {mul' : E → E → E → E} (hm : ∀ e x old, mul' e x old = mul e x) :
    SpmvTestPasses (csrFmt env threads) srt sort eq add one (fun mult => ∃ (th : Nat) (gy : Nat → Nat → Fresh E) (old : Nat → Nat → Nat → E),
      0 < th ∧ mult = csrMult th gy old mul' add) n nrank ∧
    SpmvTestPasses (dcscFmt env threads) srt sort eq add one (fun mult => ∃ (gy : Nat → Nat → Fresh E) (tmp : Nat → Nat → Nat → Nat → E),
      mult = dcscMult gy tmp mul' add) n nrank ∧
    SpmvTestPasses (simdFmt env threads) srt sort eq add one (fun mult => ∃ (gy : Nat → Nat → Fresh E) (old : Nat → Nat → Nat → E),
      mult = cooMult gy old mul' add) n nrank ∧
    ((∀ i j, i < nrank → j < nrank → ∃ b, env.behind (i % nrank) i j = some b ∧ (nrank = 1 ∨ 1 ≤ b)) →
      SpmvTestPasses (cooFmt env threads) srt sort eq add one (fun mult => ∃ (gy : Nat → Nat → Fresh E) (old : Nat → Nat → Nat → E),
        mult = cooMult gy old mul' add) n nrank) := by
  refine ⟨?_, ?_, ?_, fun hb => ?_⟩
  · rintro g k w dist draws gm gi me th _ hw hdr hth hfit hfit2 ⟨th', gy, old, hth', rfl⟩
    exact testFmtSpmv_true (csr_laws he ht) hk hsort h1 hone g k hw hdr hsrt gm gi me hth hr hbig hfit hfit2 (fun _ _ _ _ => trivial)
      (fun r i j t m n l hI => csr_mult hm add hth' gy old hI r i j)
  · rintro g k w dist draws gm gi me th _ hw hdr hth hfit hfit2 ⟨gy, tmp, rfl⟩
    exact testFmtSpmv_true (dcsc_laws he ht) hk hsort h1 hone g k hw hdr hsrt gm gi me hth hr hbig hfit hfit2 (fun _ _ _ _ => trivial)
      (fun r i j t m n l hI => dcsc_mult hm add gy tmp hI r i j)
  · rintro g k w dist draws gm gi me th _ hw hdr hth hfit hfit2 ⟨gy, old, rfl⟩
    exact testFmtSpmv_true (simd_laws he ht) hk hsort h1 hone g k hw hdr hsrt gm gi me hth hr hbig hfit hfit2 (fun _ _ _ _ => trivial)
      (fun r i j t m n l hI => coo_mult hm add gy old hI r i j)
  · rintro g k w dist draws gm gi me th _ hw hdr hth hfit hfit2 ⟨gy, old, rfl⟩
    refine testFmtSpmv_true (coo_laws he ht) hk hsort h1 hone g k hw hdr hsrt gm gi me hth hr hbig hfit hfit2 ?_
      (fun r i j t m n l hI => coo_mult hm add gy old hI r i j)
    intro i j hi hj
    obtain ⟨b, b1, b2⟩ := hb i j hi hj
    refine ⟨b, b1, fun hl => ?_⟩
    rcases b2 with b2 | b2
    · subst b2
      exfalso
      have hn : 10 ≤ n := by omega
      have hi0 : i = 0 := by omega
      have hj0 : j = 0 := by omega
      subst hi0 hj0
      rw [List.filter_eq_self.mpr] at hl
      · unfold loopEdges at hl
        simp at hl
        omega
      · intro e he
        have hin : InMat n n e := loop_valid e he
        have := tileOf_spec (nty := 1) (ntx := 1) (by decide) (by decide) hin
        simp only [decide_eq_true_eq]
        ext <;> omega
    · exact b2

/-! ### Concrete cases -/

/-- Memory and sorting functions for the examples. -/
def FmtEnv.sample (b : Option Int) (x : E) : FmtEnv E where
  g _ _ _ := ⟨fun _ => x, fun _ _ => 7, fun _ _ => 7, fun _ _ => ⟨7, 7, x⟩⟩
  gt _ _ _ := ⟨fun _ => x, fun _ _ => 4⟩
  out _ _ _ _ := ⟨0, 0, x⟩
  behind _ _ _ := b
  sort _ _ _ := insSort compareSrcDst
  dcsc _ _ _ := insSort compareDcsc
  simd _ _ _ := insSort compareSimd
  bins _ _ _ _ := insSort compareBin
  hybrid _ _ _ := ⟨insSort compareSrcDst, insSort compareSrcDst, insSort compareSrcDst, insSort compareSimd, fun _ => insSort compareBin⟩

theorem FmtEnv.sample_ok (b : Option Int) (x : E) : (FmtEnv.sample b x).OK :=
  ⟨fun _ _ _ => insSort_srcDst, fun _ _ _ => insSort_dcsc, fun _ _ _ => insSort_simd, fun _ _ _ _ => insSort_bin,
    fun _ _ _ => insSort_srcDst, fun _ _ _ => insSort_srcDst, fun _ _ _ => insSort_srcDst, fun _ _ _ => insSort_simd, fun _ _ _ _ => insSort_bin⟩

/-- Sorting functions of matrices for the examples. -/
def MatSorts.ins : MatSorts E := ⟨fun _ => insSort compareTileId, fun _ => insSort compareTileId⟩

theorem MatSorts.ins_ok : (MatSorts.ins (E := E)).OK := ⟨fun _ => insSort_tileId, fun _ => insSort_tileId⟩

/-- A grid of `ntx` by `nty` tiles whose rows of tiles go round the ranks. -/
def Grid.rows (ntx nty nrank : Nat) (hx : 0 < ntx) (hy : 0 < nty) (h : 0 < nrank) : Grid nrank :=
  ⟨ntx, nty, partitionFn1d, fun i _ => i % nrank, hx, hy, (own1d nrank h).1, (own1d nrank h).2⟩

/-- A 1030 by 600 matrix with six edges on three ranks; its tiles are in 2 columns and 3 rows, those of the transpose in 3 columns and 1 row. -/
def fmtBlobs : List (List (Edge Nat)) := [[⟨1, 1, 2⟩, ⟨1030, 599, 3⟩, ⟨1, 3, 4⟩], [], [⟨513, 2, 5⟩, ⟨513, 536, 6⟩, ⟨514, 1, 7⟩]]

theorem fmtBlobs_in : ∀ e ∈ fmtBlobs.flatten, InMat 1030 600 e := by
  unfold InMat; decide

theorem fmtBlobs_cells : (∀ i < 3, ∀ j < 1, cellEdges 1030 600 (.rows 1 3 3 (by decide) (by decide) (by decide)) fmtBlobs.flatten i j ≠ []) ∧
    (∀ i < 1, ∀ j < 1, cellEdges 600 1030 (.rows 1 1 3 (by decide) (by decide) (by decide)) (fmtBlobs.flatten.map swapEdge) i j ≠ []) ∧
    cellEdges 1030 600 (.rows 2 3 3 (by decide) (by decide) (by decide)) fmtBlobs.flatten 2 0 = [] := by
  decide +kernel

/-- All conditions of the three theorems are met by it. -/
example : MatrixReads (csrFmt (.sample none 9) 2) (csrFmt (.sample none 8) 3) .ins .ins 1030 600
    (.rows 2 3 3 (by decide) (by decide) (by decide)) (.rows 3 1 3 (by decide) (by decide) (by decide)) fmtBlobs :=
  (csr_matrix_correct (T := Nat) (U := Nat) (mul := fun e x _ => e * x) (pm := fun e x => e * x) (FmtEnv.sample_ok _ _)
    (FmtEnv.sample_ok _ _) MatSorts.ins_ok MatSorts.ins_ok (by decide) (by decide) (by decide) rfl fmtBlobs_in (fun _ _ _ => rfl) (· + ·)).1

example : MatrixReads (simdFmt (.sample none 9) 2) (simdFmt (.sample none 8) 3) .ins .ins 1030 600
    (.rows 2 3 3 (by decide) (by decide) (by decide)) (.rows 3 1 3 (by decide) (by decide) (by decide)) fmtBlobs :=
  (coosimd_matrix_correct (T := Nat) (U := Nat) (mul := fun e x _ => e * x) (pm := fun e x => e * x) (FmtEnv.sample_ok _ _)
    (FmtEnv.sample_ok _ _) MatSorts.ins_ok MatSorts.ins_ok (by decide) (by decide) (by decide) rfl fmtBlobs_in (fun _ _ _ => rfl) (· + ·)).1

example : MatrixReads (dcscFmt (.sample none 9) 2) (dcscFmt (.sample none 8) 3) .ins .ins 1030 600
    (.rows 2 3 3 (by decide) (by decide) (by decide)) (.rows 3 1 3 (by decide) (by decide) (by decide)) fmtBlobs :=
  (dcsc_matrix_correct (T := Nat) (U := Nat) (mul := fun e x _ => e * x) (pm := fun e x => e * x) (FmtEnv.sample_ok _ _)
    (FmtEnv.sample_ok _ _) MatSorts.ins_ok MatSorts.ins_ok (by decide) (by decide) (by decide) rfl fmtBlobs_in (fun _ _ _ => rfl) (· + ·)).1

/-- With readable memory also those of the other three. -/
example : MatrixMultiplies (cooFmt (.sample (some 4) 9) 2) (cooFmt (.sample (some 1) 8) 3) .ins .ins 1030 600
    (.rows 2 3 3 (by decide) (by decide) (by decide)) (.rows 3 1 3 (by decide) (by decide) (by decide)) fmtBlobs
    (fun e x => e * x) (· + ·)
    (fun mult => ∃ (gy : Nat → Nat → Nat → Fresh Nat) (old : Nat → Nat → Nat → Nat → Nat), mult = fun k => cooMult (gy k) (old k) (fun e x _ => e * x) (· + ·)) := by
  have h := coo_matrix_correct_partial (E := Nat) (T := Nat) (U := Nat) (m := 1030) (n := 600)
    (G := .rows 2 3 3 (by decide) (by decide) (by decide)) (G' := .rows 3 1 3 (by decide) (by decide) (by decide))
    (env := .sample (some 4) 9) (env' := .sample (some 1) 8) (srt := .ins) (srt' := .ins) (threads := 2) (threads' := 3) (blobs := fmtBlobs)
    (mul := fun e x _ => e * x) (pm := fun e x => e * x) (FmtEnv.sample_ok _ _) (FmtEnv.sample_ok _ _) MatSorts.ins_ok MatSorts.ins_ok
    (by decide) (by decide) (by decide) rfl fmtBlobs_in (fun _ _ _ => rfl) (· + ·)
  exact (h (fun _ _ _ _ _ => Option.some_ne_none 4) (fun _ _ _ _ _ => Option.some_ne_none 1)).2
    (fun _ _ _ _ => ⟨4, rfl, fun _ => by decide⟩) (fun _ _ _ _ => ⟨1, rfl, fun _ => by decide⟩)

example : MatrixReads (dcsrFmt (.sample (some (-5)) 9) 2) (dcsrFmt (.sample (some 0) 8) 3) .ins .ins 1030 600
    (.rows 2 3 3 (by decide) (by decide) (by decide)) (.rows 3 1 3 (by decide) (by decide) (by decide)) fmtBlobs :=
  dcsr_matrix_correct_partial (FmtEnv.sample_ok _ _) (FmtEnv.sample_ok _ _) MatSorts.ins_ok MatSorts.ins_ok (by decide) (by decide) (by decide)
    rfl fmtBlobs_in (fun _ _ _ _ _ => by simp [FmtEnv.sample]) (fun _ _ _ _ _ => by simp [FmtEnv.sample])

/-- The same matrix cut into one column and three rows of tiles that all have edges, and so has the single tile of the transpose. -/
example : MatrixMultiplies (hybridFmt (.sample (some 4) 9) 2) (hybridFmt (.sample (some 1) 8) 3) .ins .ins 1030 600
    (.rows 1 3 3 (by decide) (by decide) (by decide)) (.rows 1 1 3 (by decide) (by decide) (by decide)) fmtBlobs
    (fun e x => e * x) (· + ·) (fun mult => ∃ (gy : Nat → Nat → Nat → Fresh Nat) (old old' : Nat → Nat → Nat → Nat → Nat),
      mult = fun k => hybridMult (gy k) (old k) (old' k) (fun e x _ => e * x) (· + ·)) := by
  have h := hybrid_matrix_correct_partial (E := Nat) (T := Nat) (U := Nat) (m := 1030) (n := 600)
    (G := .rows 1 3 3 (by decide) (by decide) (by decide)) (G' := .rows 1 1 3 (by decide) (by decide) (by decide))
    (env := .sample (some 4) 9) (env' := .sample (some 1) 8) (srt := .ins) (srt' := .ins) (threads := 2) (threads' := 3) (blobs := fmtBlobs)
    (mul := fun e x _ => e * x) (pm := fun e x => e * x) (FmtEnv.sample_ok _ _) (FmtEnv.sample_ok _ _) MatSorts.ins_ok MatSorts.ins_ok
    (by decide) (by decide) (by decide) rfl fmtBlobs_in (fun _ _ _ => rfl) (· + ·)
  exact (h (fun _ _ _ _ => Or.inl (Option.some_ne_none 4)) (fun _ _ _ _ => Or.inl (Option.some_ne_none 1))).2
    (fun i j hi hj => fmtBlobs_cells.1 i hi j hj) (fun i j hi hj => fmtBlobs_cells.2.1 i hi j hj)

/-- With 2 columns and 3 rows one tile is empty. -/
example : ∃ out D, FMat.ofEdges (hybridFmt (.sample (some 4) 9) 2) 1030 600 2 3 3 partitionFn1d .ins fmtBlobs = some (out, D) ∧
    ∀ (me : MulEnv Nat Nat Nat) (th : Nat) gy old old' (add : Nat → Nat → Nat) (x : DVec Nat) (y : DVec Nat), y.size = 3 →
      FMat.spmspv me th 3 D (hybridMult gy old old' (fun e x _ => e * x) add) add x y = none := by
  have h := hybrid_matrix_empty_tile (E := Nat) (T := Nat) (U := Nat) (V := Nat) (m := 1030) (n := 600)
    (G := .rows 2 3 3 (by decide) (by decide) (by decide)) (env := .sample (some 4) 9) (srt := .ins) (threads := 2) (blobs := fmtBlobs)
    (mul := fun e x _ => e * x) (FmtEnv.sample_ok _ _) MatSorts.ins_ok (by decide) (by decide) rfl fmtBlobs_in
  exact h (fun _ _ _ _ => Option.some_ne_none 4) (i := 2) (j := 0) (by decide) (by decide) fmtBlobs_cells.2.2

/-- **C85 fails for COO and DCSR tiles**: the constructor reads the `int` behind its array; where that address is not readable it fails. -/
theorem coo_matrix_reads_behind :
    FMat.ofEdges (cooFmt (.sample none 9) 1) 5 5 1 1 1 partitionFn1d .ins [[⟨1, 2, 3⟩, ⟨4, 2, 3⟩]] = none ∧
    FMat.ofEdges (dcsrFmt (.sample none 9) 1) 5 5 1 1 1 partitionFn1d .ins [[⟨1, 2, 3⟩, ⟨4, 2, 3⟩]] = none :=
  ⟨Option.isNone_iff_eq_none.mp (by decide +kernel), Option.isNone_iff_eq_none.mp (by decide +kernel)⟩

/-- The conditions of the theorems about tests are met. -/
example : MatrixTestPasses (cooFmt (.sample (some 4) 9) 2) (cooFmt (.sample (some 0) 8) 3) (cooFmt (.sample (some (-2)) 8) 1) .ins .ins .ins
    (insSort (edgeCompare (fun a b => decide (a < b)))) :=
  ((fmt_matrix_tests_pass_partial (FmtEnv.sample_ok _ _) (FmtEnv.sample_ok _ _) (FmtEnv.sample_ok _ _) (by decide) (by decide) (by decide)
    edgeCompare_sorts MatSorts.ins_ok MatSorts.ins_ok MatSorts.ins_ok).2.2.2 (fun _ _ _ => by simp [FmtEnv.sample])).1

example : SpmvTestPasses (cooFmt (.sample (some (-4)) (9 : Int)) 2) .ins (insSort (edgeCompare (fun a b => decide (a < b))))
    (fun a b => decide (a = b)) (· + ·) 1 (fun mult => ∃ (gy : Nat → Nat → Fresh Int) (old : Nat → Nat → Nat → Int),
        mult = cooMult gy old (fun e x _ => e * x) (· + ·)) 5000 1 :=
  (fmt_spmv_tests_pass_partial (mul := fun e x => e * x) (FmtEnv.sample_ok _ _) (by decide) (by decide) (by decide) int_keyed
    (edgeCompare_sorts.on _) trivial rfl MatSorts.ins_ok (fun _ _ _ => rfl)).2.2.2 (fun _ _ _ _ => ⟨-4, rfl, .inl rfl⟩)

end GraphMat

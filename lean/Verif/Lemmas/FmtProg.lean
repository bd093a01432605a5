import Verif.Lemmas.FmtMat
import Verif.Props.Mult
import Verif.Props.Formats
import Verif.Spec.FmtMat

/-! Programs that multiply matrices of any tile format with vectors; the laws of the tile formats. -/
namespace GraphMat

variable {E Til T U V α : Type} {F : TileFmt E Til} {ok : Nat → Nat → Nat → List (Edge E) → Prop}
  {Is : Til → Nat → Nat → List (Nat × Nat × E) → Prop}

/-- One call on vectors that hold the maps `X` and `Y`. -/
theorem FMat.exec_spec {D : List (FMat Til)} {m n ntx nty nrank : Nat} {ow : Nat → Nat → Nat} {T' : Nat → Nat → Til}
    {L : Nat → Nat → List (Nat × Nat × E)} {all : List (Edge E)} (h : FMat.Rep Is D m n ntx nty nrank ow T' L all)
    (hin : ∀ e ∈ all, InMat m n e) (hy0 : 0 < nty) (hx0 : 0 < ntx) (hr : 0 < nrank) (how : ∀ i j, ow i j < nrank)
    {threads : Nat} (hth : 0 < threads) (env : MulEnv T U V) (gx : Nat → Nat → Fresh T) (gy : Nat → Nat → Fresh U)
    {pm : E → T → U} (add : U → U → U) {mult : Nat → Nat → Nat → Til → Segment T → Segment U → Option (Segment U)}
    (hm : ∀ i j, i < nty → j < ntx → MultOf (bnd m nty (i + 1) - bnd m nty i) (bnd n ntx (j + 1) - bnd n ntx j) pm add (L i j)
      (mult (ow i j) i j (T' i j))) (op : MulOp T U) (hop : op.Valid m n) {x : DVec T} {y : DVec U} {X : Nat → Option T} {Y : Nat → Option U}
    (hs : MulRel m n ntx nty nrank x y X Y)
    (hb : (op = .mul) → ∀ p, p < ntx → (∃ i, i < nty ∧ ow i p ≠ p % nrank) ∨
      ∃ w, 1 ≤ w ∧ w ≤ n ∧ getPartition n ntx w = some p ∧ (X w).isSome) :
    ∃ x' y' Y', FMat.exec env gx gy threads nrank D mult add op (x, y) = some (x', y') ∧
      MulRel m n ntx nty nrank x' y' (op.xSpec X) Y' ∧ op.Step m n all pm add X Y (op.xSpec X) Y' := by
  cases op with
  | onX o =>
    obtain ⟨x', a1, a2, a3⟩ := VecOp.exec_spec hx0 hr gx o hop hs.wx hs.sx
    refine ⟨x', y, Y, ?_, ⟨a2, hs.wy, hs.quiet, a3, hs.sy⟩, fun _ _ _ => rfl, fun _ _ _ => rfl⟩
    show (o.exec gx x).map _ = _
    rw [a1]
    rfl
  | onY o =>
    obtain ⟨y', a1, a2, a3⟩ := VecOp.exec_spec hy0 hr gy o hop hs.wy hs.sy
    refine ⟨x, y', o.spec Y, ?_, ⟨hs.wx, a2, VecOp.exec_quiet hs.wy hr a1 hs.quiet, hs.sx, a3⟩,
      fun _ _ _ => rfl, fun _ _ _ => rfl⟩
    show (o.exec gy y).map _ = _
    rw [a1]
    rfl
  | mul =>
    obtain ⟨x', y', a1, a2, _, a4, a5, _, a7, a8, _⟩ := FMat.spmspv_spec h hy0 hx0 hr how hth env add hm hs.wx (by
      intro p hp
      rcases hb rfl p hp with e | ⟨w, h1, h2, hw, hX⟩
      · exact .inr e
      · rw [← hs.sx w h1 h2] at hX
        exact .inl (DVec.own_ready hw hX)) hs.wy hs.quiet
    refine ⟨x', y', fun w => y'.sem m nty nrank w, a1, ⟨a2, a5, a7, ?_, fun _ _ _ => rfl⟩, fun _ _ _ => rfl, ?_⟩
    · intro w h1 h2
      rw [a4 w, hs.sx w h1 h2]
      rfl
    · intro w h1 h2
      have hred : Reduces add (y.sem m nty nrank w).toList (y.sem m nty nrank w) := by
        cases e : y.sem m nty nrank w with
        | none => exact .inl ⟨rfl, rfl⟩
        | some u => exact .inr ⟨.leaf u, List.Perm.refl _, rfl⟩
      have := a8 w h1 h2 _ hred
      rw [hs.sy w h1 h2] at this
      have e : incoming (x.sem n ntx nrank) (fun _ => pm) all w = matProducts X pm all w :=
        matProducts_congr hin hs.sx
      rw [e] at this
      exact this

theorem FMat.run_spec {D : List (FMat Til)} {m n ntx nty nrank : Nat} {ow : Nat → Nat → Nat} {T' : Nat → Nat → Til}
    {L : Nat → Nat → List (Nat × Nat × E)} {all : List (Edge E)} (h : FMat.Rep Is D m n ntx nty nrank ow T' L all)
    (hin : ∀ e ∈ all, InMat m n e) (hy0 : 0 < nty) (hx0 : 0 < ntx) (hr : 0 < nrank) (how : ∀ i j, ow i j < nrank)
    {threads : Nat} (hth : 0 < threads) (env : Nat → MulEnv T U V) (gx : Nat → Nat → Nat → Fresh T)
    (gy : Nat → Nat → Nat → Fresh U)
    {pm : E → T → U} (add : U → U → U) {mult : Nat → Nat → Nat → Nat → Til → Segment T → Segment U → Option (Segment U)}
    (hm : ∀ k i j, i < nty → j < ntx → MultOf (bnd m nty (i + 1) - bnd m nty i) (bnd n ntx (j + 1) - bnd n ntx j) pm add (L i j)
      (mult k (ow i j) i j (T' i j))) :
    ∀ (ops : List (MulOp T U)) (_ : ∀ op ∈ ops, op.Valid m n) (k : Nat) {x : DVec T} {y : DVec U} {X : Nat → Option T}
      {Y : Nat → Option U} (_ : Warm n ntx nty nrank ow ops X) (_ : MulRel m n ntx nty nrank x y X Y),
    ∃ x' y' Y', FMat.run env gx gy threads nrank D mult add k ops (x, y) = some (x', y') ∧
      MulRel m n ntx nty nrank x' y' (xMap ops X) Y' ∧ MulSteps m n all pm add ops X Y (xMap ops X) Y' := by
  intro ops
  induction ops with
  | nil =>
    intro _ k x y X Y _ hs
    exact ⟨x, y, Y, rfl, hs, .nil (fun _ _ _ => rfl) (fun _ _ _ => rfl)⟩
  | cons op ops ih =>
    intro hops k x y X Y hw hs
    obtain ⟨x1, y1, Y1, a1, a2, a3⟩ := FMat.exec_spec h hin hy0 hx0 hr how hth (env k) (gx k) (gy k) add (hm k) op
      (hops op List.mem_cons_self) hs (by
        rintro rfl
        exact hw [] ops rfl)
    obtain ⟨x', y', Y', b1, b2, b3⟩ := ih (fun o ho => hops o (List.mem_cons_of_mem _ ho)) (k + 1) (by
      rintro pre post rfl
      exact hw (op :: pre) post rfl) a2
    refine ⟨x', y', Y', ?_, b2, .cons a3 b3⟩
    unfold FMat.run
    rw [a1]
    exact b1

/-! ### The formats -/

theorem multWith_adds {m : Nat} {sx : Segment T} {sy : Segment U} (hy : sy.WF) (cy : sy.capacity = m) (g : Fresh U)
    {add : U → U → U} {pm : E → T → U} {kernel : Segment T → Arr U × Arr Word → Option (Arr U × Arr Word)}
    {l : List (Nat × Nat × E)} (hk : KernelAdds m add sx.view pm (kernel sx) l) :
    ∃ sy', multWith g kernel sx sy = some sy' ∧ Adds add (contrib sx.view (fun _ => pm) l) sy sy' := by
  obtain ⟨b, hb, hu, hd, ht, hv, _⟩ := sy.alloc_initialize hy g
  unfold multWith
  rw [hb]
  simp only [Option.bind_eq_bind, Option.bind_some]
  have hpok : POk m (b.value, b.bits) := ⟨by rw [← cy]; exact hd.value, by rw [← cy, ← hy.ni]; exact hd.bits,
    by rw [← cy]; exact ht⟩
  obtain ⟨st', f1, f2, f3⟩ := hk (b.value, b.bits) hpok
  rw [f1, Option.bind_some]
  obtain ⟨s', s1, s2, s3, s4, s5, s6, s7⟩ := storeResult_spec (s := { sy with props := some b })
    (hy.congr_props hd (fun _ => ht)) (b := b) hd hu (st := st') (by rw [cy]; exact f2)
  refine ⟨s', s1, s2, s3, s4, s5, ?_⟩
  intro i
  rw [s7]
  show pview sy.capacity st' i = _
  rw [cy, f3, ← hv, Buffer.pview_eq hd hu, cy]

/-- The sorts of the constructors sort. -/
structure FmtEnv.OK (env : FmtEnv E) : Prop where
  sort : ∀ r i j, SortsBy compareSrcDst (env.sort r i j)
  dcsc : ∀ r i j, SortsBy compareDcsc (env.dcsc r i j)
  simd : ∀ r i j, SortsBy compareSimd (env.simd r i j)
  bins : ∀ r i j p, SortsBy compareBin (env.bins r i j p)
  hown : ∀ r i j, SortsBy compareSrcDst (env.hybrid r i j).own
  hcsr : ∀ r i j, SortsBy compareSrcDst (env.hybrid r i j).csr
  hdcsr : ∀ r i j, SortsBy compareSrcDst (env.hybrid r i j).dcsr
  hsimd : ∀ r i j, SortsBy compareSimd (env.hybrid r i j).simd
  hbins : ∀ r i j p, SortsBy compareBin ((env.hybrid r i j).bins p)

theorem csr_laws {env : FmtEnv E} (h : env.OK) {threads : Nat} (ht : 0 < threads) :
    (csrFmt env threads).Laws (fun _ _ _ _ => True) CSR.Holds where
  perm _ _ := trivial
  empty _ _ _ _ _ := ⟨rfl, rfl, rfl, .inl rfl⟩
  build r i j es m n rs cs _ hin _ := by
    obtain ⟨es', t, l, h1, h2, _, h3⟩ := CSR.build_holds (env.g r i j) ht (h.sort r i j) hin
    exact ⟨t, l, by show (CSR.build _ _ _ _ _ _ _ _).map _ = _; rw [h1]; rfl, h2, h3⟩
  nnz hI := hI.2.2.1
  getEdges hI r i j rs cs := hI.getEdges _ rs cs

theorem coo_laws {env : FmtEnv E} (h : env.OK) {threads : Nat} (ht : 0 < threads) :
    (cooFmt env threads).Laws (fun r i j es => ∃ b, env.behind r i j = some b ∧ (es.length = 1 → 1 ≤ b)) COO.Holds where
  perm hp h := by rw [← hp.length_eq]; exact h
  empty _ _ _ _ _ := ⟨rfl, rfl, rfl, .inl rfl⟩
  build r i j es m n rs cs _ hin hok := by
    obtain ⟨b, hb, h1⟩ := hok
    obtain ⟨t, l, h1, h2, h3⟩ := COO.build_holds (env.g r i j) ht (h.sort r i j) hin h1
    exact ⟨t, l, by show COO.build (env.behind r i j) _ _ _ _ _ _ _ _ = _; rw [hb]; exact h1, h2, h3⟩
  nnz hI := hI.2.2.1
  getEdges hI r i j rs cs := hI.getEdges rs cs

theorem simd_laws {env : FmtEnv E} (h : env.OK) {threads : Nat} (ht : 0 < threads) :
    (simdFmt env threads).Laws (fun _ _ _ _ => True) COO.Holds where
  perm _ _ := trivial
  empty _ _ _ _ _ := ⟨rfl, rfl, rfl, .inl rfl⟩
  build r i j es m n rs cs _ hin _ := by
    obtain ⟨t, l, h1, h2, h3, _⟩ := COO.buildSimd_holds (env.g r i j) ht (h.simd r i j) (h.bins r i j) hin
    exact ⟨t, l, h1, h2, h3⟩
  nnz hI := hI.2.2.1
  getEdges hI r i j rs cs := hI.getEdges rs cs

theorem dcsr_laws {env : FmtEnv E} (h : env.OK) {threads : Nat} (ht : 0 < threads) :
    (dcsrFmt env threads).Laws (fun r i j es => es ≠ [] → env.behind r i j ≠ none) DCSR.Holds where
  perm hp h hne := h (fun e => hne (by rw [e] at hp; exact List.nil_perm.mp hp))
  empty _ _ _ _ _ := ⟨rfl, rfl, rfl, .inl rfl⟩
  build r i j es m n rs cs _ hin hok := DCSR.build_holds (env.g r i j) ht (h.sort r i j) hin hok
  nnz hI := hI.2.2.1
  getEdges hI r i j rs cs := hI.getEdges _ rs cs

/-- A hybrid tile with the entries `l`: built empty, or from edges. -/
def Hybrid.Either (t : Hybrid E) (m n : Nat) (l : List (Nat × Nat × E)) : Prop :=
  (t = Hybrid.empty m n ∧ l = []) ∨ (t.Holds m n l ∧ l ≠ [])

theorem hybrid_laws {env : FmtEnv E} (h : env.OK) {threads : Nat} (ht : 0 < threads) :
    (hybridFmt env threads).Laws (fun r i j es => env.behind r i j ≠ none ∨
      ∀ e ∈ es, es.countP (fun f => decide (f.src = e.src)) < 16) Hybrid.Either where
  perm hp h := h.imp_right (fun h e he => by rw [← hp.countP_eq]; exact h e (hp.mem_iff.mpr he))
  empty _ _ _ _ _ := .inl ⟨rfl, rfl⟩
  build r i j es m n rs cs hne hin hok := by
    obtain ⟨t, l, h1, h2, h3⟩ := Hybrid.build_holds (env.g r i j) ht (h.hown r i j) (h.hcsr r i j) (h.hdcsr r i j) (h.hsimd r i j)
      (h.hbins r i j) hin hne hok
    refine ⟨t, l, h1, .inr ⟨h2, ?_⟩, h3⟩
    rintro rfl
    have := h3.length_eq
    rw [List.length_map, List.length_nil] at this
    exact hne (List.length_eq_zero_iff.mp this.symm)
  nnz hI := by
    rcases hI with ⟨rfl, rfl⟩ | hI
    · rfl
    · exact hI.1.2.2.1
  getEdges hI r i j rs cs := by
    rcases hI with ⟨rfl, rfl⟩ | hI
    · rfl
    · exact hI.1.getEdges _ rs cs

/-- A DCSC tile with the entries `l`. -/
def Tile.Has (t : Tile E) (m n : Nat) (l : List (Nat × Nat × E)) : Prop :=
  ∃ P, t.Rep P ∧ t.m = m ∧ t.n = n ∧ t.nnz = l.length ∧ allEnts t.np P = l

theorem dcsc_laws {env : FmtEnv E} (h : env.OK) {threads : Nat} (ht : 0 < threads) :
    (dcscFmt env threads).Laws (fun _ _ _ _ => True) Tile.Has where
  perm _ _ := trivial
  empty _ _ _ _ _ := ⟨fun _ => [], Tile.empty_rep _ _ _ _ _, rfl, rfl, rfl, rfl⟩
  build r i j es m n rs cs _ hin _ := by
    obtain ⟨t, P, h1, h2, h3, h4, h5, h6⟩ := Tile.build_spec (env.gt r i j) ht (h.dcsc r i j) hin
    exact ⟨t, _, h1, ⟨P, h2, h3, h4, by rw [h5, h6.length_eq, List.length_map], rfl⟩, h6⟩
  nnz := by rintro _ _ _ _ ⟨P, _, _, _, h, _⟩; exact h
  getEdges := by
    rintro _ _ _ _ ⟨P, h1, _, _, _, rfl⟩ r i j rs cs
    exact h1.getEdges rs cs

variable {mul : E → T → U → U} {pm : E → T → U}

theorem csr_mult (hm : ∀ e x old, mul e x old = pm e x) (add : U → U → U) {threads : Nat} (ht : 0 < threads) (gy : Nat → Nat → Fresh U)
    (old : Nat → Nat → Nat → U) {t : CSR E} {m n : Nat} {l : List (Nat × Nat × E)} (h : t.Holds m n l) (r i j : Nat) :
    MultOf m n pm add l (csrMult threads gy old mul add r i j t) :=
  fun sx _ wx rx wy cx cy => by
    unfold csrMult CSR.mult
    exact multWith_adds (sx := sx) wy cy (gy r i) (h.adds wx rx cx ht hm add (old i j))

theorem coo_mult (hm : ∀ e x old, mul e x old = pm e x) (add : U → U → U) (gy : Nat → Nat → Fresh U)
    (old : Nat → Nat → Nat → U) {t : COO E} {m n : Nat} {l : List (Nat × Nat × E)} (h : t.Holds m n l) (r i j : Nat) :
    MultOf m n pm add l (cooMult gy old mul add r i j t) :=
  fun sx _ wx rx wy cx cy => by
    unfold cooMult COO.mult
    exact multWith_adds (sx := sx) wy cy (gy r i) (h.adds wx rx cx hm add (old i j))

theorem hybrid_mult (hm : ∀ e x old, mul e x old = pm e x) (add : U → U → U) (gy : Nat → Nat → Fresh U)
    (old old' : Nat → Nat → Nat → U) {t : Hybrid E} {m n : Nat} {l : List (Nat × Nat × E)} (h : t.Either m n l) (hl : l ≠ []) (r i j : Nat) :
    MultOf m n pm add l (hybridMult gy old old' mul add r i j t) :=
  fun sx _ wx rx wy cx cy => by
    unfold hybridMult Hybrid.mult
    exact multWith_adds (sx := sx) wy cy (gy r i) ((h.resolve_left (fun e => hl e.2)).1.adds wx rx cx hm add (old i j) (old' i j))

theorem dcsc_mult (hm : ∀ e x old, mul e x old = pm e x) (add : U → U → U) (gy : Nat → Nat → Fresh U)
    (tmp : Nat → Nat → Nat → Nat → U) {t : Tile E} {m n : Nat} {l : List (Nat × Nat × E)} (h : t.Has m n l) (r i j : Nat) :
    MultOf m n pm add l (dcscMult gy tmp mul add r i j t) := by
  intro sx sy wx rx wy cx cy
  obtain ⟨P, h1, h2, h3, _, rfl⟩ := h
  obtain ⟨s', q1, q2, q3, q4, q5, _, q7⟩ := multSegment_spec h1 wx rx wy (by rw [h3]; exact cx) (by rw [h2]; exact cy) (gy r i) (tmp i j)
    (mul := fun _ _ => mul) (fun _ _ => hm) add
  exact ⟨s', q1, q2, q3, q4, q5, q7⟩

/-! ### COO tiles that only have to be read -/

/-- The COO tile stores the entries `l` (its partitions may be wrong). -/
def COO.Stores (t : COO E) (m n : Nat) (l : List (Nat × Nat × E)) : Prop :=
  t.m = m ∧ t.n = n ∧ t.nnz = l.length ∧ (t.nnz = 0 ∨ ∃ ent, t.Ok ent ∧ (List.range t.nnz).map ent = l)

theorem coo_read_laws {env : FmtEnv E} (h : env.OK) {threads : Nat} (ht : 0 < threads) :
    (cooFmt env threads).Laws (fun r i j es => es ≠ [] → env.behind r i j ≠ none) COO.Stores where
  perm hp h hne := h (fun e => hne (by rw [e] at hp; exact List.nil_perm.mp hp))
  empty _ _ _ _ _ := ⟨rfl, rfl, rfl, .inl rfl⟩
  build r i j es m n rs cs hne hin hok := by
    obtain ⟨b, hb⟩ := Option.ne_none_iff_exists'.mp (hok hne)
    obtain ⟨d, hd⟩ := List.exists_mem_of_ne_nil _ hne
    obtain ⟨t, h1, h2, h3, h4, h5, _⟩ := COO.build_any b (env.g r i j) ht (h.sort r i j) hin d (List.length_pos_iff.mpr hne)
    have hp := (h.sort r i j es).1
    exact ⟨t, (env.sort r i j es).map (localOf rs cs), by show COO.build (env.behind r i j) _ _ _ _ _ _ _ _ = _; rw [hb]; exact h1,
      ⟨h2, h3, by rw [List.length_map]; exact h4, .inr ⟨_, h5, by rw [h4, entOf_map]⟩⟩, hp.map _⟩
  nnz hI := hI.2.2.1
  getEdges := by
    rintro t m n l ⟨_, _, h3, h4⟩ r i j rs cs
    rcases h4 with h4 | ⟨ent, h4, h5⟩
    · have hl : l = [] := List.length_eq_zero_iff.mp (by omega)
      show t.getEdges rs cs = _
      unfold COO.getEdges
      rw [hl, h4]; rfl
    · show t.getEdges rs cs = _
      rw [h4.getEdges, ← h5, List.map_map]; rfl

/-! ### Matrices with lawful tiles -/

section
variable {F' : TileFmt E Til} {ok' : Nat → Nat → Nat → List (Edge E) → Prop} {srt srt' : MatSorts E} {m n nrank : Nat} {G G' : Grid nrank}
  {blobs : List (List (Edge E))}

/-- The edges of tile `(i, j)`. -/
def cellEdges (m n : Nat) (G : Grid nrank) (all : List (Edge E)) (i j : Nat) : List (Edge E) :=
  all.filter (fun e => decide (tileOf m n G.nty G.ntx e = (i, j)))

theorem lawful_built (hF : F.Laws ok Is) (hF' : F'.Laws ok' Is) (hs : srt.OK) (hs' : srt'.OK) (hr : 0 < nrank)
    (hlen : blobs.length = nrank) (hin : ∀ e ∈ blobs.flatten, InMat m n e)
    (hok : ∀ i j, i < G.nty → j < G.ntx → ok (G.ow i j) i j (cellEdges m n G blobs.flatten i j))
    (hok' : ∀ i j, i < G'.nty → j < G'.ntx → ok' (G'.ow i j) i j (cellEdges n m G' (blobs.flatten.map swapEdge) i j)) :
    ∃ out D DT T L T' L', FMat.ofEdges F m n G.ntx G.nty nrank G.pfn srt blobs = some (out, D) ∧ out.flatten.Perm blobs.flatten ∧
      FMat.transpose F F' D m n G'.ntx G'.nty nrank G'.pfn srt' = some DT ∧
      FMat.Rep Is D m n G.ntx G.nty nrank G.ow T L blobs.flatten ∧
      FMat.Rep Is DT n m G'.ntx G'.nty nrank G'.ow T' L' (blobs.flatten.map swapEdge) := by
  obtain ⟨out, D, T, L, d1, d2, d3, _, d5⟩ := FMat.ofEdges_spec hs hF G.hy G.hx hr G.hpfn G.how hlen hin hok
  obtain ⟨DT, T', L', t1, t2⟩ := FMat.Rep.transpose hF hF' d5 G.hy G.hx hr G'.hy G'.hx G'.hpfn G.how G'.how hs' hok'
  exact ⟨out, D, DT, T, L, T', L', d1, flatten_perm_of (by rw [d2, hlen]) d3, t1, d5, t2⟩

theorem lawful_has (hF : F.Laws ok Is) {D : List (FMat Til)} {T : Nat → Nat → Til} {L : Nat → Nat → List (Nat × Nat × E)}
    {all : List (Edge E)} (h : FMat.Rep Is D m n G.ntx G.nty nrank G.ow T L all) : HasEntries F D nrank all := by
  obtain ⟨h1, h2⟩ := FMat.Rep.allEdges hF h G.hy G.hx G.how
  exact ⟨⟨_, h1, h2⟩, fun hl => FMat.Rep.getNNZ hF h G.hy G.hx G.how hl⟩

theorem lawful_reads (hF : F.Laws ok Is) (hF' : F'.Laws ok' Is) (hs : srt.OK) (hs' : srt'.OK) (hr : 0 < nrank)
    (hlen : blobs.length = nrank) (hin : ∀ e ∈ blobs.flatten, InMat m n e)
    (hok : ∀ i j, i < G.nty → j < G.ntx → ok (G.ow i j) i j (cellEdges m n G blobs.flatten i j))
    (hok' : ∀ i j, i < G'.nty → j < G'.ntx → ok' (G'.ow i j) i j (cellEdges n m G' (blobs.flatten.map swapEdge) i j)) :
    MatrixReads F F' srt srt' m n G G' blobs := by
  obtain ⟨out, D, DT, T, L, T', L', a1, a2, a3, a4, a5⟩ := lawful_built hF hF' hs hs' hr hlen hin hok hok'
  exact ⟨out, D, DT, a1, a2, lawful_has hF a4, a3, lawful_has hF' a5⟩

theorem lawful_runs {D : List (FMat Til)} {T' : Nat → Nat → Til} {L : Nat → Nat → List (Nat × Nat × E)}
    {all : List (Edge E)} (h : FMat.Rep Is D m n G.ntx G.nty nrank G.ow T' L all) (hr : 0 < nrank)
    {Q : List (Nat × Nat × E) → Prop} (hQ : ∀ i j, i < G.nty → j < G.ntx → cellEdges m n G all i j ≠ [] ∨ ∀ l, Q l)
    (hQ' : ∀ l, l ≠ [] → Q l) (add : U → U → U)
    {mult : Nat → Nat → Nat → Nat → Til → Segment T → Segment U → Option (Segment U)}
    (hm : ∀ k r i j t m n l, Is t m n l → Q l → MultOf m n pm add l (mult k r i j t)) :
    ProgramsRun D m n G all pm add mult := by
  intro env gx gy threads hth ops hops hwarm
  obtain ⟨x0, b1, b2, _, b4⟩ := DVec.new_empty (α := T) (n := n) G.hx hr
  obtain ⟨y0, c1, c2, c3, c4⟩ := DVec.new_empty (α := U) (n := m) G.hy hr
  obtain ⟨x, y, Y, d1, d2, d3⟩ := FMat.run_spec h h.inMat G.hy G.hx hr G.how hth env gx gy (pm := pm) add (by
      intro k i j hi hj
      have ht := h.tile i j hi hj
      refine hm k _ i j _ _ _ _ ht.1 ?_
      rcases hQ i j hi hj with hne | hq
      · apply hQ'
        rintro e
        have := ht.2.length_eq
        rw [e, List.length_map, List.length_nil] at this
        exact hne (List.length_eq_zero_iff.mp this.symm)
      · exact hq _) ops hops 0 (X := fun _ => none) (Y := fun _ => none) hwarm ⟨b2, c2, c3, b4, c4⟩
  obtain ⟨e1, e2⟩ := DVec.reads G.hx hr d2.wx d2.sx
  obtain ⟨f1, f2⟩ := DVec.reads G.hy hr d2.wy d2.sy
  exact ⟨x0, y0, x, y, b1, c1, d1, _, Y, d3, e1, f1, e2, f2⟩

theorem lawful_multiplies (hF : F.Laws ok Is) (hF' : F'.Laws ok' Is) (hs : srt.OK) (hs' : srt'.OK) (hr : 0 < nrank)
    (hlen : blobs.length = nrank) (hin : ∀ e ∈ blobs.flatten, InMat m n e)
    (hok : ∀ i j, i < G.nty → j < G.ntx → ok (G.ow i j) i j (cellEdges m n G blobs.flatten i j))
    (hok' : ∀ i j, i < G'.nty → j < G'.ntx → ok' (G'.ow i j) i j (cellEdges n m G' (blobs.flatten.map swapEdge) i j))
    {Q : List (Nat × Nat × E) → Prop} (hQ' : ∀ l, l ≠ [] → Q l)
    (hQ : ∀ i j, i < G.nty → j < G.ntx → cellEdges m n G blobs.flatten i j ≠ [] ∨ ∀ l, Q l)
    (hQ2 : ∀ i j, i < G'.nty → j < G'.ntx → cellEdges n m G' (blobs.flatten.map swapEdge) i j ≠ [] ∨ ∀ l, Q l) (add : U → U → U)
    {mults : (Nat → Nat → Nat → Nat → Til → Segment T → Segment U → Option (Segment U)) → Prop}
    (hm : ∀ mult, mults mult → ∀ k r i j t m n l, Is t m n l → Q l → MultOf m n pm add l (mult k r i j t)) :
    MatrixMultiplies F F' srt srt' m n G G' blobs pm add mults := by
  obtain ⟨out, D, DT, T, L, T', L', a1, a2, a3, a4, a5⟩ := lawful_built hF hF' hs hs' hr hlen hin hok hok'
  exact ⟨out, D, DT, a1, a3, fun mult h => ⟨lawful_runs a4 hr hQ hQ' add (hm mult h), lawful_runs a5 hr hQ2 hQ' add (hm mult h)⟩⟩
end

end GraphMat

import Verif.Spec.FmtArchive
import Verif.Lemmas.FmtTest
import Verif.Lemmas.FmtSnapshot
import Verif.Props.FmtSnapshot

/-!
# Archives of distributed matrices of any tile format (lemmas)
-/
namespace GraphMat

variable {E Til T U : Type}

/-- Saved in an archive, the tile `t` comes back as `t'`. -/
def Keeps (io : TileIO E Til) (r i j : Nat) (t t' : Til) : Prop :=
  ∃ toks, (∀ ar, io.put r i j t ar = some (ar ++ toks)) ∧ ∀ more, io.get r i j (toks ++ more) = some (t', more)

/-- Tiles with `Is` come back as tiles with `Is'`. -/
def TileIO.Laws (io : TileIO E Til) (ok : Nat → Nat → Nat → Prop) (Is Is' : Til → Nat → Nat → List (Nat × Nat × E) → Prop) : Prop :=
  ∀ r i j t m n l, ok r i j → Is t m n l → ∃ t', Keeps io r i j t t' ∧ Is' t' m n l

/-- What is written for a matrix; `K` is what is written for its tiles. -/
def FMat.toks (m n ntx nty : Nat) (ow : Nat → Nat → Nat) (K : Nat → Nat → Archive E) (r : Nat) : Archive E :=
  [.object, .int ntx, .int nty, .int m, .int n] ++
  ((.int nty :: (List.range nty).flatMap (fun i => .int ntx :: (List.range ntx).flatMap (fun j =>
      if ow i j = r then .object :: K i j else [.null]))) ++
  ((.int (startIds n ntx).length :: (startIds n ntx).flatMap (fun k => [.int k])) ++
  ((.int (startIds m nty).length :: (startIds m nty).flatMap (fun k => [.int k])) ++
    (.int (((List.range ntx).map (fun j => (List.range nty).map (fun i => ow i j))).flatten).length ::
    (((List.range ntx).map (fun j => (List.range nty).map (fun i => ow i j))).flatten).flatMap (fun k => [.int k])))))

section
variable {io : TileIO E Til} {m n ntx nty nrank : Nat} {ow : Nat → Nat → Nat} {T T' : Nat → Nat → Til} {K : Nat → Nat → Archive E}

theorem FMat.save_spec (hK : ∀ i j, i < nty → j < ntx → ∀ ar, io.put (ow i j) i j (T i j) ar = some (ar ++ K i j)) (r : Nat) (ar : Archive E) :
    (fmatOf m n ntx nty nrank ow T r).save io ar = some (ar ++ FMat.toks m n ntx nty ow K r) := by
  unfold FMat.save FMat.toks fmatOf
  simp only [Option.bind_eq_bind]
  rw [putList_spec (L := fun i => .int ntx :: (List.range ntx).flatMap (fun j => if ow i j = r then .object :: K i j else [.null])),
    Option.bind_some,
    putList_spec (put := putInt) (L := fun k => [.int k]) (fun k _ ar => rfl), Option.bind_some,
    putList_spec (put := putInt) (L := fun k => [.int k]) (fun k _ ar => rfl), Option.bind_some,
    mapM_some (g := fun j => (List.range nty).map (fun i => ow i j)), Option.bind_some,
    putList_spec (put := putInt) (L := fun k => [.int k]) (fun k _ ar => rfl)]
  · simp only [List.append_assoc, List.length_range]
  · intro j hj
    exact mapM_some (fun i hi => rfl)
  · intro i hi ar
    rw [putList_spec (L := fun j => if ow i j = r then .object :: K i j else [.null]), List.length_range]
    intro j hj ar
    rw [List.mem_range] at hi hj
    by_cases h : ow i j = r
    · rw [if_pos ⟨hi, hj, h⟩, if_pos h]
      unfold putFmt
      simp only
      rw [← h, hK i j hi hj]
      simp
    · rw [if_neg (fun e => h e.2.2), if_neg h]
      rfl

theorem FMat.load_spec (hK : ∀ i j, i < nty → j < ntx → ∀ ar, io.get (ow i j) i j (K i j ++ ar) = some (T' i j, ar))
    {other : Nat → Nat → Option Nat} (hother : ∀ i j, ¬ (i < nty ∧ j < ntx) → other i j = some (ow i j)) (r : Nat) (ar : Archive E) :
    FMat.load io other nrank r (FMat.toks m n ntx nty ow K r ++ ar) = some (fmatOf m n ntx nty nrank ow T' r, ar) := by
  have hints : ∀ (l : List Nat) (ar : Archive E), takeList (fun _ => getInt) (.int l.length :: (l.flatMap (fun k => [.int k]) ++ ar)) =
      some (l, ar) := by
    intro l ar
    rw [takeList_spec (L := fun k => [.int k]) (y := fun i => l.getD i 0)]
    · congr 2
      apply List.ext_getElem (by simp)
      intro i h1 h2
      simp [h2]
    · intro i hi ar
      simp [getInt, hi]
  unfold FMat.toks FMat.load
  simp only [List.cons_append, List.nil_append, List.append_assoc, getInt, Option.bind_eq_bind, Option.bind_some]
  have e := takeList_spec (l := List.range nty)
    (L := fun i => .int ntx :: (List.range ntx).flatMap (fun j => if ow i j = r then .object :: K i j else [.null]))
    (get := fun i => takeList (fun j => takeFmt (io.get r i j)))
    (y := fun i => (List.range ntx).map (fun j => if ow i j = r then some (T' i j) else none)) (by
      intro i hi ar
      have hi' : i < nty := by simpa using hi
      have e := takeList_spec (l := List.range ntx) (L := fun j => if ow i j = r then .object :: K i j else [.null])
        (get := fun j => takeFmt (io.get r i j)) (y := fun j => if ow i j = r then some (T' i j) else none) (by
          intro j hj ar
          have hj' : j < ntx := by simpa using hj
          simp only [List.getElem_range]
          by_cases h : ow i j = r
          · rw [if_pos h, if_pos h]
            simp only [List.cons_append, takeFmt]
            rw [← h, hK i j hi' hj']
            rfl
          · rw [if_neg h, if_neg h]
            rfl) ar
      simp only [List.length_range] at e
      simp only [List.getElem_range, List.cons_append]
      exact e)
  simp only [List.length_range] at e
  rw [e, Option.bind_some]
  simp only []
  rw [hints, Option.bind_some]
  simp only []
  rw [hints, Option.bind_some]
  simp only []
  rw [hints, Option.bind_some, if_neg (by simp)]
  unfold fmatOf
  congr 2
  congr 1
  · funext i j
    by_cases hij : i < nty ∧ j < ntx
    · rw [if_pos hij, grid_get (fun j i => ow i j) hij.1 hij.2]
    · rw [if_neg hij, hother i j hij]
  · funext i j
    by_cases hij : i < nty ∧ j < ntx
    · by_cases h : ow i j = r
      · simp [hij.1, hij.2, h]
      · simp [hij.1, hij.2, h]
    · rw [if_neg (fun e => hij ⟨e.1, e.2.1⟩)]
      by_cases hi : i < nty
      · have hj : ¬ j < ntx := fun hj => hij ⟨hi, hj⟩
        simp [hi, hj]
      · simp [hi]

/-- A matrix saved and loaded by all ranks has the same entries. -/
theorem FMat.Rep.reload {okio : Nat → Nat → Nat → Prop} {Is Is' : Til → Nat → Nat → List (Nat × Nat × E) → Prop} (hio : io.Laws okio Is Is')
    {D : List (FMat Til)} {L : Nat → Nat → List (Nat × Nat × E)} {all : List (Edge E)}
    (h : FMat.Rep Is D m n ntx nty nrank ow T L all) (hok : ∀ i j, i < nty → j < ntx → okio (ow i j) i j)
    {other : Nat → Nat → Option Nat} (hother : ∀ i j, ¬ (i < nty ∧ j < ntx) → other i j = some (ow i j)) :
    ∃ D' T', FMat.reload io other D = some D' ∧ FMat.Rep Is' D' m n ntx nty nrank ow T' L all := by
  have key : ∀ i j, ∃ t' toks, i < nty → j < ntx → (∀ ar, io.put (ow i j) i j (T i j) ar = some (ar ++ toks)) ∧
      (∀ more, io.get (ow i j) i j (toks ++ more) = some (t', more)) ∧
      Is' t' (bnd m nty (i + 1) - bnd m nty i) (bnd n ntx (j + 1) - bnd n ntx j) (L i j) := by
    intro i j
    by_cases hij : i < nty ∧ j < ntx
    · obtain ⟨t', ⟨toks, h1, h2⟩, h3⟩ := hio (ow i j) i j (T i j) _ _ _ (hok i j hij.1 hij.2) (h.tile i j hij.1 hij.2).1
      exact ⟨t', toks, fun _ _ => ⟨h1, h2, h3⟩⟩
    · exact ⟨T i j, [], fun h1 h2 => absurd ⟨h1, h2⟩ hij⟩
  choose T' K hK using key
  refine ⟨(List.range nrank).map (fmatOf m n ntx nty nrank ow T'), T', ?_, rfl, h.inMat, fun i j hi hj => ⟨(hK i j hi hj).2.2, (h.tile i j hi hj).2⟩⟩
  unfold FMat.reload
  have hlen : D.length = nrank := by rw [h.mat]; simp
  rw [hlen]
  refine mapM_some (fun r hr => ?_)
  rw [h.head (List.mem_range.mp hr)]
  simp only [Option.bind_eq_bind, Option.bind_some]
  rw [FMat.save_spec (K := K) (fun i j hi hj => (hK i j hi hj).1), Option.bind_some]
  have e := FMat.load_spec (io := io) (nrank := nrank) (m := m) (n := n) (K := K) (T' := T') (fun i j hi hj => (hK i j hi hj).2.1) hother r []
  rw [List.append_nil] at e
  rw [List.nil_append, e]
  rfl
end

/-! ### The formats -/

/-- What a tile must do to be read: its number of edges and `get_edges`. -/
def TileReads (F : TileFmt E Til) (t : Til) (_m _n : Nat) (l : List (Nat × Nat × E)) : Prop :=
  F.nnz t = l.length ∧ ∀ r i j rs cs, F.getEdges r i j t rs cs = some (l.map (unlocal rs cs))

theorem TileFmt.Laws.reads {F : TileFmt E Til} {ok : Nat → Nat → Nat → List (Edge E) → Prop}
    {Is : Til → Nat → Nat → List (Nat × Nat × E) → Prop} (h : F.Laws ok Is) : F.Laws ok (TileReads F) where
  perm := h.perm
  empty r i j m n := ⟨h.nnz (h.empty r i j m n), h.getEdges (h.empty r i j m n)⟩
  build r i j es m n rs cs hne hin hok := by
    obtain ⟨t, l, h1, h2, h3⟩ := h.build r i j es m n rs cs hne hin hok
    exact ⟨t, l, h1, ⟨h.nnz h2, h.getEdges h2⟩, h3⟩
  nnz hI := hI.1
  getEdges hI := hI.2

/-- ... and to be read and multiplied. -/
def TileWorks (F : TileFmt E Til) (pm : E → T → U) (add : U → U → U)
    (mults : (Nat → Nat → Nat → Nat → Til → Segment T → Segment U → Option (Segment U)) → Prop) (Q : List (Nat × Nat × E) → Prop) (t : Til)
    (m n : Nat) (l : List (Nat × Nat × E)) : Prop :=
  TileReads F t m n l ∧ (Q l → ∀ mult, mults mult → ∀ k r i j, MultOf m n pm add l (mult k r i j t))

/-! ### CSR -/

theorem CSR.reload_nnz (t : CSR E) (g : FmtFresh E) : (t.reload g).nnz = t.nnz := by
  unfold CSR.reload
  split <;> rfl

theorem csr_io {env : FmtEnv E} (io : IOEnv E) (threads : Nat) {mul : E → T → U → U} {pm : E → T → U}
    (hm : ∀ e x old, mul e x old = pm e x) (add : U → U → U) :
    (csrIO io).Laws (fun _ _ _ => True) CSR.Holds (TileWorks (csrFmt env threads) pm add
      (fun mult => ∃ (th : Nat) (gy : Nat → Nat → Nat → Fresh U) (old : Nat → Nat → Nat → Nat → U),
        0 < th ∧ mult = fun k => csrMult th (gy k) (old k) mul add) (fun _ => True)) := by
  intro r i j t m n l _ h
  refine ⟨t.reload (io.g r i j), ⟨t.toks, h.sized.archive, h.sized.restore _⟩, ⟨?_, ?_⟩, ?_⟩
  · exact (CSR.reload_nnz _ _).trans h.2.2.1
  · intro r' i' j' rs cs
    exact (CSR.reload_getEdges _ _ _ _ _).trans (h.getEdges _ rs cs)
  · rintro _ _ ⟨th, gy, old, hth, rfl⟩ k r' i' j'
    have := csr_mult hm add hth (gy k) (old k) h r' i' j'
    unfold csrMult at this ⊢
    beta_reduce
    rw [CSR.reload_mult]
    exact this

/-! ### COO -/

theorem coo_io {env : FmtEnv E} (io : IOEnv E) (threads : Nat) {mul : E → T → U → U} {pm : E → T → U}
    (hm : ∀ e x old, mul e x old = pm e x) (add : U → U → U) :
    (cooIO io).Laws (fun _ _ _ => True) COO.Holds (TileWorks (cooFmt env threads) pm add
      (fun mult => ∃ (gy : Nat → Nat → Nat → Fresh U) (old : Nat → Nat → Nat → Nat → U),
        mult = fun k => cooMult (gy k) (old k) mul add) (fun _ => True)) := by
  intro r i j t m n l _ h
  refine ⟨t.reload false (io.g r i j), ⟨t.toks false, h.sized.archive, h.sized.restore _⟩, ⟨?_, ?_⟩, ?_⟩
  · exact (COO.reload_nnz _ _ _).trans h.2.2.1
  · intro r' i' j' rs cs
    exact (COO.reload_getEdges _ _ _ _ _).trans (h.getEdges rs cs)
  · rintro _ _ ⟨gy, old, rfl⟩ k r' i' j'
    have := coo_mult hm add (gy k) (old k) h r' i' j'
    unfold cooMult at this ⊢
    beta_reduce
    rw [COO.reload_mult]
    exact this

/-- A COO tile that only has to be read and saved. -/
def COO.Saved (t : COO E) (m n : Nat) (l : List (Nat × Nat × E)) : Prop := t.Stores m n l ∧ t.Sized false

theorem coo_saved_laws {env : FmtEnv E} (h : env.OK) {threads : Nat} (ht : 0 < threads) :
    (cooFmt env threads).Laws (fun r i j es => es ≠ [] → env.behind r i j ≠ none) COO.Saved where
  perm := (coo_read_laws h ht).perm
  empty r i j m n := ⟨(coo_read_laws h ht).empty r i j m n, fun h => absurd h (Nat.lt_irrefl 0)⟩
  build r i j es m n rs cs hne hin hok := by
    obtain ⟨b, hb⟩ := Option.ne_none_iff_exists'.mp (hok hne)
    obtain ⟨d, hd⟩ := List.exists_mem_of_ne_nil _ hne
    obtain ⟨t, h1, h2, h3, h4, h5, h6, _, h7⟩ := COO.build_any b (env.g r i j) ht (h.sort r i j) hin d (List.length_pos_iff.mpr hne)
    have hp := (h.sort r i j es).1
    refine ⟨t, (env.sort r i j es).map (localOf rs cs), by show COO.build (env.behind r i j) _ _ _ _ _ _ _ _ = _; rw [hb]; exact h1,
      ⟨⟨h2, h3, by rw [List.length_map]; exact h4, .inr ⟨_, h5, by rw [h4, entOf_map]⟩⟩, fun _ => ⟨h5.asz, h5.jsz, h5.isz, ?_, fun h => by cases h⟩⟩,
      hp.map _⟩
    by_cases hc : es.length = 1 → 1 ≤ b
    · exact (h6 hc).psz
    · obtain ⟨c1, c2⟩ := Classical.not_imp.mp hc
      exact (h7 c1 (by omega)).1
  nnz hI := hI.1.2.2.1
  getEdges hI := (coo_read_laws h ht).getEdges hI.1

theorem coo_read_io {env : FmtEnv E} (h : env.OK) {threads : Nat} (ht : 0 < threads) (io : IOEnv E) :
    (cooIO io).Laws (fun _ _ _ => True) COO.Saved (TileReads (cooFmt env threads)) := by
  intro r i j t m n l _ hI
  refine ⟨t.reload false (io.g r i j), ⟨t.toks false, hI.2.archive, hI.2.restore _⟩, ?_, ?_⟩
  · exact (COO.reload_nnz _ _ _).trans hI.1.2.2.1
  · intro r' i' j' rs cs
    exact (COO.reload_getEdges _ _ _ _ _).trans ((coo_read_laws h ht).getEdges hI.1 r' i' j' rs cs)

/-! ### COO-SIMD -/

/-- A COO-SIMD tile with all its arrays. -/
def COO.SimdHolds (t : COO E) (m n : Nat) (l : List (Nat × Nat × E)) : Prop := t.Holds m n l ∧ t.Sized true

theorem simd_sized_laws {env : FmtEnv E} (h : env.OK) {threads : Nat} (ht : 0 < threads) :
    (simdFmt env threads).Laws (fun _ _ _ _ => True) COO.SimdHolds where
  perm _ _ := trivial
  empty _ _ _ _ _ := ⟨⟨rfl, rfl, rfl, .inl rfl⟩, fun h => absurd h (Nat.lt_irrefl 0)⟩
  build r i j es m n rs cs _ hin _ := by
    obtain ⟨t, l, h1, h2, h3, _⟩ := COO.buildSimd_holds (env.g r i j) ht (h.simd r i j) (h.bins r i j) hin
    exact ⟨t, l, h1, ⟨h2, h2.sized_simd (COO.buildSimd_size h1)⟩, h3⟩
  nnz hI := hI.1.2.2.1
  getEdges hI r i j rs cs := hI.1.getEdges rs cs

theorem simd_io {env : FmtEnv E} (io : IOEnv E) (threads : Nat) {mul : E → T → U → U} {pm : E → T → U}
    (hm : ∀ e x old, mul e x old = pm e x) (add : U → U → U) :
    (simdIO io).Laws (fun _ _ _ => True) COO.SimdHolds (TileWorks (simdFmt env threads) pm add
      (fun mult => ∃ (gy : Nat → Nat → Nat → Fresh U) (old : Nat → Nat → Nat → Nat → U),
        mult = fun k => cooMult (gy k) (old k) mul add) (fun _ => True)) := by
  intro r i j t m n l _ h
  refine ⟨t.reload true (io.g r i j), ⟨t.toks true, h.2.archive, h.2.restore _⟩, ⟨?_, ?_⟩, ?_⟩
  · exact (COO.reload_nnz _ _ _).trans h.1.2.2.1
  · intro r' i' j' rs cs
    exact (COO.reload_getEdges _ _ _ _ _).trans (h.1.getEdges rs cs)
  · rintro _ _ ⟨gy, old, rfl⟩ k r' i' j'
    have := coo_mult hm add (gy k) (old k) h.1 r' i' j'
    unfold cooMult at this ⊢
    beta_reduce
    rw [COO.reload_mult]
    exact this

/-! ### DCSC -/

theorem dcsc_io {env : FmtEnv E} (io : IOEnv E) (threads : Nat) {mul : E → T → U → U} {pm : E → T → U}
    (hm : ∀ e x old, mul e x old = pm e x) (add : U → U → U) :
    (dcscIO io).Laws (fun _ _ _ => True) Tile.Has (TileWorks (dcscFmt env threads) pm add
      (fun mult => ∃ (gy : Nat → Nat → Nat → Fresh U) (tmp : Nat → Nat → Nat → Nat → Nat → U),
        mult = fun k => dcscMult (gy k) (tmp k) mul add) (fun _ => True)) := by
  rintro r i j t m n l _ ⟨P, h1, h2, h3, h4, h5⟩
  have hI : (t.reload (io.gt r i j)).Has m n l := by
    obtain ⟨d1, d2, d3, d4⟩ := t.reload_dims (io.gt r i j)
    exact ⟨P, h1.reload _, by rw [d1]; exact h2, by rw [d2]; exact h3, by rw [d3]; exact h4, by rw [d4]; exact h5⟩
  refine ⟨t.reload (io.gt r i j), ⟨t.toks, h1.save, h1.load _⟩, ⟨?_, ?_⟩, ?_⟩
  · obtain ⟨_, _, _, _, q, _⟩ := hI
    exact q
  · obtain ⟨P', q1, _, _, _, rfl⟩ := hI
    intro r' i' j' rs cs
    exact q1.getEdges rs cs
  · rintro _ _ ⟨gy, tmp, rfl⟩ k r' i' j'
    exact dcsc_mult hm add (gy k) (tmp k) hI r' i' j'

/-! ### DCSR -/

theorem dcsr_io {env : FmtEnv E} (io : IOEnv E) (threads : Nat) :
    (dcsrIO io).Laws (fun r i j => io.beyond r i j ≠ none) DCSR.Holds (TileReads (dcsrFmt env threads)) := by
  intro r i j t m n l hb h
  obtain ⟨f, hf⟩ := Option.ne_none_iff_exists'.mp hb
  refine ⟨t.reload f (io.g r i j), ⟨t.toks f, ?_, h.sized.restore f _⟩, ?_, ?_⟩
  · intro ar
    show t.archive (io.beyond r i j) ar = _
    rw [hf]
    exact h.sized.archive f ar
  · refine Eq.trans ?_ h.2.2.1
    show (t.reload f (io.g r i j)).nnz = t.nnz
    unfold DCSR.reload
    split <;> rfl
  · intro r' i' j' rs cs
    exact (h.sized.reload_getEdges f _ _ rs cs).trans (h.getEdges _ rs cs)

/-! ### Hybrid -/

/-- A hybrid tile with all its arrays; with `light`, its DCSR part is empty. -/
def Hybrid.Whole (light : Bool) (t : Hybrid E) (m n : Nat) (l : List (Nat × Nat × E)) : Prop :=
  (t = Hybrid.empty m n ∧ l = []) ∨ (l ≠ [] ∧ t.m = m ∧ t.n = n ∧ t.nnz = l.length ∧ ∃ t1 t2 l1 l2, t.t1 = some t1 ∧ t.t2 = some t2 ∧
    t1.Holds m n l1 ∧ t2.Holds m n l2 ∧ l = l1 ++ l2 ∧ t2.Sized true ∧ (light = true → t1.nnz = 0))

theorem hybrid_whole_laws {env : FmtEnv E} (h : env.OK) {threads : Nat} (ht : 0 < threads) (light : Bool) :
    (hybridFmt env threads).Laws (fun r i j es => (light = false ∧ env.behind r i j ≠ none) ∨
      ∀ e ∈ es, es.countP (fun f => decide (f.src = e.src)) < 16) (Hybrid.Whole light) where
  perm hp h := h.imp_right (fun h e he => by rw [← hp.countP_eq]; exact h e (hp.mem_iff.mpr he))
  empty _ _ _ _ _ := .inl ⟨rfl, rfl⟩
  build r i j es m n rs cs hne hin hok := by
    obtain ⟨big, small, p1, p2, p3, n1, p4⟩ := Hybrid.build_split (behind := env.behind r i j) (env.g r i j) ht (h.hown r i j) (h.hcsr r i j)
      hin hne
    have hbig : (∀ e ∈ es, es.countP (fun f => decide (f.src = e.src)) < 16) → big = [] := by
      intro hb
      cases big with
      | nil => rfl
      | cons e big =>
        have a1 := p2 e (by simp)
        have a2 := hb e (p1.mem_iff.mp (by simp))
        omega
    obtain ⟨t1, l1, a1, a2, a3⟩ := DCSR.build_holds (behind := env.behind r i j) (env.g r i j) ht (h.hdcsr r i j) (edges := big) (m := m) (n := n)
      (rs := rs) (cs := cs) (fun e he => hin e (p1.mem_iff.mp (List.mem_append_left _ he))) (by
        intro hl
        rcases hok with hb | hb
        · exact hb.2
        · exact absurd (hbig hb) hl)
    obtain ⟨t2, l2, b1, b2, b3, _⟩ := COO.buildSimd_holds (env.g r i j) ht (h.hsimd r i j) (h.hbins r i j) (edges := small) (m := m) (n := n)
      (rs := rs) (cs := cs) (fun e he => hin e (p1.mem_iff.mp (List.mem_append_right _ he)))
    have hfin : (l1 ++ l2).Perm (es.map (localOf rs cs)) := by
      refine (a3.append b3).trans ?_
      rw [← List.map_append]
      exact p1.map _
    rw [a1, Option.bind_some, b1, Option.bind_some] at p4
    refine ⟨_, l1 ++ l2, p4, .inr ⟨?_, rfl, rfl, ?_, t1, t2, l1, l2, rfl, rfl, a2, b2, rfl, b2.sized_simd (COO.buildSimd_size b1), ?_⟩, hfin⟩
    · intro e
      rw [e] at hfin
      have := hfin.length_eq
      rw [List.length_map, List.length_nil] at this
      exact hne (List.length_eq_zero_iff.mp this.symm)
    · show es.length = _
      rw [hfin.length_eq, List.length_map]
    · intro hl
      rcases hok with hb | hb
      · rw [hl] at hb
        exact absurd hb.1 (by decide)
      · rw [hbig hb] at a3
        rw [a2.2.2.1, a3.length_eq]
        rfl
  nnz hI := by
    rcases hI with ⟨rfl, rfl⟩ | hI
    · rfl
    · exact hI.2.2.2.1
  getEdges hI r i j rs cs := by
    rcases hI with ⟨rfl, rfl⟩ | ⟨_, c1, c2, c3, t1, t2, l1, l2, d1, d2, d3, d4, d5, _⟩
    · rfl
    · exact Hybrid.Holds.getEdges ⟨c1, c2, c3, t1, t2, l1, l2, d1, d2, d3, d4, d5⟩ _ rs cs

theorem hybrid_io {env : FmtEnv E} (io : IOEnv E) (threads : Nat) (light : Bool) {mul : E → T → U → U} {pm : E → T → U}
    (hm : ∀ e x old, mul e x old = pm e x) (add : U → U → U) :
    (hybridIO io).Laws (fun r i j => light = true ∨ io.beyond r i j ≠ none) (Hybrid.Whole light) (TileWorks (hybridFmt env threads) pm add
      (fun mult => ∃ (gy : Nat → Nat → Nat → Fresh U) (old old' : Nat → Nat → Nat → Nat → U),
        mult = fun k => hybridMult (gy k) (old k) (old' k) mul add) (fun l => light = true ∧ l ≠ [])) := by
  intro r i j t m n l hb h
  rcases h with ⟨rfl, rfl⟩ | ⟨hl, c1, c2, c3, t1, t2, l1, l2, d1, d2, d3, d4, rfl, d6, d7⟩
  · refine ⟨⟨m, n, 0, 0, none, none⟩, ⟨[.int m, .int n, .int 0, .int 0, .int 0], fun ar => rfl, fun more => rfl⟩, ⟨rfl, fun _ _ _ _ _ => rfl⟩, ?_⟩
    intro h
    exact absurd rfl h.2
  · have hn : t.nnz > 0 := by
      rw [c3]; exact List.length_pos_iff.mpr hl
    obtain ⟨f, hf⟩ : ∃ f, ∀ ar, t1.archive (io.beyond r i j) ar = some (ar ++ t1.toks f) := by
      cases hio : io.beyond r i j with
      | none =>
        have hz : t1.nnz = 0 := d7 (hb.resolve_right (fun e => e hio))
        exact ⟨fun _ => 0, d3.sized.archive_strict (.inl hz) _⟩
      | some f => exact ⟨f, d3.sized.archive f⟩
    refine ⟨_, ⟨_, Hybrid.archive_spec hn d1 d2 hf d6, Hybrid.restore_spec hn d3.sized d6 (io.g r i j)⟩, ⟨c3, ?_⟩, ?_⟩
    · intro r' i' j' rs cs
      show Hybrid.getEdges _ _ _ _ = _
      unfold Hybrid.getEdges
      simp only [Option.bind_eq_bind, Option.bind_some]
      rw [if_pos hn, COO.reload_getEdges, d4.getEdges, d3.sized.reload_getEdges, d3.getEdges, Option.bind_some, Option.bind_some,
        ← List.map_append]
    · rintro ⟨hlight, _⟩ _ ⟨gy, old, old', rfl⟩ k r' i' j' sx sy wx rx wy cx cy
      have hz : t1.nnz = 0 := d7 hlight
      have hl1 : l1 = [] := List.length_eq_zero_iff.mp (by rw [← d3.2.2.1]; exact hz)
      subst hl1
      unfold hybridMult Hybrid.mult
      refine multWith_adds (sx := sx) wy cy (gy k r' i') ((d4.adds wx rx cx hm add (old' k i' j')).congr ?_)
      intro st _
      have h0 : (t1.reload f (io.g r i j)).nnz = 0 := by
        unfold DCSR.reload
        split <;> exact hz
      have hk : (t1.reload f (io.g r i j)).kernel (old k i' j') mul add sx st = some st := by
        unfold DCSR.kernel
        rw [if_neg (by rw [h0]; exact Nat.lt_irrefl 0)]
      show ((t1.reload f (io.g r i j)).kernel (old k i' j') mul add sx st).bind
        (fun st => (some (t2.reload true (io.g r i j))).bind fun t2 => if t2.nnz > 0 then _ else _) = _
      rw [hk, Option.bind_some, Option.bind_some, COO.reload_nnz]
      by_cases h : t2.nnz > 0
      · rw [if_pos h, if_pos h]
        cases sx.props with
        | none => rfl
        | some bx => exact COO.reload_spmspv true h _ mul add (old' k i' j') bx.value bx.bits st
      · rw [if_neg h, if_neg h]

/-- Some row has at least 16 entries. -/
def Heavy (l : List (Nat × Nat × E)) : Prop := ∃ d ∈ l, 16 ≤ l.countP (fun x => decide (x.1 = d.1))

theorem Heavy.perm {l l' : List (Nat × Nat × E)} (h : Heavy l) (hp : l.Perm l') : Heavy l' := by
  obtain ⟨d, hd, hc⟩ := h
  exact ⟨d, hp.mem_iff.mp hd, by rw [← hp.countP_eq]; exact hc⟩

theorem heavy_iff {m n rs cs : Nat} {es : List (Edge E)} (hin : ∀ e ∈ es, InTile m n rs cs e) :
    Heavy (es.map (localOf rs cs)) ↔ ∃ e ∈ es, 16 ≤ es.countP (fun f => decide (f.src = e.src)) := by
  have key : ∀ e ∈ es, (es.map (localOf rs cs)).countP (fun x => decide (x.1 = (localOf rs cs e).1)) =
      es.countP (fun f => decide (f.src = e.src)) := by
    intro e he
    rw [List.countP_map]
    apply List.countP_congr
    intro f hf
    obtain ⟨a1, _⟩ := hin e he
    obtain ⟨b1, _⟩ := hin f hf
    have e1 : (f.src - 1 - (rs : Int)).toNat = (e.src - 1 - (rs : Int)).toNat ↔ f.src = e.src := by
      constructor <;> intro h <;> omega
    simpa [localOf] using e1
  constructor
  · rintro ⟨_, hd, hc⟩
    obtain ⟨e, he, rfl⟩ := List.mem_map.mp hd
    exact ⟨e, he, by rw [← key e he]; exact hc⟩
  · rintro ⟨e, he, hc⟩
    exact ⟨_, List.mem_map_of_mem he, by rw [key e he]; exact hc⟩

/-- A hybrid tile that uses its DCSR part if some row has at least 16 edges. -/
def Hybrid.Split (t : Hybrid E) (m n : Nat) (l : List (Nat × Nat × E)) : Prop :=
  Hybrid.Whole false t m n l ∧ (Heavy l → ∃ t1, t.t1 = some t1 ∧ 0 < t1.nnz)

theorem hybrid_split_laws {env : FmtEnv E} (h : env.OK) {threads : Nat} (ht : 0 < threads) :
    (hybridFmt env threads).Laws (fun r i j _ => env.behind r i j ≠ none) Hybrid.Split where
  perm _ h := h
  empty _ _ _ _ _ := ⟨.inl ⟨rfl, rfl⟩, fun ⟨_, hd, _⟩ => absurd hd (by simp)⟩
  build r i j es m n rs cs hne hin hok := by
    obtain ⟨big, small, p1, p2, p3, n1, p4⟩ := Hybrid.build_split (behind := env.behind r i j) (env.g r i j) ht (h.hown r i j) (h.hcsr r i j)
      hin hne
    obtain ⟨t1, l1, a1, a2, a3⟩ := DCSR.build_holds (behind := env.behind r i j) (env.g r i j) ht (h.hdcsr r i j) (edges := big) (m := m) (n := n)
      (rs := rs) (cs := cs) (fun e he => hin e (p1.mem_iff.mp (List.mem_append_left _ he))) (fun _ => hok)
    obtain ⟨t2, l2, b1, b2, b3, _⟩ := COO.buildSimd_holds (env.g r i j) ht (h.hsimd r i j) (h.hbins r i j) (edges := small) (m := m) (n := n)
      (rs := rs) (cs := cs) (fun e he => hin e (p1.mem_iff.mp (List.mem_append_right _ he)))
    obtain ⟨t, l, q1, q2, q3⟩ := (hybrid_whole_laws h ht false).build r i j es m n rs cs hne hin (.inl ⟨rfl, hok⟩)
    refine ⟨t, l, q1, ⟨q2, fun hl => ?_⟩, q3⟩
    have q1' : Hybrid.build (env.behind r i j) (env.g r i j) threads (env.hybrid r i j) es m n rs cs = some t := q1
    rw [p4, a1, Option.bind_some, b1, Option.bind_some] at q1'
    have q1' := Option.some.inj q1'
    subst q1'
    refine ⟨t1, rfl, ?_⟩
    obtain ⟨e, he, hc⟩ := (heavy_iff hin).mp (hl.perm q3)
    have heb : e ∈ big := by
      rcases List.mem_append.mp (p1.mem_iff.mpr he) with h | h
      · exact h
      · have := p3 e h
        omega
    rw [a2.2.2.1, a3.length_eq, List.length_map]
    exact List.length_pos_iff.mpr (List.ne_nil_of_mem heb)
  nnz hI := (hybrid_whole_laws h ht false).nnz hI.1
  getEdges hI := (hybrid_whole_laws h ht false).getEdges hI.1

/-- A loaded hybrid tile that cannot be multiplied if some row has at least 16 edges. -/
theorem hybrid_split_io (io : IOEnv E) (mul : E → T → U → U) (add : U → U → U) :
    (hybridIO io).Laws (fun r i j => io.beyond r i j ≠ none) Hybrid.Split (fun t _ _ l => Heavy l → ∀ gy old old' r i j sx sy,
      hybridMult (T := T) (U := U) gy old old' mul add r i j t sx sy = none) := by
  rintro r i j t m n l hb ⟨h, hh⟩
  rcases h with ⟨rfl, rfl⟩ | ⟨hl, c1, c2, c3, t1, t2, l1, l2, d1, d2, d3, d4, rfl, d6, d7⟩
  · refine ⟨⟨m, n, 0, 0, none, none⟩, ⟨[.int m, .int n, .int 0, .int 0, .int 0], fun ar => rfl, fun more => rfl⟩, ?_⟩
    rintro ⟨_, hd, _⟩
    exact absurd hd (by simp)
  · have hn : t.nnz > 0 := by
      rw [c3]; exact List.length_pos_iff.mpr hl
    obtain ⟨f, hf⟩ := Option.ne_none_iff_exists'.mp hb
    refine ⟨_, ⟨_, Hybrid.archive_spec hn d1 d2 (f := f) (by
      show ∀ ar, t1.archive (io.beyond r i j) ar = _
      rw [hf]; exact d3.sized.archive f) d6, Hybrid.restore_spec hn d3.sized d6 (io.g r i j)⟩, ?_⟩
    intro hheavy gy old old' r' i' j' sx sy
    obtain ⟨t1', e1, e2⟩ := hh hheavy
    have e3 : t1' = t1 := Option.some.inj (e1.symm.trans d1)
    subst e3
    unfold hybridMult Hybrid.mult
    refine multWith_none (fun st => ?_) sy
    rcases d3.2.2.2 with h | ⟨rr, c, ent, h, _⟩
    · omega
    · simp only [Option.bind_eq_bind, Option.bind_some]
      rw [DCSR.reload_kernel e2 h.npos]
      rfl

/-! ### Matrices -/

section
variable {F F' : TileFmt E Til} {io : TileIO E Til} {ok ok' : Nat → Nat → Nat → List (Edge E) → Prop} {okio : Nat → Nat → Nat → Prop}
  {Is Is' : Til → Nat → Nat → List (Nat × Nat × E) → Prop} {srt srt' : MatSorts E} {m n nrank : Nat} {G G' : Grid nrank}
  {blobs : List (List (Edge E))} {pm : E → T → U} {add : U → U → U}

theorem lawful_restores (hF : F.Laws ok Is) (hio : io.Laws okio Is (TileReads F)) (hF' : F'.Laws ok' Is') (hs : srt.OK) (hs' : srt'.OK)
    (hr : 0 < nrank) (hlen : blobs.length = nrank) (hin : ∀ e ∈ blobs.flatten, InMat m n e)
    (hok : ∀ i j, i < G.nty → j < G.ntx → ok (G.ow i j) i j (cellEdges m n G blobs.flatten i j))
    (hokio : ∀ i j, i < G.nty → j < G.ntx → okio (G.ow i j) i j)
    (hok' : ∀ i j, i < G'.nty → j < G'.ntx → ok' (G'.ow i j) i j (cellEdges n m G' (blobs.flatten.map swapEdge) i j)) :
    MatrixRestores F F' io srt srt' m n G G' blobs := by
  obtain ⟨out, D, T, L, d1, _, _, _, d5⟩ := FMat.ofEdges_spec hs hF G.hy G.hx hr G.hpfn G.how hlen hin hok
  obtain ⟨D', T', e1, e2⟩ := d5.reload hio hokio (other := fun i j => G.pfn j i nrank) (fun i j _ => G.hpfn i j)
  obtain ⟨DT, T2, L2, t1, t2⟩ := FMat.Rep.transpose hF.reads hF' e2 G.hy G.hx hr G'.hy G'.hx G'.hpfn G.how G'.how hs' hok'
  exact ⟨out, D, D', DT, d1, e1, lawful_has hF.reads e2, t1, lawful_has hF' t2⟩

theorem lawful_restored_multiplies {mults : (Nat → Nat → Nat → Nat → Til → Segment T → Segment U → Option (Segment U)) → Prop}
    {Q : List (Nat × Nat × E) → Prop} (hF : F.Laws ok Is) (hio : io.Laws okio Is (TileWorks F pm add mults Q)) (hs : srt.OK)
    (hr : 0 < nrank) (hlen : blobs.length = nrank) (hin : ∀ e ∈ blobs.flatten, InMat m n e)
    (hok : ∀ i j, i < G.nty → j < G.ntx → ok (G.ow i j) i j (cellEdges m n G blobs.flatten i j))
    (hokio : ∀ i j, i < G.nty → j < G.ntx → okio (G.ow i j) i j) (hQ' : ∀ l, l ≠ [] → Q l)
    (hQ : ∀ i j, i < G.nty → j < G.ntx → cellEdges m n G blobs.flatten i j ≠ [] ∨ ∀ l, Q l) :
    RestoredMultiplies F io srt m n G blobs pm add mults := by
  obtain ⟨out, D, T, L, d1, _, _, _, d5⟩ := FMat.ofEdges_spec hs hF G.hy G.hx hr G.hpfn G.how hlen hin hok
  obtain ⟨D', T', e1, e2⟩ := d5.reload hio hokio (other := fun i j => G.pfn j i nrank) (fun i j _ => G.hpfn i j)
  exact ⟨out, D, D', d1, e1, fun mult hmult => lawful_runs e2 hr hQ hQ' add (fun k r i j t m n l hI hq => hI.2 hq mult hmult k r i j)⟩

theorem TileIO.Laws.reads {mults : (Nat → Nat → Nat → Nat → Til → Segment T → Segment U → Option (Segment U)) → Prop}
    {Q : List (Nat × Nat × E) → Prop} (hio : io.Laws okio Is (TileWorks F pm add mults Q)) : io.Laws okio Is (TileReads F) := by
  intro r i j t m n l h1 h2
  obtain ⟨t', a, b⟩ := hio r i j t m n l h1 h2
  exact ⟨t', a, b.1⟩
end

end GraphMat

import Verif.Lemmas.SpMat
import Verif.Lemmas.VGraph

/-! Reading edges back from a distributed matrix, transposing it, loading a graph. -/
namespace GraphMat

variable {E V σ : Type}

/-- The tile coordinates row by row. -/
def cells (nty ntx : Nat) : List (Nat × Nat) :=
  (List.range nty).flatMap (fun i => (List.range ntx).map (fun j => (i, j)))

theorem mem_cells {nty ntx : Nat} {x : Nat × Nat} : x ∈ cells nty ntx ↔ x.1 < nty ∧ x.2 < ntx := by
  unfold cells
  rw [List.mem_flatMap]
  constructor
  · rintro ⟨i, hi, hx⟩
    rw [List.mem_map] at hx
    obtain ⟨j, hj, rfl⟩ := hx
    exact ⟨List.mem_range.mp hi, List.mem_range.mp hj⟩
  · rintro ⟨h1, h2⟩
    exact ⟨x.1, List.mem_range.mpr h1, List.mem_map.mpr ⟨x.2, List.mem_range.mpr h2, rfl⟩⟩

theorem nodup_cells (nty ntx : Nat) : (cells nty ntx).Nodup := by
  unfold cells
  induction nty with
  | zero => simp
  | succ k ih =>
    rw [List.range_succ, List.flatMap_append, List.nodup_append]
    refine ⟨ih, ?_, ?_⟩
    · simp only [List.flatMap_singleton]
      show List.Pairwise _ _
      rw [List.pairwise_map]
      refine (List.nodup_range (n := ntx)).imp ?_
      intro a b hab h
      exact hab (by simpa using h)
    · intro a ha b hb hab
      have h1 := mem_cells (nty := k) (ntx := ntx) (x := a)
      unfold cells at h1
      have h2 := (h1.mp ha).1
      simp only [List.flatMap_singleton, List.mem_map] at hb
      obtain ⟨j, _, rfl⟩ := hb
      rw [hab] at h2
      simp at h2

/-- The loop over the tiles of rank `r`. -/
theorem foldTiles_spec {m n ntx nty nrank : Nat} {ow : Nat → Nat → Nat} {T : Nat → Nat → Tile E} {r : Nat}
    (s : σ) (f : Nat → Nat → Tile E → σ → Option σ) :
    (matOf m n ntx nty nrank ow T r).foldTiles s f =
      ((cells nty ntx).filter (fun x => decide (ow x.1 x.2 = r))).foldlM (fun s x => f x.1 x.2 (T x.1 x.2) s) s := by
  unfold RMat.foldTiles
  rw [forLoop_range]
  have h1 : ∀ (l : List (Nat × Nat)) (F : σ → Nat × Nat → Option σ) (p : Nat × Nat → Bool) (s : σ),
      (l.filter p).foldlM F s = l.foldlM (fun s x => if p x = true then F s x else some s) s := by
    intro l F p
    induction l with
    | nil => intro s; rfl
    | cons a l ih =>
      intro s
      rw [List.foldlM_cons]
      by_cases h : p a = true
      · rw [List.filter_cons_of_pos h, List.foldlM_cons, if_pos h]
        cases F s a with
        | none => rfl
        | some s' => exact ih s'
      · rw [List.filter_cons_of_neg h, if_neg h, ih]; rfl
  rw [h1]
  unfold cells
  rw [foldlM_flatMap]
  show (List.range nty).foldlM _ s = _
  refine foldlM_ext ?_ s
  intro i hi s
  rw [forLoop_range, foldlM_map]
  show (List.range ntx).foldlM _ s = _
  refine foldlM_ext ?_ s
  intro j hj s
  rw [List.mem_range] at hi hj
  show ((some (ow i j)).bind fun o => if o = r then
    ((if i < nty ∧ j < ntx ∧ ow i j = r then some (T i j) else none).bind fun t => f i j t s) else some s) = _
  simp only [Option.bind_some, decide_eq_true_eq]
  by_cases ho : ow i j = r
  · rw [if_pos ho, if_pos ho, if_pos ⟨hi, hj, ho⟩]; rfl
  · rw [if_neg ho, if_neg ho]

theorem foldlM_sum {β : Type} (l : List β) (f : β → Nat) (k : Nat) :
    l.foldlM (fun s x => some (s + f x)) k = some (k + (l.map f).sum) := by
  induction l generalizing k with
  | nil => rfl
  | cons a l ih =>
    rw [List.foldlM_cons]
    show List.foldlM _ (k + f a) l = _
    rw [ih, List.map_cons, List.sum_cons, Nat.add_assoc]

theorem foldlM_concat {β γ : Type} (l : List β) (f : β → List γ) (acc : List γ) :
    l.foldlM (fun s x => some (s ++ f x)) acc = some (acc ++ l.flatMap f) := by
  induction l generalizing acc with
  | nil => simp
  | cons a l ih =>
    rw [List.foldlM_cons]
    show List.foldlM _ (acc ++ f a) l = _
    rw [ih, List.flatMap_cons, List.append_assoc]

theorem map_id_of {α : Type} {l : List α} {f : α → α} (h : ∀ a ∈ l, f a = a) : l.map f = l := by
  induction l with
  | nil => rfl
  | cons a l ih => rw [List.map_cons, h a List.mem_cons_self, ih (fun b hb => h b (List.mem_cons_of_mem _ hb))]

/-- The edges of a tile with their global ids. -/
def tileEdges (rs cs : Nat) (t : Tile E) (P : Nat → List (Col E)) : List (Edge E) :=
  (allEnts t.np P).map (fun x => { src := (rs : Int) + x.1 + 1, dst := (cs : Int) + x.2.1 + 1, val := x.2.2 })

theorem tileEdges_perm {m n nty ntx i j : Nat} {all : List (Edge E)} {t : Tile E} {P : Nat → List (Col E)}
    (hy : 0 < nty) (hx : 0 < ntx) (hin : ∀ e ∈ all, InMat m n e)
    (h : TileHolds m n nty ntx i j all t P) :
    (tileEdges (bnd m nty i) (bnd n ntx j) t P).Perm
      (all.filter (fun e => decide (tileOf m n nty ntx e = (i, j)))) := by
  unfold tileEdges
  refine (h.2.2.2.2.map _).trans ?_
  rw [List.map_map, map_id_of]
  intro e he
  rw [List.mem_filter] at he
  obtain ⟨h1, _, h3, _⟩ := tileOf_inTile hy hx (hin e he.1) (by simpa using he.2)
  unfold localOf
  simp only [Function.comp]
  cases e with
  | mk s d v =>
    simp only [Edge.mk.injEq, and_true] at *
    omega

/-- The rank an edge is stored on. -/
def edgeOwner (m n nty ntx : Nat) (ow : Nat → Nat → Nat) (e : Edge E) : Nat :=
  ow (tileOf m n nty ntx e).1 (tileOf m n nty ntx e).2

theorem rank_perm {m n nty ntx : Nat} {ow : Nat → Nat → Nat} {all : List (Edge E)} (hy : 0 < nty) (hx : 0 < ntx)
    (hin : ∀ e ∈ all, InMat m n e) (r : Nat) :
    (((cells nty ntx).filter (fun x => decide (ow x.1 x.2 = r))).flatMap (fun x =>
      all.filter (fun e => decide (tileOf m n nty ntx e = x)))).Perm
      (all.filter (fun e => decide (edgeOwner m n nty ntx ow e = r))) := by
  have hb := bucket_perm (tileOf m n nty ntx) ((cells nty ntx).filter (fun x => decide (ow x.1 x.2 = r)))
    ((nodup_cells nty ntx).sublist List.filter_sublist)
    (all.filter (fun e => decide (edgeOwner m n nty ntx ow e = r))) (by
      intro e he
      rw [List.mem_filter] at he ⊢
      have := tileOf_spec hy hx (hin e he.1)
      exact ⟨mem_cells.mpr ⟨this.2.1, this.2.2.1⟩, he.2⟩)
  refine List.Perm.trans ?_ hb
  rw [flatMap_ext]
  intro x hx
  rw [List.mem_filter] at hx
  rw [List.filter_filter]
  apply List.filter_congr
  intro e _
  have h2 : ow x.1 x.2 = r := by simpa using hx.2
  rw [Bool.eq_iff_iff]
  simp only [decide_eq_true_eq, Bool.and_eq_true]
  constructor
  · intro h; refine ⟨h, ?_⟩; unfold edgeOwner; rw [h]; exact h2
  · exact fun h => h.1

section
variable {D : DMat E} {m n ntx nty nrank : Nat} {ow : Nat → Nat → Nat} {T : Nat → Nat → Tile E}
  {P : Nat → Nat → Nat → List (Col E)} {all : List (Edge E)}

theorem DMat.Rep.localNNZ (h : D.Rep m n ntx nty nrank ow T P all) (hy : 0 < nty) (hx : 0 < ntx) (r : Nat) :
    (matOf m n ntx nty nrank ow T r).foldTiles 0 (fun _ _ t k => some (k + t.nnz)) =
      some (all.filter (fun e => decide (edgeOwner m n nty ntx ow e = r))).length := by
  rw [foldTiles_spec, foldlM_sum, Nat.zero_add, ← (rank_perm hy hx h.inMat r).length_eq, List.length_flatMap]
  congr 2
  apply List.map_congr_left
  intro x hxx
  rw [List.mem_filter, mem_cells] at hxx
  exact (h.tile x.1 x.2 hxx.1.1 hxx.1.2).2.2.2.1

/-- The list `get_edges` returns on rank `r`. -/
def rankEdges (m n ntx nty : Nat) (ow : Nat → Nat → Nat) (T : Nat → Nat → Tile E)
    (P : Nat → Nat → Nat → List (Col E)) (r : Nat) : List (Edge E) :=
  ((cells nty ntx).filter (fun x => decide (ow x.1 x.2 = r))).flatMap (fun x =>
    tileEdges (bnd m nty x.1) (bnd n ntx x.2) (T x.1 x.2) (P x.1 x.2))

theorem DMat.Rep.rankEdges_perm (h : D.Rep m n ntx nty nrank ow T P all) (hy : 0 < nty) (hx : 0 < ntx) (r : Nat) :
    (rankEdges m n ntx nty ow T P r).Perm (all.filter (fun e => decide (edgeOwner m n nty ntx ow e = r))) := by
  refine List.Perm.trans ?_ (rank_perm hy hx h.inMat r)
  unfold rankEdges
  apply flatMap_perm
  intro x hxx
  rw [List.mem_filter, mem_cells] at hxx
  exact tileEdges_perm hy hx h.inMat (h.tile x.1 x.2 hxx.1.1 hxx.1.2)

theorem DMat.Rep.getEdges (h : D.Rep m n ntx nty nrank ow T P all) (hy : 0 < nty) (hx : 0 < ntx) (r : Nat) :
    (matOf m n ntx nty nrank ow T r).getEdges = some (rankEdges m n ntx nty ow T P r) := by
  unfold RMat.getEdges
  rw [h.localNNZ hy hx r]
  simp only [Option.bind_eq_bind, Option.bind_some]
  have hp := h.rankEdges_perm hy hx r
  by_cases h0 : (all.filter (fun e => decide (edgeOwner m n nty ntx ow e = r))).length > 0
  · rw [if_pos h0, foldTiles_spec]
    rw [foldlM_ext (G := fun s x => some (s ++
      tileEdges (bnd m nty x.1) (bnd n ntx x.2) (T x.1 x.2) (P x.1 x.2))) (by
      intro x hxx s
      rw [List.mem_filter, mem_cells] at hxx
      simp only [matOf]
      rw [startIds_get (by omega), startIds_get (by omega)]
      simp only [Option.bind_some]
      rw [(h.tile x.1 x.2 hxx.1.1 hxx.1.2).1.getEdges]
      rfl)]
    rw [foldlM_concat, List.nil_append]
    simp only [Option.bind_some]
    show (if (rankEdges m n ntx nty ow T P r).length = _ then some (rankEdges m n ntx nty ow T P r) else none) = _
    rw [if_pos hp.length_eq]
  · rw [if_neg h0]
    congr 1
    have := hp.length_eq
    exact (List.length_eq_zero_iff.mp (by omega)).symm

theorem edgeOwner_perm (how : ∀ i j, ow i j < nrank) :
    ((List.range nrank).flatMap (fun r =>
      all.filter (fun e => decide (edgeOwner m n nty ntx ow e = r)))).Perm all :=
  bucket_perm (edgeOwner m n nty ntx ow) (List.range nrank) List.nodup_range all
    (fun _ _ => List.mem_range.mpr (how _ _))

/-- All edges come back. -/
theorem DMat.Rep.allEdges (h : D.Rep m n ntx nty nrank ow T P all) (hy : 0 < nty) (hx : 0 < ntx)
    (how : ∀ i j, ow i j < nrank) :
    D.mapM RMat.getEdges = some ((List.range nrank).map (rankEdges m n ntx nty ow T P)) ∧
    ((List.range nrank).map (rankEdges m n ntx nty ow T P)).flatten.Perm all := by
  constructor
  · rw [h.mat, mapM_map]
    exact mapM_some (fun r _ => h.getEdges hy hx r)
  · rw [← List.flatMap_def]
    exact (flatMap_perm (fun r _ => h.rankEdges_perm hy hx r)).trans (edgeOwner_perm how)

/-- The number of nonzeros reported on every rank. -/
theorem DMat.Rep.getNNZ (h : D.Rep m n ntx nty nrank ow T P all) (hy : 0 < nty) (hx : 0 < ntx)
    (how : ∀ i j, ow i j < nrank) (hlen : all.length < 2 ^ 32) :
    D.getNNZ = some (List.replicate nrank all.length) := by
  unfold DMat.getNNZ
  rw [h.mat, mapM_map, mapM_some (fun r _ => h.localNNZ hy hx r)]
  simp only [Option.bind_eq_bind, Option.bind_some, List.map_map]
  have hle : ∀ r, (all.filter (fun e => decide (edgeOwner m n nty ntx ow e = r))).length < 2 ^ 32 :=
    fun r => Nat.lt_of_le_of_lt (List.length_filter_le _ _) hlen
  have hsum : ((List.range nrank).map (((fun k => k % 2 ^ 32)) ∘ fun r =>
      (all.filter (fun e => decide (edgeOwner m n nty ntx ow e = r))).length)).sum = all.length := by
    have := (edgeOwner_perm (m := m) (n := n) (nty := nty) (ntx := ntx) (all := all) how).length_eq
    rw [List.length_flatMap] at this
    rw [← this]
    congr 1
    apply List.map_congr_left
    intro r _
    exact Nat.mod_eq_of_lt (hle r)
  rw [hsum, Nat.mod_eq_of_lt hlen]
  congr 1
  rw [List.eq_replicate_iff]
  refine ⟨by simp, ?_⟩
  intro b hb
  rw [List.mem_map] at hb
  obtain ⟨r, _, rfl⟩ := hb
  have := hle r
  simp only [Function.comp]
  rw [Nat.div_eq_of_lt this]; simp

theorem DMat.Rep.getNNZ_total (h : D.Rep m n ntx nty nrank ow T P all) (hy : 0 < nty) (hx : 0 < ntx) :
    ∃ l, D.getNNZ = some l := by
  unfold DMat.getNNZ
  rw [h.mat, mapM_map, mapM_some (fun r _ => h.localNNZ hy hx r)]
  exact ⟨_, rfl⟩

/-- The edge with its ends exchanged. -/
def swapEdge (e : Edge E) : Edge E := { e with src := e.dst, dst := e.src }

theorem DMat.Rep.transpose (h : D.Rep m n ntx nty nrank ow T P all) (hy : 0 < nty) (hx : 0 < ntx)
    (hr : 0 < nrank) {pfn : Nat → Nat → Nat → Option Nat} {ntx' nty' : Nat} {ow' : Nat → Nat → Nat}
    (hy' : 0 < nty') (hx' : 0 < ntx') (hpfn : ∀ i j, pfn j i nrank = some (ow' i j))
    (how : ∀ i j, ow i j < nrank) (how' : ∀ i j, ow' i j < nrank) {srt : Sorts E} (hs : srt.OK)
    (g : Nat → Nat → Nat → TileFresh E) {threads : Nat} (ht : 0 < threads) :
    ∃ DT T' P', DMat.transpose D m n ntx' nty' nrank pfn srt g threads = some DT ∧
      DMat.Rep DT n m ntx' nty' nrank ow' T' P' (all.map swapEdge) := by
  obtain ⟨h1, h2⟩ := h.allEdges hy hx how
  unfold DMat.transpose
  rw [h1]
  simp only [Option.bind_eq_bind, Option.bind_some]
  have hflat : (((List.range nrank).map (rankEdges m n ntx nty ow T P)).map (fun es => es.map swapEdge)).flatten =
      ((List.range nrank).map (rankEdges m n ntx nty ow T P)).flatten.map swapEdge := by
    rw [List.map_flatten]
  obtain ⟨out, DT, T', P', d1, _, _, _, d2⟩ := DMat.ofEdges_spec (m := n) (n := m) hs g ht hy' hx' hr hpfn how'
    (blobs := ((List.range nrank).map (rankEdges m n ntx nty ow T P)).map (fun es => es.map swapEdge))
    (by simp) (by
      intro e he
      rw [hflat, List.mem_map] at he
      obtain ⟨e', he', rfl⟩ := he
      obtain ⟨a1, a2, a3, a4⟩ := h.inMat e' (h2.mem_iff.mp he')
      exact ⟨a3, a4, a1, a2⟩)
  refine ⟨DT, T', P', ?_, ?_⟩
  · rw [show (fun es : List (Edge E) => es.map (fun e => ({ e with src := e.dst, dst := e.src } : Edge E))) =
      (fun es => es.map swapEdge) from rfl, d1]
    rfl
  · rw [hflat] at d2
    exact d2.congr (h2.map _)
end

/-! ### Graphs -/

/-- Owner of tile `(i, j)` under `partition_fn_2d`. -/
def own2d (nrank i j : Nat) : Nat := (partitionFn2d j i nrank).getD 0

theorem own2d_spec {nrank : Nat} (hr : 0 < nrank) (i j : Nat) :
    partitionFn2d j i nrank = some (own2d nrank i j) ∧ own2d nrank i j < nrank := by
  obtain ⟨r, h1, h2⟩ := partitionFn2d_valid j i nrank hr
  unfold own2d
  rw [h1]
  exact ⟨rfl, h2⟩

/-- The edge with internal ids. -/
def nativeEdge (np n : Nat) (e : Edge E) : Edge E :=
  { src := (v2n np n e.src.toNat : Nat), dst := (v2n np n e.dst.toNat : Nat), val := e.val }

theorem nativeEdge_inMat {np n : Nat} {e : Edge E} (hnp : 0 < np) (h : InMat n n e) : InMat n n (nativeEdge np n e) := by
  obtain ⟨h1, h2, h3, h4⟩ := h
  have a := v2n_range (np := np) (n := n) (v := e.src.toNat) hnp (by omega) (by omega)
  have b := v2n_range (np := np) (n := n) (v := e.dst.toNat) hnp (by omega) (by omega)
  unfold nativeEdge InMat
  simp only
  omega

theorem renumber_spec {n nrank threads : Nat} (c : Cfg n nrank threads) {es : List (Edge E)}
    (h : ∀ e ∈ es, InMat n n e) :
    renumber threads nrank n es = some (es.map (nativeEdge (threads * 16 * nrank) n)) := by
  unfold renumber
  apply mapM_some
  intro e he
  obtain ⟨h1, h2, h3, h4⟩ := h e he
  obtain ⟨s, hs⟩ : ∃ s : Nat, e.src = s := ⟨e.src.toNat, by omega⟩
  obtain ⟨d, hd⟩ : ∃ d : Nat, e.dst = d := ⟨e.dst.toNat, by omega⟩
  unfold nativeEdge
  rw [hs] at h1 h2 ⊢
  rw [hd] at h3 h4 ⊢
  rw [vertexToNative_eq c.tpos c.rpos c.np c.n (by omega) (by omega),
    vertexToNative_eq c.tpos c.rpos c.np c.n (by omega) (by omega)]
  rfl

/-- The graph holds the edges `all` (internal ids) in both orientations. -/
structure Graph.Holds (G : Graph V E) (n nrank threads : Nat) (TA TT : Nat → Nat → Tile E)
    (PA PT : Nat → Nat → Nat → List (Col E)) (all : List (Edge E)) : Prop where
  inv : G.toVGraph.Inv n nrank threads
  A : G.A.Rep n n nrank nrank nrank (own2d nrank) TA PA all
  AT : G.AT.Rep n n nrank nrank nrank (own2d nrank) TT PT (all.map swapEdge)

theorem Graph.readEdgelist_spec {n nrank threads : Nat} (c : Cfg n nrank threads) (env : LoadEnv V E)
    (hsA : env.sA.OK) (hsT : env.sAT.OK) {blobs : List (List (Edge E))} (hb : blobs.length = nrank)
    (hin : ∀ e ∈ blobs.flatten, InMat n n e) :
    ∃ out G TA TT PA PT, Graph.readEdgelist env threads nrank n n blobs = some (out, G) ∧
      Graph.Holds G n nrank threads TA TT PA PT (blobs.flatten.map (nativeEdge (threads * 16 * nrank) n)) ∧
      (blobs.flatten.length < 2 ^ 32 → G.nnz = List.replicate nrank blobs.flatten.length) ∧
      out.length = nrank ∧
      (∀ r (h1 : r < out.length) (h2 : r < blobs.length),
        (out[r]).Perm ((blobs[r]).map (nativeEdge (threads * 16 * nrank) n))) ∧
      (nrank = 1 → out = blobs.map (fun es => es.map (nativeEdge (threads * 16 * nrank) n))) ∧
      VGraph.create n nrank threads env.gv env.ga env.d = some G.toVGraph := by
  unfold Graph.readEdgelist
  rw [mapM_some (g := fun es => es.map (nativeEdge (threads * 16 * nrank) n)) (by
    intro es hes
    exact renumber_spec c (fun e he => hin e (List.mem_flatten.mpr ⟨es, hes, he⟩)))]
  simp only [Option.bind_eq_bind, Option.bind_some]
  have hflat : (blobs.map (fun es => es.map (nativeEdge (threads * 16 * nrank) n))).flatten =
      blobs.flatten.map (nativeEdge (threads * 16 * nrank) n) := by rw [List.map_flatten]
  obtain ⟨out, A, TA, PA, a1, a2, a3, a4, a5⟩ := DMat.ofEdges_spec (m := n) (n := n) (ntx := nrank) (nty := nrank)
    hsA env.gA c.tpos c.rpos c.rpos c.rpos (fun i j => (own2d_spec c.rpos i j).1) (fun i j => (own2d_spec c.rpos i j).2)
    (blobs := blobs.map (fun es => es.map (nativeEdge (threads * 16 * nrank) n))) (by simpa using hb) (by
      intro e he
      rw [hflat, List.mem_map] at he
      obtain ⟨e', he', rfl⟩ := he
      exact nativeEdge_inMat c.nppos (hin e' he'))
  rw [a1]
  simp only [Option.bind_some]
  obtain ⟨DT, TT, PT, t1, t2⟩ := a5.transpose c.rpos c.rpos c.rpos (pfn := partitionFn2d) (ntx' := nrank) (nty' := nrank)
    (ow' := own2d nrank) c.rpos c.rpos (fun i j => (own2d_spec c.rpos i j).1) (fun i j => (own2d_spec c.rpos i j).2)
    (fun i j => (own2d_spec c.rpos i j).2) hsT env.gAT c.tpos
  rw [t1]
  simp only [Option.bind_some]
  obtain ⟨nz, hnz⟩ := a5.getNNZ_total c.rpos c.rpos
  rw [if_neg (by simp), hnz]
  simp only [Option.bind_some]
  obtain ⟨vg, v1, v2, _⟩ := VGraph.create_spec c env.gv env.ga env.d
  rw [v1]
  simp only [Option.bind_some]
  rw [hflat] at a5 t2
  refine ⟨out, _, TA, TT, PA, PT, rfl, ⟨v2, a5, t2⟩, ?_, a2, ?_, a4, rfl⟩
  · intro hlen
    have := a5.getNNZ c.rpos c.rpos (fun i j => (own2d_spec c.rpos i j).2) (by rw [List.length_map]; exact hlen)
    rw [hnz, List.length_map] at this
    exact Option.some.inj this
  · intro r h1 h2
    have := a3 r h1 (by simpa using h2)
    simpa using this

end GraphMat

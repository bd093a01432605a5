import Verif.Lemmas.LoopBuild
import Verif.Props.Formats
import Verif.Props.EdgeList

/-!
# C67: the parallel loops that build tiles and distribute edges

The three parallel loops of the DCSC constructor and the two parallel regions of `shuffle_edges` have no data race and one
outcome, the one that the sequential model computes.
-/
namespace GraphMat

variable {E : Type}

/-- `shuffle_edges`: the threads count in rows of `histogram` of their own, and then store to places of `tedges` of their
own. -/
theorem shuffle_tasks {T R : Nat} (hT : 0 < T) (hR : 0 < R) (hRm : R ≤ IMAX) {el : EdgeList E} (hwf : el.WF)
    (hsrc : ∀ e ∈ el.list, 1 ≤ e.src ∧ e.src ≤ (IMAX : Int)) (g : Nat → Edge E) :
    ∃ hist off ted, shuffleHistogram R T el = some hist ∧ shuffleOffsets R T hist = some off ∧
      shuffleScatter g R T off el = some ted ∧
      (∀ off' st, OneOutcome (parFor T (histC R T el.nnz)) (arrMem (shufA el.edges ⟨T * R, fun _ => 0⟩ off' st))
        (arrMem (shufA el.edges hist off' st)) (fun _ => ())) ∧
      ∀ hist', ∃ wo, OneOutcome (parFor T (scatterC R T el.nnz))
        (arrMem (shufA el.edges hist' off (⟨el.nnz, g⟩, ⟨T * R, fun _ => 0⟩)))
        (arrMem (shufA el.edges hist' off (ted, wo))) (fun _ => ()) := by
  have hkey : ∀ i, i < el.nnz → shuffleBin R (el.edges.get i) = some (shuffleKey R (el.edges.get i)) ∧
      shuffleKey R (el.edges.get i) < R := by
    intro i hi
    obtain ⟨h1, h2⟩ := hsrc (el.edges.get i) (Arr.mem_pre.mpr ⟨i, hi, rfl⟩)
    exact shuffleBin_eq hR hRm h1 h2
  obtain ⟨hist, h1, h2, h3⟩ := shuffleHistogram_spec (R := R) (T := T) hT hwf hkey (el := el) rfl rfl
  obtain ⟨off, o1, o2, o3⟩ := shuffleOffsets_spec hT hR h2 h3
  obtain ⟨ted, t1, _⟩ := shuffleScatter_spec hT hwf hkey (el := el) rfl rfl g o2 o3
  exact ⟨hist, off, ted, h1, o1, t1, fun off' st => histogram_tasks h1 off' st,
    fun hist' => scatter_tasks hT hkey rfl rfl g o3 t1 hist'⟩

/-- The DCSC constructor: placing edges in partitions (`pe`), counting the columns of each partition (`nc`), and filling
the arrays of the tile. -/
theorem dcsc_build_tasks {g : TileFresh E} {threads : Nat} (ht : 0 < threads) {sort : List (TEdge E) → List (TEdge E)}
    (hsort : SortsBy compareDcsc sort) {edges : List (Edge E)} (hne : edges ≠ []) {m n rs cst : Nat}
    (hin : ∀ e ∈ edges, InTile m n rs cst e) {t : Tile E} (hb : Tile.build g threads sort edges m n rs cst = some t) :
    ∃ (pe : List (TEdge E)) (nc : List Nat),
      edges.mapM (placeEdge t.rp t.np m n rs cst) = some pe ∧ (List.range t.np).mapM (countCols (sort pe) t.ep) = some nc ∧
      (∀ ge gp ep ncols cs b, OneOutcome (parFor edges.length (placeC t.np rs cst))
        (arrMem (dcscA (arrFrom ge edges) t.rp ⟨edges.length, gp⟩ ep ncols cs b))
        (arrMem (dcscA (arrFrom ge edges) t.rp (arrFrom gp pe) ep ncols cs b)) (fun _ => ())) ∧
      (∀ es gp gn cs b, OneOutcome (parFor t.np countColsC)
        (arrMem (dcscA es t.rp (arrFrom gp (sort pe)) t.ep ⟨t.np, gn⟩ cs b))
        (arrMem (dcscA es t.rp (arrFrom gp (sort pe)) t.ep (arrFrom gn nc) cs b)) (fun _ => ())) ∧
      ∀ es gp ncols, OneOutcome (parFor t.np (buildC n))
        (arrMem (dcscA es t.rp (arrFrom gp (sort pe)) t.ep ncols t.cs
          ⟨⟨edges.length, g.vals⟩, ⟨edges.length, g.ints 0⟩, ⟨t.cs.get t.np, g.ints 5⟩, ⟨t.cs.get t.np, g.ints 4⟩⟩))
        (arrMem (dcscA es t.rp (arrFrom gp (sort pe)) t.ep ncols t.cs ⟨t.vals, t.rowInds, t.colIdx, t.colPtrs⟩))
        (fun _ => ()) := by
  obtain ⟨t', P, h1, hP, _⟩ := Tile.build_spec g ht hsort hin
  rw [hb] at h1
  injection h1 with h1
  subst h1
  have hlen : edges.length > 0 := List.length_pos_iff.mpr hne
  unfold Tile.build at hb
  rw [if_pos hlen] at hb
  simp only [Option.bind_eq_bind, Option.bind_eq_some_iff] at hb
  obtain ⟨rp, _, pe, e2, ep, e3, nc, e4, sc, e5, tot, e6, b, e7, hb⟩ := hb
  injection hb with hb
  have emono : ∀ i j, i ≤ j → eoff P i ≤ eoff P j := by
    intro i j hij
    induction hij with
    | refl => exact Nat.le_refl _
    | step _ ih => exact Nat.le_trans ih (Nat.le_add_right _ _)
  have hnp : t.np = threads * 16 := by rw [← hb]
  have hpos : 0 < t.np := by omega
  have hep : ∀ i j, i ≤ j → j ≤ t.np → t.ep.get i ≤ t.ep.get j := by
    have hat : ∀ i, i ≤ t.np → t.ep.get i = eoff P i := by
      intro i hi
      by_cases h : i < t.np
      · exact (Arr.read_eq_some.mp (hP.ep i h).1).2
      · obtain ⟨k, rfl⟩ : ∃ k, i = k + 1 := ⟨i - 1, by omega⟩
        exact (Arr.read_eq_some.mp (hP.ep k (by omega)).2).2
    intro i j hij hj
    rw [hat i (by omega), hat j hj]
    exact emono i j hij
  have hncl : nc.length = threads * 16 := by
    have := (mapM_getElem e4).1
    rwa [List.length_range] at this
  have hcs : ∀ p, p < threads * 16 → sc.1.get (p + 1) = sc.1.get p + (nc[p]?.getD 0 + 1) := by
    intro p hp
    obtain ⟨cs, c1, _, c3⟩ := scanCols_spec (g.ints 3) (len := fun p => nc[p]?.getD 0) (np := threads * 16)
    have hnc : (List.range (threads * 16)).map (fun p => nc[p]?.getD 0) = nc := by
      apply List.ext_getElem
      · simp [hncl]
      · intro i h1 h2
        simp [h2]
    rw [hnc, e5] at c1
    injection c1 with c1
    subst c1
    rw [c3 (p + 1) (by omega), c3 p (by omega)]
    rfl
  have etot := (Arr.read_eq_some.mp e6).2
  subst hb
  refine ⟨pe, nc, e2, e4, fun ge gp ep ncols cs b => place_tasks e2 ge gp ep ncols cs b,
    fun es gp gn cs b => count_tasks e4 es rp gp gn cs b, fun es gp ncols => ?_⟩
  subst etot
  exact build_tasks hep hcs e4 e7 es rp gp ncols

/-! ### Cases that meet the hypotheses -/

example : ∃ hist off ted, shuffleHistogram 3 2 EdgeList.sample = some hist ∧ shuffleOffsets 3 2 hist = some off ∧
    shuffleScatter (fun _ => ⟨0, 0, 0⟩) 3 2 off EdgeList.sample = some ted ∧
    (∀ off' st, OneOutcome (parFor 2 (histC 3 2 EdgeList.sample.nnz))
      (arrMem (shufA EdgeList.sample.edges ⟨6, fun _ => 0⟩ off' st))
      (arrMem (shufA EdgeList.sample.edges hist off' st)) (fun _ => ())) := by
  obtain ⟨hist, off, ted, h1, h2, h3, h4, _⟩ := shuffle_tasks (T := 2) (R := 3) (by decide) (by decide) (by unfold IMAX; decide)
    (el := EdgeList.sample) (shuffleSample_wf _ List.mem_cons_self) (shuffleSample_src _ List.mem_cons_self)
    (fun _ => ⟨0, 0, 0⟩)
  exact ⟨hist, off, ted, h1, h2, h3, h4⟩

example : ∃ (t : Tile Nat) (pe : List (TEdge Nat)) (nc : List Nat), t.np = 32 ∧
    Tile.build ⟨fun _ => 4, fun _ _ => 4⟩ 2 (insSort compareDcsc) fmtEdges 40 17 10 20 = some t ∧
    (∀ es gp gn cs b, OneOutcome (parFor t.np countColsC)
      (arrMem (dcscA es t.rp (arrFrom gp (insSort compareDcsc pe)) t.ep ⟨t.np, gn⟩ cs b))
      (arrMem (dcscA es t.rp (arrFrom gp (insSort compareDcsc pe)) t.ep (arrFrom gn nc) cs b)) (fun _ => ())) := by
  have h : (Tile.build ⟨fun _ => 4, fun _ _ => 4⟩ 2 (insSort compareDcsc) fmtEdges 40 17 10 20).map (fun t => t.np) = some 32 := by
    decide +kernel
  obtain ⟨t, h1, h2⟩ := Option.map_eq_some_iff.mp h
  obtain ⟨pe, nc, _, _, _, h5, _⟩ := dcsc_build_tasks (by decide) insSort_dcsc (by decide) fmtEdges_in h1
  exact ⟨t, pe, nc, h2, h1, h5⟩

end GraphMat

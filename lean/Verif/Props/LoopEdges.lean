import Verif.Lemmas.LoopBuild
import Verif.Lemmas.Loops
import Verif.Model.LoopEdges
import Verif.Lemmas.Layout
import Verif.Props.EdgeList
import Verif.Lemmas.EdgeIO
import Verif.Spec.Sorting

/-!
# C67: the parallel loops over edge lists
-/
namespace GraphMat

variable {E : Type}

theorem putSrc_does {own shared : EdgeArr × Nat → Prop} {i : Nat} (h : own (EdgeArr.edges, i)) (x : Int)
    (m : (l : EdgeArr × Nat) → EdgeArr.Ty E l.1) :
    Does own shared (putSrcC i x) m ()
      (Function.update m (EdgeArr.edges, i) ({ (m (EdgeArr.edges, i) : Edge E) with src := x } : Edge E)) :=
  (Does.rdv (k := EdgeArr.edges) (Or.inl h) rfl).bind (Does.wrv (k := EdgeArr.edges) h m _)

theorem putDst_does {own shared : EdgeArr × Nat → Prop} {i : Nat} (h : own (EdgeArr.edges, i)) (x : Int)
    (m : (l : EdgeArr × Nat) → EdgeArr.Ty E l.1) :
    Does own shared (putDstC i x) m ()
      (Function.update m (EdgeArr.edges, i) ({ (m (EdgeArr.edges, i) : Edge E) with dst := x } : Edge E)) :=
  (Does.rdv (k := EdgeArr.edges) (Or.inl h) rfl).bind (Does.wrv (k := EdgeArr.edges) h m _)

theorem arrFrom_get {α : Type} {g : Nat → α} {l : List α} {i : Nat} (h : i < l.length) : (arrFrom g l).get i = l[i] := by
  simp [arrFrom, h]

theorem arrFrom_out {α : Type} {g : Nat → α} {l : List α} {i : Nat} (h : l.length ≤ i) : (arrFrom g l).get i = g i := by
  simp [arrFrom, h]

/-- A loop whose iteration `i` replaces edge `i` by `f` of it. -/
theorem edgeMap_tasks {body : Nat → EdgeCode E Unit} {f : Edge E → Option (Edge E)} {es es' : List (Edge E)}
    (h : es.mapM f = some es')
    (hb : ∀ i (m : (l : EdgeArr × Nat) → EdgeArr.Ty E l.1) (e : Edge E), f (m (EdgeArr.edges, i) : Edge E) = some e →
      ∃ m', Does (fun l => l.1 = EdgeArr.edges ∧ l.2 = i) (fun l => ¬ l.1 = EdgeArr.edges) (body i) m () m' ∧
        (m' (EdgeArr.edges, i) : Edge E) = e)
    (g : Nat → Edge E) (tagged : Arr (Edge E × Nat)) (ids assignment : Arr Nat) :
    OneOutcome (parFor es.length body) (arrMem (edgeA (arrFrom g es) tagged ids assignment))
      (arrMem (edgeA (arrFrom g es') tagged ids assignment)) (fun _ => ()) := by
  obtain ⟨hl, hm⟩ := mapM_getElem h
  refine parFor_map (fun k => k = EdgeArr.edges) ?_ ?_
  · intro k j hk
    cases k <;> first | rfl | skip
    have hj : es.length ≤ j := by
      by_contra hc
      exact hk ⟨rfl, by omega⟩
    exact (arrFrom_out (g := g) (by rw [hl]; exact hj)).trans (arrFrom_out (g := g) hj).symm
  · intro i hi m _ h2
    obtain ⟨e, h3, h4⟩ := hm i hi
    have h5 : (m (EdgeArr.edges, i) : Edge E) = es[i] := (h2 EdgeArr.edges).trans (arrFrom_get hi)
    obtain ⟨m', d, h6⟩ := hb i m e (by rw [h5]; exact h4)
    refine ⟨m', d, ?_⟩
    rintro k rfl
    rw [h6]
    show e = (arrFrom g es').get i
    simp [arrFrom, h3]

/-- `ReadEdgelist`. -/
theorem renumber_tasks {threads nrank m : Nat} {es es' : List (Edge E)} (h : renumber threads nrank m es = some es')
    (g : Nat → Edge E) (tagged : Arr (Edge E × Nat)) (ids assignment : Arr Nat) :
    OneOutcome (parFor es.length (renumberC threads nrank m)) (arrMem (edgeA (arrFrom g es) tagged ids assignment))
      (arrMem (edgeA (arrFrom g es') tagged ids assignment)) (fun _ => ()) := by
  refine edgeMap_tasks h ?_ g tagged ids assignment
  intro i m e he
  simp only [Option.bind_eq_bind, Option.bind_eq_some_iff] at he
  obtain ⟨s, h1, d, h2, he⟩ := he
  injection he with he
  refine ⟨_, (Does.rdv (k := EdgeArr.edges) (Or.inl ⟨rfl, rfl⟩) rfl).bind ((putSrc_does ⟨rfl, rfl⟩ _ m).bind
    ((Does.rdv (k := EdgeArr.edges) (Or.inl ⟨rfl, rfl⟩) rfl).bind (putDst_does ⟨rfl, rfl⟩ _ _))), ?_⟩
  simp only [Function.update_self, h1, h2, Option.getD_some]
  exact he

/-- Sixty-four vertices on two ranks. -/
example : ∃ es', renumber 1 2 64 [⟨1, 40, 7⟩, ⟨2, 1, 8⟩] = some es' ∧ es' = [⟨1, 16, 7⟩, ⟨3, 1, 8⟩] :=
  ⟨_, by decide +kernel, rfl⟩

/-- `Transpose`. -/
theorem transpose_tasks (es : List (Edge E)) (g : Nat → Edge E) (tagged : Arr (Edge E × Nat)) (ids assignment : Arr Nat) :
    OneOutcome (parFor es.length swapC) (arrMem (edgeA (arrFrom g es) tagged ids assignment))
      (arrMem (edgeA (arrFrom g (es.map (fun e => ({ e with src := e.dst, dst := e.src } : Edge E)))) tagged ids assignment))
      (fun _ => ()) := by
  have h : es.mapM (fun e => some ({ e with src := e.dst, dst := e.src } : Edge E)) =
      some (es.map (fun e => ({ e with src := e.dst, dst := e.src } : Edge E))) := by
    induction es with
    | nil => rfl
    | cons e es ih => rw [List.mapM_cons, ih]; rfl
  refine edgeMap_tasks h ?_ g tagged ids assignment
  intro i m e he
  injection he with he
  refine ⟨_, (Does.rdv (k := EdgeArr.edges) (Or.inl ⟨rfl, rfl⟩) rfl).bind
    ((Does.rdv (k := EdgeArr.edges) (Or.inl ⟨rfl, rfl⟩) rfl).bind ((putSrc_does ⟨rfl, rfl⟩ _ m).bind
      (putDst_does ⟨rfl, rfl⟩ _ _))), ?_⟩
  simp only [Function.update_self]
  exact he

/-- Two edges. -/
example (tagged : Arr (Edge Nat × Nat)) (ids assignment : Arr Nat) :
    OneOutcome (parFor 2 swapC) (arrMem (edgeA (arrFrom (fun _ => ⟨0, 0, 0⟩) [⟨1, 40, 7⟩, ⟨2, 1, 8⟩]) tagged ids assignment))
      (arrMem (edgeA (arrFrom (fun _ => ⟨0, 0, 0⟩) [⟨40, 1, 7⟩, ⟨1, 2, 8⟩]) tagged ids assignment)) (fun _ => ()) :=
  transpose_tasks [⟨1, 40, 7⟩, ⟨2, 1, 8⟩] _ tagged ids assignment

/-- `get_dimensions`: the two maxima are the same for every schedule and every division among threads; they are those of the
sequential model (C66). -/
theorem dimensions_tasks {el : EdgeList E} (hwf : el.nnz ≤ el.edges.size) (tagged : Arr (Edge E × Nat))
    (ids assignment : Arr Nat) :
    ∃ res m n, OneOutcome (parForR (0, 0) el.nnz idsC) (arrMem (edgeA el.edges tagged ids assignment))
        (arrMem (edgeA el.edges tagged ids assignment)) res ∧
      ∀ chunks, IsSplit el.nnz chunks →
        redMax INT_MIN 0 (fun i => (res i).1) chunks = m ∧ redMax INT_MIN 0 (fun i => (res i).2) chunks = n ∧
        localMax Edge.src el.edges chunks = some m ∧ localMax Edge.dst el.edges chunks = some n := by
  refine ⟨fun i => if i < el.nnz then ((el.edges.get i).src, (el.edges.get i).dst) else (0, 0),
    topOf (el.list.map Edge.src), topOf (el.list.map Edge.dst), ?_, ?_⟩
  · refine parForR_outcome (σ := Unit) (own := fun _ _ => False) (shared := fun _ => True)
      (mem := fun _ => arrMem (edgeA el.edges tagged ids assignment)) (part := fun _ s => some s)
      (res := fun i => ((el.edges.get i).src, (el.edges.get i).dst)) (s := ()) (s' := ())
      (fun i j l _ _ h => h.elim) (fun i l _ h => h.elim) ?_ ?_
    · intro p _ s s' _
      exact (Does.rdv (k := EdgeArr.edges) (Or.inr trivial) rfl).bind
        ((Does.rdv (k := EdgeArr.edges) (Or.inr trivial) rfl).bind (Does.pure _ _))
    · rw [forLoop_range]
      generalize List.range el.nnz = l
      induction l with
      | nil => rfl
      | cons a l ih => exact ih
  · intro chunks hc
    have hlt : ∀ c ∈ chunks, ∀ i ∈ c, i < el.nnz := by
      intro c hc' i hi
      exact List.mem_range.1 (hc.mem_iff.1 (List.mem_flatten.2 ⟨c, hc', hi⟩))
    have key : ∀ (f : Edge E → Int) (r : Nat → Int), (∀ i, i < el.nnz → r i = f (el.edges.get i)) →
        localMax f el.edges chunks = some (redMax INT_MIN 0 r chunks) := by
      intro f r hr
      unfold localMax redMax
      rw [mapM_some_map (h := fun c => (c.map r).foldl max INT_MIN)]
      · rfl
      · intro c hc'
        rw [threadMax_eq f (fun i hi => Nat.lt_of_lt_of_le (hlt c hc' i hi) hwf)]
        congr 2
        exact List.map_congr_left (fun i hi => (hr i (hlt c hc' i hi)).symm)
    have a1 := localMax_eq Edge.src hwf hc
    have a2 := localMax_eq Edge.dst hwf hc
    refine ⟨?_, ?_, a1, a2⟩
    · rw [key Edge.src (fun i => (if i < el.nnz then ((el.edges.get i).src, (el.edges.get i).dst) else (0, 0)).1)
        (fun i hi => by rw [if_pos hi])] at a1
      injection a1
    · rw [key Edge.dst (fun i => (if i < el.nnz then ((el.edges.get i).src, (el.edges.get i).dst) else (0, 0)).2)
        (fun i hi => by rw [if_pos hi])] at a2
      injection a2

/-- Three edges, two threads. -/
example : IsSplit 3 [[1], [2, 0]] ∧
    localMax Edge.src (Arr.ofList ⟨0, 0, 0⟩ [⟨1, 40, 7⟩, ⟨2, 1, 8⟩, ⟨9, 3, 8⟩] : Arr (Edge Nat)) [[1], [2, 0]] = some 9 ∧
    localMax Edge.dst (Arr.ofList ⟨0, 0, 0⟩ [⟨1, 40, 7⟩, ⟨2, 1, 8⟩, ⟨9, 3, 8⟩] : Arr (Edge Nat)) [[1], [2, 0]] = some 40 := by
  refine ⟨?_, by decide +kernel, by decide +kernel⟩
  unfold IsSplit
  decide

theorem csub_val {a b c : Int} (h : csub a b = some c) : c = a - b := by
  unfold csub at h
  exact (ck_val h).symm

theorem cadd_val {a b c : Int} (h : cadd a b = some c) : c = a + b := by
  unfold cadd at h
  exact (ck_val h).symm

theorem natIdx_val {a : Int} {n : Nat} (h : natIdx a = some n) : n = a.toNat := by
  unfold natIdx at h
  split at h
  · injection h with h; exact h.symm
  · cases h

/-- `randomize_edgelist_square`. -/
theorem randomize_tasks {g rand : Nat → Nat} {el el' : EdgeList E} (h : randomizeSquare g rand el = some el')
    (tagged : Arr (Edge E × Nat)) (assignment : Arr Nat) :
    ∃ mapping, randomMapping g rand el.m.toNat = some mapping ∧
      OneOutcome (parFor el.nnz mappingC) (arrMem (edgeA el.edges tagged mapping assignment))
        (arrMem (edgeA el'.edges tagged mapping assignment)) (fun _ => ()) := by
  unfold randomizeSquare at h
  simp only [Option.bind_eq_bind, Option.bind_eq_some_iff] at h
  obtain ⟨mapping, h1, d, h2, h⟩ := h
  injection h with h
  subst h
  refine ⟨mapping, h1, ?_⟩
  refine parFor_outcome (own := fun i l => l = (EdgeArr.edges, i)) (shared := fun l => l.1 = .ids)
    (mem := fun a => arrMem (edgeA a tagged mapping assignment)) ?_ ?_ ?_ h2
  · rintro i j l _ _ rfl h2
    injection h2
  · rintro i l _ rfl hs
    cases hs
  · intro i _ a a' hg
    simp only [Option.bind_eq_some_iff] at hg
    obtain ⟨e, g1, s, g2, t, g3, hg⟩ := hg
    have hid : ∀ id x (m : (l : EdgeArr × Nat) → EdgeArr.Ty E l.1), (∀ j, (m (EdgeArr.ids, j) : Nat) = mapping.get j) →
        mapId mapping id = some x →
        Does (fun l => l = (EdgeArr.edges, i)) (fun l => l.1 = .ids) (mapIdC id) m x m := by
      intro id x m hm hx
      unfold mapId at hx
      simp only [Option.bind_eq_bind, Option.bind_eq_some_iff] at hx
      obtain ⟨c, c1, n, c2, v, c3, hx⟩ := hx
      injection hx with hx
      rw [csub_val c1] at c2
      rw [natIdx_val c2] at c3
      refine (Does.rdv (k := EdgeArr.ids) (Or.inr (by rfl)) ((hm _).trans (Arr.read_eq_some.mp c3).2)).bind ?_
      rw [← hx]
      exact Does.pure _ _
    have hw := Arr.write_eq_some.mp hg
    have he : arrMem (edgeA a tagged mapping assignment) (EdgeArr.edges, i) = e := (Arr.read_eq_some.mp g1).2
    refine (Does.rdv (k := EdgeArr.edges) (Or.inl (by rfl)) he).bind ?_
    refine (hid _ _ _ (fun _ => rfl) g2).bind ?_
    refine (putSrc_does (by rfl) s _).bind ?_
    refine (Does.rdv (k := EdgeArr.edges) (v := ({ e with src := s } : Edge E)) (Or.inl (by rfl))
      (by rw [Function.update_self, he])).bind ?_
    refine (hid _ _ _ (fun j => ?_) g3).bind ?_
    · rw [Function.update_of_ne (by intro hc; injection hc with hc; cases hc)]; rfl
    refine (putDst_does (by rfl) t _).to ?_
    · funext l
      obtain ⟨k, j⟩ := l
      by_cases hl : (k, j) = (EdgeArr.edges, i)
      · rw [hl, Function.update_self, Function.update_self, he]
        show _ = a'.get i
        rw [hw.2, Arr.upd_get_self]
      · rw [Function.update_of_ne hl, Function.update_of_ne hl]
        cases k <;> first | rfl | skip
        show a.get j = a'.get j
        rw [hw.2, Arr.upd_get_ne]
        rintro rfl; exact hl rfl

/-- Three vertices, exchanged by the drawn numbers. -/
example : (randomizeSquare (fun _ => 9) (fun i => [2, 4, 7].getD i 0)
    (⟨Arr.ofList ⟨0, 0, 0⟩ [⟨1, 2, 5⟩, ⟨3, 1, 6⟩], 3, 3, 2⟩ : EdgeList Nat)).map (fun el => el.edges.toList) =
    some [⟨3, 1, 5⟩, ⟨2, 3, 6⟩] := by
  decide +kernel

/-- `remove_empty_columns`. -/
theorem columns_tasks {g : Nat → Nat} {el : EdgeList E} {r : EdgeList E × Arr Nat} (h : removeEmptyColumns g el = some r)
    (tagged : Arr (Edge E × Nat)) (assignment : Arr Nat) :
    ∃ mark num, forLoop 0 el.nnz ((⟨el.n.toNat, fun _ => false⟩ : Arr Bool), 0) (markColumn el.edges) = some mark ∧
      forLoop 0 el.n.toNat ((⟨(el.n + 1).toNat, fun _ => 0⟩ : Arr Nat), (⟨mark.2, g⟩ : Arr Nat), 0)
        (numberColumn mark.1 mark.2) = some num ∧
      OneOutcome (parFor el.nnz columnC) (arrMem (edgeA el.edges tagged num.1 assignment))
        (arrMem (edgeA r.1.edges tagged num.1 assignment)) (fun _ => ()) := by
  unfold removeEmptyColumns at h
  simp only [Option.bind_eq_bind, Option.bind_eq_some_iff] at h
  obtain ⟨n1, h0, mark, h1, num, h2, h⟩ := h
  rw [cadd_val h0] at h2
  split_ifs at h with hc
  simp only [Option.bind_eq_some_iff] at h
  obtain ⟨d, h3, h⟩ := h
  injection h with h
  subst h
  refine ⟨mark, num, h1, h2, ?_⟩
  refine parFor_outcome (own := fun i l => l = (EdgeArr.edges, i)) (shared := fun l => l.1 = .ids)
    (mem := fun a => arrMem (edgeA a tagged num.1 assignment)) ?_ ?_ ?_ h3
  · rintro i j l _ _ rfl h2
    injection h2
  · rintro i l _ rfl hs
    cases hs
  · intro i _ a a' hg
    unfold renumberColumn at hg
    simp only [Option.bind_eq_bind, Option.bind_eq_some_iff] at hg
    obtain ⟨e, g1, b, g2, k, g3, c, g4, x, g5, a1, g6, hg⟩ := hg
    split_ifs at hg
    injection hg with hg
    subst hg
    rw [csub_val g2] at g3
    rw [natIdx_val g3] at g4
    have hw := Arr.write_eq_some.mp g6
    have he : arrMem (edgeA a tagged num.1 assignment) (EdgeArr.edges, i) = e := (Arr.read_eq_some.mp g1).2
    refine (Does.rdv (k := EdgeArr.edges) (Or.inl (by rfl)) he).bind ?_
    refine (Does.rdv (k := EdgeArr.ids) (Or.inr (by rfl)) (show arrMem (edgeA a tagged num.1 assignment) (EdgeArr.ids, _) = c
      from (Arr.read_eq_some.mp g4).2)).bind ?_
    refine (putDst_does (by rfl) _ _).bind ?_
    refine (Does.rdv (k := EdgeArr.edges) (Or.inl (by rfl)) rfl).bind ?_
    refine (Does.rdv (k := EdgeArr.edges) (Or.inl (by rfl)) rfl).bind ?_
    refine (Does.pure _ _).to ?_
    funext l
    obtain ⟨k, j⟩ := l
    by_cases hl : (k, j) = (EdgeArr.edges, i)
    · rw [hl, Function.update_self, he]
      show _ = a1.get i
      rw [hw.2, Arr.upd_get_self, cadd_val g5]
    · rw [Function.update_of_ne hl]
      cases k <;> first | rfl | skip
      show a.get j = a1.get j
      rw [hw.2, Arr.upd_get_ne]
      rintro rfl; exact hl rfl

/-- Column 2 of three is empty. -/
example : (removeEmptyColumns (fun _ => 9) (⟨Arr.ofList ⟨0, 0, 0⟩ [⟨1, 3, 5⟩, ⟨3, 1, 6⟩], 3, 3, 2⟩ : EdgeList Nat)).map
    (fun r => (r.1.edges.toList, r.2.toList)) = some ([⟨1, 2, 5⟩, ⟨3, 1, 6⟩], [1, 3]) := by
  decide +kernel

theorem RMat.nodeIds_get (M : RMat E) {src dst : Int} {ij : Nat × Nat} {o : Nat}
    (h : matPartition M.m M.n M.nty M.ntx src dst = some ij) (ho : M.node ij.1 ij.2 = some o) :
    M.nodeIds.get (ij.1 + ij.2 * M.nty) = o := by
  unfold matPartition at h
  simp only [Option.bind_eq_bind, Option.bind_eq_some_iff] at h
  obtain ⟨i, h1, j, h2, h⟩ := h
  injection h with h
  subst h
  have hi : i < M.nty := (getPartition_some (n := M.m) (nseg := M.nty) h1).1
  show (M.node ((i + j * M.nty) % M.nty) ((i + j * M.nty) / M.nty)).getD 0 = o
  rw [Nat.add_mul_mod_self_right, Nat.mod_eq_of_lt hi, Nat.add_mul_div_right _ _ (by omega), Nat.div_eq_of_lt hi, Nat.zero_add, ho]
  rfl

/-- The loop that finds the owner of each edge; `nodeIds` holds the owners of the tiles. -/
theorem ownerTag_tasks {M : RMat E} {edges : List (Edge E)} {ted : List (Edge E × Nat)}
    (h : edges.mapM (fun e => do
      let ij ← matPartition M.m M.n M.nty M.ntx e.src e.dst
      let o ← M.node ij.1 ij.2
      some (e, o)) = some ted)
    (g : Nat → Edge E) (gt : Nat → Edge E × Nat) (assignment : Arr Nat) :
    OneOutcome (parFor edges.length (ownerTagC M.m M.n M.nty M.ntx))
      (arrMem (edgeA (arrFrom g edges) ⟨edges.length, gt⟩ M.nodeIds assignment))
      (arrMem (edgeA (arrFrom g edges) (arrFrom gt ted) M.nodeIds assignment)) (fun _ => ()) := by
  obtain ⟨hl, hm⟩ := mapM_getElem h
  refine parFor_map (fun k => k = EdgeArr.tagged) ?_ ?_
  · intro k j hk
    cases k <;> first | rfl | skip
    have hj : edges.length ≤ j := by
      by_contra hc
      exact hk ⟨rfl, by omega⟩
    exact arrFrom_out (g := gt) (by rw [hl]; exact hj)
  · intro i hi m h1 h2
    obtain ⟨t, h3, h4⟩ := hm i hi
    simp only [Option.bind_eq_bind, Option.bind_eq_some_iff] at h4
    obtain ⟨ij, h5, o, h6, h4⟩ := h4
    injection h4 with h4
    refine ⟨_, (Does.rdv (k := EdgeArr.edges) (Or.inr (by simp)) ((h1 EdgeArr.edges i (by simp)).trans (arrFrom_get hi))).bind
      ((Does.rdv (k := EdgeArr.ids) (v := o) (Or.inr (by simp)) ?_).bind (Does.wrv (k := EdgeArr.tagged) ⟨rfl, rfl⟩ m _)), ?_⟩
    · rw [h1 _ _ (by simp), h5]
      exact M.nodeIds_get h5 h6
    · rintro k rfl
      rw [Function.update_self]
      show _ = (arrFrom gt ted).get i
      simp [arrFrom, h3, h4]

/-- The loop that finds the tile of each edge. -/
theorem tileTag_tasks {M : RMat E} {edges : List (Edge E)} {ted : List (Edge E × Nat)}
    (h : edges.mapM (fun e => do
      let ij ← matPartition M.m M.n M.nty M.ntx e.src e.dst
      some (e, ij.1 + ij.2 * M.nty)) = some ted)
    (ids : Arr Nat) (g : Nat → Edge E) (gt : Nat → Edge E × Nat) (assignment : Arr Nat) :
    OneOutcome (parFor edges.length (tileTagC M.m M.n M.nty M.ntx))
      (arrMem (edgeA (arrFrom g edges) ⟨edges.length, gt⟩ ids assignment))
      (arrMem (edgeA (arrFrom g edges) (arrFrom gt ted) ids assignment)) (fun _ => ()) := by
  obtain ⟨hl, hm⟩ := mapM_getElem h
  refine parFor_map (fun k => k = EdgeArr.tagged) ?_ ?_
  · intro k j hk
    cases k <;> first | rfl | skip
    have hj : edges.length ≤ j := by
      by_contra hc
      exact hk ⟨rfl, by omega⟩
    exact arrFrom_out (g := gt) (by rw [hl]; exact hj)
  · intro i hi m h1 h2
    obtain ⟨t, h3, h4⟩ := hm i hi
    simp only [Option.bind_eq_bind, Option.bind_eq_some_iff] at h4
    obtain ⟨ij, h5, h4⟩ := h4
    injection h4 with h4
    refine ⟨_, (Does.rdv (k := EdgeArr.edges) (Or.inr (by simp)) ((h1 EdgeArr.edges i (by simp)).trans (arrFrom_get hi))).bind
      (Does.wrv (k := EdgeArr.tagged) ⟨rfl, rfl⟩ m _), ?_⟩
    rintro k rfl
    rw [Function.update_self]
    show _ = (arrFrom gt ted).get i
    simp [arrFrom, h3, ← h4, h5]

/-- The loops that take the sorted edges and their numbers apart. -/
theorem untag_tasks (ted : List (Edge E × Nat)) (old : List (Edge E)) (hold : old.length = ted.length) (ids : Arr Nat)
    (g : Nat → Edge E) (gt : Nat → Edge E × Nat) (ga : Nat → Nat) :
    OneOutcome (parFor ted.length untagC) (arrMem (edgeA (arrFrom g old) (arrFrom gt ted) ids ⟨ted.length, ga⟩))
      (arrMem (edgeA (arrFrom g (ted.map (·.1))) (arrFrom gt ted) ids (arrFrom ga (ted.map (·.2))))) (fun _ => ()) := by
  refine parFor_map (fun k => k = EdgeArr.edges ∨ k = EdgeArr.assignment) ?_ ?_
  · intro k j hk
    cases k <;> first | rfl | skip
    · have hj : ted.length ≤ j := by
        by_contra hc
        exact hk ⟨Or.inl rfl, by omega⟩
      exact (arrFrom_out (g := g) (by rw [List.length_map]; exact hj)).trans (arrFrom_out (g := g) (by omega)).symm
    · have hj : ted.length ≤ j := by
        by_contra hc
        exact hk ⟨Or.inr rfl, by omega⟩
      exact arrFrom_out (g := ga) (by rw [List.length_map]; exact hj)
  · intro i hi m h1 h2
    refine ⟨_, (Does.rdv (k := EdgeArr.tagged) (Or.inr (by simp))
      ((h1 EdgeArr.tagged i (by simp)).trans (arrFrom_get hi))).bind
      ((Does.wrv (k := EdgeArr.edges) ⟨Or.inl rfl, rfl⟩ m _).bind
        (Does.wrv (k := EdgeArr.assignment) ⟨Or.inr rfl, rfl⟩ _ _)), ?_⟩
    rintro k (rfl | rfl)
    · rw [Function.update_of_ne (by intro hc; injection hc with hc; cases hc), Function.update_self]
      exact ((arrFrom_get (g := g) (by rw [List.length_map]; exact hi)).trans (List.getElem_map _)).symm
    · rw [Function.update_self]
      exact ((arrFrom_get (g := ga) (by rw [List.length_map]; exact hi)).trans (List.getElem_map _)).symm

/-- `SpMat::ingestEdgelist`, sending half: the owner of each edge, then the sorted edges. -/
theorem shuffleOut_tasks {M : RMat E} {srt : Sorts E} {edges : List (Edge E)} {out : List (Edge E)} {plan : List (Nat × Nat)}
    (h : shuffleOut M srt edges = some (out, plan)) (hsrt : ∀ l, (srt.owner M.myrank l).Perm l)
    (g : Nat → Edge E)
    (gt : Nat → Edge E × Nat) (ga : Nat → Nat) :
    ∃ ted sorted assigned, srt.owner M.myrank ted = sorted ∧ sendPlan assigned M.nrank = some plan ∧
      (∀ asg, OneOutcome (parFor edges.length (ownerTagC M.m M.n M.nty M.ntx))
        (arrMem (edgeA (arrFrom g edges) ⟨edges.length, gt⟩ M.nodeIds asg))
        (arrMem (edgeA (arrFrom g edges) (arrFrom gt ted) M.nodeIds asg)) (fun _ => ())) ∧
      OneOutcome (parFor edges.length untagC)
        (arrMem (edgeA (arrFrom g edges) (arrFrom gt sorted) M.nodeIds ⟨edges.length, ga⟩))
        (arrMem (edgeA (arrFrom g out) (arrFrom gt sorted) M.nodeIds (arrFrom ga assigned))) (fun _ => ()) := by
  unfold shuffleOut at h
  rw [Option.bind_eq_bind, Option.bind_eq_some_iff] at h
  obtain ⟨ted, h1, h⟩ := h
  simp only [Option.bind_eq_bind, Option.bind_eq_some_iff] at h
  obtain ⟨plan', h2, h⟩ := h
  injection h with h
  injection h with e1 e2
  subst e1 e2
  have hl : (srt.owner M.myrank ted).length = edges.length := by rw [(hsrt ted).length_eq, (mapM_getElem h1).1]
  refine ⟨ted, _, _, rfl, h2, fun asg => ownerTag_tasks h1 g gt asg, ?_⟩
  have := untag_tasks (srt.owner M.myrank ted) edges hl.symm M.nodeIds g gt ga
  rwa [hl] at this

/-- `SpMat::ingestEdgelist`, receiving half: the tile of each edge, then the sorted edges, from which the tiles are made
(`makeTile`). -/
theorem ingestLocal_tasks {M M' : RMat E} {srt : Sorts E} {gf : Nat → Nat → TileFresh E} {threads : Nat}
    {received : List (Edge E)} (h : ingestLocal M srt gf threads received = some M')
    (hsrt : ∀ l, (srt.tile M.myrank l).Perm l) (ids : Arr Nat) (g : Nat → Edge E) (gt : Nat → Edge E × Nat)
    (ga : Nat → Nat) :
    ∃ ted sorted es assigned, srt.tile M.myrank ted = sorted ∧
      forLoop 0 M.ntx M (fun j M' => forLoop 0 M.nty M' (fun i M' => do
        let o ← M.node i j
        if o = M.myrank then
          let t ← makeTile M srt gf threads es assigned i j
          some { M' with tiles := fun a b => if a = i ∧ b = j then some t else M'.tiles a b }
        else some M')) = some M' ∧
      (∀ asg, OneOutcome (parFor received.length (tileTagC M.m M.n M.nty M.ntx))
        (arrMem (edgeA (arrFrom g received) ⟨received.length, gt⟩ ids asg))
        (arrMem (edgeA (arrFrom g received) (arrFrom gt ted) ids asg)) (fun _ => ())) ∧
      OneOutcome (parFor received.length untagC)
        (arrMem (edgeA (arrFrom g received) (arrFrom gt sorted) ids ⟨received.length, ga⟩))
        (arrMem (edgeA (arrFrom g es) (arrFrom gt sorted) ids (arrFrom ga assigned))) (fun _ => ()) := by
  unfold ingestLocal at h
  rw [Option.bind_eq_bind, Option.bind_eq_some_iff] at h
  obtain ⟨ted, h1, h⟩ := h
  have hl : (srt.tile M.myrank ted).length = received.length := by rw [(hsrt ted).length_eq, (mapM_getElem h1).1]
  refine ⟨ted, _, _, _, rfl, h, fun asg => tileTag_tasks h1 ids g gt asg, ?_⟩
  have := untag_tasks (srt.tile M.myrank ted) received hl.symm ids g gt ga
  rwa [hl] at this

/-- `SpVec::ingestEdgelist`: the owner of each edge; `nodeIds` holds the owners of the segments. -/
theorem segTag_tasks {v : SpVec E} {gm : Nat → Nat → Edge E} {es : List (Edge E)} {msgs : List (List (Edge E))}
    (h : v.packEdges gm es = some msgs)
    (g : Nat → Edge E) (tagged : Arr (Edge E × Nat)) (ga : Nat → Nat) :
    ∃ assigned : List (Edge E × Nat), assigned.map (·.1) = es ∧
      (do
        let count ← countKeys v.nrank (assigned.map (·.2))
        let packed ← packMsgs gm count assigned
        (List.range v.nrank).mapM (fun r => do
          let m ← packed.1.read r
          some m.toList)) = some msgs ∧
      OneOutcome (parFor es.length (segTagC v.n v.nseg)) (arrMem (edgeA (arrFrom g es) tagged v.nodeIds ⟨es.length, ga⟩))
        (arrMem (edgeA (arrFrom g es) tagged v.nodeIds (arrFrom ga (assigned.map (·.2))))) (fun _ => ()) := by
  unfold SpVec.packEdges at h
  rw [Option.bind_eq_bind, Option.bind_eq_some_iff] at h
  obtain ⟨assigned, h1, h⟩ := h
  obtain ⟨hl, hm⟩ := mapM_getElem h1
  refine ⟨assigned, ?_, h, ?_⟩
  · apply List.ext_getElem?
    intro i
    by_cases hi : i < es.length
    · obtain ⟨t, h3, h4⟩ := hm i hi
      simp only [Option.bind_eq_bind, Option.bind_eq_some_iff] at h4
      obtain ⟨_, _, _, _, h4⟩ := h4
      injection h4 with h4
      rw [List.getElem?_map, h3, ← h4, List.getElem?_eq_getElem hi]; rfl
    · rw [List.getElem?_eq_none (by rw [List.length_map]; omega), List.getElem?_eq_none (by omega)]
  · refine parFor_map (fun k => k = EdgeArr.assignment) ?_ ?_
    · intro k j hk
      cases k <;> first | rfl | skip
      have hj : es.length ≤ j := by
        by_contra hc
        exact hk ⟨rfl, by omega⟩
      exact arrFrom_out (g := ga) (by rw [List.length_map, hl]; exact hj)
    · intro i hi m h1 h2
      obtain ⟨t, h3, h4⟩ := hm i hi
      simp only [Option.bind_eq_bind, Option.bind_eq_some_iff] at h4
      obtain ⟨tile, h5, o, h6, h4⟩ := h4
      injection h4 with h4
      refine ⟨_, (Does.rdv (k := EdgeArr.edges) (Or.inr (by simp)) ((h1 EdgeArr.edges i (by simp)).trans (arrFrom_get hi))).bind
        ((Does.rdv (k := EdgeArr.ids) (v := o) (Or.inr (by simp)) ?_).bind
          (Does.wrv (k := EdgeArr.assignment) ⟨rfl, rfl⟩ m _)), ?_⟩
      · rw [h1 _ _ (by simp), h5]
        show (segOwner v.nrank tile).getD 0 = o
        rw [h6]; rfl
      · rintro k rfl
        rw [Function.update_self]
        show _ = (arrFrom ga (assigned.map (·.2))).get i
        simp [arrFrom, h3, ← h4]

/-- A matrix of 600 rows and columns on two ranks, as allocated by rank 0 (for the examples, not part of the model). -/
def loopMat : RMat Nat := ⟨600, 600, 2, 2, 2, 0, fun i j => partitionFn2d j i 2, fun _ _ => none⟩

/-- Three edges, sorted by owner; both hypotheses hold. -/
example : shuffleOut loopMat ⟨fun _ => insSort compareTileId, fun _ => insSort compareTileId, fun _ _ _ l => l⟩
      [⟨600, 2, 7⟩, ⟨1, 599, 8⟩, ⟨1, 2, 9⟩] =
    some ([⟨600, 2, 7⟩, ⟨1, 2, 9⟩, ⟨1, 599, 8⟩], [(0, 2), (2, 1)]) ∧ ∀ l : List (Edge Nat × Nat), (insSort compareTileId l).Perm l :=
  ⟨by decide +kernel, fun l => insSort_perm _ l⟩

/-- The edges that rank 0 gets. -/
example : (ingestLocal loopMat
    ⟨fun _ => insSort compareTileId, fun _ => insSort compareTileId, fun _ _ _ => insSort compareDcsc⟩
    (fun _ _ => ⟨fun _ => 77, fun _ _ => 5⟩) 1 [⟨600, 2, 8⟩, ⟨2, 2, 9⟩, ⟨1, 2, 9⟩]).map
      (fun M => ((M.tiles 0 0).map (·.nnz), (M.tiles 0 1).map (·.nnz), (M.tiles 1 0).map (·.nnz))) = some (some 2, none, some 1) := by
  decide +kernel

/-- A vector of 600 elements in two segments; edge sources 600, 3, 599. -/
example : (SpVec.packEdges (⟨600, 2, 2, 0, ⟨2, fun _ => ⟨0, 0, none, [], []⟩⟩⟩ : SpVec Nat) (fun _ _ => ⟨0, 0, 0⟩)
    [⟨600, 1, 7⟩, ⟨3, 1, 8⟩, ⟨599, 1, 9⟩]) = some [[⟨3, 1, 8⟩], [⟨600, 1, 7⟩, ⟨599, 1, 9⟩]] := by
  decide +kernel

end GraphMat

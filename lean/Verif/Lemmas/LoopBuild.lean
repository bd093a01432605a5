import Verif.Lemmas.ConcMap
import Verif.Lemmas.EdgeList
import Verif.Lemmas.TileRep
import Verif.Lemmas.FmtDcsr
import Verif.Model.LoopBuild
import Mathlib.Tactic.SplitIfs

namespace GraphMat

variable {E : Type}

/-! ### `shuffle_edges` -/

theorem ck_val {a b : Int} (h : ck a = some b) : a = b := by
  unfold ck at h
  split_ifs at h
  injection h

theorem shuffleBin_bin {R : Nat} {e : Edge E} {b : Nat} (h : shuffleBin R e = some b) : binC R e = b ∧ b < R := by
  unfold shuffleBin at h
  simp only [Option.bind_eq_bind, Option.bind_eq_some_iff] at h
  obtain ⟨a, h1, c, h2, h⟩ := h
  split_ifs at h with hc
  injection h with h
  have h1 := ck_val h1
  unfold cmod at h2
  split_ifs at h2
  have h2 := ck_val h2
  subst h1 h2 h
  exact ⟨rfl, by omega⟩

/-- The arrays that the first region only reads. -/
def shufShared1 (l : ShufArr × Nat) : Prop := l.1 ≠ .hist
/-- The arrays that the second region only reads. -/
def shufShared2 (l : ShufArr × Nat) : Prop := l.1 ≠ .ted ∧ l.1 ≠ .woff

theorem histogram_tasks {R T : Nat} {el : EdgeList E} {hist : Arr Nat} (h : shuffleHistogram R T el = some hist)
    (off : Arr Nat) (st : Arr (Edge E) × Arr Nat) :
    OneOutcome (parFor T (histC R T el.nnz)) (arrMem (shufA el.edges ⟨T * R, fun _ => 0⟩ off st))
      (arrMem (shufA el.edges hist off st)) (fun _ => ()) := by
  unfold shuffleHistogram at h
  refine parFor_outcome (own := fun tid l => l.1 = .hist ∧ ∃ b, b < R ∧ l.2 = tid * R + b) (shared := shufShared1)
    (mem := fun hist => arrMem (shufA el.edges hist off st)) ?_ (fun i l _ h1 h2 => h2 h1.1) ?_ h
  · rintro i j l _ _ ⟨_, b, hb, h1⟩ ⟨_, b', hb', h2⟩
    exact (idx_inj hb hb' (h1.symm.trans h2)).1
  · intro tid ht s s' hg
    unfold histC
    refine Does.forUnit (mem := fun hist => arrMem (shufA el.edges hist off st)) ?_ hg
    intro i h1 h2 s s' hg
    simp only [Option.bind_eq_bind, Option.bind_eq_some_iff] at hg
    obtain ⟨e, g1, b, g2, c, g3, hg⟩ := hg
    obtain ⟨rfl, hb⟩ := shuffleBin_bin g2
    have ho : (fun l : ShufArr × Nat => l.1 = .hist ∧ ∃ b, b < R ∧ l.2 = tid * R + b) (.hist, tid * R + binC R e) :=
      ⟨rfl, _, hb, rfl⟩
    refine (Does.ld (k := ShufArr.edges) (Or.inr (by unfold shufShared1; simp)) (shufA el.edges s off st) g1).bind ?_
    refine (Does.ld (k := ShufArr.hist) (Or.inl ho) (shufA el.edges s off st) g3).bind ?_
    exact Does.st (k := ShufArr.hist) ho (A := shufA el.edges s off st) (A' := shufA el.edges s' off st) hg
      (by intro k' hk; cases k' <;> first | rfl | exact absurd rfl hk)

section shuffle

variable {key : Edge E → Nat} {R N T : Nat} {edges : Arr (Edge E)}

/-- What thread `t` owns in the second region: its row of `woffset`, and for each rank the places behind `offset`. -/
def scatOwn (key : Edge E → Nat) (edges : Arr (Edge E)) (R N T t : Nat) (l : ShufArr × Nat) : Prop :=
  (l.1 = .woff ∧ ∃ b, b < R ∧ l.2 = t * R + b) ∨
  (l.1 = .ted ∧ ∃ b, b < R ∧ cntBelow key edges b N + cntTo key edges b (chunkStart N T t) ≤ l.2 ∧
    l.2 < cntBelow key edges b N + cntTo key edges b (chunkStart N T (t + 1)))

theorem scatOwn_disjoint (i j : Nat) (l : ShufArr × Nat) (h1 : scatOwn key edges R N T i l)
    (h2 : scatOwn key edges R N T j l) : i = j := by
  have key : ∀ i j, i < j → scatOwn key edges R N T i l → scatOwn key edges R N T j l → False := by
    rintro i j hij (⟨k1, b, hb, e1⟩ | ⟨k1, b, hb, a1, a2⟩) (⟨k2, b', hb', e2⟩ | ⟨k2, b', hb', c1, c2⟩)
    · have := (idx_inj hb hb' (e1.symm.trans e2)).1
      omega
    · rw [k1] at k2; cases k2
    · rw [k1] at k2; cases k2
    · rcases Nat.lt_trichotomy b b' with hbb | hbb | hbb
      · have m1 := cntBelow_mono (key := key) (edges := edges) (i := N) (show b + 1 ≤ b' from hbb)
        rw [cntBelow_succ] at m1
        have m2 := cntTo_mono (key := key) (edges := edges) (b := b) (chunkStart_le N T (i + 1))
        omega
      · subst hbb
        have m1 := cntTo_mono (key := key) (edges := edges) (b := b) (chunkStart_mono (N := N) (T := T) (show i + 1 ≤ j from hij))
        omega
      · have m1 := cntBelow_mono (key := key) (edges := edges) (i := N) (show b' + 1 ≤ b from hbb)
        rw [cntBelow_succ] at m1
        have m2 := cntTo_mono (key := key) (edges := edges) (b := b') (chunkStart_le N T (j + 1))
        omega
  rcases Nat.lt_trichotomy i j with h | h | h
  · exact (key i j h h1 h2).elim
  · exact h
  · exact (key j i h h2 h1).elim

theorem scatter_tasks (hT : 0 < T)
    (hkey : ∀ i, i < N → shuffleBin R (edges.get i) = some (key (edges.get i)) ∧ key (edges.get i) < R)
    {el : EdgeList E} (he : el.edges = edges) (hn : el.nnz = N) (g : Nat → Edge E) {off : Arr Nat}
    (hoff : ∀ t b, t < T → b < R → off.get (t * R + b) = cntBelow key edges b N + cntTo key edges b (chunkStart N T t))
    {ted : Arr (Edge E)} (h : shuffleScatter g R T off el = some ted) (hist : Arr Nat) :
    ∃ wo, OneOutcome (parFor T (scatterC R T N)) (arrMem (shufA edges hist off (⟨N, g⟩, ⟨T * R, fun _ => 0⟩)))
      (arrMem (shufA edges hist off (ted, wo))) (fun _ => ()) := by
  unfold shuffleScatter at h
  rw [he, hn] at h
  simp only [Option.bind_eq_bind, Option.bind_eq_some_iff] at h
  obtain ⟨r, h, h'⟩ := h
  injection h' with h'
  subst h'
  refine ⟨r.2, ?_⟩
  refine (parFor_outcome_inv (own := scatOwn key edges R N T) (shared := shufShared2)
    (mem := fun s => arrMem (shufA edges hist off s))
    (fun t s => ∀ t' b, t' < T → b < R → s.2.get (t' * R + b) = cntThread key edges N T t' b (chunkStart N T t))
    (fun i j l _ _ => scatOwn_disjoint i j l) ?_ ?_ ?_ h).1
  · rintro i l _ (⟨h1, _⟩ | ⟨h1, _⟩) ⟨h2, h3⟩
    · exact h3 h1
    · exact h2 h1
  · intro t ht s s' hI hg
    unfold scatterC
    rw [shuffleRange_eq ht] at hg ⊢
    refine Does.forInv (reg := fun _ => ()) (mem := fun s => arrMem (shufA edges hist off s))
      (fun i (s : Arr (Edge E) × Arr Nat) => ∀ t' b, t' < T → b < R → s.2.get (t' * R + b) = cntThread key edges N T t' b i)
      (chunkStart_mono (by omega)) ?_ hI hg
    intro i i1 i2 s s' hI hg
    have hiN : i < N := Nat.lt_of_lt_of_le i2 (chunkStart_le ..)
    obtain ⟨k1, k2⟩ := hkey i hiN
    unfold shuffleScatterStep at hg
    simp only [Option.bind_eq_bind, Option.bind_eq_some_iff] at hg
    obtain ⟨e, g1, b, g2, o, g3, w, g4, t1, g5, wo, g6, hg⟩ := hg
    injection hg with hg
    subst hg
    obtain rfl : edges.get i = e := (Arr.read_eq_some.mp g1).2
    rw [k1] at g2
    injection g2 with g2
    subst g2
    obtain ⟨k3, _⟩ := shuffleBin_bin k1
    have o1 := (Arr.read_eq_some.mp g3).2
    have w1 := (Arr.read_eq_some.mp g4).2
    have hpos : o + w = cntBelow key edges (key (edges.get i)) N + cntTo key edges (key (edges.get i)) i := by
      rw [← o1, ← w1, hoff t _ ht k2, hI t _ ht k2]
      unfold cntThread
      rw [Nat.min_eq_left (by omega), Nat.min_eq_right (by omega)]
      have := cntTo_mono (key := key) (edges := edges) (b := key (edges.get i)) i1
      omega
    have ow : scatOwn key edges R N T t (.woff, t * R + key (edges.get i)) := Or.inl ⟨rfl, _, k2, rfl⟩
    have ot : scatOwn key edges R N T t (.ted, o + w) := by
      refine Or.inr ⟨rfl, _, k2, ?_⟩
      show _ ≤ o + w ∧ o + w < _
      have m1 := cntTo_mono (key := key) (edges := edges) (b := key (edges.get i)) i1
      have m2 := cntTo_mono (key := key) (edges := edges) (b := key (edges.get i)) (show i + 1 ≤ chunkStart N T (t + 1) from i2)
      rw [cntTo_succ, if_pos rfl] at m2
      omega
    refine ⟨?_, ?_⟩
    · intro t' b ht' hb
      obtain ⟨_, rfl⟩ := Arr.write_eq_some.mp g6
      rw [Arr.upd_get, cntThread_succ ht i1 i2]
      by_cases hc : t' = t ∧ b = key (edges.get i)
      · rw [if_pos hc, hc.1, hc.2, if_pos rfl, ← w1, hI t _ ht k2]
      · rw [if_neg hc, if_neg (fun h => hc (idx_inj hb k2 h)), hI t' b ht' hb]
    · refine (Does.ld (k := ShufArr.edges) (Or.inr (by unfold shufShared2; simp)) (shufA edges hist off s) g1).bind ?_
      rw [k3]
      refine (Does.ld (k := ShufArr.off) (Or.inr (by unfold shufShared2; simp)) (shufA edges hist off s) g3).bind ?_
      refine (Does.ld (k := ShufArr.woff) (Or.inl ow) (shufA edges hist off s) g4).bind ?_
      refine (Does.st (k := ShufArr.ted) ot (A := shufA edges hist off s) (A' := shufA edges hist off (t1, s.2)) g5
        (by intro k' hk; cases k' <;> first | rfl | exact absurd rfl hk)).bind ?_
      exact Does.st (k := ShufArr.woff) ow (A := shufA edges hist off (t1, s.2)) (A' := shufA edges hist off (t1, wo)) g6
        (by intro k' hk; cases k' <;> first | rfl | exact absurd rfl hk)
  · intro t' b _ _
    rw [chunkStart_zero hT, cntThread_zero]

end shuffle

/-! ### DCSC tiles -/

theorem mapM_getElem {α β : Type} {f : α → Option β} : ∀ {l : List α} {ys : List β}, l.mapM f = some ys →
    ys.length = l.length ∧ ∀ i (h : i < l.length), ∃ y, ys[i]? = some y ∧ f l[i] = some y := by
  intro l
  induction l with
  | nil =>
    intro ys h
    injection h with h
    subst h
    exact ⟨rfl, by simp⟩
  | cons a l ih =>
    intro ys h
    rw [List.mapM_cons] at h
    simp only [Option.bind_eq_bind, Option.bind_eq_some_iff] at h
    obtain ⟨y, h1, zs, h2, h⟩ := h
    injection h with h
    subst h
    obtain ⟨k1, k2⟩ := ih h2
    refine ⟨by simp [k1], ?_⟩
    intro i hi
    cases i with
    | zero => exact ⟨y, rfl, h1⟩
    | succ i => simpa using k2 i (by simpa using hi)

theorem findPart_does {own shared : DcscArr × Nat → Prop} (hs : ∀ j, shared (.rp, j))
    {m : (l : DcscArr × Nat) → DcscArr.Ty E l.1} {rp : Arr Nat} (hm : ∀ j, m (.rp, j) = rp.get j) {s : Int} :
    ∀ {np p : Nat}, findPart rp s np = some p → Does own shared (findPartC (E := E) s np) m p m := by
  intro np
  induction np with
  | zero => intro p h; cases h
  | succ np ih =>
    intro p h
    unfold findPart at h
    simp only [Option.bind_eq_bind, Option.bind_eq_some_iff] at h
    obtain ⟨lo, h1, hi, h2, h⟩ := h
    unfold findPartC
    refine (Does.rdv (k := DcscArr.rp) (Or.inr (hs _)) ((hm np).trans (Arr.read_eq_some.mp h1).2)).bind ?_
    refine (Does.rdv (k := DcscArr.rp) (Or.inr (hs _)) ((hm (np + 1)).trans (Arr.read_eq_some.mp h2).2)).bind ?_
    split_ifs at h ⊢ with c1 c2
    · injection h with h
      subst h
      exact Does.pure _ _
    · exact ih h

theorem place_tasks {rp : Arr Nat} {np m n rs cst : Nat} {edges : List (Edge E)} {pe : List (TEdge E)}
    (h : edges.mapM (placeEdge rp np m n rs cst) = some pe) (ge : Nat → Edge E) (gp : Nat → TEdge E)
    (ep ncols cs : Arr Nat) (b : TileBuf E) :
    OneOutcome (parFor edges.length (placeC np rs cst))
      (arrMem (dcscA (arrFrom ge edges) rp ⟨edges.length, gp⟩ ep ncols cs b))
      (arrMem (dcscA (arrFrom ge edges) rp (arrFrom gp pe) ep ncols cs b)) (fun _ => ()) := by
  obtain ⟨h1, h2⟩ := mapM_getElem h
  refine parFor_map (fun k => k = DcscArr.ped) ?_ ?_
  · intro k j hk
    cases k <;> try rfl
    have hj : ¬ j < edges.length := fun hj => hk ⟨rfl, hj⟩
    show ((pe[j]?).getD (gp j) : TEdge E) = gp j
    rw [List.getElem?_eq_none (by omega)]
    rfl
  · intro i hi mm hm1 _
    obtain ⟨y, y1, y2⟩ := h2 i hi
    unfold placeEdge at y2
    simp only [Option.bind_eq_bind, Option.bind_eq_some_iff] at y2
    obtain ⟨p, y2, y3⟩ := y2
    split_ifs at y3
    injection y3 with y3
    refine ⟨Function.update mm (.ped, i) y, ?_, ?_⟩
    · unfold placeC
      refine (Does.rdv (k := DcscArr.edges) (v := edges[i]) (Or.inr (by simp)) ?_).bind ?_
      · rw [hm1 _ _ (by simp)]
        show ((edges[i]?).getD (ge i) : Edge E) = _
        rw [List.getElem?_eq_getElem hi]
        rfl
      · refine (findPart_does (by simp) (fun j => hm1 _ _ (by simp)) y2).bind ?_
        subst y3
        exact Does.wrv (k := DcscArr.ped) ⟨rfl, rfl⟩ _ _
    · rintro k rfl
      rw [Function.update_self]
      show y = (pe[i]?).getD (gp i)
      rw [y1]
      rfl

/-- The step of the counting loop. -/
abbrev countStep (S : List (TEdge E)) (eid : Nat) (st : Int × Nat) : Option (Int × Nat) :=
  (S[eid]?).bind fun e => if st.1 < e.dst then some ((e.dst : Int), st.2 + 1) else some st

theorem countCols_inv {S : List (TEdge E)} {ep : Arr Nat} {p k : Nat} (h : countCols S ep p = some k) :
    p + 1 < ep.size ∧ ∃ c, forLoop (ep.get p) (ep.get (p + 1)) ((-1 : Int), 0) (countStep S) = some (c, k) := by
  unfold countCols at h
  simp only [Option.bind_eq_bind, Option.bind_eq_some_iff] at h
  obtain ⟨lo, h1, hi, h2, st, h3, h⟩ := h
  injection h with h
  subst h
  obtain ⟨a1, a2⟩ := Arr.read_eq_some.mp h1
  obtain ⟨b1, b2⟩ := Arr.read_eq_some.mp h2
  subst a2 b2
  exact ⟨b1, st.1, h3⟩

theorem count_tasks {S : List (TEdge E)} {ep : Arr Nat} {np : Nat} {nc : List Nat}
    (h : (List.range np).mapM (countCols S ep) = some nc) (edges : Arr (Edge E)) (rp : Arr Nat) (gp : Nat → TEdge E)
    (gn : Nat → Nat) (cs : Arr Nat) (b : TileBuf E) :
    OneOutcome (parFor np countColsC) (arrMem (dcscA edges rp (arrFrom gp S) ep ⟨np, gn⟩ cs b))
      (arrMem (dcscA edges rp (arrFrom gp S) ep (arrFrom gn nc) cs b)) (fun _ => ()) := by
  obtain ⟨h1, h2⟩ := mapM_getElem h
  rw [List.length_range] at h1
  refine parFor_map (fun k => k = DcscArr.ncols) ?_ ?_
  · intro k j hk
    cases k <;> try rfl
    have hj : ¬ j < np := fun hj => hk ⟨rfl, hj⟩
    show ((nc[j]?).getD (gn j) : Nat) = gn j
    rw [List.getElem?_eq_none (by omega)]
    rfl
  · intro i hi mm hm1 _
    obtain ⟨y, y1, y2⟩ := h2 i (by rw [List.length_range]; exact hi)
    rw [List.getElem_range] at y2
    obtain ⟨_, c, y2⟩ := countCols_inv y2
    refine ⟨Function.update mm (.ncols, i) y, ?_, ?_⟩
    · unfold countColsC
      refine (Does.rdv (k := DcscArr.ep) (Or.inr (by simp)) (hm1 _ _ (by simp))).bind ?_
      refine (Does.rdv (k := DcscArr.ep) (Or.inr (by simp)) (hm1 _ _ (by simp))).bind ?_
      refine Does.bind (a := (c, y)) (m1 := mm) ?_ (Does.wrv (k := DcscArr.ncols) ⟨rfl, rfl⟩ _ _)
      refine (Does.forG (Grows.const _) (reg := fun s => s) (mem := fun _ => mm) ?_ y2).2
      intro eid _ _ s s' hg
      refine ⟨trivial, ?_⟩
      unfold countStep at hg
      rw [Option.bind_eq_some_iff] at hg
      obtain ⟨e, e1, hg⟩ := hg
      refine (Does.rdv (k := DcscArr.ped) (v := e) (Or.inr (by simp)) ?_).bind ?_
      · rw [hm1 _ _ (by simp)]
        show ((S[eid]?).getD (gp eid) : TEdge E) = _
        rw [e1]
        rfl
      · split_ifs at hg ⊢ <;> (injection hg with hg; subst hg; exact Does.pure _ _)
    · rintro k rfl
      rw [Function.update_self]
      show y = (nc[i]?).getD (gn i)
      rw [y1]
      rfl

theorem countStep_mono {S : List (TEdge E)} {lo hi : Nat} {s s' : Int × Nat} (h : forLoop lo hi s (countStep S) = some s') :
    s.2 ≤ s'.2 := by
  by_cases hle : hi ≤ lo
  · rw [forLoop_empty hle] at h
    injection h with h
    rw [h]
    exact Nat.le_refl _
  refine forLoop_some_inv (fun _ (t : Int × Nat) => s.2 ≤ t.2) (by omega) (Nat.le_refl _) ?_ h
  intro i t t' _ _ hg ht
  unfold countStep at hg
  rw [Option.bind_eq_some_iff] at hg
  obtain ⟨e, _, hg⟩ := hg
  split_ifs at hg <;> (injection hg with hg; subst hg; first | exact ht | exact Nat.le_succ_of_le ht)

/-- What iteration `p` of the filling loop owns. -/
def buildOwn (ep cs : Arr Nat) (p : Nat) (l : DcscArr × Nat) : Prop :=
  ((l.1 = .vals ∨ l.1 = .rowInds) ∧ ep.get p ≤ l.2 ∧ l.2 < ep.get (p + 1)) ∨
  ((l.1 = .colIdx ∨ l.1 = .colPtrs) ∧ cs.get p ≤ l.2 ∧ l.2 < cs.get (p + 1))

/-- The arrays that the filling loop only reads. -/
def buildShared (l : DcscArr × Nat) : Prop := l.1 ≠ .vals ∧ l.1 ≠ .rowInds ∧ l.1 ≠ .colIdx ∧ l.1 ≠ .colPtrs

theorem between_inj {f : Nat → Nat} {np i j x : Nat} (hf : ∀ a b, a ≤ b → b ≤ np → f a ≤ f b) (hi : i < np) (hj : j < np)
    (h1 : f i ≤ x) (h2 : x < f (i + 1)) (h3 : f j ≤ x) (h4 : x < f (j + 1)) : i = j := by
  rcases Nat.lt_trichotomy i j with h | h | h
  · have := hf (i + 1) j h (by omega); omega
  · exact h
  · have := hf (j + 1) i h (by omega); omega

theorem build_tasks {S : List (TEdge E)} {ep cs : Arr Nat} {np n : Nat} {nc : List Nat} {b b' : TileBuf E}
    (hep : ∀ i j, i ≤ j → j ≤ np → ep.get i ≤ ep.get j) (hcs : ∀ p, p < np → cs.get (p + 1) = cs.get p + (nc[p]?.getD 0 + 1))
    (hnc : (List.range np).mapM (countCols S ep) = some nc)
    (h : forLoop 0 np b (buildPart S ep cs n) = some b') (edges : Arr (Edge E)) (rp : Arr Nat) (gp : Nat → TEdge E)
    (ncols : Arr Nat) :
    OneOutcome (parFor np (buildC n)) (arrMem (dcscA edges rp (arrFrom gp S) ep ncols cs b))
      (arrMem (dcscA edges rp (arrFrom gp S) ep ncols cs b')) (fun _ => ()) := by
  obtain ⟨_, h2⟩ := mapM_getElem hnc
  have hcm : ∀ i j, i ≤ j → j ≤ np → cs.get i ≤ cs.get j := by
    intro i j hij
    induction hij with
    | refl => intro _; exact Nat.le_refl _
    | @step j hij ih => intro hj; have := ih (by omega); have := hcs j (by omega); rw [Nat.succ_eq_add_one]; omega
  refine parFor_outcome (own := buildOwn ep cs) (shared := buildShared)
    (mem := fun b => arrMem (dcscA edges rp (arrFrom gp S) ep ncols cs b)) ?_ ?_ ?_ h
  · rintro i j l hi hj (⟨k1, a1, a2⟩ | ⟨k1, a1, a2⟩) (⟨k2, c1, c2⟩ | ⟨k2, c1, c2⟩)
    · exact between_inj hep hi hj a1 a2 c1 c2
    · rcases k1 with k1 | k1 <;> rcases k2 with k2 | k2 <;> (rw [k1] at k2; cases k2)
    · rcases k1 with k1 | k1 <;> rcases k2 with k2 | k2 <;> (rw [k1] at k2; cases k2)
    · exact between_inj hcm hi hj a1 a2 c1 c2
  · rintro i l _ h1 ⟨h2, h3, h4, h5⟩
    rcases h1 with ⟨h1 | h1, _⟩ | ⟨h1 | h1, _⟩ <;> contradiction
  · intro p hp b b' hg
    obtain ⟨k, y1, y2⟩ := h2 p (by rw [List.length_range]; exact hp)
    rw [List.getElem_range] at y2
    obtain ⟨_, c, y2⟩ := countCols_inv y2
    have hc1 := hcs p hp
    rw [y1, Option.getD_some] at hc1
    unfold buildPart at hg
    simp only [Option.bind_eq_bind, Option.bind_eq_some_iff] at hg
    obtain ⟨lo, g1, hi, g2, c0, g3, c1, g4, st, g5, cp, g6, ci, g7, hg⟩ := hg
    injection hg with hg
    subst hg
    have e1 := (Arr.read_eq_some.mp g1).2
    have e2 := (Arr.read_eq_some.mp g2).2
    have e3 := (Arr.read_eq_some.mp g3).2
    have e4 := (Arr.read_eq_some.mp g4).2
    have hle := hep p (p + 1) (by omega) (by omega)
    rw [e1, e2] at y2 hle
    rw [e3, e4] at hc1
    unfold buildC
    refine (Does.ld (k := DcscArr.ep) (Or.inr (by simp [buildShared])) (dcscA edges rp (arrFrom gp S) ep ncols cs b) g1).bind ?_
    refine (Does.ld (k := DcscArr.ep) (Or.inr (by simp [buildShared])) (dcscA edges rp (arrFrom gp S) ep ncols cs b) g2).bind ?_
    refine (Does.ld (k := DcscArr.cs) (Or.inr (by simp [buildShared])) (dcscA edges rp (arrFrom gp S) ep ncols cs b) g3).bind ?_
    refine (Does.ld (k := DcscArr.cs) (Or.inr (by simp [buildShared])) (dcscA edges rp (arrFrom gp S) ep ncols cs b) g4).bind ?_
    have hloop := Does.forInv (own := buildOwn ep cs p) (shared := buildShared)
      (reg := fun st : TileBuf E × Int × Nat => st.2)
      (mem := fun st => arrMem (dcscA edges rp (arrFrom gp S) ep ncols cs st.1))
      (body := fun eid (r : Int × Nat) => do
        let e : TEdge E ← aload DcscArr.ped eid
        astore DcscArr.vals (lo + (eid - lo)) e.val
        astore DcscArr.rowInds (lo + (eid - lo)) e.src
        if r.1 < (e.dst : Int) then do
          astore DcscArr.colIdx (c0 + r.2) e.dst
          astore DcscArr.colPtrs (c0 + r.2) (eid - lo)
          pure ((e.dst : Int), r.2 + 1)
        else pure r)
      (fun i st => forLoop i hi st.2 (countStep S) = some (c, k)) hle (by
        intro eid i1 i2 s s' hI hg
        rw [forLoop_succ_left i2, Option.bind_eq_some_iff] at hI
        obtain ⟨t, t1, t2⟩ := hI
        unfold buildEdge at hg
        unfold countStep at t1
        simp only [Option.bind_eq_bind, Option.bind_eq_some_iff] at hg t1
        obtain ⟨e, q1, v, q2, ri, q3, hg⟩ := hg
        obtain ⟨e', q1', t1⟩ := t1
        rw [q1] at q1'
        injection q1' with q1'
        subst q1'
        have hmono := countStep_mono t2
        have oval : buildOwn ep cs p (.vals, lo + (eid - lo)) := Or.inl ⟨Or.inl rfl, by
          rw [e1, e2]; show lo ≤ lo + (eid - lo) ∧ lo + (eid - lo) < hi; omega⟩
        have orow : buildOwn ep cs p (.rowInds, lo + (eid - lo)) := Or.inl ⟨Or.inr rfl, by
          rw [e1, e2]; show lo ≤ lo + (eid - lo) ∧ lo + (eid - lo) < hi; omega⟩
        have hped : (dcscA edges rp (arrFrom gp S) ep ncols cs s.1 DcscArr.ped).read eid = some e := by
          rw [Arr.read_eq_some]
          refine ⟨(List.getElem?_eq_some_iff.mp q1).1, ?_⟩
          show ((S[eid]?).getD (gp eid) : TEdge E) = _
          rw [q1]
          rfl
        have d1 := Does.ld (own := buildOwn ep cs p) (shared := buildShared) (k := DcscArr.ped)
          (Or.inr (by simp [buildShared])) (dcscA edges rp (arrFrom gp S) ep ncols cs s.1) hped
        have d2 := Does.st (own := buildOwn ep cs p) (shared := buildShared) (k := DcscArr.vals) oval
          (A := dcscA edges rp (arrFrom gp S) ep ncols cs s.1)
          (A' := dcscA edges rp (arrFrom gp S) ep ncols cs { s.1 with vals := v }) q2
          (by intro k' hk; cases k' <;> first | rfl | exact absurd rfl hk)
        have d3 := Does.st (own := buildOwn ep cs p) (shared := buildShared) (k := DcscArr.rowInds) orow
          (A := dcscA edges rp (arrFrom gp S) ep ncols cs { s.1 with vals := v })
          (A' := dcscA edges rp (arrFrom gp S) ep ncols cs { s.1 with vals := v, rowInds := ri }) q3
          (by intro k' hk; cases k' <;> first | rfl | exact absurd rfl hk)
        by_cases hlt : s.2.1 < (e.dst : Int)
        · rw [if_pos hlt] at hg t1
          simp only [Option.bind_eq_some_iff] at hg
          obtain ⟨ci, r1, cp, r2, hg⟩ := hg
          injection hg with hg
          injection t1 with t1
          subst hg t1
          refine ⟨t2, ?_⟩
          refine d1.bind (d2.bind (d3.bind ?_))
          rw [if_pos hlt]
          simp only at hmono
          refine (Does.st (k := DcscArr.colIdx) (Or.inr ⟨Or.inl rfl, by
              rw [e3, e4]; show c0 ≤ c0 + s.2.2 ∧ c0 + s.2.2 < c1; omega⟩)
            (A := dcscA edges rp (arrFrom gp S) ep ncols cs { s.1 with vals := v, rowInds := ri })
            (A' := dcscA edges rp (arrFrom gp S) ep ncols cs { s.1 with vals := v, rowInds := ri, colIdx := ci }) r1
            (by intro k' hk; cases k' <;> first | rfl | exact absurd rfl hk)).bind ?_
          refine (Does.st (k := DcscArr.colPtrs) (Or.inr ⟨Or.inr rfl, by
              rw [e3, e4]; show c0 ≤ c0 + s.2.2 ∧ c0 + s.2.2 < c1; omega⟩)
            (A := dcscA edges rp (arrFrom gp S) ep ncols cs { s.1 with vals := v, rowInds := ri, colIdx := ci })
            (A' := dcscA edges rp (arrFrom gp S) ep ncols cs
              { vals := v, rowInds := ri, colIdx := ci, colPtrs := cp }) r2
            (by intro k' hk; cases k' <;> first | rfl | exact absurd rfl hk)).bind ?_
          exact Does.pure _ _
        · rw [if_neg hlt] at hg t1
          injection hg with hg
          injection t1 with t1
          subst hg t1
          refine ⟨t2, ?_⟩
          refine d1.bind (d2.bind (d3.bind ?_))
          rw [if_neg hlt]
          exact Does.pure _ _) y2 g5
    refine hloop.2.bind ?_
    have hlast : c0 ≤ c0 + (c1 - c0 - 1) ∧ c0 + (c1 - c0 - 1) < c1 := by omega
    refine (Does.st (k := DcscArr.colPtrs) (Or.inr ⟨Or.inr rfl, by rw [e3, e4]; exact hlast⟩)
      (A := dcscA edges rp (arrFrom gp S) ep ncols cs st.1)
      (A' := dcscA edges rp (arrFrom gp S) ep ncols cs { st.1 with colPtrs := cp }) g6
      (by intro k' hk; cases k' <;> first | rfl | exact absurd rfl hk)).bind ?_
    exact Does.st (k := DcscArr.colIdx) (Or.inr ⟨Or.inl rfl, by rw [e3, e4]; exact hlast⟩)
      (A := dcscA edges rp (arrFrom gp S) ep ncols cs { st.1 with colPtrs := cp })
      (A' := dcscA edges rp (arrFrom gp S) ep ncols cs { st.1 with colPtrs := cp, colIdx := ci }) g7
      (by intro k' hk; cases k' <;> first | rfl | exact absurd rfl hk)

end GraphMat

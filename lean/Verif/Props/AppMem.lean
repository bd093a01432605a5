import Verif.Lemmas.AppMem

/-!
# C73: the example programs release what the library allocates for them
-/
namespace GraphMat

/-- everything that happens in the supersteps of a program -/
def AppRun.steps : AppRun → List RunStep
  | .bfs s => s
  | .sssp s => s
  | .pageRank s t => s ++ t
  | .incPageRank s t => s ++ t
  | .triangles s t => s ++ t
  | .topSort _ s t => s ++ t
  | .sgd s t u => s ++ (t ++ u)
  | .lda s t u => s ++ (t ++ u)

/-- a step that neither fills the graph nor forgets anything -/
def GraphOp.Quiet (parts : Nat) (o : GraphOp) : Prop := o.fills = false ∧ o.forgets = 0 ∧ o.Fits parts

/-- every program reads the files first; what follows is quiet -/
theorem app_shape (parts : Nat) (i : RankIn) (a : AppRun) (ha : ∀ st ∈ a.steps, st.Fits parts) :
    ∃ ops, a.ops i = i.load :: ops ∧ ∀ o ∈ ops, o.Quiet parts := by
  have relabel : ∀ o ∈ i.relabel, o.Quiet parts := by
    intro o ho
    simp only [RankIn.relabel, List.mem_flatMap, List.mem_cons, List.not_mem_nil, or_false] at ho
    obtain ⟨j, -, rfl | rfl⟩ := ho <;> exact ⟨rfl, rfl, trivial⟩
  have assign : ∀ o ∈ i.assign, o.Quiet parts := by
    intro o ho
    simp only [RankIn.assign, List.mem_map] at ho
    obtain ⟨j, -, rfl⟩ := ho
    exact ⟨rfl, rfl, trivial⟩
  have print : ∀ o ∈ i.print, o.Quiet parts := by
    intro o ho
    simp only [RankIn.print, List.mem_map] at ho
    obtain ⟨j, -, rfl⟩ := ho
    exact ⟨rfl, rfl, trivial⟩
  have atSource : ∀ f : Nat → List GraphOp, (∀ j, ∀ o ∈ f j, o.Quiet parts) → ∀ o ∈ i.atSource f, o.Quiet parts := by
    intro f hf o ho
    unfold RankIn.atSource at ho
    cases hs : i.source with
    | none => rw [hs] at ho; cases ho
    | some j => rw [hs] at ho; exact hf j o ho
  have app : ∀ l l' : List GraphOp, (∀ o ∈ l, o.Quiet parts) → (∀ o ∈ l', o.Quiet parts) → ∀ o ∈ l ++ l', o.Quiet parts := by
    intro l l' h h' o ho
    rcases List.mem_append.1 ho with ho | ho
    · exact h o ho
    · exact h' o ho
  have cons : ∀ (o : GraphOp) (l : List GraphOp), o.Quiet parts → (∀ o ∈ l, o.Quiet parts) → ∀ p ∈ o :: l, p.Quiet parts := by
    intro o l h h' p hp
    rcases List.mem_cons.1 hp with rfl | hp
    · exact h
    · exact h' p hp
  have nil : ∀ o ∈ ([] : List GraphOp), o.Quiet parts := fun _ h => nomatch h
  have init : ∀ m, (GraphOp.init m).Quiet parts := fun _ => ⟨rfl, rfl, trivial⟩
  have setActive : GraphOp.setActive.Quiet parts := ⟨rfl, rfl, trivial⟩
  have setVp : GraphOp.setVp.Quiet parts := ⟨rfl, rfl, trivial⟩
  have reduce : GraphOp.reduce.Quiet parts := ⟨rfl, rfl, trivial⟩
  have clear : ∀ n, (GraphOp.clear n).Quiet parts := fun _ => ⟨rfl, rfl, trivial⟩
  have write : ∀ b j, (GraphOp.act b j .write).Quiet parts := fun _ _ => ⟨rfl, rfl, trivial⟩
  have read : ∀ b j, (GraphOp.act b j .read).Quiet parts := fun _ _ => ⟨rfl, rfl, trivial⟩
  have runWith : ∀ n b sts, (∀ st ∈ sts, st.Fits parts) → (GraphOp.runWith n b sts).Quiet parts := fun _ _ _ h => ⟨rfl, rfl, h⟩
  have run : ∀ m b sts, (∀ st ∈ sts, st.Fits parts) → (GraphOp.run m b sts).Quiet parts := fun _ _ _ h => ⟨rfl, rfl, h⟩
  have left : ∀ s t : List RunStep, (∀ st ∈ s ++ t, st.Fits parts) → ∀ st ∈ s, st.Fits parts :=
    fun _ _ h st hs => h st (List.mem_append_left _ hs)
  have right : ∀ s t : List RunStep, (∀ st ∈ s ++ t, st.Fits parts) → ∀ st ∈ t, st.Fits parts :=
    fun _ _ h st hs => h st (List.mem_append_right _ hs)
  cases a with
  | bfs s =>
    refine ⟨_, (by simp only [AppRun.ops, bfsOps, List.cons_append, List.nil_append, List.append_assoc]; rfl), ?_⟩
    refine app _ _ relabel (cons _ _ (init _) (cons _ _ setActive (app _ _ (atSource _ fun j => ?_)
      (cons _ _ (runWith _ _ _ ha) (cons _ _ (clear _) (cons _ _ reduce print))))))
    exact cons _ _ (read _ _) (cons _ _ (write _ _) (cons _ _ (write _ _) nil))
  | sssp s =>
    refine ⟨_, (by simp only [AppRun.ops, ssspOps, List.cons_append, List.nil_append, List.append_assoc]; rfl), ?_⟩
    refine cons _ _ (init _) (cons _ _ setVp (cons _ _ setActive (app _ _ (atSource _ fun j => ?_)
      (cons _ _ (runWith _ _ _ ha) (cons _ _ reduce (app _ _ print (cons _ _ (clear _) nil)))))))
    exact cons _ _ (write _ _) (cons _ _ (write _ _) nil)
  | pageRank s t =>
    refine ⟨_, (by simp only [AppRun.ops, pageRankOps, List.cons_append, List.nil_append]; rfl), ?_⟩
    exact cons _ _ (init _) (cons _ _ setActive (cons _ _ (runWith _ _ _ (left _ _ ha)) (cons _ _ (clear _) (cons _ _ (init _)
      (cons _ _ setActive (cons _ _ (runWith _ _ _ (right _ _ ha)) (cons _ _ (clear _) print)))))))
  | incPageRank s t =>
    refine ⟨_, (by simp only [AppRun.ops, incPageRankOps, List.cons_append, List.nil_append]; rfl), ?_⟩
    exact cons _ _ (init _) (cons _ _ setActive (cons _ _ (runWith _ _ _ (left _ _ ha)) (cons _ _ (clear _) (cons _ _ (init _)
      (cons _ _ setActive (cons _ _ (runWith _ _ _ (right _ _ ha)) (cons _ _ (clear _) print)))))))
  | triangles s t =>
    refine ⟨_, (by simp only [AppRun.ops, trianglesOps, List.cons_append, List.nil_append, List.append_assoc]; rfl), ?_⟩
    exact cons _ _ (init _) (cons _ _ (init _) (app _ _ relabel (cons _ _ (runWith _ _ _ (left _ _ ha))
      (cons _ _ (runWith _ _ _ (right _ _ ha)) (cons _ _ (clear _) (cons _ _ (clear _) (cons _ _ reduce print)))))))
  | topSort r s t =>
    refine ⟨_, (by simp only [AppRun.ops, topSortOps, List.cons_append, List.nil_append, List.append_assoc]; rfl), ?_⟩
    refine cons _ _ (init _) (cons _ _ (init _) (cons _ _ (runWith _ _ _ (left _ _ ha)) (cons _ _ setActive (app _ _ ?_
      (cons _ _ (runWith _ _ _ (right _ _ ha)) (cons _ _ (clear _) (cons _ _ (clear _) (cons _ _ reduce print))))))))
    intro o ho
    obtain ⟨v, -, ho⟩ := List.mem_flatMap.1 ho
    refine cons _ _ (read _ _) ?_ o ho
    split
    · exact cons _ _ (write _ _) (cons _ _ (write _ _) nil)
    · exact nil
  | sgd s t u =>
    refine ⟨_, (by simp only [AppRun.ops, sgdOps, List.cons_append, List.nil_append, List.append_assoc]; rfl), ?_⟩
    have hu := right _ _ ha
    exact cons _ _ (init _) (cons _ _ (init _) (app _ _ assign (cons _ _ setActive (cons _ _ (runWith _ _ _ (left _ _ ha))
      (cons _ _ reduce (cons _ _ setActive (cons _ _ (runWith _ _ _ (left _ _ hu)) (cons _ _ setActive
      (cons _ _ (runWith _ _ _ (right _ _ hu)) (cons _ _ (clear _) (cons _ _ (clear _) (cons _ _ reduce print))))))))))))
  | lda s t u =>
    refine ⟨_, (by simp only [AppRun.ops, ldaOps, List.cons_append, List.nil_append, List.append_assoc]; rfl), ?_⟩
    have hu := right _ _ ha
    exact app _ _ assign (cons _ _ setActive (cons _ _ (run _ _ _ (left _ _ ha)) (cons _ _ reduce (cons _ _ (init _)
      (cons _ _ setActive (cons _ _ (runWith _ _ _ (left _ _ hu)) (cons _ _ (clear _) (app _ _ print (cons _ _ setActive
      (cons _ _ (run _ _ _ (right _ _ hu)) (cons _ _ reduce nil)))))))))))

/-! ### Programs with one graph -/

/-- Each of the eight programs with one graph follows and releases nothing that is not live, whatever happens in its supersteps and
wherever its vertices are; at its end exactly one block is left on a rank whose files have no edges, and none on any other. -/
theorem app_leak (threads nrank parts : Nat) (hparts : parts ≤ threads * 16) (i : RankIn) (a : AppRun)
    (ha : ∀ st ∈ a.steps, st.Fits parts) (h : Heap) (hh : h.Ok) :
    ∃ h' M, graphLife threads nrank (a.ops i) h = some ((), h') ∧ h'.live.Perm (M ++ h.live) ∧
      M.length = if i.k = 0 then 1 else 0 := by
  obtain ⟨ops, e, hq⟩ := app_shape parts i a ha
  rw [e]
  have hf : ∀ o ∈ i.load :: ops, o.Fits parts := by
    intro o ho
    rcases List.mem_cons.1 ho with rfl | ho
    · exact trivial
    · exact (hq o ho).2.2
  obtain ⟨_, h', X, e', hX, M, hM, -, h2⟩ := graphLife_runs hparts nrank i.load ops rfl hf h.live h ⟨hh, List.Perm.refl _⟩
  refine ⟨h', M, e', hX.2.trans hM, ?_⟩
  rw [h2 (fun o ho => (hq o ho).1), List.map_cons, List.sum_cons]
  have h0 : ∀ l : List GraphOp, (∀ o ∈ l, o.Quiet parts) → (l.map GraphOp.forgets).sum = 0 := by
    intro l
    induction l with
    | nil => intro _; rfl
    | cons o l ih =>
      intro hl
      rw [List.map_cons, List.sum_cons, (hl o List.mem_cons_self).2.1, ih (fun p hp => hl p (List.mem_cons_of_mem _ hp))]
  rw [h0 ops hq, Nat.add_zero]
  show GraphOp.forgets (.readFile i.k i.cs i.ct i.mine) = _
  cases i.k <;> rfl

/-- a program whose number of forgotten blocks is known is balanced exactly if there are none -/
theorem balanced_iff_length {p : HeapM Unit} {n : Nat}
    (hp : ∀ h : Heap, h.Ok → ∃ h' M, p h = some ((), h') ∧ h'.live.Perm (M ++ h.live) ∧ M.length = n) : Balanced p ↔ n = 0 := by
  constructor
  · intro hb
    obtain ⟨h', M, e, hP, hM⟩ := hp ⟨0, []⟩ ⟨List.nodup_nil, by simp⟩
    obtain ⟨_, h'', e', hP'⟩ := hb ⟨0, []⟩ ⟨List.nodup_nil, by simp⟩
    rw [e] at e'
    cases e'
    have := (hP.symm.trans hP').length_eq
    rw [List.length_append] at this
    omega
  · rintro rfl h hh
    obtain ⟨h', M, e, hP, hM⟩ := hp h hh
    have : M = [] := List.eq_nil_of_length_eq_zero hM
    rw [this] at hP
    exact ⟨(), h', e, hP⟩

/-- On a rank all memory comes back exactly if the files of this rank have edges.  Missing: ranks without edges, where one array is
left (`app_leak`). -/
theorem app_memory_partial (threads nrank parts : Nat) (hparts : parts ≤ threads * 16) (i : RankIn) (a : AppRun)
    (ha : ∀ st ∈ a.steps, st.Fits parts) : Balanced (graphLife threads nrank (a.ops i)) ↔ 0 < i.k := by
  rw [balanced_iff_length (fun h hh => app_leak threads nrank parts hparts i a ha h hh)]
  split <;> omega

/-- rank 0 of two; seven vertices of this rank in one segment -/
def appRank : RankIn := ⟨9, [some 3, some 0, none, none], [some 2, some 5, none, none], [true, false], [0, 0, 0, 0, 0, 0, 0], some 0,
  [0, 0, 0, 0, 0]⟩

/-- one superstep: messages out, product, results in, vertices changed, and a reduction -/
def appSteps : List RunStep :=
  [.act .x 0 .clear, .act .y 0 .clear, .act .y 1 .clear, .act .x 0 .write, .act .x 0 (.ship .compressed),
   .act .x 1 (.fetch .serialized 32), .product true, .act .y 1 (.ship .dense), .act .y 0 (.collect [(.dense, 32)]),
   .act .vp 0 .write, .act .active 0 .write, .reduce]

theorem appSteps_fit : ∀ st ∈ appSteps, st.Fits 32 := by
  simp only [appSteps, List.forall_mem_cons]
  simp [RunStep.Fits, SegAct.Fits]

/-- latent Dirichlet allocation and topological sort give everything back on a rank with edges -/
example : Balanced (graphLife 2 2 ((AppRun.lda appSteps (appSteps ++ appSteps) appSteps).ops appRank)) :=
  (app_memory_partial 2 2 32 (by decide) appRank (.lda appSteps (appSteps ++ appSteps) appSteps) (by
    intro st hst
    simp only [AppRun.steps, List.mem_append] at hst
    exact appSteps_fit st (by tauto))).2 (by decide)
example : Balanced (graphLife 2 2 ((AppRun.topSort (· % 2 == 0) appSteps appSteps).ops appRank)) :=
  (app_memory_partial 2 2 32 (by decide) appRank (.topSort _ appSteps appSteps) (by
    intro st hst
    simp only [AppRun.steps, List.mem_append] at hst
    exact appSteps_fit st (by tauto))).2 (by decide)
/-- breadth-first search, run on the model: nothing left with edges, one block without -/
example : ((graphLife 2 2 ((AppRun.bfs appSteps).ops appRank)) ⟨0, []⟩).map (fun x => x.2.live.length) = some 0 := by
  decide +kernel
example : ((graphLife 2 2 ((AppRun.bfs appSteps).ops { appRank with k := 0 })) ⟨0, []⟩).map (fun x => x.2.live.length) = some 1 := by
  decide +kernel
/-- it does allocate: before the end of the function there are many blocks -/
example : ((runGraphOps 2 2 ((AppRun.bfs appSteps).ops appRank) (GraphMem.fresh, [])) ⟨0, []⟩).map (fun x => x.2.live.length) =
    some 49 := by decide +kernel

/-! ### Delta-stepping -/

theorem keptOf_zero (keep : Nat → Bool) (n : Nat) : keptOf keep n = 0 ↔ ∀ j, j < n → keep j = false := by
  unfold keptOf
  rw [List.countP_eq_zero]
  simp

/-- Delta-stepping works with two graphs that share the vertex properties and with three edge lists.  Nothing that is not live is
followed or released, in particular the shared properties are released once.  What is left on a rank is counted exactly: one array
if its files have no edges; otherwise one if none of its edges is light and one if none is heavy. -/
theorem delta_leak (threads nrank parts : Nat) (hparts : parts ≤ threads * 16) (w : Nat → Int) (delta : Int) (i heavy : RankIn)
    (rounds : List (List RunStep × List RunStep))
    (hr : ∀ r ∈ rounds, (∀ st ∈ r.1, st.Fits parts) ∧ ∀ st ∈ r.2, st.Fits parts) (h : Heap) (hh : h.Ok) :
    ∃ h' M, deltaMem threads nrank w delta i heavy rounds h = some ((), h') ∧ h'.live.Perm (M ++ h.live) ∧
      (i.k = 0 → M.length = 1) ∧
      (0 < i.k → (∃ j, j < i.k ∧ w j ≤ delta) → (∃ j, j < i.k ∧ delta < w j) → M.length = 0) ∧
      (0 < i.k → (∀ j, j < i.k → delta < w j) → M.length = 1) ∧
      (0 < i.k → (∀ j, j < i.k → w j ≤ delta) → M.length = 1) := by
  obtain ⟨_, h', X, e, hX, M, hM, hl⟩ := deltaMem_runs hparts nrank w delta i heavy rounds hr h.live h ⟨hh, List.Perm.refl _⟩
  have kl := keptOf_zero (fun n => decide (w n ≤ delta)) i.k
  have kh := keptOf_zero (fun n => decide (w n > delta)) i.k
  generalize hcl : keptOf (fun n => decide (w n ≤ delta)) i.k = cl at kl hl
  generalize hch : keptOf (fun n => decide (w n > delta)) i.k = ch at kh hl
  simp only [decide_eq_false_iff_not, Int.not_le, gt_iff_lt, Int.not_lt] at kl kh
  unfold emptied at hl
  refine ⟨h', M, e, hX.2.trans hM, ?_, ?_, ?_, ?_⟩
  · intro hk
    simp [hl, hk]
  · rintro hk ⟨a, ha, hwa⟩ ⟨b, hb, hwb⟩
    have h1 : cl ≠ 0 := fun h => absurd (kl.1 h a ha) (by omega)
    have h2 : ch ≠ 0 := fun h => absurd (kh.1 h b hb) (by omega)
    simp [hl, h1, h2, Nat.ne_of_gt hk]
  · intro hk hall
    have h1 : cl = 0 := kl.2 hall
    have h2 : ch ≠ 0 := fun h => absurd (kh.1 h 0 hk) (by have := hall 0 hk; omega)
    simp [hl, h1, h2, hk, Nat.ne_of_gt hk]
  · intro hk hall
    have h1 : ch = 0 := kh.2 hall
    have h2 : cl ≠ 0 := fun h => absurd (kl.1 h 0 hk) (by have := hall 0 hk; omega)
    simp [hl, h1, h2, hk, Nat.ne_of_gt hk]

/-- All memory comes back exactly if this rank has light edges and heavy edges.  Missing: ranks where one kind is missing, where
one array is left (`delta_leak`). -/
theorem delta_memory_partial (threads nrank parts : Nat) (hparts : parts ≤ threads * 16) (w : Nat → Int) (delta : Int)
    (i heavy : RankIn) (rounds : List (List RunStep × List RunStep))
    (hr : ∀ r ∈ rounds, (∀ st ∈ r.1, st.Fits parts) ∧ ∀ st ∈ r.2, st.Fits parts) :
    Balanced (deltaMem threads nrank w delta i heavy rounds) ↔
      (∃ j, j < i.k ∧ w j ≤ delta) ∧ ∃ j, j < i.k ∧ delta < w j := by
  have key := fun h hh => delta_leak threads nrank parts hparts w delta i heavy rounds hr h hh
  by_cases hl : ∃ j, j < i.k ∧ w j ≤ delta
  · by_cases hv : ∃ j, j < i.k ∧ delta < w j
    · have hk : 0 < i.k := by obtain ⟨j, hj, -⟩ := hl; omega
      simp only [hl, hv, and_self, iff_true]
      refine (balanced_iff_length (n := 0) (fun h hh => ?_)).2 rfl
      obtain ⟨h', M, e, hP, -, h2, -, -⟩ := key h hh
      exact ⟨h', M, e, hP, h2 hk hl hv⟩
    · simp only [hv, and_false, iff_false]
      rw [balanced_iff_length (n := 1) (fun h hh => ?_)]
      · decide
      obtain ⟨h', M, e, hP, h1, -, -, h4⟩ := key h hh
      refine ⟨h', M, e, hP, ?_⟩
      rcases Nat.eq_zero_or_pos i.k with hk | hk
      · exact h1 hk
      · refine h4 hk (fun j hj => ?_)
        rcases Int.lt_or_le delta (w j) with h | h
        · exact absurd ⟨j, hj, h⟩ hv
        · exact h
  · simp only [hl, false_and, iff_false]
    rw [balanced_iff_length (n := 1) (fun h hh => ?_)]
    · decide
    obtain ⟨h', M, e, hP, h1, -, h3, -⟩ := key h hh
    refine ⟨h', M, e, hP, ?_⟩
    rcases Nat.eq_zero_or_pos i.k with hk | hk
    · exact h1 hk
    · refine h3 hk (fun j hj => ?_)
      rcases Int.lt_or_le delta (w j) with h | h
      · exact h
      · exact absurd ⟨j, hj, h⟩ hl

/-- the tiles of the heavy edges -/
def appHeavy : RankIn := ⟨0, [some 0, some 1, none, none], [some 1, some 0, none, none], [true, false], [], none, []⟩

/-- weights 1 to 9, two rounds; up to 4 is light -/
example : Balanced (deltaMem 2 2 (fun j => j + 1) 4 appRank appHeavy [(appSteps, appSteps), (appSteps, [])]) :=
  (delta_memory_partial 2 2 32 (by decide) _ 4 appRank appHeavy _ (by
    intro r hr
    simp only [List.mem_cons, List.not_mem_nil, or_false] at hr
    rcases hr with rfl | rfl
    · exact ⟨appSteps_fit, appSteps_fit⟩
    · exact ⟨appSteps_fit, fun _ h => nomatch h⟩)).2 ⟨⟨0, by decide, by decide⟩, ⟨8, by decide, by decide⟩⟩
example : ((deltaMem 2 2 (fun j => j + 1) 4 appRank appHeavy [(appSteps, appSteps)]) ⟨0, []⟩).map (fun x => x.2.live.length) =
    some 0 := by decide +kernel
/-- with all edges light an array is left -/
example : ((deltaMem 2 2 (fun j => j + 1) 40 appRank appHeavy [(appSteps, appSteps)]) ⟨0, []⟩).map (fun x => x.2.live.length) =
    some 1 := by decide +kernel

/-- The claim itself is false: no program gives back all memory on a rank without edges, and delta-stepping does not either if all
edges of a rank are light. -/
theorem app_memory_false : (∀ (i : RankIn) (a : AppRun), i.k = 0 → a.steps = [] → ¬ Balanced (graphLife 1 1 (a.ops i))) ∧
    ∀ (w : Nat → Int) (delta : Int) (i heavy : RankIn), (∀ j, j < i.k → w j ≤ delta) → ¬ Balanced (deltaMem 1 1 w delta i heavy []) := by
  refine ⟨fun i a hk hs hb => ?_, fun w delta i heavy hw hb => ?_⟩
  · have := (app_memory_partial 1 1 16 (by decide) i a (by rw [hs]; exact fun _ h => nomatch h)).1 hb
    omega
  · obtain ⟨-, j, hj, h⟩ := (delta_memory_partial 1 1 16 (by decide) w delta i heavy [] (fun _ h => nomatch h)).1 hb
    have := hw j hj
    omega

/-- two graphs that both believed to own the shared vertex properties would release them twice -/
example : (do
    let g ← GraphMem.fresh.readEdgelist 2 2 appRank.cs appRank.ct appRank.mine
    let g2 ← GraphMem.fresh.readEdgelist 2 2 appHeavy.cs appHeavy.ct appHeavy.mine
    let g2 ← g.share g2
    ({ g2 with owner := true } : GraphMem).destroy
    g.destroy : HeapM Unit) ⟨0, []⟩ |>.isNone := by decide +kernel

end GraphMat

import Verif.Lemmas.ElMem
import Verif.Model.AppMem

namespace GraphMat

/-! ### Two graphs with the same vertex properties -/

/-- blocks of a graph without its vertex properties -/
def restBlocks (g : GraphMem) : List (Nat × Alloc) :=
  optBlocks (matBlocks DcscMem.blocks) g.A ++ (optBlocks (matBlocks DcscMem.blocks) g.AT ++ optBlocks vecBlocks g.active)

theorem graph_parts (g : GraphMem) : (graphBlocks g).Perm (optBlocks vecBlocks g.vp ++ restBlocks g) := by
  unfold graphBlocks restBlocks
  perm_parts

theorem Filled.sees {g g2 : GraphMem} {o o2 : Bool} (hg : Filled N g o) (hg2 : Filled N g2 o2) : Filled N (g.sees g2) o := by
  obtain ⟨A, AT, vp, act, rfl, hA, hAT, hvp, hact⟩ := hg
  obtain ⟨A2, AT2, vp2, act2, rfl, hA2, hAT2, hvp2, hact2⟩ := hg2
  exact ⟨A, AT, vp2, act, rfl, hA, hAT, hvp2, hact⟩

/-- the vertex properties go from one graph to the other -/
theorem hand_over (g g2 : GraphMem) (L : List (Nat × Alloc)) :
    (graphBlocks g ++ (restBlocks g2 ++ L)).Perm (graphBlocks (g2.sees g) ++ (restBlocks g ++ L)) := by
  refine ((graph_parts g).append_right _).trans (List.Perm.trans ?_ ((graph_parts (g2.sees g)).append_right _).symm)
  show List.Perm _ (optBlocks vecBlocks g.vp ++ restBlocks g2 ++ (restBlocks g ++ L))
  perm_parts

theorem share_runs {g g2 : GraphMem} (hg : Filled N g) (hg2 : Filled N g2) (L : List (Nat × Alloc)) :
    Runs (g.share g2) (graphBlocks g ++ (graphBlocks g2 ++ L)) (fun r X => Filled N r false ∧
      X.Perm (graphBlocks g ++ (restBlocks r ++ L))) := by
  obtain ⟨A, AT, vp, act, rfl, hA, hAT, hvp, hact⟩ := hg
  obtain ⟨A2, AT2, vp2, act2, rfl, hA2, hAT2, hvp2, hact2⟩ := hg2
  generalize hG : graphBlocks ⟨some A, some AT, some vp, some act, true⟩ = G
  show Runs (deleteVec vp2 >>= fun _ => pure _) _ _
  refine ((deleteVec_runs hvp2 (G ++ (matBlocks DcscMem.blocks A2 ++ (matBlocks DcscMem.blocks AT2 ++ (vecBlocks act2 ++ L))))).perm
    (by rw [graphBlocks_some]; perm_parts)).bind ?_
  intro _ X hX
  refine Runs.pure ⟨⟨A2, AT2, vp, act2, rfl, hA2, hAT2, hvp, hact2⟩, hX.trans ?_⟩
  show List.Perm _ (G ++ ((matBlocks DcscMem.blocks A2 ++ (matBlocks DcscMem.blocks AT2 ++ vecBlocks act2)) ++ L))
  perm_parts

/-- a graph that does not own its vertex properties leaves them -/
theorem destroy_borrowed {g : GraphMem} (hg : Filled N g false) (L : List (Nat × Alloc)) :
    Runs g.destroy (restBlocks g ++ L) (fun _ X => X.Perm L) := by
  obtain ⟨A, AT, vp, act, rfl, hA, hAT, hvp, hact⟩ := hg
  show Runs (deleteMat dcscClass A >>= fun _ => deleteMat dcscClass AT >>= fun _ => pure () >>= fun _ => deleteVec act)
    ((matBlocks DcscMem.blocks A ++ (matBlocks DcscMem.blocks AT ++ vecBlocks act)) ++ L) _
  refine ((deleteMat_runs dcsc_contract A (matBlocks DcscMem.blocks AT ++ (vecBlocks act ++ L)) hA).perm
    (by perm_parts)).bind ?_
  intro _ X hX
  refine ((deleteMat_runs dcsc_contract AT _ hAT).perm hX).bind ?_
  intro _ Y hY
  rw [pure_bind]
  exact (deleteVec_runs hact L).perm hY

theorem deltaRound_runs {threads : Nat} (hN : N ≤ threads * 16) (light heavy : List RunStep) (hl : ∀ st ∈ light, st.Fits N)
    (hh : ∀ st ∈ heavy, st.Fits N) (s : (GraphMem × GraphMem) × TempMem) (hg : Filled N s.1.1) (hg2 : Filled N s.1.2 false)
    (ht : TempGood N s.2) (L : List (Nat × Alloc)) :
    Runs (deltaRound threads light heavy s) (graphBlocks s.1.1 ++ (restBlocks s.1.2 ++ (tempBlocks s.2 ++ L)))
      (fun r X => Filled N r.1.1 ∧ Filled N r.1.2 false ∧ TempGood N r.2 ∧
        X.Perm (graphBlocks r.1.1 ++ (restBlocks r.1.2 ++ (tempBlocks r.2 ++ L)))) := by
  obtain ⟨⟨g, g2⟩, t⟩ := s
  dsimp only at hg hg2 ht
  unfold deltaRound
  dsimp only
  refine (setAllActive_runs hN hg _).bind ?_
  rintro a X ⟨ha, -, hX⟩
  refine ((runWith_runs hN false light hl ht ha (restBlocks g2 ++ L)).perm (hX.trans (by perm_parts))).bind ?_
  rintro ⟨b, t1⟩ Y ⟨hb, ht1, -, hY⟩
  dsimp only at hb ht1 hY ⊢
  have hY' : Y.Perm (graphBlocks (g2.sees b) ++ (restBlocks b ++ (tempBlocks t1 ++ L))) :=
    (hY.trans (by perm_parts)).trans (hand_over b g2 (tempBlocks t1 ++ L))
  refine ((setAllActive_runs hN (hg2.sees hb) _).perm hY').bind ?_
  rintro c Z ⟨hc, -, hZ⟩
  refine ((runWith_runs hN false heavy hh ht1 hc (restBlocks b ++ L)).perm (hZ.trans (by perm_parts))).bind ?_
  rintro ⟨d, t2⟩ W ⟨hd, ht2, -, hW⟩
  dsimp only at hd ht2 hW ⊢
  have hW' : W.Perm (graphBlocks (b.sees d) ++ (restBlocks d ++ (tempBlocks t2 ++ L))) :=
    (hW.trans (by perm_parts)).trans (hand_over d b (tempBlocks t2 ++ L))
  refine ((reduce_runs hN (hb.sees hd) _).perm hW').bind ?_
  rintro r V ⟨hr, -, hV⟩
  exact Runs.pure ⟨hr, hd.sees hr, ht2, hV⟩

theorem deltaRounds_runs {threads : Nat} (hN : N ≤ threads * 16) (L : List (Nat × Alloc)) :
    ∀ (rounds : List (List RunStep × List RunStep)) (_ : ∀ r ∈ rounds, (∀ st ∈ r.1, st.Fits N) ∧ ∀ st ∈ r.2, st.Fits N)
      (s : (GraphMem × GraphMem) × TempMem), Filled N s.1.1 → Filled N s.1.2 false → TempGood N s.2 →
    Runs (deltaRounds threads rounds s) (graphBlocks s.1.1 ++ (restBlocks s.1.2 ++ (tempBlocks s.2 ++ L)))
      (fun r X => Filled N r.1.1 ∧ Filled N r.1.2 false ∧ TempGood N r.2 ∧
        X.Perm (graphBlocks r.1.1 ++ (restBlocks r.1.2 ++ (tempBlocks r.2 ++ L)))) := by
  intro rounds
  induction rounds with
  | nil => exact fun _ s hg hg2 ht => Runs.pure ⟨hg, hg2, ht, List.Perm.refl _⟩
  | cons r rs ih =>
    intro hr s hg hg2 ht
    obtain ⟨h1, h2⟩ := hr r List.mem_cons_self
    refine (deltaRound_runs hN r.1 r.2 h1 h2 s hg hg2 ht L).bind ?_
    rintro q X ⟨hq, hq2, htq, hX⟩
    exact (ih (fun x hx => hr x (List.mem_cons_of_mem _ hx)) q hq hq2 htq).perm hX

theorem vpAct_runs {threads : Nat} (hN : N ≤ threads * 16) (j : Nat) (a : SegAct) (ha : a.Fits N) {g : GraphMem} (hg : Filled N g)
    (L : List (Nat × Alloc)) :
    Runs (need g.vp >>= fun v => vecAct threads j a v) (graphBlocks g ++ L) (fun v X => Filled N { g with vp := some v } ∧
      X.Perm (graphBlocks { g with vp := some v } ++ L)) := by
  obtain ⟨A, AT, vp, act, rfl, hA, hAT, hvp, hact⟩ := hg
  show Runs (pure vp >>= fun v => vecAct threads j a v) _ _
  rw [pure_bind]
  refine ((vecAct_runs hN j a ha hvp (matBlocks DcscMem.blocks A ++ (matBlocks DcscMem.blocks AT ++ (vecBlocks act ++ L)))).perm
    (by rw [graphBlocks_some]; perm_parts)).mono ?_
  rintro w X ⟨hw, -, hX⟩
  refine ⟨⟨A, AT, w, act, rfl, hA, hAT, hw, hact⟩, hX.trans ?_⟩
  dsimp only
  rw [graphBlocks_some]
  perm_parts

theorem activeAct_runs {threads : Nat} (hN : N ≤ threads * 16) (j : Nat) (a : SegAct) (ha : a.Fits N) {g : GraphMem}
    (hg : Filled N g) (L : List (Nat × Alloc)) :
    Runs (need g.active >>= fun v => vecAct threads j a v) (graphBlocks g ++ L) (fun v X => Filled N { g with active := some v } ∧
      X.Perm (graphBlocks { g with active := some v } ++ L)) := by
  obtain ⟨A, AT, vp, act, rfl, hA, hAT, hvp, hact⟩ := hg
  show Runs (pure act >>= fun v => vecAct threads j a v) _ _
  rw [pure_bind]
  refine ((vecAct_runs hN j a ha hact (matBlocks DcscMem.blocks A ++ (matBlocks DcscMem.blocks AT ++ (vecBlocks vp ++ L)))).perm
    (by rw [graphBlocks_some]; perm_parts)).mono ?_
  rintro w X ⟨hw, -, hX⟩
  refine ⟨⟨A, AT, vp, w, rfl, hA, hAT, hvp, hw⟩, hX.trans ?_⟩
  dsimp only
  rw [graphBlocks_some]
  perm_parts

theorem readVp_runs {threads : Nat} (hN : N ≤ threads * 16) (L : List (Nat × Alloc)) :
    ∀ (js : List Nat) (g : GraphMem), Filled N g →
    Runs (readVp threads js g) (graphBlocks g ++ L) (fun r X => Filled N r ∧ X.Perm (graphBlocks r ++ L)) := by
  intro js
  induction js with
  | nil => exact fun g hg => Runs.pure ⟨hg, List.Perm.refl _⟩
  | cons j js ih =>
    intro g hg
    show Runs (need g.vp >>= fun v => vecAct threads j .read v >>= fun v => readVp threads js { g with vp := some v }) _ _
    rw [← bind_assoc]
    refine (vpAct_runs hN j .read trivial hg L).bind ?_
    rintro v X ⟨hv, hX⟩
    exact (ih _ hv).perm hX

theorem deltaSource_runs {threads : Nat} (hN : N ≤ threads * 16) (src : Option Nat) {g : GraphMem} (hg : Filled N g)
    (L : List (Nat × Alloc)) :
    Runs (deltaSource threads src g) (graphBlocks g ++ L) (fun r X => Filled N r ∧ X.Perm (graphBlocks r ++ L)) := by
  cases src with
  | none => exact Runs.pure ⟨hg, List.Perm.refl _⟩
  | some j =>
    show Runs (need g.vp >>= fun v => vecAct threads j .write v >>= fun v => need g.active >>= fun a =>
      vecAct threads j .write a >>= fun a => pure _) _ _
    rw [← bind_assoc]
    refine (vpAct_runs hN j .write trivial hg L).bind ?_
    rintro v X ⟨hv, hX⟩
    rw [← bind_assoc]
    refine ((activeAct_runs hN j .write trivial hv L).perm hX).bind ?_
    rintro a Y ⟨ha, hY⟩
    exact Runs.pure ⟨ha, hY⟩

/-! ### Delta-stepping -/

theorem deltaMem_runs {threads : Nat} (hN : N ≤ threads * 16) (nrank : Nat) (w : Nat → Int) (delta : Int) (i heavy : RankIn)
    (rounds : List (List RunStep × List RunStep)) (hr : ∀ r ∈ rounds, (∀ st ∈ r.1, st.Fits N) ∧ ∀ st ∈ r.2, st.Fits N)
    (L : List (Nat × Alloc)) :
    Runs (deltaMem threads nrank w delta i heavy rounds) L (fun _ X => ∃ M : List (Nat × Alloc), X.Perm (M ++ L) ∧
      M.length = (if i.k = 0 then 1 else 0) + (emptied i.k (keptOf (fun n => decide (w n ≤ delta)) i.k) +
        emptied i.k (keptOf (fun n => decide (w n > delta)) i.k))) := by
  generalize hkl : (fun n => decide (w n ≤ delta)) = kl
  generalize hkh : (fun n => decide (w n > delta)) = kh
  unfold deltaMem
  rw [hkl, hkh]
  have h0 : ElGood ElMem.fresh := fun h => absurd h (by decide)
  refine ((loadEl_does i.k ElMem.fresh L h0).perm (show L.Perm (elBlocks ElMem.fresh ++ L) from List.Perm.refl _)).bind ?_
  rintro e X1 ⟨he, hn, M1, hM1, hX1⟩
  refine (filterEdges_runs kl he (fun x hx => hX1.mem_iff.2 (List.mem_append_left _ hx))).bind ?_
  rintro l X2 ⟨hl, -, M2, hM2, hX2⟩
  have hX2' : X2.Perm (elBlocks e ++ (elBlocks l ++ (M2 ++ (M1 ++ L)))) :=
    (hX2.trans ((hX1.append_left _).append_left _)).trans (by perm_parts)
  refine (filterEdges_runs kh he (fun x hx => hX2'.mem_iff.2 (List.mem_append_left _ hx))).bind ?_
  rintro h X3 ⟨hh, -, M3, hM3, hX3⟩
  have hX3' : X3.Perm (elBlocks e ++ (elBlocks h ++ (elBlocks l ++ (M3 ++ (M2 ++ (M1 ++ L)))))) :=
    (hX3.trans ((hX2'.append_left _).append_left _)).trans (by perm_parts)
  refine ((clear_runs he _).perm hX3').bind ?_
  rintro _ _ ⟨-, rfl⟩
  obtain ⟨M, hMe⟩ : ∃ M, M = M3 ++ (M2 ++ M1) := ⟨_, rfl⟩
  have hML : M3 ++ (M2 ++ (M1 ++ L)) = M ++ L := by rw [hMe]; simp
  rw [hML]
  refine (visit_runs hl (by simp +contextual)).bind ?_
  rintro _ _ rfl
  refine (readEdgelist_runs hN nrank i.cs i.ct i.mine _ _).bind ?_
  rintro g X4 ⟨hg, -, hX4⟩
  refine (visit_runs hh (fun x hx => hX4.mem_iff.2 (by simp [hx]))).bind ?_
  rintro _ X4 rfl
  refine (readEdgelist_runs hN nrank heavy.cs heavy.ct heavy.mine _ _).bind ?_
  rintro g2 X5 ⟨hg2, -, hX5⟩
  have hX5' : X5.Perm (elBlocks l ++ (elBlocks h ++ (graphBlocks g ++ (graphBlocks g2 ++ (M ++ L))))) :=
    (hX5.trans (hX4.append_left _)).trans (by perm_parts)
  refine ((clear_runs hl _).perm hX5').bind ?_
  rintro _ _ ⟨-, rfl⟩
  refine (clear_runs hh _).bind ?_
  rintro _ _ ⟨-, rfl⟩
  refine (share_runs hg hg2 (M ++ L)).bind ?_
  rintro g2 X6 ⟨hg2, hX6⟩
  refine (newTemps_runs hN i.mine _).bind ?_
  rintro t X7 ⟨ht, hX7⟩
  have hX7' : X7.Perm (graphBlocks g ++ (restBlocks g2 ++ (tempBlocks t ++ (M ++ L)))) :=
    (hX7.trans (hX6.append_left _)).trans (by perm_parts)
  refine ((setAllActive_runs hN hg _).perm hX7').bind ?_
  rintro g X8 ⟨hg, -, hX8⟩
  refine ((deltaSource_runs hN i.source hg _).perm hX8).bind ?_
  rintro g X9 ⟨hg, hX9⟩
  refine ((deltaRounds_runs hN (M ++ L) rounds hr ((g, g2.sees g), t) hg (hg2.sees hg) ht).perm hX9).bind ?_
  rintro ⟨⟨g, g2⟩, t⟩ X10 ⟨hg, hg2, ht, hX10⟩
  dsimp only at hg hg2 ht hX10 ⊢
  refine ((deleteTemps_runs ht (graphBlocks g ++ (restBlocks g2 ++ (M ++ L)))).perm (hX10.trans (by perm_parts))).bind ?_
  intro _ X11 hX11
  refine ((reduce_runs hN hg _).perm hX11).bind ?_
  rintro g X12 ⟨hg, -, hX12⟩
  refine ((readVp_runs hN _ i.printed g hg).perm hX12).bind ?_
  rintro g X13 ⟨hg, hX13⟩
  refine ((destroy_borrowed (hg2.sees hg) (graphBlocks g ++ (M ++ L))).perm (hX13.trans ?_)).bind ?_
  · show List.Perm _ (restBlocks g2 ++ _)
    perm_parts
  intro _ X14 hX14
  refine ((destroy_runs hg _).perm hX14).mono ?_
  intro _ X15 hX15
  refine ⟨M, hX15, ?_⟩
  rw [hMe, List.length_append, List.length_append, hM1, hM2, hM3, hn]
  simp only [show ElMem.fresh.nnz = 0 from rfl, Nat.lt_irrefl, if_false]
  omega

end GraphMat

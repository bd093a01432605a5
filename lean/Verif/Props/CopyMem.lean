import Verif.Model.CopyMem
import Verif.Props.GraphMem

/-!
# C79: copies of graphs
-/
namespace GraphMat

/-- The step follows a pointer of the graph before anything else. -/
def GraphOp.follows : GraphOp → Bool
  | .archive => true
  | .setActive => true
  | .setVp => true
  | .vertices _ => true
  | .reduce => true
  | .edges => true
  | .save .. => true
  | _ => false

/-- the block is not live -/
def Dead (h : Heap) (p : Ptr) : Prop := ∃ b, p = .block b ∧ b ∉ h.live.map Prod.fst

theorem follow_dead {h : Heap} {p : Ptr} (hp : Dead h p) {α : Type} (f : Unit → HeapM α) : (touch p >>= f) h = none := by
  obtain ⟨b, rfl, hb⟩ := hp
  show ((if b ∈ h.live.map Prod.fst then some ((), h) else none : Option (Unit × Heap)).bind fun x => f x.1 x.2) = none
  rw [if_neg hb]
  rfl

theorem bind_none {α β : Type} {p : HeapM α} {f : α → HeapM β} {h : Heap} (hp : p h = none) : (p >>= f) h = none := by
  show (p h).bind (fun x => f x.1 x.2) = none
  rw [hp]; rfl

/-- `destroy` leaves the blocks of the graph dead. -/
theorem destroy_dead {N : Nat} {g : GraphMem} (hg : Filled N g) {L : List (Nat × Alloc)} {h : Heap}
    (hh : h.Has (graphBlocks g ++ L)) : ∃ h', g.destroy h = some ((), h') ∧ ∀ b ∈ graphBlocks g, Dead h' (.block b.1) := by
  obtain ⟨_, h', L', e, hL', hP⟩ := destroy_runs hg L h hh
  refine ⟨h', e, ?_⟩
  intro b hb
  refine ⟨b.1, rfl, ?_⟩
  intro hc
  have h1 : (h'.live.map Prod.fst).Perm (L.map Prod.fst) := (hL'.2.trans hP).map _
  have h2 : b.1 ∈ L.map Prod.fst := h1.subset hc
  have h3 : ((graphBlocks g ++ L).map Prod.fst).Nodup := (hh.2.map Prod.fst).nodup_iff.1 hh.1.1
  rw [List.map_append, List.nodup_append] at h3
  exact h3.2.2 b.1 (List.mem_map_of_mem hb) b.1 h2 rfl

/-- C79 is false of every graph that was filled: after any history, a copy of the graph can be made and destroyed (as for
an argument passed by value), but then the original can neither be destroyed nor used: released memory is followed. -/
theorem graph_copy_dangles (threads nrank parts : Nat) (op : GraphOp) (ops : List GraphOp) (hparts : parts ≤ threads * 16)
    (hop : op.fills = true) (hf : ∀ o ∈ op :: ops, o.Fits parts) (h : Heap) (hh : h.Ok) :
    ∃ s h1 h2, runGraphOps threads nrank (op :: ops) (GraphMem.fresh, []) h = some (s, h1) ∧
      s.1.copy.destroy h1 = some ((), h2) ∧ s.1.destroy h2 = none ∧
      ∀ o : GraphOp, o.follows = true → o.exec threads nrank s h2 = none := by
  have hruns : Runs (runGraphOps threads nrank (op :: ops) (GraphMem.fresh, [])) h.live
      (fun s X => Filled parts s.1 ∧ ∃ M : List (Nat × Alloc), X.Perm (graphBlocks s.1 ++ M)) := by
    show Runs (op.exec threads nrank (GraphMem.fresh, []) >>= fun s => runGraphOps threads nrank ops s) _ _
    refine (fills_runs hparts nrank op hop _ _).bind ?_
    rintro s X ⟨hs, he, hcost, M, hX, hM⟩
    have hX' : X.Perm (graphBlocks s.1 ++ (tempsBlocks s.2 ++ (M ++ h.live))) := by
      rw [he]
      exact hX
    refine ((graphOps_runs hparts nrank ops (fun o ho => hf o (List.mem_cons_of_mem _ ho)) s hs (by rw [he]; simp) op.cost
      (Nat.le_of_eq hcost.symm) _).perm hX').mono ?_
    rintro r Y ⟨hr, htr, M', hY, _, _⟩
    exact ⟨hr, _, hY⟩
  obtain ⟨s, h1, L, e1, hL, hs, M, hM⟩ := hruns h ⟨hh, List.Perm.refl _⟩
  obtain ⟨h2, e2, hdead⟩ := destroy_dead hs (L := M) (h := h1) ⟨hL.1, hL.2.trans hM⟩
  refine ⟨s, h1, h2, e1, e2, ?_⟩
  obtain ⟨A, AT, vp, act, hg, hA, hAT, hvp, hact⟩ := hs
  have dA : Dead h2 A.1 := by
    obtain ⟨b, hb⟩ := hA.1
    rw [hb]
    exact hdead (b, .newObj) (by rw [hg, graphBlocks_some]; simp [matBlocks, hb, own])
  have dvp : Dead h2 vp.1 := by
    obtain ⟨b, hb⟩ := hvp.1
    rw [hb]
    exact hdead (b, .newObj) (by rw [hg, graphBlocks_some]; simp [vecBlocks, hb, own])
  have dact : Dead h2 act.1 := by
    obtain ⟨b, hb⟩ := hact.1
    rw [hb]
    exact hdead (b, .newObj) (by rw [hg, graphBlocks_some]; simp [vecBlocks, hb, own])
  obtain ⟨g, ts⟩ := s
  simp only at hg
  subst hg
  have dedges : ∀ k, GraphMem.getVertexEdgelist k ⟨some A, some AT, some vp, some act, true⟩ h2 = none := by
    intro k
    show vecEdges k vp h2 = none
    exact follow_dead dvp _
  refine ⟨bind_none (follow_dead dA _), ?_⟩
  intro o ho
  cases o with
  | archive => exact bind_none (bind_none (follow_dead dA _))
  | setActive =>
    have : vecSetAll threads act h2 = none := follow_dead dact _
    refine bind_none ?_
    unfold GraphMem.setAllActive need
    simp only [pure_bind]
    exact bind_none this
  | setVp =>
    have : vecSetAll threads vp h2 = none := follow_dead dvp _
    refine bind_none ?_
    unfold GraphMem.setAllVp need
    simp only [pure_bind]
    exact bind_none this
  | vertices k => exact bind_none (dedges k)
  | reduce =>
    have : vecReduce threads vp h2 = none := follow_dead dvp _
    refine bind_none ?_
    unfold GraphMem.reduce need
    simp only [pure_bind]
    exact bind_none this
  | edges =>
    have : matEdges dcscClass A h2 = none := follow_dead dA _
    exact bind_none (p := matEdges dcscClass A) this
  | save k r hit cap mine => exact bind_none (bind_none (dedges k))
  | _ => cases ho

example : GraphOp.fills (.read [some 3, some 0, none, none] [some 2, some 5, none, none] [true, false]) = true ∧
    ∀ o ∈ ([.read [some 3, some 0, none, none] [some 2, some 5, none, none] [true, false], .setActive] : List GraphOp), o.Fits 32 := by
  refine ⟨rfl, ?_⟩
  simp only [List.forall_mem_cons]
  simp [GraphOp.Fits]

/-- C79 for graphs that were never filled: any number of copies can be made and destroyed.  Missing: graphs that were filled. -/
theorem graph_copy_partial (k : Nat) : Balanced ((List.replicate k GraphMem.fresh.copy).mapM GraphMem.destroy) := by
  intro h hh
  refine ⟨List.replicate k (), h, ?_, List.Perm.refl _⟩
  induction k with
  | zero => rfl
  | succ k ih =>
    rw [List.replicate_succ, List.mapM_cons]
    show ((List.replicate k GraphMem.fresh.copy).mapM GraphMem.destroy h).bind
      (fun x => some (() :: x.1, x.2)) = _
    rw [ih]
    rfl

/-- Filling the original after copying is fine too: the copy keeps its null pointers. -/
theorem graph_copy_before_fill (threads nrank parts : Nat) (op : GraphOp) (ops : List GraphOp) (hparts : parts ≤ threads * 16)
    (hop : op.fills = true) (hops : ∀ o ∈ ops, o.fills = false) (hf : ∀ o ∈ op :: ops, o.Fits parts)
    (hz : ∀ o ∈ op :: ops, o.forgets = 0) :
    Balanced (graphLife threads nrank (op :: ops) >>= fun _ => GraphMem.fresh.copy.destroy) := by
  intro h hh
  obtain ⟨a, h', e, hp⟩ := graph_memory_partial threads nrank parts op ops hparts hop hops hf hz h hh
  refine ⟨(), h', ?_, hp⟩
  show (graphLife threads nrank (op :: ops) h).bind (fun x => GraphMem.fresh.copy.destroy x.2) = _
  rw [e]
  rfl

example : Balanced (graphLife 2 2 graphDemo >>= fun _ => GraphMem.fresh.copy.destroy) :=
  graph_copy_before_fill 2 2 32 _ _ (by decide) rfl (by decide) (by
    simp only [List.forall_mem_cons]
    simp [GraphOp.Fits, RunStep.Fits, SegAct.Fits]
    omega) (by decide)

end GraphMat

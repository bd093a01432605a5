import Verif.Lemmas.GraphMem

/-!
# C63: a graph releases its memory exactly once
-/
namespace GraphMat

/-! ### Memory comes back -/

/-- A program that fills a graph once and then does with it whatever it likes — setting, fetching, reducing, running graph programs with and
without temporary structures, archiving — follows and releases nothing that is not live, and at its end, when temporary structures
are cleared and the graph goes out of scope, nothing is left.  Missing: filling a graph again, `saveVertexproperty`, and
`ReadMTX` on a rank without edges, all of which forget memory (`graph_leak`); messages made with more partitions than there are here
(`message_overrun`); graphs that share vertex properties (C47). -/
theorem graph_memory_partial (threads nrank parts : Nat) (op : GraphOp) (ops : List GraphOp) (hparts : parts ≤ threads * 16)
    (hop : op.fills = true) (hops : ∀ o ∈ ops, o.fills = false) (hf : ∀ o ∈ op :: ops, o.Fits parts)
    (hz : ∀ o ∈ op :: ops, o.forgets = 0) : Balanced (graphLife threads nrank (op :: ops)) := by
  refine Runs.balanced (fun L => ?_)
  refine (graphLife_runs hparts nrank op ops hop hf L).mono ?_
  rintro _ X ⟨M, hX, -, hM⟩
  have h0 : ((op :: ops).map GraphOp.forgets).sum = 0 := by
    have : ∀ l : List Nat, (∀ x ∈ l, x = 0) → l.sum = 0 := by
      intro l
      induction l with
      | nil => intro _; rfl
      | cons a l ih =>
        intro hl
        rw [List.sum_cons, hl a List.mem_cons_self, ih (fun x hx => hl x (List.mem_cons_of_mem _ hx))]
    refine this _ ?_
    intro x hx
    obtain ⟨o, ho, rfl⟩ := List.mem_map.1 hx
    exact hz o ho
  have : M = [] := List.eq_nil_of_length_eq_zero ((hM hops).trans h0)
  rw [this] at hX
  exact hX

/-- a program on rank 0 of two with two threads: two graph programs, one with a temporary structure -/
def graphDemo : List GraphOp :=
  [.readFile 9 [some 3, some 0, none, none] [some 2, some 5, none, none] [true, false], .setVp, .setActive, .act true 0 .write,
   .run [true, false] true [.act .x 0 .clear, .act .y 1 .clear, .act .x 0 .write, .act .x 0 (.ship .compressed),
     .act .x 1 (.fetch .serialized 32), .product true, .act .y 1 (.ship .dense), .act .y 0 (.collect [(.dense, 32), (.serialized, 16)]),
     .act .vp 0 .write, .act .active 0 .write, .reduce],
   .reduce, .init [true, false], .vertices 4, .runWith 0 false [.product false, .act .vp 1 (.fetch .dense 32)], .edges, .archive, .clear 0]

example : Balanced (graphLife 2 2 graphDemo) := graph_memory_partial 2 2 32 _ _ (by decide) rfl (by decide) (by
  simp only [List.forall_mem_cons]
  simp [GraphOp.Fits, RunStep.Fits, SegAct.Fits]
  omega) (by decide)

/-- while the graph exists there are blocks -/
example : ((runGraphOps 2 2 graphDemo (GraphMem.fresh, [])) ⟨0, []⟩).map (fun x => x.2.live.length) = some 57 := by decide +kernel
example : ((graphLife 2 2 graphDemo) ⟨0, []⟩).map (fun x => x.2.live.length) = some 0 := by decide +kernel
/-- a graph that is never filled -/
example : Balanced (graphLife 2 2 []) := fun h _ => ⟨(), h, rfl, List.Perm.refl _⟩

/-! ### What goes wrong -/

/-- Filling a graph again forgets all it had; `saveVertexproperty` forgets one block, or three on a rank that receives no edges;
`ReadMTX` forgets one on a rank without edges.  If the graph is filled only once, nothing else is forgotten. -/
theorem graph_leak (threads nrank parts : Nat) (op : GraphOp) (ops : List GraphOp) (hparts : parts ≤ threads * 16)
    (hop : op.fills = true) (hf : ∀ o ∈ op :: ops, o.Fits parts) (h : Heap) (hh : h.Ok) :
    ∃ h' M, graphLife threads nrank (op :: ops) h = some ((), h') ∧ h'.live.Perm (M ++ h.live) ∧
      leastLeak 0 (op :: ops) ≤ M.length ∧
      ((∀ o ∈ ops, o.fills = false) → M.length = ((op :: ops).map GraphOp.forgets).sum) := by
  obtain ⟨_, h', X, e, hX, M, hM, h1, h2⟩ := graphLife_runs hparts nrank op ops hop hf h.live h ⟨hh, List.Perm.refl _⟩
  exact ⟨h', M, e, hX.2.trans hM, h1, h2⟩

/-- two ranks, this one without files; the properties are saved twice, first with edges for this rank, then without -/
def leakDemo : List GraphOp :=
  [.readFile 0 [some 3, some 0, none, none] [some 2, some 5, none, none] [true, false],
   .save 4 5 (fun j => j == 0) (fun j => j == 0) [true, false], .save 4 0 (fun _ => false) (fun _ => false) [true, false]]

example : ∀ o ∈ leakDemo, o.Fits 32 := by
  simp only [leakDemo, List.forall_mem_cons]
  simp [GraphOp.Fits]
example : (leakDemo.map GraphOp.forgets).sum = 5 := by decide
example : ((graphLife 2 2 leakDemo) ⟨0, []⟩).map (fun x => x.2.live.length) = some 5 := by decide +kernel

/-- the graph is filled twice -/
def refillDemo : List GraphOp :=
  [.read [some 3, some 0, none, none] [some 2, some 5, none, none] [true, false], .setActive, .restore [some 1] [some 1] [true], .edges]

example : leastLeak 0 refillDemo = 49 := by decide
example : ((graphLife 2 2 refillDemo) ⟨0, []⟩).map (fun x => x.2.live.length) = some 49 := by decide +kernel

/-- the step uses a part of the graph that must be there -/
def GraphOp.uses : GraphOp → Bool
  | .setActive => true
  | .setVp => true
  | .act .. => true
  | .vertices _ => true
  | .reduce => true
  | .edges => true
  | .save .. => true
  | .run _ all _ => all
  | _ => false

/-- A graph that was not filled cannot be used: null pointers are followed. -/
theorem unfilled_graph (threads nrank : Nat) (op : GraphOp) (ops : List GraphOp) (hop : op.uses = true) (h : Heap) :
    graphLife threads nrank (op :: ops) h = none := by
  have hnone : ∀ {α β : Type} (f : α → HeapM β), Rets (need (none : Option α) >>= f) (fun _ => False) := by
    intro α β f g a g' e
    cases e
  have key : Rets (op.exec threads nrank (GraphMem.fresh, [])) (fun _ => False) := by
    cases op with
    | setActive => exact (hnone _).bind (fun _ h => h.elim)
    | setVp => exact (hnone _).bind (fun _ h => h.elim)
    | act b j a => cases b <;> exact hnone _
    | vertices k => exact (hnone _).bind (fun _ h => h.elim)
    | edges => exact (hnone _).bind (fun _ h => h.elim)
    | reduce => exact (hnone _).bind (fun _ h => h.elim)
    | save k r hit cap mine =>
      refine Rets.bind (P := fun _ => False) ?_ (fun _ h => h.elim)
      exact Rets.bind (P := fun _ => False) (hnone _) (fun _ h => h.elim)
    | run mine all sts =>
      have hall : all = true := hop
      subst hall
      refine Rets.bind (P := fun _ => False) ?_ (fun _ h => h.elim)
      refine Rets.skip (fun t => ?_)
      refine Rets.bind (P := fun _ => False) ?_ (fun _ h => h.elim)
      exact Rets.bind (P := fun _ => False) (hnone _) (fun _ h => h.elim)
    | _ => cases hop
  have key : Rets (graphLife threads nrank (op :: ops)) (fun _ => False) :=
    (key.bind (fun _ h => h.elim) : Rets (runGraphOps threads nrank (op :: ops) (GraphMem.fresh, [])) (fun _ => False)).bind
      (fun _ h => h.elim)
  cases e : graphLife threads nrank (op :: ops) h with
  | none => rfl
  | some x => exact (key h x.1 x.2 e).elim

example : (graphLife 2 2 [.setActive, .read [some 1] [some 1] [true]] ⟨0, []⟩).isNone := by decide +kernel

/-- `SpVec::save` follows a null pointer if a segment of this rank with a capacity has never had an entry. -/
theorem save_empty_segment (mine : List Bool) (cap : Nat → Bool) (j : Nat) (hj : mine[j]? = some true) (hc : cap j = true) (h : Heap) :
    (newVec mine >>= vecSave cap) h = none := by
  have key : Rets (newVec mine >>= vecSave cap) (fun _ => False) := by
    refine (newVec_new mine).bind (fun v hv => ?_)
    unfold vecSave
    refine Rets.skip (fun _ => ?_)
    refine (rets_mapM (R := fun (s : (Bool × Ptr × SegMem) × Nat) _ =>
      s.1.1 = true → cap s.2 = true → s.1.2.2.props.isSome = true) ?_ v.2.zipIdx).bind (fun us hus => ?_)
    · intro s
      split
      · refine Rets.skip (fun _ => ?_)
        split
        · cases hp : s.1.2.2.props with
          | none =>
            intro g a g' e
            cases e
          | some b => exact (Rets.any _).mono (fun _ _ _ _ => rfl)
        · rename_i hn
          exact Rets.pure (fun _ hc => absurd hc hn)
      · rename_i hn
        exact Rets.pure (fun hm => absurd hm hn)
    · exfalso
      have hl := hv.length_eq
      have hjl : j < mine.length := by
        rcases Nat.lt_or_ge j mine.length with h | h
        · exact h
        · rw [List.getElem?_eq_none h] at hj
          cases hj
      have hslot := List.forall₂_iff_get.1 hv
      have hs := hslot.2 j hjl (by omega)
      have hmj : mine[j] = true := by
        rw [List.getElem?_eq_getElem hjl] at hj
        exact Option.some.inj hj
      have hzl : j < v.2.zipIdx.length := by rw [List.length_zipIdx]; omega
      have hul := hus.length_eq
      have hz := (List.forall₂_iff_get.1 hus).2 j hzl (by omega)
      simp only [List.get_eq_getElem, List.getElem_zipIdx, Nat.zero_add] at hz hs
      have := hz (by rw [hs.1]; exact hmj) hc
      rw [hs.2] at this
      cases this
  cases e : (newVec mine >>= vecSave cap) h with
  | none => rfl
  | some x => exact (key h x.1 x.2 e).elim

example : ((newVec [false, true]) >>= vecSave (fun _ => true)) ⟨0, []⟩ |>.isNone := by decide +kernel
/-- without capacity, or on another rank, nothing happens -/
example : ((newVec [false, true]) >>= vecSave (fun j => j == 0)) ⟨0, []⟩ |>.isSome := by decide +kernel

end GraphMat

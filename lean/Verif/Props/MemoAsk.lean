import Verif.Spec.MemoAsk
import Verif.Props.MemoProg
import Verif.Props.AskProg

/-!
# What programs that also ask for results do, without any condition (C92)
-/
namespace GraphMat

variable {E T A : Type}

section

variable {D : DMat E} {n nseg nrank : Nat} {ow : Nat → Nat → Nat} {T' : Nat → Nat → Tile E}
  {P : Nat → Nat → Nat → List (Col E)} {all : List (Edge E)}

/-- One call. -/
theorem AskOp.exec_memo [Nonempty T] (h : D.Rep n n nseg nseg nrank ow T' P all)
    (hin : ∀ e ∈ all, InMat n n e) (hs0 : 0 < nseg) (hr : 0 < nrank) (how : ∀ i j, ow i j < nrank)
    {threads : Nat} (hth : 0 < threads) (hfit : n + threads ≤ IMAX) (env : MulEnv T T T) (g : Nat → Nat → Fresh T)
    (tmp : Nat → Nat → Nat → A) (op : AskOp E T A) (hop : op.Valid n)
    {d : Nat → DVec T} {s : Nat → Memo T} (hs : ∀ v, MemoRel n nseg nrank (d v) (s v)) :
    ∃ o, op.MemoStep nrank n nseg (fun w => getPartition n nseg w) (SharedX nseg nrank ow) (SharedV nseg nrank ow) all s o ∧
      match o with
      | none => op.exec env g tmp threads nrank D d = none
      | some (s', out) => ∃ d', op.exec env g tmp threads nrank D d = some (d', out) ∧ ∀ v, MemoRel n nseg nrank (d' v) (s' v) := by
  cases op with
  | call op =>
    obtain ⟨o, a1, a2⟩ := VarOp.exec_memo h hin hs0 hr how hth env g op hop hs
    refine ⟨_, ⟨o, a1, rfl⟩, ?_⟩
    cases o with
    | none =>
      show (op.exec env g threads nrank D d).map _ = none
      rw [a2]
      rfl
    | some s' =>
      obtain ⟨d', b1, b2⟩ := a2
      refine ⟨d', ?_, b2⟩
      show (op.exec env g threads nrank D d).map _ = _
      rw [b1]
      rfl
  | reduce m w op e i =>
    obtain ⟨x, y, a1, a2, a3, a4, a5⟩ := DVec.mapReduce_spec (op := op) (tmp := tmp) (map := fun v _ => (m v, w v)) (fun _ _ => rfl) hth g hs0 hr
      (hs i).wf hfit (fun _ => e)
    refine ⟨_, ⟨y, a5.reduces.perm (perm_values hs0 hr (fun k h1 h2 => (hs i).sem hs0 h1 h2) m e), rfl⟩, putVec d i x, ?_, ?_⟩
    · show (DVec.mapReduce threads g _ op tmp (d i) _).map _ = _
      rw [a1]
      rfl
    · intro v
      unfold putVec
      by_cases e : v = i
      · simp only [if_pos e]
        exact MemoRel.of_ready a2 (DVec.mapReduce_quiet (hs i).wf a1 (hs i).quiet) a3 (fun k h1 h2 => by rw [a4, (hs i).sem hs0 h1 h2])
      · simp only [if_neg e]
        exact hs v
  | count i =>
    refine ⟨_, rfl, d, ?_, hs⟩
    show (d i).getNNZ.map _ = _
    rw [(DVec.reads hs0 hr (hs i).wf (fun k h1 h2 => (hs i).sem hs0 h1 h2)).1]
    rfl

theorem runAsks_memo [Nonempty T] (h : D.Rep n n nseg nseg nrank ow T' P all)
    (hin : ∀ e ∈ all, InMat n n e) (hs0 : 0 < nseg) (hr : 0 < nrank) (how : ∀ i j, ow i j < nrank)
    {threads : Nat} (hth : 0 < threads) (hfit : n + threads ≤ IMAX) (env : Nat → MulEnv T T T) (g : Nat → Nat → Nat → Fresh T)
    (tmp : Nat → Nat → Nat → Nat → A) :
    ∀ (ops : List (AskOp E T A)) (_ : ∀ op ∈ ops, op.Valid n) (k : Nat) {d : Nat → DVec T} {s : Nat → Memo T}
      (_ : ∀ v, MemoRel n nseg nrank (d v) (s v)),
    ∃ o, MemoAsks nrank n nseg (fun w => getPartition n nseg w) (SharedX nseg nrank ow) (SharedV nseg nrank ow) all ops s o ∧
      match o with
      | none => runAsks env g tmp threads nrank D k ops d = none
      | some (s', outs) => ∃ d', runAsks env g tmp threads nrank D k ops d = some (d', outs) ∧ ∀ v, MemoRel n nseg nrank (d' v) (s' v) := by
  intro ops
  induction ops with
  | nil =>
    intro _ k d s hs
    exact ⟨some (s, []), .nil, d, rfl, hs⟩
  | cons op ops ih =>
    intro hops k d s hs
    obtain ⟨o, a1, a2⟩ := AskOp.exec_memo h hin hs0 hr how hth hfit (env k) (g k) (tmp k) op (hops op List.mem_cons_self) hs
    cases o with
    | none =>
      refine ⟨none, .fail a1, ?_⟩
      show runAsks env g tmp threads nrank D k (op :: ops) d = none
      unfold runAsks
      simp only [a2, Option.bind_eq_bind, Option.bind_none]
    | some r =>
      obtain ⟨s1, out⟩ := r
      obtain ⟨d1, a2, a3⟩ := a2
      obtain ⟨o, b1, b2⟩ := ih (fun o ho => hops o (List.mem_cons_of_mem _ ho)) (k + 1) a3
      refine ⟨_, .cons a1 b1, ?_⟩
      cases o with
      | none =>
        show runAsks env g tmp threads nrank D k (op :: ops) d = none
        unfold runAsks
        simp only at b2
        simp only [a2, b2, Option.bind_eq_bind, Option.bind_some, Option.bind_none]
      | some r =>
        obtain ⟨s', outs⟩ := r
        obtain ⟨d', b2, b3⟩ := b2
        refine ⟨d', ?_, b3⟩
        unfold runAsks
        simp only [a2, b2, Option.bind_eq_bind, Option.bind_some]

end

section

variable {n nseg nrank : Nat} {pfn : Nat → Nat → Nat → Option Nat} {ow : Nat → Nat → Nat} {srt : Sorts E} {threads : Nat}
  {blobs : List (List (Edge E))}

/-- C92: the programs of C91 with `MapReduce` and `getNNZ` at any place, operands in any state, any operators and initial values: the program fails if
`MemoAsks` says so (reductions and counts never fail), and otherwise the answers are those of the visible values, with the initial value of a
reduction taken once for every rank. -/
theorem ask_program_exact [Nonempty T] (hsrt : srt.OK) (gt : Nat → Nat → Nat → TileFresh E) (hth : 0 < threads)
    (hs0 : 0 < nseg) (hr : 0 < nrank) (hpfn : ∀ i j, pfn j i nrank = some (ow i j))
    (how : ∀ i j, ow i j < nrank) (hlen : blobs.length = nrank) (hin : ∀ e ∈ blobs.flatten, InMat n n e) (hfit : n + threads ≤ IMAX)
    (env : Nat → MulEnv T T T) (g : Nat → Nat → Nat → Fresh T) (tmp : Nat → Nat → Nat → Nat → A)
    (ops : List (AskOp E T A)) (hops : ∀ op ∈ ops, op.Valid n) :
    ∃ out D v0, DMat.ofEdges n n nseg nseg nrank pfn srt gt threads blobs = some (out, D) ∧
      DVec.new n nseg nrank = some v0 ∧
      ∃ o, MemoAsks nrank n nseg (fun w => getPartition n nseg w) (SharedX nseg nrank ow) (SharedV nseg nrank ow) blobs.flatten ops
          (fun _ => Memo.new) o ∧
        match o with
        | none => runAsks env g tmp threads nrank D 0 ops (fun _ => v0) = none
        | some (s, answers) => ∃ d, runAsks env g tmp threads nrank D 0 ops (fun _ => v0) = some (d, answers) ∧ ∀ i,
            (d i).getNNZ = some ((List.range n).countP (fun j => ((s i).seen (fun w => getPartition n nseg w) (j + 1)).isSome)) ∧
            ∀ w t, 1 ≤ w → w ≤ n → (s i).seen (fun w => getPartition n nseg w) w = some t →
              ∃ p, getPartition n nseg w = some p ∧ ((d i).get (p % nrank)).get w = some (some t) := by
  obtain ⟨out, D, T', P, a1, _, _, _, a5⟩ := DMat.ofEdges_spec hsrt gt hth hs0 hs0 hr hpfn how hlen hin
  obtain ⟨v0, b1, b3⟩ := newVec_memo (T := T) (n := n) hs0 hr
  obtain ⟨o, c1, c2⟩ := runAsks_memo a5 hin hs0 hr how hth hfit env g tmp ops hops 0 (fun _ => b3)
  refine ⟨out, D, v0, a1, b1, o, c1, ?_⟩
  cases o with
  | none => exact c2
  | some r =>
    obtain ⟨s, answers⟩ := r
    obtain ⟨d, e1, e2⟩ := c2
    exact ⟨d, e1, fun i => DVec.reads hs0 hr (e2 i).wf (fun w h1 h2 => (e2 i).sem hs0 h1 h2)⟩

end

/-! ### Runs of programs -/

/-- A program that clears a vector, reduces it, and then uses it as input of `Apply` and of a reduction. -/
def askCleared (r : Bool) : List (AskOp Nat Nat Nat) :=
  [.call (.on 0 (.setAll 5)), .call (.on 0 .clear)] ++ (if r then [.reduce id id (· + ·) 1 0] else []) ++
    [.call (.apply (· + 1) 0 1), .reduce id id (· + ·) 0 1, .count 0]

/-- The hypotheses of `ask_program_exact`. -/
example := ask_program_exact (n := 3) (nseg := 2) (nrank := 2) (pfn := partitionFn1d) (ow := fun i _ => i % 2) Sorts.ins_ok
  (fun _ _ _ => (LoadEnv.sample (E := Nat) 0 0).gA 0 0 0) (threads := 1) (by decide) (by decide) (by decide) (fun _ _ => rfl)
  (fun _ _ => Nat.mod_lt _ (by decide)) (blobs := [sampleMulEdges, []]) rfl (by unfold InMat; decide) (by decide) (fun _ => MulEnv.sample 0 0 0)
  (fun _ _ _ => Fresh.sample 7) (fun _ _ _ _ => 4) (askCleared true) (by simp [askCleared, AskOp.Valid, VarOp.Valid, VecOp.Valid])

/-- A reduction in between changes what `Apply` copies: without it the hidden values come back, with it there are none. -/
example : sampleAsks 3 2 sampleMulEdges (askCleared false) 9 = some [.val 18, .num 0] ∧
    sampleAsks 3 2 sampleMulEdges (askCleared true) 9 = some [.val 2, .val 0, .num 0] ∧
    sampleAsks 3 2 sampleMulEdges (AskOp.call (.apply (· + 1) 0 1) :: askCleared true) 9 = none := by
  decide +kernel

end GraphMat

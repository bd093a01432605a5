import Verif.Lemmas.AskProg
import Verif.Props.VecProg

/-!
# Programs that also ask for results (C89)
-/
namespace GraphMat

variable {E T A : Type}

section

variable {D : DMat E} {n nseg nrank : Nat} {ow : Nat → Nat → Nat} {T' : Nat → Nat → Tile E}
  {P : Nat → Nat → Nat → List (Col E)} {all : List (Edge E)}

/-- One call. -/
theorem AskOp.exec_spec [Nonempty T] (h : D.Rep n n nseg nseg nrank ow T' P all)
    (hin : ∀ e ∈ all, InMat n n e) (hs0 : 0 < nseg) (hr : 0 < nrank) (how : ∀ i j, ow i j < nrank)
    {threads : Nat} (hth : 0 < threads) (hfit : n + threads ≤ IMAX) (env : MulEnv T T T) (g : Nat → Nat → Fresh T)
    (tmp : Nat → Nat → Nat → A) (op : AskOp E T A) (hop : op.Valid n)
    {d : Nat → DVec T} {s : Nat → Nat → Option T} {u : Nat → Nat → PartUse}
    (hs : ∀ v, VecRel n nseg nrank (d v) (s v) (u v))
    (hsafe : op.Safe nseg (SharedX nseg nrank ow) (SharedV nseg nrank ow) all u s) :
    ∃ d' s' out, op.exec env g tmp threads nrank D d = some (d', out) ∧
      (∀ v, VecRel n nseg nrank (d' v) (s' v) (op.use (fun w => getPartition n nseg w) u v)) ∧ op.Step nrank n all s s' out := by
  cases op with
  | call op =>
    obtain ⟨d', s', a1, a2, a3⟩ := VarOp.exec_spec h hin hs0 hr how hth env g op hop hs hsafe
    refine ⟨d', s', [], ?_, a2, a3, rfl⟩
    show (op.exec env g threads nrank D d).map _ = _
    rw [a1]
    rfl
  | reduce m w op e i =>
    obtain ⟨x, y, a1, a2, a3, a4, a5⟩ := DVec.mapReduce_spec (op := op) (tmp := tmp) (map := fun v _ => (m v, w v)) (fun _ _ => rfl) hth g hs0 hr
      (hs i).wf hfit (fun _ => e)
    refine ⟨putVec d i x, fun v k => if v = i then (s i k).map w else s v k, [.val y], ?_, ?_, fun _ _ _ _ => rfl, y, rfl, ?_⟩
    · show (DVec.mapReduce threads g _ op tmp (d i) _).map _ = _
      rw [a1]
      rfl
    · intro v
      unfold putVec AskOp.use
      by_cases e : v = i
      · subst e
        simp only [if_true]
        exact ⟨a2, DVec.mapReduce_quiet (hs v).wf a1 (hs v).quiet, fun k h1 h2 => by rw [a4, (hs v).sem k h1 h2], a3⟩
      · simp only [if_neg e]
        exact hs v
    · exact a5.reduces.perm (perm_values hs0 hr (hs i).sem m e)
  | count i =>
    refine ⟨d, s, _, ?_, hs, rfl, rfl⟩
    show (d i).getNNZ.map _ = _
    rw [(DVec.reads hs0 hr (hs i).wf (hs i).sem).1]
    rfl

theorem runAsks_spec [Nonempty T] (h : D.Rep n n nseg nseg nrank ow T' P all)
    (hin : ∀ e ∈ all, InMat n n e) (hs0 : 0 < nseg) (hr : 0 < nrank) (how : ∀ i j, ow i j < nrank)
    {threads : Nat} (hth : 0 < threads) (hfit : n + threads ≤ IMAX) (env : Nat → MulEnv T T T) (g : Nat → Nat → Nat → Fresh T)
    (tmp : Nat → Nat → Nat → Nat → A) :
    ∀ (ops : List (AskOp E T A)) (_ : ∀ op ∈ ops, op.Valid n) (k : Nat) {d : Nat → DVec T} {s : Nat → Nat → Option T}
      {u : Nat → Nat → PartUse}
      (_ : AsksSafe nrank n nseg (SharedX nseg nrank ow) (SharedV nseg nrank ow) (fun w => getPartition n nseg w) all ops u s)
      (_ : ∀ v, VecRel n nseg nrank (d v) (s v) (u v)),
    ∃ (d' : Nat → DVec T) (s' : Nat → Nat → Option T) (u' : Nat → Nat → PartUse) (outs : List (Answer A)),
      runAsks env g tmp threads nrank D k ops d = some (d', outs) ∧ AskSteps nrank n all ops s s' outs ∧
      ∀ v, VecRel n nseg nrank (d' v) (s' v) (u' v) := by
  intro ops
  induction ops with
  | nil =>
    intro _ k d s u _ hs
    exact ⟨d, s, u, [], rfl, .nil, hs⟩
  | cons op ops ih =>
    intro hops k d s u hsafe hs
    obtain ⟨d1, s1, out, a1, a2, a3⟩ := AskOp.exec_spec h hin hs0 hr how hth hfit (env k) (g k) (tmp k) op
      (hops op List.mem_cons_self) hs hsafe.1
    obtain ⟨d', s', u', outs, b1, b2, b3⟩ := ih (fun o ho => hops o (List.mem_cons_of_mem _ ho)) (k + 1) (hsafe.2 s1 out a3) a2
    refine ⟨d', s', u', out ++ outs, ?_, .cons a3 b2, b3⟩
    unfold runAsks
    simp only [a1, b1, Option.bind_eq_bind, Option.bind_some]

end

/-! ### Identities as initial values -/

theorem Reduces.of_unique {op : A → A → A} (hassoc : ∀ a b c, op (op a b) c = op a (op b c)) (hcomm : ∀ a b, op a b = op b a)
    {e : A} (he : ∀ a, op e a = a) {k : Nat} (hk : 0 < k) {l : List A} {x : A}
    (h : Reduces op (List.replicate k e ++ l) (some x)) (k' : Nat) (hk' : 0 < k') : Reduces op (List.replicate k' e ++ l) (some x) := by
  have hrep : ∀ j, (List.replicate j e).foldl op e = e := by
    intro j
    induction j with
    | zero => rfl
    | succ j ih => rw [List.replicate_succ, List.foldl_cons, he]; exact ih
  have hall : ∀ k, 0 < k → reduceAll op (List.replicate k e ++ l) = some (l.foldl op e) := by
    intro k hk
    obtain ⟨j, rfl⟩ : ∃ j, k = j + 1 := ⟨k - 1, by omega⟩
    rw [List.replicate_succ, List.cons_append]
    simp only [reduceAll, Option.some.injEq]
    rw [List.foldl_append, hrep]
  have hx := Reduces.unique hassoc hcomm h
  rw [hall k hk] at hx
  rw [hx]
  obtain ⟨j, rfl⟩ : ∃ j, k' = j + 1 := ⟨k' - 1, by omega⟩
  have := ((Brackets.one op e).foldl (List.replicate j e ++ l)).reduces
  rw [List.foldl_append, hrep] at this
  rw [List.replicate_succ]
  exact this

theorem AskOp.Neutral.step {op : AskOp E T A} (h : op.Neutral) {c c' n : Nat} (hc : 0 < c) (hc' : 0 < c') {all : List (Edge E)}
    {s s' : Nat → Nat → Option T} {out : List (Answer A)} (hs : op.Step c n all s s' out) : op.Step c' n all s s' out := by
  cases op with
  | call op => exact hs
  | count i => exact hs
  | reduce m w op e i =>
    obtain ⟨h1, x, h2, h3⟩ := hs
    exact ⟨h1, x, h2, Reduces.of_unique h.1 h.2.1 h.2.2 hc h3 c' hc'⟩

theorem AskSteps.neutral {c c' n : Nat} (hc : 0 < c) (hc' : 0 < c') {all : List (Edge E)} {ops : List (AskOp E T A)}
    {s s' : Nat → Nat → Option T} {outs : List (Answer A)} (hs : AskSteps c n all ops s s' outs) (h : ∀ op ∈ ops, op.Neutral) :
    AskSteps c' n all ops s s' outs := by
  induction hs with
  | nil => exact .nil
  | cons a _ ih =>
    exact .cons ((h _ List.mem_cons_self).step hc hc' a) (ih (fun o ho => h o (List.mem_cons_of_mem _ ho)))

theorem AsksSafe.neutral {c c' n nseg : Nat} (hc : 0 < c) (hc' : 0 < c') {sx sv : Nat → Prop} {part : Nat → Option Nat} {all : List (Edge E)} :
    ∀ {ops : List (AskOp E T A)} {u : Nat → Nat → PartUse} {s : Nat → Nat → Option T}, (∀ op ∈ ops, op.Neutral) →
      AsksSafe c n nseg sx sv part all ops u s → AsksSafe c' n nseg sx sv part all ops u s
  | [], _, _, _, _ => trivial
  | _ :: _, _, _, h, hs => ⟨hs.1, fun s' out st => AsksSafe.neutral hc hc' (fun o ho => h o (List.mem_cons_of_mem _ ho))
      (hs.2 s' out ((h _ List.mem_cons_self).step hc' hc st))⟩

/-! ### The property -/

section

variable {n nseg nrank : Nat} {pfn : Nat → Nat → Nat → Option Nat} {ow : Nat → Nat → Nat} {srt : Sorts E} {threads : Nat}
  {blobs : List (List (Edge E))}

/-- What programs with reductions and counts do, for any operators and initial values: as in C88, and every reduction combines the mapped
values of the vector, each exactly once, and its initial value *once for every rank*.  Reductions and counts need no condition on the history
of the vector. -/
theorem ask_program_per_rank [Nonempty T] (hsrt : srt.OK) (gt : Nat → Nat → Nat → TileFresh E) (hth : 0 < threads)
    (hs0 : 0 < nseg) (hr : 0 < nrank) (hpfn : ∀ i j, pfn j i nrank = some (ow i j))
    (how : ∀ i j, ow i j < nrank) (hlen : blobs.length = nrank) (hin : ∀ e ∈ blobs.flatten, InMat n n e) (hfit : n + threads ≤ IMAX)
    (env : Nat → MulEnv T T T) (g : Nat → Nat → Nat → Fresh T) (tmp : Nat → Nat → Nat → Nat → A)
    (ops : List (AskOp E T A)) (hops : ∀ op ∈ ops, op.Valid n)
    (hsafe : AsksSafe nrank n nseg (SharedX nseg nrank ow) (SharedV nseg nrank ow) (fun w => getPartition n nseg w) blobs.flatten ops
      (fun _ _ => .never) (fun _ _ => none)) :
    ∃ out D v0 d answers, DMat.ofEdges n n nseg nseg nrank pfn srt gt threads blobs = some (out, D) ∧
      DVec.new n nseg nrank = some v0 ∧
      runAsks env g tmp threads nrank D 0 ops (fun _ => v0) = some (d, answers) ∧
      ∃ s, AskSteps nrank n blobs.flatten ops (fun _ _ => none) s answers ∧ ∀ i,
        (d i).getNNZ = some ((List.range n).countP (fun j => (s i (j + 1)).isSome)) ∧
        ∀ w t, 1 ≤ w → w ≤ n → s i w = some t →
          ∃ p, getPartition n nseg w = some p ∧ ((d i).get (p % nrank)).get w = some (some t) := by
  obtain ⟨out, D, T', P, a1, _, _, _, a5⟩ := DMat.ofEdges_spec hsrt gt hth hs0 hs0 hr hpfn how hlen hin
  obtain ⟨v0, b1, b2⟩ := newVec_rel (T := T) (n := n) hs0 hr
  obtain ⟨d, s, _, answers, d1, d2, d3⟩ := runAsks_spec a5 hin hs0 hr how hth hfit env g tmp ops hops 0 hsafe (fun _ => b2)
  exact ⟨out, D, v0, d, answers, a1, b1, d1, s, d2, fun i => DVec.reads hs0 hr (d3 i).wf (d3 i).sem⟩

/-- C89, as far as it holds: on one rank, or if every reduction has an associative and commutative operator and begins with an identity of
it, programs answer what the specification allows with the initial value taken once.  Missing: other initial values on several ranks
(`ask_program_false`), and operands of other calls that are not usable (C88). -/
theorem ask_program_partial [Nonempty T] (hsrt : srt.OK) (gt : Nat → Nat → Nat → TileFresh E) (hth : 0 < threads)
    (hs0 : 0 < nseg) (hr : 0 < nrank) (hpfn : ∀ i j, pfn j i nrank = some (ow i j))
    (how : ∀ i j, ow i j < nrank) (hlen : blobs.length = nrank) (hin : ∀ e ∈ blobs.flatten, InMat n n e) (hfit : n + threads ≤ IMAX)
    (env : Nat → MulEnv T T T) (g : Nat → Nat → Nat → Fresh T) (tmp : Nat → Nat → Nat → Nat → A)
    (ops : List (AskOp E T A)) (hops : ∀ op ∈ ops, op.Valid n) (hone : nrank = 1 ∨ ∀ op ∈ ops, op.Neutral)
    (hsafe : AsksSafe 1 n nseg (SharedX nseg nrank ow) (SharedV nseg nrank ow) (fun w => getPartition n nseg w) blobs.flatten ops
      (fun _ _ => .never) (fun _ _ => none)) :
    ∃ out D v0 d answers, DMat.ofEdges n n nseg nseg nrank pfn srt gt threads blobs = some (out, D) ∧
      DVec.new n nseg nrank = some v0 ∧
      runAsks env g tmp threads nrank D 0 ops (fun _ => v0) = some (d, answers) ∧
      ∃ s, AskSteps 1 n blobs.flatten ops (fun _ _ => none) s answers ∧ ∀ i,
        (d i).getNNZ = some ((List.range n).countP (fun j => (s i (j + 1)).isSome)) ∧
        ∀ w t, 1 ≤ w → w ≤ n → s i w = some t →
          ∃ p, getPartition n nseg w = some p ∧ ((d i).get (p % nrank)).get w = some (some t) := by
  have hs' : AsksSafe nrank n nseg (SharedX nseg nrank ow) (SharedV nseg nrank ow) (fun w => getPartition n nseg w) blobs.flatten ops
      (fun _ _ => .never) (fun _ _ => none) := by
    rcases hone with h | h
    · rw [h] at hsafe ⊢
      exact hsafe
    · exact hsafe.neutral Nat.one_pos hr h
  obtain ⟨out, D, v0, d, answers, a1, a2, a3, s, a4, a5⟩ := ask_program_per_rank hsrt gt hth hs0 hr hpfn how hlen hin hfit env g tmp ops hops hs'
  refine ⟨out, D, v0, d, answers, a1, a2, a3, s, ?_, a5⟩
  rcases hone with h | h
  · rw [h] at a4
    exact a4
  · exact a4.neutral hr Nat.one_pos h

end

/-! ### Runs of programs -/

/-- Run a program with the matrix `es` on `nrank` ranks: its answers.  `tmp` is what uninitialised variables contain. -/
def sampleAsks (n nrank : Nat) (es : List (Edge Nat)) (ops : List (AskOp Nat Nat A)) (tmp : A) : Option (List (Answer A)) :=
  do
    let (_, D) ← DMat.ofEdges n n nrank nrank nrank partitionFn1d Sorts.ins (fun _ _ _ => (LoadEnv.sample (E := Nat) 0 0).gA 0 0 0) 2
      (es :: List.replicate (nrank - 1) [])
    let d ← DVec.new n nrank nrank
    let r ← runAsks (fun _ => MulEnv.sample 0 0 0) (fun _ _ _ => Fresh.sample 7) (fun _ _ _ _ => tmp) 2 nrank D 0 ops (fun _ => d)
    some r.2

/-- The full claim of C89 fails on two ranks: the sum of a vector without values that begins with 1 is 2. -/
theorem ask_program_false :
    sampleAsks 3 1 sampleMulEdges [.reduce id id (· + ·) 1 0] 9 = some [.val 1] ∧
    sampleAsks 3 2 sampleMulEdges [.reduce id id (· + ·) 1 0] 9 = some [.val 2] ∧
    ∀ s answers, AskSteps 1 3 sampleMulEdges [.reduce id id (· + ·) 1 0] (fun _ _ => none) s answers → answers = [.val 1] := by
  refine ⟨by decide +kernel, by decide +kernel, ?_⟩
  intro s answers h
  cases h with
  | cons a t =>
  cases t
  obtain ⟨_, x, rfl, hx⟩ := a
  have := Reduces.unique Nat.add_assoc Nat.add_comm hx
  have e : reduceAll (· + ·) (List.replicate 1 1 ++ mapValues 3 id (fun _ : Nat => (none : Option Nat))) = some 1 := by decide
  rw [e] at this
  injection this with this
  rw [this]
  rfl

/-- A program that multiplies, reduces and counts; the reduction doubles the values of vector 2. -/
def sampleAskOps : List (AskOp Nat Nat Nat) :=
  [.call (.on 0 (.set 1 5)), .call (.on 0 (.set 2 2)), .count 0, .call (.mul (fun e x => e * x) (· + ·) 0 1),
   .reduce (· + 1) (· * 2) (· + ·) 0 1, .reduce id id (· + ·) 0 1, .reduce id id max 0 2, .call (.apply (· + 1) 2 0), .count 0]

/-- The hypotheses of `ask_program_partial` for this program on one rank.  Vector 2 is never written, but after its reduction `Apply` can
read it. -/
example : (∀ op ∈ sampleAskOps, op.Valid 3) ∧ (∀ op ∈ sampleAskOps, op.Neutral) ∧
    AsksSafe 1 3 1 (SharedX 1 1 (fun i _ => i % 1)) (SharedV 1 1 (fun i _ => i % 1)) (fun w => getPartition 3 1 w)
      sampleMulEdges sampleAskOps (fun _ _ => .never) (fun _ _ => none) := by
  refine ⟨?_, ?_, ?_⟩
  · intro op h
    simp [sampleAskOps] at h
    rcases h with rfl | rfl | rfl | rfl | rfl | rfl | rfl | rfl | rfl <;> simp [AskOp.Valid, VarOp.Valid, VecOp.Valid]
  · intro op h
    simp [sampleAskOps] at h
    rcases h with rfl | rfl | rfl | rfl | rfl | rfl | rfl | rfl | rfl <;>
      first
      | exact trivial
      | exact ⟨Nat.add_assoc, Nat.add_comm, Nat.zero_add⟩
      | exact ⟨Nat.max_assoc, Nat.max_comm, Nat.zero_max⟩
  have hp : ∀ p, p < 1 → p = 0 := fun p h => by omega
  refine ⟨trivial, fun _ _ _ => ⟨trivial, fun _ _ _ => ⟨trivial, fun _ _ _ => ⟨?_, fun _ _ _ => ⟨trivial, fun _ _ _ => ⟨trivial, fun _ _ _ =>
    ⟨trivial, fun _ _ _ => ⟨?_, fun _ _ _ => ⟨trivial, fun _ _ _ => trivial⟩⟩⟩⟩⟩⟩⟩⟩⟩
  · intro p h
    obtain rfl := hp p h
    exact .inl (by decide)
  · intro p h
    obtain rfl := hp p h
    decide

/-- The answers of this program; `Apply` to a vector that was neither written nor reduced fails; a reduction of numbers to a truth value on
three ranks. -/
example : sampleAsks 3 1 sampleMulEdges sampleAskOps 9 = some [.num 2, .val 36, .val 70, .val 0, .num 2] ∧
    sampleAsks 3 1 sampleMulEdges [.call (.on 0 (.set 1 5)), .call (.apply (· + 1) 2 0)] (9 : Nat) = none ∧
    sampleAsks 3 3 sampleMulEdges [.call (.on 0 (.set 1 5)), .call (.on 0 (.set 3 2)), .reduce (fun x => decide (3 ≤ x)) id and true 0,
      .call (.on 0 (.set 3 4)), .reduce (fun x => decide (3 ≤ x)) id and true 0] false = some [.val false, .val true] := by
  decide +kernel

end GraphMat

import Verif.Props.Superstep

/-!
# Whole runs

C15 (number of supersteps), C16 (until convergence), C19 (reused scratch space), C13 for whole runs, and
C12's claim about thread counts, which is false as stated.
-/
namespace GraphMat

variable {S T U V E : Type}

/-- What is required of a program object in all its states. -/
def Program.Pure (pr : Program S T U V E) (msg : S → V → T) (proc : S → T → E → V → U) : Prop :=
  ∀ s, (pr.gp s).Pure (msg s) (proc s)

/-- The active set at the start of the first superstep. -/
def startActive (pr : Program S T U V E) (s0 : S) (A : Nat → Bool) : Nat → Bool :=
  fun v => (pr.gp s0).allVertices || A v

/-! ## C15 -/

/-- C15: `run_graph_program` with iteration count `N ≥ 1` executes exactly `N` supersteps (each as
specified, from the result of the one before), calls `do_every_iteration` with `0, 1, ..., N-1` and stops.
`fuel` is any bound on the number of rounds we follow the loop. -/
theorem run_executes_exactly_N {n nrank threads : Nat} (c : Cfg n nrank threads) (ie : InitEnv T U)
    (env : Nat → StepEnv T U V) {pr : Program S T U V E} {msg : S → V → T} {proc : S → T → E → V → U}
    (hp : pr.Pure msg proc) (s0 : S) {scratch : Option (DVec T × DVec U)} {G : Graph V E} {es : List (Edge E)}
    {P : Nat → V} {A : Nat → Bool} (hG : G.Represents n nrank threads es P A)
    (hs : ∀ xy, scratch = some xy → Scratch n nrank xy.1 xy.2) (N : Nat) (hN : 1 ≤ N) (hmax : N ≤ IMAX) (fuel : Nat)
    (hf : N ≤ fuel) :
    ∃ st P' A' cs, G.run ie env pr s0 (N : Int) scratch fuel = some (.done st) ∧ st.it = (N : Int) ∧
      st.G.Represents n nrank threads es P' A' ∧ Scratch n nrank st.x st.y ∧
      Steps pr.gp pr.every msg proc (pr.gp s0).allVertices n es P (startActive pr s0 A) s0 N P' A' st.s cs ∧
      st.s = (List.range N).foldl (fun s (i : Nat) => pr.every i s) s0 := by
  obtain ⟨TA, TT, PA, PT, hG⟩ := hG
  obtain ⟨st, h1, h2⟩ := Graph.run_start c ie env pr s0 (N : Int) hG hs msg proc
  obtain ⟨j, rfl⟩ : ∃ j, N = j + 1 := ⟨N - 1, by omega⟩
  obtain ⟨st', cs, e1, e2⟩ := runLoop_count (R := ⟨pr, msg, proc, (pr.gp s0).allVertices, n, nrank, threads, TA, TT, PA, PT, es⟩)
    c hp env j h2 (by rw [Nat.zero_add]; exact_mod_cast hmax) (show j < fuel by omega)
  rw [Nat.zero_add] at e1 e2
  have hst := e2.steps
  rw [← e2.s] at hst
  exact ⟨st', _, _, cs, by rw [h1]; exact e1, e2.it, ⟨TA, TT, PA, PT, e2.has⟩, e2.scratch, hst, hst.calls⟩

/-- Two supersteps on a path 1→2→3 with a sum of values: the model runs as specified. -/
example : sampleRun (traceProg .out false true) 1 3 [⟨1, 2, 7⟩, ⟨2, 3, 8⟩] [1] 2 2 =
    some [some [1], some [1, 7, 2], some [1, 7, 2, 8, 3]] := by decide +kernel

/-- With less fuel the loop is still running. -/
example : sampleRun (traceProg .out false true) 1 3 [⟨1, 2, 7⟩, ⟨2, 3, 8⟩] [1] 2 1 = none := by decide +kernel

/-! ## C16 -/

/-- C16: with a count `≤ 0` the run stops after the first superstep in which no vertex changed.  Following
the loop for `fuel` rounds, either it stopped after `k ≥ 1` supersteps, the last of which changed nothing
while each earlier one changed something, or it is still running and every superstep so far changed
something. -/
theorem run_until_convergence {n nrank threads : Nat} (c : Cfg n nrank threads) (ie : InitEnv T U)
    (env : Nat → StepEnv T U V) {pr : Program S T U V E} {msg : S → V → T} {proc : S → T → E → V → U}
    (hp : pr.Pure msg proc) (s0 : S) {scratch : Option (DVec T × DVec U)} {G : Graph V E} {es : List (Edge E)}
    {P : Nat → V} {A : Nat → Bool} (hG : G.Represents n nrank threads es P A)
    (hs : ∀ xy, scratch = some xy → Scratch n nrank xy.1 xy.2) {iterations : Int} (hi : iterations ≤ 0) (fuel : Nat)
    (hf : fuel ≤ IMAX) :
    (∃ st, ∃ k : Nat, ∃ P' A' cs, G.run ie env pr s0 iterations scratch fuel = some (.done st) ∧ st.it = (k : Int) ∧ 1 ≤ k ∧
      k ≤ fuel ∧ st.G.Represents n nrank threads es P' A' ∧ Scratch n nrank st.x st.y ∧
      Steps pr.gp pr.every msg proc (pr.gp s0).allVertices n es P (startActive pr s0 A) s0 k P' A' st.s
        (cs ++ [true]) ∧ ∀ b ∈ cs, b = false) ∨
    (∃ st P' A' cs, G.run ie env pr s0 iterations scratch fuel = some (.more st) ∧ st.it = (fuel : Int) ∧
      st.G.Represents n nrank threads es P' A' ∧
      Steps pr.gp pr.every msg proc (pr.gp s0).allVertices n es P (startActive pr s0 A) s0 fuel P' A' st.s cs ∧
      ∀ b ∈ cs, b = false) := by
  obtain ⟨TA, TT, PA, PT, hG⟩ := hG
  obtain ⟨st, h1, h2⟩ := Graph.run_start c ie env pr s0 iterations hG hs msg proc
  rcases runLoop_until (R := ⟨pr, msg, proc, (pr.gp s0).allVertices, n, nrank, threads, TA, TT, PA, PT, es⟩)
    c hp env hi fuel h2 (by rw [Nat.zero_add]; exact_mod_cast hf) with
    ⟨j, st', cs, f1, f2, f3, f4, f5⟩ | ⟨st', cs, f2, f3, f5⟩
  · left
    rw [Nat.zero_add] at f3 f4
    have hst := f3.steps
    rw [← f3.s] at hst
    have hlen := f3.len
    obtain ⟨cs', b, rfl⟩ : ∃ cs' b, cs = cs' ++ [b] := by
      refine ⟨cs.dropLast, cs.getLast (by intro h; rw [h] at hlen; simp at hlen), ?_⟩
      rw [List.dropLast_append_getLast]
    have hl' : cs'.length = j := by simpa using hlen
    have hb : b = true := by
      have := (f3.conv j (by simp [hl'])).mpr f4
      rw [List.getElem_append_right (by omega)] at this
      simpa [hl'] using this
    refine ⟨st', j + 1, _, _, cs', by rw [h1]; exact f2, f3.it, by omega, by omega, ⟨TA, TT, PA, PT, f3.has⟩, f3.scratch,
      by rw [hb] at hst; exact hst, ?_⟩
    intro x hx
    obtain ⟨i, hi, rfl⟩ := List.getElem_of_mem hx
    have hne := f5 i (by omega)
    rw [Nat.zero_add] at hne
    have := f3.conv i (by simp; omega)
    rw [List.getElem_append_left hi] at this
    rw [← Bool.not_eq_true]
    exact fun h => hne (this.mp h)
  · right
    rw [Nat.zero_add] at f3
    have hst := f3.steps
    rw [← f3.s] at hst
    have hlen := f3.len
    refine ⟨st', _, _, cs, by rw [h1]; exact f2, f3.it, ⟨TA, TT, PA, PT, f3.has⟩, hst, ?_⟩
    intro x hx
    obtain ⟨i, hi, rfl⟩ := List.getElem_of_mem hx
    have hne := f5 i (by omega)
    rw [Nat.zero_add] at hne
    rw [← Bool.not_eq_true]
    exact fun h => hne ((f3.conv i hi).mp h)

/-- Until convergence on the path: superstep 3 delivers to nobody, so the run stops after it; with two
rounds it is still running. -/
example : sampleRun (traceProg .out false true) 1 3 [⟨1, 2, 7⟩, ⟨2, 3, 8⟩] [1] (-1) 3 =
    some [some [1], some [1, 7, 2], some [1, 7, 2, 8, 3]] := by decide +kernel

example : sampleRun (traceProg .out false true) 1 3 [⟨1, 2, 7⟩, ⟨2, 3, 8⟩] [1] (-1) 2 = none := by decide +kernel

/-- No active vertex: one superstep is executed, then the run stops. -/
example : sampleRun (traceProg .out false true) 1 3 [⟨1, 2, 7⟩, ⟨2, 3, 8⟩] [] 0 1 =
    some [some [1], some [2], some [3]] := by decide +kernel

/-- C16: the number of supersteps is determined by the specification: with an associative and commutative
reduction, if the specification reaches its first quiet superstep after `k` steps, the run stops there, for
every bound on the rounds that is large enough. -/
theorem run_stops_at_first_quiet_superstep {n nrank threads : Nat} (c : Cfg n nrank threads) (ie : InitEnv T U)
    (env : Nat → StepEnv T U V) {pr : Program S T U V E} {msg : S → V → T} {proc : S → T → E → V → U}
    (hp : pr.Pure msg proc)
    (hassoc : ∀ s a b c, (pr.gp s).reduce ((pr.gp s).reduce a b) c = (pr.gp s).reduce a ((pr.gp s).reduce b c))
    (hcomm : ∀ s a b, (pr.gp s).reduce a b = (pr.gp s).reduce b a)
    (s0 : S) {scratch : Option (DVec T × DVec U)} {G : Graph V E} {es : List (Edge E)}
    {P : Nat → V} {A : Nat → Bool} (hG : G.Represents n nrank threads es P A)
    (hs : ∀ xy, scratch = some xy → Scratch n nrank xy.1 xy.2) {iterations : Int} (hi : iterations ≤ 0)
    {k : Nat} {P' : Nat → V} {A' : Nat → Bool} {s' : S} {cs : List Bool}
    (hspec : Steps pr.gp pr.every msg proc (pr.gp s0).allVertices n es P (startActive pr s0 A) s0 k P' A' s' (cs ++ [true]))
    (hcs : ∀ b ∈ cs, b = false) (fuel : Nat) (hk : k ≤ fuel) (hf : fuel ≤ IMAX) :
    ∃ st P'' A'', G.run ie env pr s0 iterations scratch fuel = some (.done st) ∧ st.it = (k : Int) ∧ st.s = s' ∧
      st.G.Represents n nrank threads es P'' A'' ∧ ∀ v, 1 ≤ v → v ≤ n → P'' v = P' v ∧ A'' v = A' v := by
  have prefix_eq : ∀ {k : Nat} {P' : Nat → V} {A' : Nat → Bool} {s' : S} {cs : List Bool},
      Steps pr.gp pr.every msg proc (pr.gp s0).allVertices n es P (startActive pr s0 A) s0 k P' A' s' cs →
      ∀ j, j ≤ k → ∃ P1 A1 s1, Steps pr.gp pr.every msg proc (pr.gp s0).allVertices n es P (startActive pr s0 A) s0 j P1 A1 s1
        (cs.take j) := by
    intro k P' A' s' cs h
    induction h with
    | zero => intro j hj; obtain rfl : j = 0 := by omega
              exact ⟨_, _, _, Steps.zero⟩
    | succ h1 h2 ih =>
      rename_i k _ _ _ _ _ _ _
      intro j hj
      by_cases e : j ≤ k
      · obtain ⟨P1, A1, s1, h⟩ := ih j e
        refine ⟨P1, A1, s1, ?_⟩
        rw [List.take_append_of_le_length (by rw [h1.length]; exact e)]
        exact h
      · obtain rfl : j = k + 1 := by omega
        have h3 := h1.succ h2
        rw [← List.take_of_length_le (i := k + 1) (by simp [h1.length] : (_ ++ [_]).length ≤ k + 1)] at h3
        exact ⟨_, _, _, h3⟩
  have hklen := hspec.length
  rcases run_until_convergence c ie env hp s0 hG hs hi fuel hf with
    ⟨st, k', P1, A1, cs1, e1, e2, e3, e4, e5, _, e6, e7⟩ | ⟨st, P1, A1, cs1, e1, e2, e5, e6, e7⟩
  · have hk' := e6.length
    have hkk : k' = k := by
      simp only [List.length_append, List.length_singleton] at hklen hk'
      apply Classical.byContradiction
      intro hne
      by_cases hlt : k' < k
      · obtain ⟨_, _, _, h⟩ := prefix_eq hspec k' (by omega)
        obtain ⟨_, _, _, he⟩ := Steps.unique hassoc hcomm hG.valid (.refl _) (fun _ _ _ => rfl) (fun _ _ _ => rfl) e6 h
        rw [List.take_append_of_le_length (by omega)] at he
        have : true ∈ List.take k' cs := by rw [← he]; simp
        have := hcs _ (List.mem_of_mem_take this)
        cases this
      · obtain ⟨_, _, _, h⟩ := prefix_eq e6 k (by omega)
        obtain ⟨_, _, _, he⟩ := Steps.unique hassoc hcomm hG.valid (.refl _) (fun _ _ _ => rfl) (fun _ _ _ => rfl) hspec h
        rw [List.take_append_of_le_length (by omega)] at he
        have : true ∈ List.take k cs1 := by rw [← he]; simp
        have := e7 _ (List.mem_of_mem_take this)
        cases this
    subst hkk
    obtain ⟨f1, f2, f3, _⟩ := Steps.unique hassoc hcomm hG.valid (.refl _) (fun _ _ _ => rfl) (fun _ _ _ => rfl) e6 hspec
    exact ⟨st, P1, A1, e1, e2, f3, e5, fun v v1 v2 => ⟨f1 v v1 v2, f2 v v1 v2⟩⟩
  · exfalso
    obtain ⟨_, _, _, h⟩ := prefix_eq e6 k hk
    obtain ⟨_, _, _, he⟩ := Steps.unique hassoc hcomm hG.valid (.refl _) (fun _ _ _ => rfl) (fun _ _ _ => rfl) hspec h
    have : true ∈ List.take k cs1 := by rw [← he]; simp
    have := e7 _ (List.mem_of_mem_take this)
    cases this

/-! ## C19 -/

/-- The two outcomes are the same as far as the user can see. -/
def SameOutcome (n nrank threads : Nat) (es : List (Edge E)) : RunOut (RunState S T U V E) → RunOut (RunState S T U V E) → Prop
  | .done a, .done b => a.it = b.it ∧ a.s = b.s ∧ ∃ P A, a.G.Represents n nrank threads es P A ∧
      b.G.Represents n nrank threads es P A
  | .more a, .more b => a.it = b.it ∧ a.s = b.s ∧ ∃ P A, a.G.Represents n nrank threads es P A ∧
      b.G.Represents n nrank threads es P A
  | _, _ => False

/-- C19: the scratch vectors passed in, and the contents of all freshly allocated memory, have no effect: two
runs on the same graph, with any two scratch spaces (or none) that come from `graph_program_init` or
from earlier runs, end in the same state.  No assumption on the reduction. -/
theorem scratch_reuse_has_no_effect {n nrank threads : Nat} (c : Cfg n nrank threads) (ie ie' : InitEnv T U)
    (env env' : Nat → StepEnv T U V) {pr : Program S T U V E} {msg : S → V → T} {proc : S → T → E → V → U}
    (hp : pr.Pure msg proc) (s0 : S) {scratch scratch' : Option (DVec T × DVec U)} {G : Graph V E} {es : List (Edge E)}
    {P : Nat → V} {A : Nat → Bool} (hG : G.Represents n nrank threads es P A)
    (hs : ∀ xy, scratch = some xy → Scratch n nrank xy.1 xy.2)
    (hs' : ∀ xy, scratch' = some xy → Scratch n nrank xy.1 xy.2) (iterations : Int) (fuel : Nat) (hf : fuel ≤ IMAX) :
    ∃ o o', G.run ie env pr s0 iterations scratch fuel = some o ∧ G.run ie' env' pr s0 iterations scratch' fuel = some o' ∧
      SameOutcome n nrank threads es o o' := by
  obtain ⟨TA, TT, PA, PT, hG⟩ := hG
  obtain ⟨st, h1, h2⟩ := Graph.run_start c ie env pr s0 iterations hG hs msg proc
  obtain ⟨st', h1', h2'⟩ := Graph.run_start c ie' env' pr s0 iterations hG hs' msg proc
  rw [h1, h1']
  let R : RunCtx S T U V E := ⟨pr, msg, proc, (pr.gp s0).allVertices, n, nrank, threads, TA, TT, PA, PT, es⟩
  have key : ∀ (fuel k : Nat) (a b : RunState S T U V E) (ca cb : List Bool), k + fuel ≤ IMAX →
      R.At ⟨P, fun v => (pr.gp s0).allVertices || A v, s0⟩ k a ca →
      R.At ⟨P, fun v => (pr.gp s0).allVertices || A v, s0⟩ k b cb →
      ∃ o o', runLoop env pr (pr.gp s0).allVertices iterations fuel a = some o ∧
        runLoop env' pr (pr.gp s0).allVertices iterations fuel b = some o' ∧ SameOutcome n nrank threads es o o' := by
    intro fuel
    induction fuel with
    | zero =>
      intro k a b ca cb _ ha hb
      exact ⟨_, _, rfl, rfl, by rw [ha.it, hb.it], by rw [ha.s, hb.s], _, _, ⟨TA, TT, PA, PT, ha.has⟩,
        ⟨TA, TT, PA, PT, hb.has⟩⟩
    | succ fuel ih =>
      intro k a b ca cb hk ha hb
      obtain ⟨a1, e1, e2, e3⟩ := runBody_spec (R := R) c hp env ha (by omega)
      obtain ⟨b1, f1, f2, f3⟩ := runBody_spec (R := R) c hp env' hb (by omega)
      have hc : a1.converged = b1.converged := by rw [Bool.eq_iff_iff, e3, f3]
      have hi : a1.it = b1.it := by rw [e2.it, f2.it]
      have e1' : runBody env pr (pr.gp s0).allVertices a = some a1 := e1
      have f1' : runBody env' pr (pr.gp s0).allVertices b = some b1 := f1
      have hsame : SameOutcome n nrank threads es (.done a1) (.done b1) :=
        ⟨hi, by rw [e2.s, f2.s], _, _, ⟨TA, TT, PA, PT, e2.has⟩, ⟨TA, TT, PA, PT, f2.has⟩⟩
      rw [runLoop, runLoop, e1', f1']
      simp only [Option.bind_eq_bind, Option.bind_some]
      rw [← hc, ← hi]
      by_cases h1 : a1.it = iterations
      · rw [if_pos h1, if_pos h1]
        exact ⟨_, _, rfl, rfl, hsame⟩
      · rw [if_neg h1, if_neg h1]
        by_cases h2 : iterations ≤ 0 ∧ a1.converged = true
        · rw [if_pos h2, if_pos h2]
          exact ⟨_, _, rfl, rfl, hsame⟩
        · rw [if_neg h2, if_neg h2]
          exact ih (k + 1) a1 b1 _ _ (by omega) e2 f2
  exact key fuel 0 st st' _ _ (by omega) h2 h2'

/-- Scratch spaces as in the hypotheses: the one made by `graph_program_init` is one, and so is the one left
behind by a run (`run_executes_exactly_N` and `run_until_convergence` return it). -/
example (G : Graph Nat Nat) (h : G.toVGraph.Inv 40 2 1) : ∃ x y, G.newScratch (InitEnv.sample (T := Nat) (U := Nat) 7 8) = some (x, y) ∧
    Scratch 40 2 x y :=
  Graph.newScratch_spec ⟨by decide, by decide, by decide, by decide⟩ h _

/-! ## C13 for whole runs -/

/-- C13: load the same edges (divided and ordered in any way) on two different numbers of ranks and threads,
make the same calls, run the same program (associative, commutative reduction) for `N` supersteps.  Every
vertex ends with the same property on both, wherever it is stored. -/
theorem run_same_on_all_configurations {n nrank threads nrank' threads' : Nat} (c : Cfg n nrank threads)
    (c' : Cfg n nrank' threads') (le le' : LoadEnv V E) (hsA : le.sA.OK) (hsT : le.sAT.OK) (hsA' : le'.sA.OK)
    (hsT' : le'.sAT.OK) {d : V} (hd : le.d = fun _ => d) (hd' : le'.d = fun _ => d)
    {blobs blobs' : List (List (Edge E))} (hb : blobs.length = nrank) (hb' : blobs'.length = nrank')
    (hin : ∀ es ∈ blobs, ∀ e ∈ es, e.Valid n) (hperm : blobs.flatten.Perm blobs'.flatten)
    (gv gv' : Nat → Nat → Nat → Fresh V) (ga ga' : Nat → Nat → Nat → Fresh Bool) {ops : List (VOp V)}
    (hops : ∀ op ∈ ops, op.Valid n) (hfix : ∃ op ∈ ops, op.FixesActivity)
    (ie ie' : InitEnv T U) (env env' : Nat → StepEnv T U V) {pr : Program S T U V E} {msg : S → V → T}
    {proc : S → T → E → V → U} (hp : pr.Pure msg proc)
    (hassoc : ∀ s a b c, (pr.gp s).reduce ((pr.gp s).reduce a b) c = (pr.gp s).reduce a ((pr.gp s).reduce b c))
    (hcomm : ∀ s a b, (pr.gp s).reduce a b = (pr.gp s).reduce b a) (s0 : S) (N : Nat) (hN : 1 ≤ N) (hmax : N ≤ IMAX) :
    ∃ out G vg st out' H vh st', Graph.readEdgelist le threads nrank n n blobs = some (out, G) ∧
      G.toVGraph.runOps gv ga 0 ops = some vg ∧
      Graph.run ie env pr s0 (N : Int) none { G with toVGraph := vg } N = some (.done st) ∧
      Graph.readEdgelist le' threads' nrank' n n blobs' = some (out', H) ∧
      H.toVGraph.runOps gv' ga' 0 ops = some vh ∧
      Graph.run ie' env' pr s0 (N : Int) none { H with toVGraph := vh } N = some (.done st') ∧
      st.s = st'.s ∧
      ∀ v, 1 ≤ v → v ≤ n → ∃ x o o', o < nrank ∧ o' < nrank' ∧
        (∀ r, r < nrank → st.G.getVertexproperty r v = some (if r = o then some x else none)) ∧
        (∀ r, r < nrank' → st'.G.getVertexproperty r v = some (if r = o' then some x else none)) := by
  have hin' : ∀ es ∈ blobs', ∀ e ∈ es, e.Valid n := by
    intro es h1 e h2
    have : e ∈ blobs.flatten := hperm.mem_iff.mpr (List.mem_flatten.mpr ⟨es, h1, h2⟩)
    rw [List.mem_flatten] at this
    obtain ⟨l, h3, h4⟩ := this
    exact hin l h3 e h4
  obtain ⟨out, G, vg, a1, a2, a3⟩ := Graph.load_represents c le hsA hsT hd hb hin gv ga hops hfix (fun _ => false)
  obtain ⟨out', H, vh, b1, b2, b3⟩ := Graph.load_represents c' le' hsA' hsT' hd' hb' hin' gv' ga' hops hfix (fun _ => false)
  obtain ⟨st, P1, A1, cs1, e1, _, e2, _, e3, _⟩ := run_executes_exactly_N c ie env hp s0 (scratch := none) a3
    (fun _ h => by cases h) N hN hmax N (Nat.le_refl _)
  obtain ⟨st', P2, A2, cs2, f1, _, f2, _, f3, _⟩ := run_executes_exactly_N c' ie' env' hp s0 (scratch := none) b3
    (fun _ h => by cases h) N hN hmax N (Nat.le_refl _)
  obtain ⟨g1, g2, g3, _⟩ := Steps.unique hassoc hcomm a3.valid hperm (fun _ _ _ => rfl) (fun _ _ _ => rfl) e3 f3
  refine ⟨out, G, vg, st, out', H, vh, st', a1, a2, e1, b1, b2, f1, g3, ?_⟩
  intro v v1 v2
  obtain ⟨o, o1, o2⟩ := represents_observed c e2 v v1 v2
  obtain ⟨o', o1', o2'⟩ := represents_observed c' f2 v v1 v2
  refine ⟨P1 v, o, o', o1, o1', fun r hr => (o2 r hr).2, fun r hr => ?_⟩
  rw [g1 v v1 v2]
  exact (o2' r hr).2

/-- A program whose vertices keep the smallest number heard of. -/
def minProg : GProg Nat Nat Nat Nat :=
  { order := .out, allVertices := false, needsProp := false, send := fun p _ => (true, p),
    process := fun t e _ _ => t + e, reduce := min, apply := min, ne := fun a b => a != b }

/-- The hypotheses, with 2 ranks and one thread and with 5 ranks and 3 threads, the edges divided in another order. -/
example (N : Nat) (hN : 1 ≤ N) (hmax : N ≤ IMAX) := run_same_on_all_configurations (n := 40) (nrank := 2) (threads := 1) (nrank' := 5) (threads' := 3)
  ⟨by decide, by decide, by decide, by decide⟩ ⟨by decide, by decide, by decide, by decide⟩
  (LoadEnv.sample (V := Nat) (E := Nat) 0 0) (LoadEnv.sample (V := Nat) (E := Nat) 0 1)
  Sorts.ins_ok Sorts.ins_ok Sorts.ins_ok Sorts.ins_ok (d := 0) rfl rfl
  (blobs := [[⟨2, 1, 5⟩, ⟨40, 2, 6⟩], [⟨1, 39, 9⟩]]) (blobs' := [[⟨1, 39, 9⟩], [], [⟨2, 1, 5⟩], [⟨40, 2, 6⟩], []]) rfl rfl (by
    intro es hes e he
    simp at hes
    rcases hes with rfl | rfl <;> simp at he
    · rcases he with rfl | rfl <;> simp [Edge.Valid]
    · subst he; simp [Edge.Valid]) (by decide)
  (fun _ _ _ => .sample 0) (fun _ _ _ => .sample 8) (fun _ _ _ => .sample true) (fun _ _ _ => .sample false)
  (ops := [.setAllProp 90, .setProp 40 7, .setAllInactive, .setActive 40]) (by
    intro op h
    simp at h
    rcases h with rfl | rfl | rfl | rfl <;> simp [VOp.Valid]) ⟨.setAllInactive, by simp, trivial⟩
  (.sample 1 2) (.sample 6 7) (fun _ => .sample 3 4 5) (fun _ => .sample 8 9 10)
  (pr := ({ gp := fun _ => minProg, every := fun _ s => s } : Program Unit Nat Nat Nat Nat))
  (msg := fun _ p => p) (proc := fun _ t e _ => t + e) (fun _ => ⟨fun _ _ => rfl, fun _ _ _ _ => rfl, fun _ _ _ _ _ => rfl⟩)
  (fun _ => Nat.min_assoc) (fun _ => Nat.min_comm) () N hN hmax

/-! ## C12: thread counts -/

/-- C12 is false as stated: with a non-commutative reduction the number of threads changes the result.
`vertexToNative` uses the thread count, so the columns of the matrix, and with them the messages of one
vertex, are visited in a different order: vertex 1 gets `17`'s message before `2`'s with one thread and after
it with two. -/
theorem thread_count_changes_result :
    (sampleRun (traceProg .out false true) 1 32 [⟨2, 1, 100⟩, ⟨17, 1, 200⟩] [2, 17] 1 1).bind (·[0]?) =
      some (some [17, 200, 1, 2, 100, 1]) ∧
    (sampleRun (traceProg .out false true) 2 32 [⟨2, 1, 100⟩, ⟨17, 1, 200⟩] [2, 17] 1 1).bind (·[0]?) =
      some (some [2, 100, 1, 17, 200, 1]) := by
  decide +kernel

end GraphMat

import Verif.Lemmas.Runtime

namespace GraphMat

variable {α S T U V E : Type}

/-- What the user sees of a running program: properties, active set, program object. -/
structure AState (S V : Type) where
  P : Nat → V
  A : Nat → Bool
  s : S

/-- Everything that is fixed during a run. -/
structure RunCtx (S T U V E : Type) where
  pr : Program S T U V E
  msg : S → V → T
  proc : S → T → E → V → U
  act : Bool
  n : Nat
  nrank : Nat
  threads : Nat
  TA : Nat → Nat → Tile E
  TT : Nat → Nat → Tile E
  PA : Nat → Nat → Nat → List (Col E)
  PT : Nat → Nat → Nat → List (Col E)
  es : List (Edge E)

namespace RunCtx

/-- Reduced messages in state `a`. -/
def res (R : RunCtx S T U V E) (a : AState S V) (d : Nat) : Option U :=
  exactRes (R.pr.gp a.s) (R.msg a.s) (R.proc a.s) R.n R.nrank R.threads R.TA R.TT R.PA R.PT a.P a.A d

/-- Superstep number `k`. -/
def next (R : RunCtx S T U V E) (k : Nat) (a : AState S V) : AState S V where
  P := fun d => afterApply (R.pr.gp a.s).apply (a.P d) (R.res a d)
  A := fun d => R.act || gotChanged (R.pr.gp a.s).apply (R.pr.gp a.s).ne (a.P d) (R.res a d)
  s := R.pr.every k a.s

/-- The state after `k` supersteps. -/
def iter (R : RunCtx S T U V E) (a : AState S V) : Nat → AState S V
  | 0 => a
  | k + 1 => R.next k (R.iter a k)

/-- No vertex changes in the superstep from `a`. -/
def quiet (R : RunCtx S T U V E) (a : AState S V) : Prop :=
  ∀ d, 1 ≤ d → d ≤ R.n → gotChanged (R.pr.gp a.s).apply (R.pr.gp a.s).ne (a.P d) (R.res a d) = false

/-- The machine state after `k` supersteps from `a0`. -/
structure At (R : RunCtx S T U V E) (a0 : AState S V) (k : Nat) (st : RunState S T U V E) (cs : List Bool) : Prop where
  has : st.G.Has R.n R.nrank R.threads R.TA R.TT R.PA R.PT R.es (R.iter a0 k).P (R.iter a0 k).A
  scratch : Scratch R.n R.nrank st.x st.y
  it : st.it = (k : Int)
  s : st.s = (R.iter a0 k).s
  steps : Steps R.pr.gp R.pr.every R.msg R.proc R.act R.n R.es a0.P a0.A a0.s k (R.iter a0 k).P (R.iter a0 k).A
    (R.iter a0 k).s cs
  len : cs.length = k
  conv : ∀ i (h : i < cs.length), cs[i] = true ↔ R.quiet (R.iter a0 i)

end RunCtx

theorem runBody_spec {R : RunCtx S T U V E} (c : Cfg R.n R.nrank R.threads)
    (hp : ∀ s, (R.pr.gp s).Pure (R.msg s) (R.proc s)) (env : Nat → StepEnv T U V) {a0 : AState S V} {k : Nat}
    {st : RunState S T U V E} {cs : List Bool} (h : R.At a0 k st cs) (hk : (k : Int) + 1 ≤ IMAX) :
    ∃ st', runBody env R.pr R.act st = some st' ∧ R.At a0 (k + 1) st' (cs ++ [st'.converged]) ∧
      (st'.converged = true ↔ R.quiet (R.iter a0 k)) := by
  have hps := hp (R.iter a0 k).s
  obtain ⟨G', x', y', conv, e1, e2, e3, e4, e5⟩ := Graph.superstep_spec c (env st.it.toNat)
    (hps.eff _) (hps.eff _) R.act h.has h.scratch
  have hq : conv = true ↔ R.quiet (R.iter a0 k) := e5
  unfold runBody
  rw [h.s, e1]
  simp only [Option.bind_eq_bind, Option.bind_some]
  have hc : cadd st.it 1 = some ((k : Int) + 1) := by
    rw [h.it, cadd_one (by omega)]; push_cast; rfl
  rw [hc]
  simp only [Option.bind_some]
  refine ⟨_, rfl, ?_, hq⟩
  refine ⟨e3, e2, by push_cast; rfl, ?_, ?_, by simp [h.len], ?_⟩
  · show R.pr.every st.it _ = _
    rw [h.it]; rfl
  · exact Steps.succ h.steps ⟨_, e4, fun _ _ _ => rfl, fun _ _ _ => rfl, e5⟩
  · intro i hi
    by_cases hlt : i < cs.length
    · rw [List.getElem_append_left hlt]; exact h.conv i hlt
    · have hik : i = cs.length := by simp at hi; omega
      subst hik
      rw [List.getElem_append_right (Nat.le_refl _)]
      simp only [Nat.sub_self, List.getElem_cons_zero]
      rw [h.len]
      exact hq

/-- A positive iteration count. -/
theorem runLoop_count {R : RunCtx S T U V E} (c : Cfg R.n R.nrank R.threads)
    (hp : ∀ s, (R.pr.gp s).Pure (R.msg s) (R.proc s)) (env : Nat → StepEnv T U V) {a0 : AState S V} (j : Nat) :
    ∀ {k fuel : Nat} {st : RunState S T U V E} {cs : List Bool}, R.At a0 k st cs → ((k + j + 1 : Nat) : Int) ≤ IMAX →
      j < fuel → ∃ st' cs', runLoop env R.pr R.act ((k + j + 1 : Nat) : Int) fuel st = some (.done st') ∧
        R.At a0 (k + j + 1) st' cs' := by
  induction j with
  | zero =>
    intro k fuel st cs h hmax hf
    obtain ⟨fuel, rfl⟩ : ∃ f, fuel = f + 1 := ⟨fuel - 1, by omega⟩
    obtain ⟨st', e1, e2, _⟩ := runBody_spec c hp env h (by push_cast at hmax; omega)
    refine ⟨st', _, ?_, e2⟩
    unfold runLoop
    rw [e1]
    simp only [Option.bind_eq_bind, Option.bind_some]
    rw [if_pos e2.it]
  | succ j ih =>
    intro k fuel st cs h hmax hf
    obtain ⟨fuel, rfl⟩ : ∃ f, fuel = f + 1 := ⟨fuel - 1, by omega⟩
    obtain ⟨st1, e1, e2, _⟩ := runBody_spec c hp env h (by push_cast at hmax; omega)
    obtain ⟨st', cs', f1, f2⟩ := ih e2 (by rw [show k + 1 + j + 1 = k + (j + 1) + 1 by omega]; exact hmax)
      (show j < fuel by omega)
    rw [show k + 1 + j + 1 = k + (j + 1) + 1 by omega] at f1 f2
    refine ⟨st', cs', ?_, f2⟩
    unfold runLoop
    rw [e1]
    simp only [Option.bind_eq_bind, Option.bind_some]
    rw [if_neg (by rw [e2.it]; omega), if_neg (by omega)]
    exact f1

/-- Until convergence. -/
theorem runLoop_until {R : RunCtx S T U V E} (c : Cfg R.n R.nrank R.threads)
    (hp : ∀ s, (R.pr.gp s).Pure (R.msg s) (R.proc s)) (env : Nat → StepEnv T U V) {a0 : AState S V} {iterations : Int}
    (hi : iterations ≤ 0) (fuel : Nat) :
    ∀ {k : Nat} {st : RunState S T U V E} {cs : List Bool}, R.At a0 k st cs → ((k + fuel : Nat) : Int) ≤ IMAX →
      (∃ j st' cs', j < fuel ∧ runLoop env R.pr R.act iterations fuel st = some (.done st') ∧
        R.At a0 (k + j + 1) st' cs' ∧ R.quiet (R.iter a0 (k + j)) ∧ ∀ i, i < j → ¬ R.quiet (R.iter a0 (k + i))) ∨
      (∃ st' cs', runLoop env R.pr R.act iterations fuel st = some (.more st') ∧
        R.At a0 (k + fuel) st' cs' ∧ ∀ i, i < fuel → ¬ R.quiet (R.iter a0 (k + i))) := by
  induction fuel with
  | zero =>
    intro k st cs h _
    exact .inr ⟨st, cs, rfl, h, by intro i hi; omega⟩
  | succ fuel ih =>
    intro k st cs h hmax
    obtain ⟨st1, e1, e2, e3⟩ := runBody_spec c hp env h (by push_cast at hmax; omega)
    have hl : runLoop env R.pr R.act iterations (fuel + 1) st = if st1.converged = true then some (.done st1)
        else runLoop env R.pr R.act iterations fuel st1 := by
      rw [runLoop]
      rw [e1]
      simp only [Option.bind_eq_bind, Option.bind_some]
      rw [if_neg (by rw [e2.it]; omega)]
      by_cases hcv : st1.converged = true
      · rw [if_pos ⟨hi, hcv⟩, if_pos hcv]
      · rw [if_neg (fun h => hcv h.2), if_neg hcv]
    rw [hl]
    by_cases hcv : st1.converged = true
    · rw [if_pos hcv]
      exact .inl ⟨0, st1, _, by omega, rfl, e2, e3.mp hcv, by intro i hi; omega⟩
    · rw [if_neg hcv]
      have hnq : ¬ R.quiet (R.iter a0 k) := fun h => hcv (e3.mpr h)
      rcases ih e2 (by rw [show k + 1 + fuel = k + (fuel + 1) by omega]; exact hmax) with
        ⟨j, st', cs', f1, f2, f3, f4, f5⟩ | ⟨st', cs', f2, f3, f5⟩
      · refine .inl ⟨j + 1, st', cs', by omega, f2, ?_, ?_, ?_⟩
        · rw [show k + 1 + j + 1 = k + (j + 1) + 1 by omega] at f3; exact f3
        · rw [show k + 1 + j = k + (j + 1) by omega] at f4; exact f4
        · intro i hij
          cases i with
          | zero => exact hnq
          | succ i =>
            have := f5 i (by omega)
            rw [show k + 1 + i = k + (i + 1) by omega] at this; exact this
      · refine .inr ⟨st', cs', f2, ?_, ?_⟩
        · rw [show k + 1 + fuel = k + (fuel + 1) by omega] at f3; exact f3
        · intro i hij
          cases i with
          | zero => exact hnq
          | succ i =>
            have := f5 i (by omega)
            rw [show k + 1 + i = k + (i + 1) by omega] at this; exact this

/-- What `run_graph_program` does before the loop; the active vertices only matter if the program does not
activate all of them. -/
theorem Graph.run_start' {n nrank threads : Nat} (c : Cfg n nrank threads) (ie : InitEnv T U) (env : Nat → StepEnv T U V)
    (pr : Program S T U V E) (s0 : S) (iterations : Int) {scratch : Option (DVec T × DVec U)} {G : Graph V E}
    {TA TT : Nat → Nat → Tile E} {PA PT : Nat → Nat → Nat → List (Col E)} {es : List (Edge E)} {P : Nat → V}
    {A : Nat → Bool} (hv : ∀ e ∈ es, e.Valid n)
    (hH : G.Holds n nrank threads TA TT PA PT (es.map (nativeEdge (threads * 16 * nrank) n)))
    (hP : G.toVGraph.Props n nrank threads P)
    (hA : (pr.gp s0).allVertices = false → G.toVGraph.Acts n nrank threads A)
    (hs : ∀ xy, scratch = some xy → Scratch n nrank xy.1 xy.2) (msg : S → V → T) (proc : S → T → E → V → U) :
    ∃ st : RunState S T U V E, (∀ fuel, G.run ie env pr s0 iterations scratch fuel =
        runLoop env pr (pr.gp s0).allVertices iterations fuel st) ∧
      RunCtx.At ⟨pr, msg, proc, (pr.gp s0).allVertices, n, nrank, threads, TA, TT, PA, PT, es⟩
        ⟨P, fun v => (pr.gp s0).allVertices || A v, s0⟩ 0 st [] := by
  obtain ⟨x, y, hxy, hsc⟩ : ∃ x y, G.scratchOr ie scratch = some (x, y) ∧ Scratch n nrank x y := by
    cases scratch with
    | none => exact Graph.newScratch_spec c hH.inv ie
    | some xy => exact ⟨xy.1, xy.2, rfl, hs xy rfl⟩
  obtain ⟨G1, h1, h2⟩ : ∃ G1, G.startActive ie.gb (pr.gp s0).allVertices = some G1 ∧
      G1.Has n nrank threads TA TT PA PT es P (fun v => (pr.gp s0).allVertices || A v) := by
    unfold Graph.startActive
    cases ha : (pr.gp s0).allVertices with
    | false => exact ⟨G, rfl, hv, hH, hP, by simpa using hA ha⟩
    | true =>
      obtain ⟨G', k1, k2, k3, k4⟩ := VGraph.setAllActive_spec c hH.inv ie.gb
      rw [if_pos rfl, k1]
      refine ⟨_, rfl, hv, ⟨k2, hH.A, hH.AT⟩, ?_, ?_⟩
      · intro v h1 h2
        show userSem n nrank threads G'.vp v = _
        rw [k3]; exact hP v h1 h2
      · intro v h1 h2
        have := k4 v h1 h2
        simpa using this
  refine ⟨⟨G1, x, y, s0, 0, true⟩, ?_, ⟨h2, hsc, rfl, rfl, Steps.zero, rfl, by intro i hi; cases hi⟩⟩
  intro fuel
  unfold Graph.run
  simp only [Option.bind_eq_bind]
  rw [hxy]
  simp only [Option.bind_some]
  rw [h1]
  rfl

theorem Graph.run_start {n nrank threads : Nat} (c : Cfg n nrank threads) (ie : InitEnv T U) (env : Nat → StepEnv T U V)
    (pr : Program S T U V E) (s0 : S) (iterations : Int) {scratch : Option (DVec T × DVec U)} {G : Graph V E}
    {TA TT : Nat → Nat → Tile E} {PA PT : Nat → Nat → Nat → List (Col E)} {es : List (Edge E)} {P : Nat → V}
    {A : Nat → Bool} (hG : G.Has n nrank threads TA TT PA PT es P A)
    (hs : ∀ xy, scratch = some xy → Scratch n nrank xy.1 xy.2) (msg : S → V → T) (proc : S → T → E → V → U) :
    ∃ st : RunState S T U V E, (∀ fuel, G.run ie env pr s0 iterations scratch fuel =
        runLoop env pr (pr.gp s0).allVertices iterations fuel st) ∧
      RunCtx.At ⟨pr, msg, proc, (pr.gp s0).allVertices, n, nrank, threads, TA, TT, PA, PT, es⟩
        ⟨P, fun v => (pr.gp s0).allVertices || A v, s0⟩ 0 st [] :=
  Graph.run_start' c ie env pr s0 iterations hG.valid hG.holds hG.props (fun _ => hG.acts) hs msg proc

end GraphMat

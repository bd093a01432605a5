import Verif.Props.Script

/-!
# Runs one after the other: a run in two parts (C97), and a run after convergence (C98)
-/
namespace GraphMat

variable {S T U V E : Type}

/-! ## C97 -/

theorem RunCtx.iter_add {R : RunCtx S T U V E} (he : ∀ i j s, R.pr.every i s = R.pr.every j s) (a : AState S V) (N : Nat) :
    ∀ M, R.iter (R.iter a N) M = R.iter a (N + M) := by
  intro M
  induction M with
  | zero => rfl
  | succ M ih =>
    show R.next M (R.iter (R.iter a N) M) = R.next (N + M) (R.iter a (N + M))
    rw [ih]
    unfold RunCtx.next
    rw [he (M : Int) ((N + M : Nat) : Int)]

/-- C97.  `N` supersteps and then, in another call that continues with the program object, `M` more leave the graph and the object exactly as one call for
`N + M` supersteps, with new vectors or any that were made for the graph, whatever memory contains; also with reductions that depend on the order.  The
program may change its object, but not depending on the number of the superstep, which begins at 0 again, and not its kind of activity. -/
theorem run_in_two_parts {n nrank threads : Nat} (c : Cfg n nrank threads) (ie ie' ie'' : InitEnv T U) (env env' env'' : Nat → StepEnv T U V)
    {pr : Program S T U V E} {msg : S → V → T} {proc : S → T → E → V → U} (hp : pr.Pure msg proc) (he : ∀ i j s, pr.every i s = pr.every j s)
    (hact : ∀ s s', (pr.gp s).allVertices = (pr.gp s').allVertices) (s0 : S) {scratch scratch'' : Option (DVec T × DVec U)} {G : Graph V E}
    {es : List (Edge E)} {P : Nat → V} {A : Nat → Bool} (hG : G.Represents n nrank threads es P A)
    (hs : ∀ xy, scratch = some xy → Scratch n nrank xy.1 xy.2) (hs'' : ∀ xy, scratch'' = some xy → Scratch n nrank xy.1 xy.2)
    (N M : Nat) (hN : 1 ≤ N) (hM : 1 ≤ M) (hmax : N + M ≤ IMAX) (fuel : Nat) (hf : N + M ≤ fuel) :
    ∃ st st'' P' A', G.run ie env pr s0 (N : Int) scratch fuel = some (.done st) ∧ Scratch n nrank st.x st.y ∧
      G.run ie'' env'' pr s0 ((N + M : Nat) : Int) scratch'' fuel = some (.done st'') ∧ st''.G.Represents n nrank threads es P' A' ∧
      ∀ scratch' : Option (DVec T × DVec U), (∀ xy, scratch' = some xy → Scratch n nrank xy.1 xy.2) →
        ∃ st', st.G.run ie' env' pr st.s (M : Int) scratch' fuel = some (.done st') ∧ st'.s = st''.s ∧ st.it + st'.it = st''.it ∧
          st'.G.Represents n nrank threads es P' A' := by
  obtain ⟨TA, TT, PA, PT, hG⟩ := hG
  obtain ⟨a, a1, a2⟩ := Graph.run_start c ie env pr s0 (N : Int) hG hs msg proc
  obtain ⟨b, b1, b2⟩ := Graph.run_start c ie'' env'' pr s0 ((N + M : Nat) : Int) hG hs'' msg proc
  obtain ⟨j, rfl⟩ : ∃ j, N = j + 1 := ⟨N - 1, by omega⟩
  obtain ⟨i, rfl⟩ : ∃ i, M = i + 1 := ⟨M - 1, by omega⟩
  let R : RunCtx S T U V E := ⟨pr, msg, proc, (pr.gp s0).allVertices, n, nrank, threads, TA, TT, PA, PT, es⟩
  obtain ⟨st, cs, e1, e2⟩ := runLoop_count (R := R) c hp env j a2 (by omega) (show j < fuel by omega)
  obtain ⟨st'', cs'', f1, f2⟩ := runLoop_count (R := R) c hp env'' (j + 1 + i) b2 (by omega) (show j + 1 + i < fuel by omega)
  rw [Nat.zero_add] at e1 e2 f1 f2
  refine ⟨st, st'', _, _, by rw [a1]; exact e1, e2.scratch, by rw [b1]; exact f1, ⟨TA, TT, PA, PT, f2.has⟩, fun scratch' hs' => ?_⟩
  obtain ⟨d, d1, d2⟩ := Graph.run_start c ie' env' pr st.s ((i + 1 : Nat) : Int) e2.has hs' msg proc
  rw [hact st.s s0, e2.s] at d2
  rw [hact st.s s0] at d1
  have hstart : (⟨(R.iter ⟨P, fun v => (pr.gp s0).allVertices || A v, s0⟩ (j + 1)).P,
      fun v => (pr.gp s0).allVertices || (R.iter ⟨P, fun v => (pr.gp s0).allVertices || A v, s0⟩ (j + 1)).A v,
      (R.iter ⟨P, fun v => (pr.gp s0).allVertices || A v, s0⟩ (j + 1)).s⟩ : AState S V) =
      R.iter ⟨P, fun v => (pr.gp s0).allVertices || A v, s0⟩ (j + 1) := by
    show _ = R.next _ _
    have : ∀ x, ((pr.gp s0).allVertices || ((pr.gp s0).allVertices || x)) = ((pr.gp s0).allVertices || x) := by
      intro x
      rw [← Bool.or_assoc, Bool.or_self]
    simp only [RunCtx.iter, RunCtx.next, R, this]
  obtain ⟨st', cs', g1, g2⟩ := runLoop_count (R := R) c hp env' i d2 (by omega) (show i < fuel by omega)
  rw [Nat.zero_add] at g1 g2
  have hit := RunCtx.iter_add (R := R) he ⟨P, fun v => (pr.gp s0).allVertices || A v, s0⟩ (j + 1) (i + 1)
  refine ⟨st', by rw [d1]; exact g1, ?_, ?_, ⟨TA, TT, PA, PT, ?_⟩⟩
  · rw [g2.s, f2.s, hstart, hit]
    rfl
  · rw [e2.it, g2.it, f2.it]
    push_cast
    omega
  · have := g2.has
    rw [hstart, hit] at this
    exact this

/-! ## C98 -/

/-- With no active vertices nothing is sent, and supersteps change nothing. -/
theorem StepRel.idle {gp : GProg T U V E} {msg : V → T} {proc : T → E → V → U} {n : Nat} {es : List (Edge E)} (hv : ∀ e ∈ es, e.Valid n)
    {P P' : Nat → V} {A A' : Nat → Bool} {c : Bool} (hA : ∀ v, 1 ≤ v → v ≤ n → A v = false) (h : StepRel gp msg proc false n es P A P' A' c) :
    (∀ v, 1 ≤ v → v ≤ n → P' v = P v) ∧ (∀ v, 1 ≤ v → v ≤ n → A' v = false) ∧ c = true := by
  obtain ⟨res, h1, h2, h3, h4⟩ := h
  have hout : ∀ d, outMsgs msg proc es P A d = [] := by
    intro d
    unfold outMsgs
    rw [List.filterMap_eq_nil_iff]
    intro e he
    obtain ⟨k1, k2, _, _⟩ := hv e he
    rw [hA _ (by omega) (by omega)]
    simp
  have hinn : ∀ d, inMsgs msg proc es P A d = [] := by
    intro d
    unfold inMsgs
    rw [List.filterMap_eq_nil_iff]
    intro e he
    obtain ⟨_, _, k1, k2⟩ := hv e he
    rw [hA _ (by omega) (by omega)]
    simp
  have hin : ∀ d, inbox gp.order msg proc es P A d = [] := by
    intro d
    unfold inbox
    split <;> simp only [hout, hinn, List.append_nil]
  have hres : ∀ d, 1 ≤ d → d ≤ n → res d = none := by
    intro d d1 d2
    have := h1 d d1 d2
    rw [hin] at this
    rcases this with ⟨_, h⟩ | ⟨t, h, _⟩
    · exact h
    · have := h.length_eq
      cases t with
      | leaf a => simp [RTree.leaves] at this
      | node a b =>
        exfalso
        rw [List.perm_nil] at h
        have hne : ∀ t : RTree U, t.leaves ≠ [] := by
          intro t
          induction t with
          | leaf a => simp [RTree.leaves]
          | node a b iha _ => simp [RTree.leaves, iha]
        exact hne _ h
  refine ⟨fun v a b => ?_, fun v a b => ?_, h4.mpr fun v a b => ?_⟩
  · rw [h2 v a b, hres v a b]
    rfl
  · rw [h3 v a b, hres v a b]
    rfl
  · rw [hres v a b]
    rfl

theorem Steps.idle {gp : S → GProg T U V E} {every : Int → S → S} {msg : S → V → T} {proc : S → T → E → V → U} {n : Nat} {es : List (Edge E)}
    (hv : ∀ e ∈ es, e.Valid n) {P P' : Nat → V} {A A' : Nat → Bool} {s s' : S} {k : Nat} {cs : List Bool}
    (hA : ∀ v, 1 ≤ v → v ≤ n → A v = false) (h : Steps gp every msg proc false n es P A s k P' A' s' cs) :
    (∀ v, 1 ≤ v → v ≤ n → P' v = P v) ∧ (∀ v, 1 ≤ v → v ≤ n → A' v = false) ∧ ∀ b ∈ cs, b = true := by
  induction h with
  | zero => exact ⟨fun _ _ _ => rfl, hA, by simp⟩
  | succ h1 h2 ih =>
    obtain ⟨i1, i2, i3⟩ := ih
    obtain ⟨j1, j2, j3⟩ := h2.idle hv i2
    refine ⟨fun v a b => (j1 v a b).trans (i1 v a b), j2, fun b hb => ?_⟩
    rcases List.mem_append.mp hb with h | h
    · exact i3 b h
    · rw [List.mem_singleton] at h
      rw [h, j3]

/-- A program that works on active vertices has left none when it ends because nothing changed. -/
theorem Steps.last_quiet {gp : S → GProg T U V E} {every : Int → S → S} {msg : S → V → T} {proc : S → T → E → V → U} {n : Nat} {es : List (Edge E)}
    {P P' : Nat → V} {A A' : Nat → Bool} {s s' : S} {k : Nat} {cs : List Bool}
    (h : Steps gp every msg proc false n es P A s k P' A' s' (cs ++ [true])) : ∀ v, 1 ≤ v → v ≤ n → A' v = false := by
  generalize hc : cs ++ [true] = c at h
  cases h with
  | zero => simp at hc
  | succ h1 h2 =>
    obtain ⟨_, e⟩ := List.append_inj' hc rfl
    injection e with e _
    subst e
    obtain ⟨res, _, _, h3, h4⟩ := h2
    intro v a b
    rw [h3 v a b, h4.mp rfl v a b]
    rfl

/-- A run all of whose possible supersteps are quiet. -/
theorem quiet_run {n nrank threads : Nat} (c : Cfg n nrank threads) (ie : InitEnv T U) (env : Nat → StepEnv T U V) {pr : Program S T U V E}
    {msg : S → V → T} {proc : S → T → E → V → U} (hp : pr.Pure msg proc) (s0 : S) {scratch : Option (DVec T × DVec U)} {G : Graph V E}
    {es : List (Edge E)} {P : Nat → V} {A : Nat → Bool} (hG : G.Represents n nrank threads es P A)
    (hs : ∀ xy, scratch = some xy → Scratch n nrank xy.1 xy.2) (iterations : Int) {fuel : Nat} (hf : fuel ≤ IMAX) (h1 : 1 ≤ fuel)
    (hN : iterations ≤ fuel)
    (hq : ∀ k P' A' s' cs, Steps pr.gp pr.every msg proc (pr.gp s0).allVertices n es P (startActive pr s0 A) s0 k P' A' s' cs →
      (∀ v, 1 ≤ v → v ≤ n → P' v = P v) ∧ (∀ v, 1 ≤ v → v ≤ n → A' v = A v) ∧ ∀ b ∈ cs, b = true) :
    ∃ st, G.run ie env pr s0 iterations scratch fuel = some (.done st) ∧ st.it = max iterations 1 ∧ st.G.Represents n nrank threads es P A := by
  by_cases hpos : 1 ≤ iterations
  · obtain ⟨N, rfl⟩ : ∃ N : Nat, iterations = N := ⟨iterations.toNat, by omega⟩
    obtain ⟨st, P2, A2, cs2, f1, f2, f3, _, f5, _⟩ := run_executes_exactly_N c ie env hp s0 hG hs N (by omega) (by omega) fuel (by omega)
    obtain ⟨g1, g2, _⟩ := hq _ _ _ _ _ f5
    exact ⟨st, f1, by rw [f2]; omega, f3.congr g1 g2⟩
  · rcases run_until_convergence c ie env hp s0 hG hs (iterations := iterations) (by omega) fuel hf with
      ⟨st, k, P2, A2, cs2, f1, f2, f3, _, f5, _, f6, f7⟩ | ⟨st, P2, A2, cs2, f1, f2, f3, f4, f5⟩
    · obtain ⟨g1, g2, g3⟩ := hq _ _ _ _ _ f6
      have hl := f6.length
      have hcs : cs2 = [] := by
        cases cs2 with
        | nil => rfl
        | cons b l =>
          have h1 := g3 b (by simp)
          have h2 := f7 b (by simp)
          rw [h1] at h2
          cases h2
      subst hcs
      simp only [List.nil_append, List.length_singleton] at hl
      exact ⟨st, f1, by rw [f2]; omega, f5.congr g1 g2⟩
    · exfalso
      obtain ⟨_, _, g3⟩ := hq _ _ _ _ _ f4
      have hl := f4.length
      cases cs2 with
      | nil => simp only [List.length_nil] at hl; omega
      | cons b l =>
        have h1 := g3 b (by simp)
        have h2 := f5 b (by simp)
        rw [h1] at h2
        cases h2

/-- C98.  After a run that ended because nothing changed, of a program that works on active vertices, no vertex is active, and another run of any program
that works on active vertices changes no property and no activity: for `N ≥ 1` supersteps it makes `N`, until nothing changes it makes one. -/
theorem run_after_convergence {T' U' S' : Type} {n nrank threads : Nat} (c : Cfg n nrank threads) (ie : InitEnv T U) (env : Nat → StepEnv T U V)
    {pr : Program S T U V E} {msg : S → V → T} {proc : S → T → E → V → U} (hp : pr.Pure msg proc) (s0 : S) (hact : (pr.gp s0).allVertices = false)
    {scratch : Option (DVec T × DVec U)} {G : Graph V E} {es : List (Edge E)} {P : Nat → V} {A : Nat → Bool}
    (hG : G.Represents n nrank threads es P A) (hs : ∀ xy, scratch = some xy → Scratch n nrank xy.1 xy.2) {iterations : Int} (hi : iterations ≤ 0)
    {fuel : Nat} (hf : fuel ≤ IMAX) {st : RunState S T U V E} (hrun : G.run ie env pr s0 iterations scratch fuel = some (.done st))
    (ie' : InitEnv T' U') (env' : Nat → StepEnv T' U' V) {pr' : Program S' T' U' V E} {msg' : S' → V → T'} {proc' : S' → T' → E → V → U'}
    (hp' : pr'.Pure msg' proc') (s0' : S') (hact' : (pr'.gp s0').allVertices = false) {scratch' : Option (DVec T' × DVec U')}
    (hs' : ∀ xy, scratch' = some xy → Scratch n nrank xy.1 xy.2) (iterations' : Int) {fuel' : Nat} (hf' : fuel' ≤ IMAX) (h1 : 1 ≤ fuel')
    (hN : iterations' ≤ fuel') :
    ∃ P' st', st.G.Represents n nrank threads es P' (fun _ => false) ∧ st.G.run ie' env' pr' s0' iterations' scratch' fuel' = some (.done st') ∧
      st'.it = max iterations' 1 ∧ st'.G.Represents n nrank threads es P' (fun _ => false) := by
  rcases run_until_convergence c ie env hp s0 hG hs hi fuel hf with ⟨st1, k, P1, A1, cs, e1, _, _, _, e5, _, e6, _⟩ | ⟨_, _, _, _, e1, _⟩
  · rw [e1] at hrun
    injection hrun with hrun
    injection hrun with hrun
    subst hrun
    rw [hact] at e6
    have hG1 : st1.G.Represents n nrank threads es P1 (fun _ => false) := e5.congr (fun _ _ _ => rfl) e6.last_quiet
    obtain ⟨st', f1, f2, f3⟩ := quiet_run c ie' env' hp' s0' hG1 hs' iterations' hf' h1 hN (fun k P' A' s' cs h => by
      rw [hact'] at h
      exact h.idle hG1.valid (fun v _ _ => by simp [startActive, hact']))
    exact ⟨P1, st', hG1, f1, f2, f3⟩
  · rw [e1] at hrun
    injection hrun with hrun
    cases hrun

/-- A quiet superstep in which all vertices are active is followed by quiet ones. -/
theorem StepRel.stable {gp : GProg T U V E} {msg : V → T} {proc : T → E → V → U} {n : Nat} {es : List (Edge E)}
    (hne : ∀ a b, gp.ne a b = false → a = b) {P P' : Nat → V} {A A' : Nat → Bool} (h : StepRel gp msg proc true n es P A P' A' true) :
    (∀ v, 1 ≤ v → v ≤ n → P v = P' v) ∧ ∀ v, 1 ≤ v → v ≤ n → A' v = true := by
  obtain ⟨res, h1, h2, h3, h4⟩ := h
  refine ⟨fun v a b => ?_, fun v a b => by rw [h3 v a b]; rfl⟩
  have := h4.mp rfl v a b
  rw [h2 v a b]
  cases hr : res v with
  | none => rfl
  | some u =>
    rw [hr] at this
    exact hne _ _ this

theorem Steps.all_active {gp : S → GProg T U V E} {every : Int → S → S} {msg : S → V → T} {proc : S → T → E → V → U} {n : Nat} {es : List (Edge E)}
    {P P' : Nat → V} {A A' : Nat → Bool} {s s' : S} {k : Nat} {cs : List Bool} (hA : ∀ v, 1 ≤ v → v ≤ n → A v = true)
    (h : Steps gp every msg proc true n es P A s k P' A' s' cs) : ∀ v, 1 ≤ v → v ≤ n → A' v = true := by
  cases h with
  | zero => exact hA
  | succ _ h2 =>
    obtain ⟨res, _, _, h3, _⟩ := h2
    intro v a b
    rw [h3 v a b]
    rfl

/-- C98 for programs that work on all vertices: the same program, if its object does not change, its reduction is associative and commutative and its
`!=` does not hide differences. -/
theorem run_after_convergence_all {n nrank threads : Nat} (c : Cfg n nrank threads) (ie ie' : InitEnv T U) (env env' : Nat → StepEnv T U V)
    {pr : Program S T U V E} {msg : S → V → T} {proc : S → T → E → V → U} (hp : pr.Pure msg proc) (s0 : S) (hact : (pr.gp s0).allVertices = true)
    (he : ∀ i s, pr.every i s = s) (hassoc : ∀ s a b c, (pr.gp s).reduce ((pr.gp s).reduce a b) c = (pr.gp s).reduce a ((pr.gp s).reduce b c))
    (hcomm : ∀ s a b, (pr.gp s).reduce a b = (pr.gp s).reduce b a) (hne : ∀ s a b, (pr.gp s).ne a b = false → a = b)
    {scratch scratch' : Option (DVec T × DVec U)} {G : Graph V E} {es : List (Edge E)} {P : Nat → V} {A : Nat → Bool}
    (hG : G.Represents n nrank threads es P A) (hs : ∀ xy, scratch = some xy → Scratch n nrank xy.1 xy.2)
    (hs' : ∀ xy, scratch' = some xy → Scratch n nrank xy.1 xy.2) {iterations : Int} (hi : iterations ≤ 0)
    {fuel : Nat} (hf : fuel ≤ IMAX) {st : RunState S T U V E} (hrun : G.run ie env pr s0 iterations scratch fuel = some (.done st))
    (iterations' : Int) {fuel' : Nat} (hf' : fuel' ≤ IMAX) (h1 : 1 ≤ fuel') (hN : iterations' ≤ fuel') :
    ∃ P' st', st.G.Represents n nrank threads es P' (fun _ => true) ∧ st.s = s0 ∧
      st.G.run ie' env' pr st.s iterations' scratch' fuel' = some (.done st') ∧
      st'.it = max iterations' 1 ∧ st'.G.Represents n nrank threads es P' (fun _ => true) := by
  have hsame : ∀ {P P' : Nat → V} {A A' : Nat → Bool} {s s' : S} {k : Nat} {cs : List Bool},
      Steps pr.gp pr.every msg proc true n es P A s k P' A' s' cs → s' = s := by
    intro P P' A A' s s' k cs h
    induction h with
    | zero => rfl
    | succ _ _ ih => rw [he, ih]
  rcases run_until_convergence c ie env hp s0 hG hs hi fuel hf with ⟨st1, k, P1, A1, cs, e1, _, _, _, e5, _, e6, _⟩ | ⟨_, _, _, _, e1, _⟩
  · rw [e1] at hrun
    injection hrun with hrun
    injection hrun with hrun
    subst hrun
    rw [hact] at e6
    have hs0 : st1.s = s0 := hsame e6
    have hA : ∀ v, 1 ≤ v → v ≤ n → startActive pr s0 A v = true := fun v _ _ => by simp [startActive, hact]
    have hA1 := e6.all_active hA
    have hG1 : st1.G.Represents n nrank threads es P1 (fun _ => true) := e5.congr (fun _ _ _ => rfl) hA1
    -- the last superstep
    obtain ⟨P0, A0, hA0, hlast⟩ : ∃ P0 A0, (∀ v, 1 ≤ v → v ≤ n → A0 v = true) ∧
        StepRel (pr.gp s0) (msg s0) (proc s0) true n es P0 A0 P1 A1 true := by
      generalize hc : cs ++ [true] = cc at e6
      generalize st1.s = s1 at e6
      cases e6 with
      | zero => simp at hc
      | succ k1 k2 =>
        obtain ⟨_, e⟩ := List.append_inj' hc rfl
        injection e with e _
        subst e
        rw [hsame k1] at k2
        exact ⟨_, _, k1.all_active hA, k2⟩
    obtain ⟨hP0, _⟩ := hlast.stable (hne s0)
    obtain ⟨st', f1, f2, f3⟩ := quiet_run c ie' env' hp st1.s hG1 hs' iterations' hf' h1 hN (fun k P' A' s' cs h => by
      rw [hs0, hact] at h
      have hst : ∀ v, 1 ≤ v → v ≤ n → startActive pr s0 (fun _ => true) v = true := fun v _ _ => by simp [startActive]
      induction h with
      | zero => exact ⟨fun _ _ _ => rfl, hst, by simp⟩
      | succ k1 k2 ih =>
        obtain ⟨i1, i2, i3⟩ := ih
        rw [hsame k1] at k2
        obtain ⟨j1, j2, j3⟩ := StepRel.unique (hassoc s0) (hcomm s0) hG1.valid (.refl _) (fun v a b => (i1 v a b).trans (hP0 v a b).symm)
          (fun v a b => (i2 v a b).trans (hA0 v a b).symm) k2 hlast
        refine ⟨j1, fun v a b => (j2 v a b).trans (hA1 v a b), fun b hb => ?_⟩
        rcases List.mem_append.mp hb with h | h
        · exact i3 b h
        · rw [List.mem_singleton] at h
          rw [h, j3])
    exact ⟨P1, st', hG1, hs0, f1, f2, f3⟩
  · rw [e1] at hrun
    injection hrun with hrun
    cases hrun

/-! ## Concrete cases -/

/-- Two runs, the second with the vectors of the first: the number of supersteps, the object and the properties of vertices 1 to 3 after each. -/
def sampleTwoRuns (pr : Program Int Nat Nat Nat Nat) (N M : Int) : Option (List (Int × Int × List (Option Nat))) := do
  let r ← Graph.readEdgelist (LoadEnv.sample (V := Nat) (E := Nat) 0 0) 1 1 3 3 [[⟨1, 2, 7⟩, ⟨2, 3, 8⟩, ⟨3, 1, 1⟩]]
  let G ← r.2.onVertices (fun vg => vg.runOps (fun _ _ _ => .sample 0) (fun _ _ _ => .sample true) 0
    [.setAllInactive, .setAllProp 90, .setProp 1 0, .setActive 1])
  match ← G.run (.sample 4 5) (fun _ => .sample 6 7 8) pr 0 N none 9 with
  | .more _ => none
  | .done st =>
    match ← st.G.run (.sample 14 15) (fun _ => .sample 16 17 18) pr st.s M (some (st.x, st.y)) 9 with
    | .more _ => none
    | .done st' =>
      let p ← (List.range 3).mapM (fun v : Nat => st.G.getVertexproperty 0 ((v : Int) + 1))
      let p' ← (List.range 3).mapM (fun v : Nat => st'.G.getVertexproperty 0 ((v : Int) + 1))
      some [(st.it, st.s, p), (st'.it, st'.s, p')]

/-- The shortest distances: one superstep and one more, and two; three until nothing changes, then three or one more without change; the same if all
vertices are active. -/
example : sampleTwoRuns { gp := fun _ => minProg, every := fun _ s => s } 1 1 =
    some [(1, 0, [some 0, some 7, some 90]), (1, 0, [some 0, some 7, some 15])] := by
  decide +kernel

example : sampleTwoRuns { gp := fun _ => minProg, every := fun _ s => s } 2 1 =
    some [(2, 0, [some 0, some 7, some 15]), (1, 0, [some 0, some 7, some 15])] := by
  decide +kernel

example : sampleTwoRuns { gp := fun _ => minProg, every := fun _ s => s } (-1) 3 =
    some [(3, 0, [some 0, some 7, some 15]), (3, 0, [some 0, some 7, some 15])] := by
  decide +kernel

example : sampleTwoRuns { gp := fun _ => minProg, every := fun _ s => s } (-1) (-1) =
    some [(3, 0, [some 0, some 7, some 15]), (1, 0, [some 0, some 7, some 15])] := by
  decide +kernel

example : sampleTwoRuns { gp := fun _ => { minProg with allVertices := true }, every := fun _ s => s } (-1) (-1) =
    some [(3, 0, [some 0, some 7, some 15]), (1, 0, [some 0, some 7, some 15])] := by
  decide +kernel

/-- C97 needs its condition on `do_every_iteration`: a program whose object adds the numbers of the supersteps ends with 0 after one superstep and one
more (both have number 0), and with 1 after two. -/
theorem parts_begin_at_zero :
    (sampleTwoRuns { gp := fun _ => minProg, every := fun i s => s + i } 1 1).map (·.map (·.2.1)) = some [0, 0] ∧
    (sampleTwoRuns { gp := fun _ => minProg, every := fun i s => s + i } 2 1).map (·.map (·.2.1)) = some [1, 1] := by
  decide +kernel

/-- The graph of `sampleTwoRuns` meets the hypotheses of the three theorems. -/
example : ∃ (G : Graph Nat Nat) (P : Nat → Nat) (A : Nat → Bool), G.Represents 3 1 1 [⟨1, 2, 7⟩, ⟨2, 3, 8⟩, ⟨3, 1, 1⟩] P A ∧ P 1 = 0 ∧ P 3 = 90 := by
  obtain ⟨out, G, h1, h2⟩ := Graph.load_loaded (n := 3) (nrank := 1) (threads := 1) ⟨by decide, by decide, by decide, by decide⟩
    (LoadEnv.sample (V := Nat) (E := Nat) 0 0) Sorts.ins_ok Sorts.ins_ok (d := 0) rfl (blobs := [[⟨1, 2, 7⟩, ⟨2, 3, 8⟩, ⟨3, 1, 1⟩]]) rfl (by
      intro es hes e he
      simp at hes
      subst hes
      simp at he
      rcases he with rfl | rfl | rfl <;> simp [Edge.Valid])
  obtain ⟨G1, _, b2⟩ := h2.ops ⟨by decide, by decide, by decide, by decide⟩ (fun _ _ _ => .sample 0) (fun _ _ _ => .sample true)
    (ops := [.setAllInactive, .setAllProp 90, .setProp 1 0, .setActive 1]) (by
      intro op h
      simp at h
      rcases h with rfl | rfl | rfl | rfl <;> simp [VOp.Valid]) ⟨.setAllInactive, by simp, trivial⟩ (fun _ => false)
  exact ⟨G1, _, _, b2, rfl, rfl⟩

section

variable {G : Graph Nat Nat} {P : Nat → Nat} {A : Nat → Bool} (hG : G.Represents 3 1 1 [⟨1, 2, 7⟩, ⟨2, 3, 8⟩, ⟨3, 1, 1⟩] P A)

example := run_in_two_parts ⟨by decide, by decide, by decide, by decide⟩ (.sample 4 5) (.sample 14 15) (.sample 24 25) (fun _ => .sample 6 7 8)
  (fun _ => .sample 16 17 18) (fun _ => .sample 26 27 28) (pr := ({ gp := fun _ => minProg, every := fun _ s => s + 1 } : Program Int Nat Nat Nat Nat))
  (msg := fun _ p => p) (proc := fun _ t e _ => t + e) (fun _ => ⟨fun _ _ => rfl, fun _ _ _ _ => rfl, fun _ _ _ _ _ => rfl⟩) (fun _ _ _ => rfl)
  (fun _ _ => rfl) 0 (scratch := none) (scratch'' := none) hG (by simp) (by simp) 2 1 (by decide) (by decide) (by decide) 9 (by decide)

example {st : RunState Int Nat Nat Nat Nat} := run_after_convergence (S' := Int) (T' := Nat) (U' := Nat) ⟨by decide, by decide, by decide, by decide⟩ (.sample 4 5)
  (fun _ => .sample 6 7 8) (pr := ({ gp := fun _ => minProg, every := fun _ s => s } : Program Int Nat Nat Nat Nat)) (st := st)
  (msg := fun _ p => p) (proc := fun _ t e _ => t + e) (fun _ => ⟨fun _ _ => rfl, fun _ _ _ _ => rfl, fun _ _ _ _ _ => rfl⟩) 0 rfl (scratch := none)
  hG (by simp) (iterations := -1) (by decide) (fuel := 9) (by decide)

example {st : RunState Int Nat Nat Nat Nat} := run_after_convergence_all ⟨by decide, by decide, by decide, by decide⟩ (.sample 4 5) (.sample 14 15)
  (fun _ => .sample 6 7 8) (fun _ => .sample 16 17 18)
  (pr := ({ gp := fun _ => { minProg with allVertices := true }, every := fun _ s => s } : Program Int Nat Nat Nat Nat)) (st := st)
  (msg := fun _ p => p) (proc := fun _ t e _ => t + e) (fun _ => ⟨fun _ _ => rfl, fun _ _ _ _ => rfl, fun _ _ _ _ _ => rfl⟩) 0 rfl
  (fun _ _ => rfl) (fun _ => Nat.min_assoc) (fun _ => Nat.min_comm) (fun _ a b h => by simpa [minProg] using h) (scratch := none) (scratch' := none)
  hG (by simp) (by simp) (iterations := -1) (by decide) (fuel := 9) (by decide)

end

end GraphMat

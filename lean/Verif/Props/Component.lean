import Verif.Spec.Component
import Verif.Props.Rename

/-!
# Components do not influence each other (C101)
-/
namespace GraphMat

variable {S T U V E : Type}

theorem filterMap_inside {C : Nat → Bool} {β : Type} {f : Edge E → Option β} : ∀ {es : List (Edge E)}
    (_ : ∀ e ∈ es, f e ≠ none → (C e.src.toNat && C e.dst.toNat) = true), es.filterMap f = (inside C es).filterMap f := by
  intro es
  induction es with
  | nil => intro _; rfl
  | cons e es ih =>
    intro h
    have ih := ih (fun x hx => h x (List.mem_cons_of_mem _ hx))
    unfold inside at ih ⊢
    by_cases hc : (C e.src.toNat && C e.dst.toNat) = true
    · rw [List.filter_cons_of_pos (p := fun e : Edge E => C e.src.toNat && C e.dst.toNat) hc, List.filterMap_cons, List.filterMap_cons, ih]
    · rw [List.filter_cons_of_neg (p := fun e : Edge E => C e.src.toNat && C e.dst.toNat) hc, ← ih, List.filterMap_cons]
      cases hf : f e with
      | none => rfl
      | some x => exact (hc (h e List.mem_cons_self (by rw [hf]; simp))).elim

/-- What arrives at a vertex of a closed set is determined by what is inside. -/
theorem inbox_component {C : Nat → Bool} {n : Nat} {dir : EdgeDir} {msg : V → T} {proc : T → E → V → U} {es es' : List (Edge E)}
    (hv : ∀ e ∈ es, e.Valid n) (hc : Closed C es) (hc' : Closed C es') (hes : (inside C es).Perm (inside C es')) {P P' : Nat → V} {A A' : Nat → Bool}
    (hP : ∀ v, 1 ≤ v → v ≤ n → C v = true → P v = P' v) (hA : ∀ v, 1 ≤ v → v ≤ n → C v = true → A v = A' v) {d : Nat} (d1 : 1 ≤ d) (d2 : d ≤ n)
    (hd : C d = true) : (inbox dir msg proc es P A d).Perm (inbox dir msg proc es' P' A' d) := by
  have mem : ∀ e ∈ inside C es, e.Valid n ∧ C e.src.toNat = true ∧ C e.dst.toNat = true := by
    intro e he
    unfold inside at he
    obtain ⟨h1, h2⟩ := List.mem_filter.mp he
    rw [Bool.and_eq_true] at h2
    exact ⟨hv e h1, h2⟩
  have sel : ∀ {es : List (Edge E)} {P : Nat → V} {A : Nat → Bool}, Closed C es →
      outMsgs msg proc es P A d = outMsgs msg proc (inside C es) P A d ∧ inMsgs msg proc es P A d = inMsgs msg proc (inside C es) P A d := by
    intro es P A hc
    constructor
    · refine filterMap_inside fun e he hf => ?_
      split at hf
      · next h =>
        have h2 : C e.dst.toNat = true := by rw [h.1, Int.toNat_natCast]; exact hd
        rw [hc e he, h2]
        rfl
      · exact (hf rfl).elim
    · refine filterMap_inside fun e he hf => ?_
      split at hf
      · next h =>
        have h2 : C e.src.toNat = true := by rw [h.1, Int.toNat_natCast]; exact hd
        rw [← hc e he, h2]
        rfl
      · exact (hf rfl).elim
  have ho : (outMsgs msg proc es P A d).Perm (outMsgs msg proc es' P' A' d) := by
    rw [(sel hc).1, (sel hc').1]
    refine List.Perm.trans (.of_eq ?_) (hes.filterMap _)
    apply List.filterMap_congr
    intro e he
    obtain ⟨⟨h1, h2, h3, h4⟩, k1, k2⟩ := mem e he
    rw [hP e.src.toNat (by omega) (by omega) k1, hA e.src.toNat (by omega) (by omega) k1, hP d d1 d2 hd]
  have hi : (inMsgs msg proc es P A d).Perm (inMsgs msg proc es' P' A' d) := by
    rw [(sel hc).2, (sel hc').2]
    refine List.Perm.trans (.of_eq ?_) (hes.filterMap _)
    apply List.filterMap_congr
    intro e he
    obtain ⟨⟨h1, h2, h3, h4⟩, k1, k2⟩ := mem e he
    rw [hP e.dst.toNat (by omega) (by omega) k2, hA e.dst.toNat (by omega) (by omega) k2, hP d d1 d2 hd]
  cases dir with
  | out => exact ho
  | inn => exact hi
  | all => exact ho.append hi

theorem Steps.component {C : Nat → Bool} {n : Nat} {gp : S → GProg T U V E} {every : Int → S → S} {msg : S → V → T} {proc : S → T → E → V → U}
    {act : Bool} (hf : ∀ s, OrderFree (gp s).reduce) {es es' : List (Edge E)} (hv : ∀ e ∈ es, e.Valid n) (hc : Closed C es) (hc' : Closed C es')
    (hes : (inside C es).Perm (inside C es')) {P P' : Nat → V} {A A' : Nat → Bool} {s : S}
    (hP : ∀ v, 1 ≤ v → v ≤ n → C v = true → P v = P' v) (hA : ∀ v, 1 ≤ v → v ≤ n → C v = true → A v = A' v) {k : Nat} :
    ∀ {P1 P1' : Nat → V} {A1 A1' : Nat → Bool} {s1 s1' : S} {cs cs' : List Bool}, Steps gp every msg proc act n es P A s k P1 A1 s1 cs →
      Steps gp every msg proc act n es' P' A' s k P1' A1' s1' cs' →
      (∀ v, 1 ≤ v → v ≤ n → C v = true → P1 v = P1' v ∧ A1 v = A1' v) ∧ s1 = s1' := by
  induction k with
  | zero =>
    intro P1 P1' A1 A1' s1 s1' cs cs' h h'
    cases h
    cases h'
    exact ⟨fun v a b c => ⟨hP v a b c, hA v a b c⟩, rfl⟩
  | succ k ih =>
    intro P1 P1' A1 A1' s1 s1' cs cs' h h'
    cases h with
    | succ a b =>
    cases h' with
    | succ a' b' =>
    obtain ⟨i1, rfl⟩ := ih a a'
    obtain ⟨res, r1, r2, r3, _⟩ := b
    obtain ⟨res', r1', r2', r3', _⟩ := b'
    refine ⟨fun v v1 v2 hv' => ?_, rfl⟩
    have e : res v = res' v := by
      have hin := (r1 v v1 v2).perm (inbox_component hv hc hc' hes (fun v a b c => (i1 v a b c).1) (fun v a b c => (i1 v a b c).2) v1 v2 hv')
      rw [hin.unique (hf _).1 (hf _).2, (r1' v v1 v2).unique (hf _).1 (hf _).2]
    rw [r2 v v1 v2, r2' v v1 v2, r3 v v1 v2, r3' v v1 v2, e, (i1 v v1 v2 hv').1]
    exact ⟨rfl, rfl⟩

/-- C101.  If two graphs agree on a set of vertices that no edge enters or leaves (the same edges inside in any order, properties and activity), then after
`N` supersteps of a program with an associative and commutative reduction they agree on it again, whatever the rest of the graphs is, on any numbers of
ranks and threads. -/
theorem components_do_not_interact {n nrank threads nrank' threads' : Nat} (c : Cfg n nrank threads) (c' : Cfg n nrank' threads') {C : Nat → Bool}
    (ie ie' : InitEnv T U) (env env' : Nat → StepEnv T U V) {pr : Program S T U V E} {msg : S → V → T} {proc : S → T → E → V → U}
    (hp : pr.Pure msg proc) (hf : ∀ s, OrderFree (pr.gp s).reduce) (s0 : S) {scratch scratch' : Option (DVec T × DVec U)} {G G' : Graph V E}
    {es es' : List (Edge E)} {P P' : Nat → V} {A A' : Nat → Bool} (hG : G.Represents n nrank threads es P A)
    (hG' : G'.Represents n nrank' threads' es' P' A') (hc : Closed C es) (hc' : Closed C es') (hes : (inside C es).Perm (inside C es'))
    (hP : ∀ v, 1 ≤ v → v ≤ n → C v = true → P v = P' v) (hA : ∀ v, 1 ≤ v → v ≤ n → C v = true → A v = A' v)
    (hs : ∀ xy, scratch = some xy → Scratch n nrank xy.1 xy.2) (hs' : ∀ xy, scratch' = some xy → Scratch n nrank' xy.1 xy.2)
    (N : Nat) (hN : 1 ≤ N) (hmax : N ≤ IMAX) (fuel : Nat) (hfuel : N ≤ fuel) :
    ∃ st st' P1 A1 P1' A1', G.run ie env pr s0 (N : Int) scratch fuel = some (.done st) ∧
      G'.run ie' env' pr s0 (N : Int) scratch' fuel = some (.done st') ∧ st.s = st'.s ∧ st.G.Represents n nrank threads es P1 A1 ∧
      st'.G.Represents n nrank' threads' es' P1' A1' ∧ ∀ v, 1 ≤ v → v ≤ n → C v = true → P1 v = P1' v ∧ A1 v = A1' v := by
  obtain ⟨st, P2, A2, cs2, f1, f2, f3, _, f5, _⟩ := run_executes_exactly_N c ie env hp s0 hG hs N hN hmax fuel hfuel
  obtain ⟨st', P2', A2', cs2', f1', f2', f3', _, f5', _⟩ := run_executes_exactly_N c' ie' env' hp s0 hG' hs' N hN hmax fuel hfuel
  obtain ⟨g1, g2⟩ := Steps.component hf hG.valid hc hc' hes hP (fun v a b k => by simp only [startActive, hA v a b k]) f5 f5'
  exact ⟨st, st', P2, A2, P2', A2', f1, f1', g2, f3, f3', g1⟩

/-- The hypotheses: vertices 1 and 2 with two edges, and vertices 3 to 5, which are joined differently in the two graphs. -/
example {G G' : Graph Nat Nat} {P P' : Nat → Nat} {A A' : Nat → Bool}
    (hG : G.Represents 5 1 1 [⟨1, 2, 7⟩, ⟨3, 4, 8⟩, ⟨2, 1, 1⟩] P A) (hG' : G'.Represents 5 2 3 [⟨2, 1, 1⟩, ⟨1, 2, 7⟩, ⟨4, 3, 2⟩, ⟨5, 5, 3⟩] P' A')
    (hP : ∀ v, 1 ≤ v → v ≤ 5 → decide (v ≤ 2) = true → P v = P' v) (hA : ∀ v, 1 ≤ v → v ≤ 5 → decide (v ≤ 2) = true → A v = A' v) :=
  components_do_not_interact (C := fun v => decide (v ≤ 2)) ⟨by decide, by decide, by decide, by decide⟩ ⟨by decide, by decide, by decide, by decide⟩
  (.sample 4 5) (.sample 14 15) (fun _ => .sample 6 7 8) (fun _ => .sample 16 17 18)
  (pr := ({ gp := fun _ => minProg, every := fun _ s => s } : Program Int Nat Nat Nat Nat))
  (msg := fun _ p => p) (proc := fun _ t e _ => t + e) (fun _ => ⟨fun _ _ => rfl, fun _ _ _ _ => rfl, fun _ _ _ _ _ => rfl⟩)
  (fun _ => ⟨Nat.min_assoc, Nat.min_comm⟩) 0 (scratch := none) (scratch' := none) hG hG' (by unfold Closed; decide) (by unfold Closed; decide)
  (by decide) hP hA (by simp) (by simp) 2 (by decide) (by decide) 9 (by decide)

/-- Edges that enter the set do change it: vertex 1 receives from vertex 3. -/
example : sampleNames (· + ·) [⟨2, 1, 100⟩, ⟨3, 1, 200⟩] [2, 3] ≠ sampleNames (· + ·) [⟨2, 1, 100⟩] [2, 3] := by
  decide +kernel

end GraphMat

import Verif.Spec.Local
import Verif.Props.RunAgain

/-!
# A run changes only vertices at the end of walks from active vertices (C99)
-/
namespace GraphMat

variable {S T U V E : Type}

/-- Who gets a message has a neighbour that is active. -/
theorem inbox_hop {dir : EdgeDir} {msg : V → T} {proc : T → E → V → U} {n : Nat} {es : List (Edge E)} (hv : ∀ e ∈ es, e.Valid n) {P : Nat → V}
    {A : Nat → Bool} {d : Nat} (h : inbox dir msg proc es P A d ≠ []) : ∃ u, 1 ≤ u ∧ u ≤ n ∧ A u = true ∧ Hop dir es u d := by
  have hout : dir ≠ .inn → outMsgs msg proc es P A d ≠ [] → ∃ u, 1 ≤ u ∧ u ≤ n ∧ A u = true ∧ Hop dir es u d := by
    intro hd h
    obtain ⟨x, hx⟩ := List.exists_mem_of_ne_nil _ h
    unfold outMsgs at hx
    obtain ⟨e, he, hx⟩ := List.mem_filterMap.mp hx
    split at hx
    · next hc =>
      obtain ⟨k1, k2, _, _⟩ := hv e he
      exact ⟨e.src.toNat, by omega, by omega, hc.2, e, he, .inl ⟨hd, by omega, hc.1⟩⟩
    · cases hx
  have hinn : dir ≠ .out → inMsgs msg proc es P A d ≠ [] → ∃ u, 1 ≤ u ∧ u ≤ n ∧ A u = true ∧ Hop dir es u d := by
    intro hd h
    obtain ⟨x, hx⟩ := List.exists_mem_of_ne_nil _ h
    unfold inMsgs at hx
    obtain ⟨e, he, hx⟩ := List.mem_filterMap.mp hx
    split at hx
    · next hc =>
      obtain ⟨_, _, k1, k2⟩ := hv e he
      exact ⟨e.dst.toNat, by omega, by omega, hc.2, e, he, .inr ⟨hd, by omega, hc.1⟩⟩
    · cases hx
  cases dir with
  | out => exact hout (by decide) h
  | inn => exact hinn (by decide) h
  | all =>
    by_cases ho : outMsgs msg proc es P A d = []
    · refine hinn (by decide) ?_
      intro hi
      exact h (by simp only [inbox, ho, hi, List.append_nil])
    · exact hout (by decide) ho

theorem RTree.leaves_ne_nil (t : RTree U) : t.leaves ≠ [] := by
  induction t with
  | leaf a => simp [RTree.leaves]
  | node a b iha _ => simp [RTree.leaves, iha]

theorem Reduces.none_of_nil {op : U → U → U} {r : Option U} (h : Reduces op [] r) : r = none := by
  rcases h with ⟨_, h⟩ | ⟨t, h, _⟩
  · exact h
  · exact (t.leaves_ne_nil (List.perm_nil.mp h)).elim

theorem Steps.local {gp : S → GProg T U V E} {every : Int → S → S} {msg : S → V → T} {proc : S → T → E → V → U} {n : Nat} {es : List (Edge E)}
    {dir : EdgeDir} (hdir : ∀ s, (gp s).order = dir) (hv : ∀ e ∈ es, e.Valid n) {P P' : Nat → V} {A A' : Nat → Bool} {s s' : S} {k : Nat}
    {cs : List Bool} (h : Steps gp every msg proc false n es P A s k P' A' s' cs) :
    ∀ v, 1 ≤ v → v ≤ n → (P' v ≠ P v → ∃ j, 1 ≤ j ∧ j ≤ k ∧ WalkFrom dir es (fun u => 1 ≤ u ∧ u ≤ n ∧ A u = true) j v) ∧
      (A' v = true → WalkFrom dir es (fun u => 1 ≤ u ∧ u ≤ n ∧ A u = true) k v) := by
  induction h with
  | zero => exact fun v a b => ⟨fun h => (h rfl).elim, fun h => .start ⟨a, b, h⟩⟩
  | succ h1 h2 ih =>
    rename_i k P1 P2 A1 A2 s1 cs c
    obtain ⟨res, r1, r2, r3, _⟩ := h2
    intro v a b
    by_cases hin : inbox (gp s1).order (msg s1) (proc s1) es P1 A1 v = []
    · have hres : res v = none := by
        have := r1 v a b
        rw [hin] at this
        exact this.none_of_nil
      have hP : P2 v = P1 v := by
        rw [r2 v a b, hres]
        rfl
      have hA : A2 v = false := by
        rw [r3 v a b, hres]
        rfl
      rw [hP, hA]
      refine ⟨fun h => ?_, fun h => by cases h⟩
      obtain ⟨j, j1, j2, j3⟩ := (ih v a b).1 h
      exact ⟨j, j1, by omega, j3⟩
    · obtain ⟨u, u1, u2, u3, u4⟩ := inbox_hop hv hin
      rw [hdir] at u4
      have hw := ((ih u u1 u2).2 u3).hop u4
      exact ⟨fun _ => ⟨k + 1, by omega, by omega, hw⟩, fun _ => hw⟩

/-- C99.  A run of a program that works on active vertices, however it ends and also while it has not ended, changed only properties of vertices at the
end of a walk of at least one and at most as many hops as supersteps from a vertex that was active, and the vertices active afterwards are at the end of a
walk of exactly as many hops. -/
theorem run_is_local {n nrank threads : Nat} (c : Cfg n nrank threads) (ie : InitEnv T U) (env : Nat → StepEnv T U V) {pr : Program S T U V E}
    {msg : S → V → T} {proc : S → T → E → V → U} (hp : pr.Pure msg proc) {dir : EdgeDir} (hdir : ∀ s, (pr.gp s).order = dir) (s0 : S)
    (hact : (pr.gp s0).allVertices = false) {scratch : Option (DVec T × DVec U)} {G : Graph V E} {es : List (Edge E)} {P : Nat → V} {A : Nat → Bool}
    (hG : G.Represents n nrank threads es P A) (hs : ∀ xy, scratch = some xy → Scratch n nrank xy.1 xy.2) (iterations : Int) {fuel : Nat}
    (hf : fuel ≤ IMAX) (hN : iterations ≤ fuel) :
    ∃ st, ∃ k : Nat, ∃ P' A', (G.run ie env pr s0 iterations scratch fuel = some (.done st) ∨ G.run ie env pr s0 iterations scratch fuel = some (.more st)) ∧
      st.it = (k : Int) ∧ st.G.Represents n nrank threads es P' A' ∧ ∀ v, 1 ≤ v → v ≤ n →
        (P' v ≠ P v → ∃ j, 1 ≤ j ∧ j ≤ k ∧ WalkFrom dir es (fun u => 1 ≤ u ∧ u ≤ n ∧ A u = true) j v) ∧
        (A' v = true → WalkFrom dir es (fun u => 1 ≤ u ∧ u ≤ n ∧ A u = true) k v) := by
  have hst : startActive pr s0 A = A := by
    funext v
    simp [startActive, hact]
  by_cases hpos : 1 ≤ iterations
  · obtain ⟨N, rfl⟩ : ∃ N : Nat, iterations = N := ⟨iterations.toNat, by omega⟩
    obtain ⟨st, P2, A2, cs2, f1, f2, f3, _, f5, _⟩ := run_executes_exactly_N c ie env hp s0 hG hs N (by omega) (by omega) fuel (by omega)
    rw [hact, hst] at f5
    exact ⟨st, N, P2, A2, .inl f1, f2, f3, f5.local hdir hG.valid⟩
  · rcases run_until_convergence c ie env hp s0 hG hs (iterations := iterations) (by omega) fuel hf with
      ⟨st, k, P2, A2, cs2, f1, f2, _, _, f5, _, f6, _⟩ | ⟨st, P2, A2, cs2, f1, f2, f3, f4, _⟩
    · rw [hact, hst] at f6
      exact ⟨st, k, P2, A2, .inl f1, f2, f5, f6.local hdir hG.valid⟩
    · rw [hact, hst] at f4
      exact ⟨st, fuel, P2, A2, .inr f1, f2, f3, f4.local hdir hG.valid⟩

/-- The hypotheses (a graph with these edges is loaded in `Props/RunAgain`). -/
example {G : Graph Nat Nat} {P : Nat → Nat} {A : Nat → Bool} (hG : G.Represents 3 1 1 [⟨1, 2, 7⟩, ⟨2, 3, 8⟩, ⟨3, 1, 1⟩] P A) :=
  run_is_local ⟨by decide, by decide, by decide, by decide⟩ (.sample 4 5) (fun _ => .sample 6 7 8)
  (pr := ({ gp := fun _ => minProg, every := fun _ s => s } : Program Int Nat Nat Nat Nat))
  (msg := fun _ p => p) (proc := fun _ t e _ => t + e) (fun _ => ⟨fun _ _ => rfl, fun _ _ _ _ => rfl, fun _ _ _ _ _ => rfl⟩) (dir := .out)
  (fun _ => rfl) 0 rfl (scratch := none) hG (by simp) 1 (fuel := 9) (by decide) (by decide)

/-- After one superstep from vertex 1 on 1 → 2 → 3 → 1, vertex 3 has no walk of one hop, and its property is unchanged (`sampleTwoRuns` above gives 90). -/
example : ¬ WalkFrom .out [(⟨1, 2, 7⟩ : Edge Nat), ⟨2, 3, 8⟩, ⟨3, 1, 1⟩] (fun u => u = 1) 1 3 := by
  intro h
  cases h with
  | hop w h =>
    cases w with
    | start e =>
      subst e
      obtain ⟨e, he, h⟩ := h
      simp at he
      rcases he with rfl | rfl | rfl <;> simp at h

end GraphMat

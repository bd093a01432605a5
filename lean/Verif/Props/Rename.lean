import Verif.Spec.Rename
import Verif.Props.ScriptSame

/-!
# The names of vertices do not matter (C100)
-/
namespace GraphMat

variable {S T U V E : Type}

section

variable {n : Nat} {π ρ : Nat → Nat}

theorem Renaming.eq_iff (h : Renaming n π ρ) {x : Int} {d : Nat} (x1 : 1 ≤ x) (x2 : x ≤ n) (d1 : 1 ≤ d) (d2 : d ≤ n) :
    ((π x.toNat : Nat) : Int) = ((π d : Nat) : Int) ↔ x = (d : Int) := by
  constructor
  · intro e
    have e := Int.ofNat_inj.mp e
    have := congrArg ρ e
    rw [h.left _ (by omega) (by omega), h.left _ d1 d2] at this
    omega
  · intro e
    have : x.toNat = d := by omega
    rw [this]

theorem inbox_rename (h : Renaming n π ρ) {dir : EdgeDir} {msg : V → T} {proc : T → E → V → U} {es : List (Edge E)} (hv : ∀ e ∈ es, e.Valid n)
    {P : Nat → V} {A : Nat → Bool} {d : Nat} (d1 : 1 ≤ d) (d2 : d ≤ n) :
    inbox dir msg proc (es.map (Edge.rename π)) (fun v => P (ρ v)) (fun v => A (ρ v)) (π d) = inbox dir msg proc es P A d := by
  have ho : outMsgs msg proc (es.map (Edge.rename π)) (fun v => P (ρ v)) (fun v => A (ρ v)) (π d) = outMsgs msg proc es P A d := by
    unfold outMsgs
    rw [List.filterMap_map]
    apply List.filterMap_congr
    intro e he
    obtain ⟨h1, h2, h3, h4⟩ := hv e he
    simp only [Function.comp_apply, Edge.rename, h.eq_iff h3 h4 d1 d2, Int.toNat_natCast, h.left e.src.toNat (by omega) (by omega), h.left d d1 d2]
  have hi : inMsgs msg proc (es.map (Edge.rename π)) (fun v => P (ρ v)) (fun v => A (ρ v)) (π d) = inMsgs msg proc es P A d := by
    unfold inMsgs
    rw [List.filterMap_map]
    apply List.filterMap_congr
    intro e he
    obtain ⟨h1, h2, h3, h4⟩ := hv e he
    simp only [Function.comp_apply, Edge.rename, h.eq_iff h1 h2 d1 d2, Int.toNat_natCast, h.left e.dst.toNat (by omega) (by omega), h.left d d1 d2]
  cases dir with
  | out => exact ho
  | inn => exact hi
  | all => simp only [inbox, ho, hi]

theorem StepRel.rename (h : Renaming n π ρ) {gp : GProg T U V E} {msg : V → T} {proc : T → E → V → U} {act : Bool} {es : List (Edge E)}
    (hv : ∀ e ∈ es, e.Valid n) {P P' : Nat → V} {A A' : Nat → Bool} {c : Bool} (hs : StepRel gp msg proc act n es P A P' A' c) :
    StepRel gp msg proc act n (es.map (Edge.rename π)) (fun v => P (ρ v)) (fun v => A (ρ v)) (fun v => P' (ρ v)) (fun v => A' (ρ v)) c := by
  obtain ⟨res, h1, h2, h3, h4⟩ := hs
  refine ⟨fun d => res (ρ d), fun d d1 d2 => ?_, fun d d1 d2 => ?_, fun d d1 d2 => ?_, h4.trans ⟨fun hq d d1 d2 => ?_, fun hq d d1 d2 => ?_⟩⟩
  · obtain ⟨b1, b2⟩ := h.back d d1 d2
    have := h1 (ρ d) b1 b2
    rw [← inbox_rename h hv b1 b2, h.right d d1 d2] at this
    exact this
  · obtain ⟨b1, b2⟩ := h.back d d1 d2
    exact h2 (ρ d) b1 b2
  · obtain ⟨b1, b2⟩ := h.back d d1 d2
    exact h3 (ρ d) b1 b2
  · obtain ⟨b1, b2⟩ := h.back d d1 d2
    exact hq (ρ d) b1 b2
  · obtain ⟨b1, b2⟩ := h.into d d1 d2
    have := hq (π d) b1 b2
    simp only [h.left d d1 d2] at this
    exact this

theorem Steps.rename (h : Renaming n π ρ) {gp : S → GProg T U V E} {every : Int → S → S} {msg : S → V → T} {proc : S → T → E → V → U} {act : Bool}
    {es : List (Edge E)} (hv : ∀ e ∈ es, e.Valid n) {P P' : Nat → V} {A A' : Nat → Bool} {s s' : S} {k : Nat} {cs : List Bool}
    (hs : Steps gp every msg proc act n es P A s k P' A' s' cs) :
    Steps gp every msg proc act n (es.map (Edge.rename π)) (fun v => P (ρ v)) (fun v => A (ρ v)) s k (fun v => P' (ρ v)) (fun v => A' (ρ v)) s' cs := by
  induction hs with
  | zero => exact .zero
  | succ _ h2 ih => exact ih.succ (h2.rename h hv)

/-- Two outcomes that differ in the names of vertices. -/
def RenamedOutcome (n : Nat) (π : Nat → Nat) (nrank threads : Nat) (es : List (Edge E)) (nrank' threads' : Nat) (es' : List (Edge E)) :
    RunOut (RunState S T U V E) → RunOut (RunState S T U V E) → Prop
  | .done a, .done b | .more a, .more b => a.it = b.it ∧ a.s = b.s ∧ ∃ P A P' A', a.G.Represents n nrank threads es P A ∧
      b.G.Represents n nrank' threads' es' P' A' ∧ ∀ v, 1 ≤ v → v ≤ n → P' (π v) = P v ∧ A' (π v) = A v
  | _, _ => False

/-- C100.  The same run on a graph and on one in which the vertices have other names (and the edges any order, on any numbers of ranks and threads), with
an associative and commutative reduction: the same number of supersteps, the same program object, and every vertex has under its new name the property
and activity that it has under the old one.  Not even the order in which the vertices are divided among ranks and tiles matters. -/
theorem names_do_not_matter {nrank threads nrank' threads' : Nat} (c : Cfg n nrank threads) (c' : Cfg n nrank' threads') (h : Renaming n π ρ)
    (ie ie' : InitEnv T U) (env env' : Nat → StepEnv T U V) {pr : Program S T U V E} {msg : S → V → T} {proc : S → T → E → V → U}
    (hp : pr.Pure msg proc) (hf : ∀ s, OrderFree (pr.gp s).reduce) (s0 : S) {scratch scratch' : Option (DVec T × DVec U)} {G G' : Graph V E}
    {es es' : List (Edge E)} {P P' : Nat → V} {A A' : Nat → Bool} (hG : G.Represents n nrank threads es P A)
    (hG' : G'.Represents n nrank' threads' es' P' A') (hes : (es.map (Edge.rename π)).Perm es') (hP : ∀ v, 1 ≤ v → v ≤ n → P' (π v) = P v)
    (hA : ∀ v, 1 ≤ v → v ≤ n → A' (π v) = A v) (hs : ∀ xy, scratch = some xy → Scratch n nrank xy.1 xy.2)
    (hs' : ∀ xy, scratch' = some xy → Scratch n nrank' xy.1 xy.2) (iterations : Int) {fuel : Nat} (hfuel : fuel ≤ IMAX) (hN : iterations ≤ fuel) :
    ∃ o o', G.run ie env pr s0 iterations scratch fuel = some o ∧ G'.run ie' env' pr s0 iterations scratch' fuel = some o' ∧
      RenamedOutcome n π nrank threads es nrank' threads' es' o o' := by
  have hvr : ∀ e ∈ es.map (Edge.rename π), e.Valid n := fun e he => hG'.valid e (hes.mem_iff.mp he)
  have uniq : ∀ {k : Nat} {P1 P2 : Nat → V} {A1 A2 : Nat → Bool} {s1 s2 : S} {c1 c2 : List Bool},
      Steps pr.gp pr.every msg proc (pr.gp s0).allVertices n es P (startActive pr s0 A) s0 k P1 A1 s1 c1 →
      Steps pr.gp pr.every msg proc (pr.gp s0).allVertices n es' P' (startActive pr s0 A') s0 k P2 A2 s2 c2 →
      (∀ v, 1 ≤ v → v ≤ n → P2 (π v) = P1 v ∧ A2 (π v) = A1 v) ∧ s1 = s2 ∧ c1 = c2 := by
    intro k P1 P2 A1 A2 s1 s2 c1 c2 h1 h2
    obtain ⟨a1, a2, a3, a4⟩ := Steps.unique (fun s => (hf s).1) (fun s => (hf s).2) hvr hes
      (P1 := fun v => P (ρ v)) (A1 := fun v => startActive pr s0 A (ρ v)) (P2 := P') (A2 := startActive pr s0 A')
      (fun v v1 v2 => by
        obtain ⟨b1, b2⟩ := h.back v v1 v2
        have := hP (ρ v) b1 b2
        rw [h.right v v1 v2] at this
        exact this.symm)
      (fun v v1 v2 => by
        obtain ⟨b1, b2⟩ := h.back v v1 v2
        have := hA (ρ v) b1 b2
        rw [h.right v v1 v2] at this
        simp only [startActive, this]) (h1.rename h hG.valid) h2
    refine ⟨fun v v1 v2 => ?_, a3, a4⟩
    obtain ⟨b1, b2⟩ := h.into v v1 v2
    have e1 := a1 (π v) b1 b2
    have e2 := a2 (π v) b1 b2
    simp only [h.left v v1 v2] at e1 e2
    exact ⟨e1.symm, e2.symm⟩
  by_cases hpos : 1 ≤ iterations
  · obtain ⟨N, rfl⟩ : ∃ N : Nat, iterations = N := ⟨iterations.toNat, by omega⟩
    obtain ⟨st, P2, A2, cs2, f1, f2, f3, _, f5, _⟩ := run_executes_exactly_N c ie env hp s0 hG hs N (by omega) (by omega) fuel (by omega)
    obtain ⟨st', P2', A2', cs2', f1', f2', f3', _, f5', _⟩ := run_executes_exactly_N c' ie' env' hp s0 hG' hs' N (by omega) (by omega) fuel (by omega)
    obtain ⟨g1, g2, _⟩ := uniq f5 f5'
    exact ⟨_, _, f1, f1', by rw [f2, f2'], g2, _, _, _, _, f3, f3', g1⟩
  · rcases run_until_convergence c ie env hp s0 hG hs (iterations := iterations) (by omega) fuel hfuel with
      ⟨st, k, P2, A2, cs, f1, f2, _, fk, f5, _, f6, f7⟩ | ⟨st, P2, A2, cs, f1, f2, f5, f6, f7⟩ <;>
    rcases run_until_convergence c' ie' env' hp s0 hG' hs' (iterations := iterations) (by omega) fuel hfuel with
      ⟨st', k', P2', A2', cs', f1', f2', _, fk', f5', _, f6', f7'⟩ | ⟨st', P2', A2', cs', f1', f2', f5', f6', f7'⟩
    · obtain rfl : k = k' := by
        have l := f6.length
        have l' := f6'.length
        simp only [List.length_append, List.length_singleton] at l l'
        by_contra hne
        rcases Nat.lt_or_gt_of_ne hne with hlt | hlt
        · obtain ⟨_, _, _, ht⟩ := f6'.take k (by omega)
          obtain ⟨_, _, e⟩ := uniq f6 ht
          rw [List.take_append_of_le_length (by omega)] at e
          have := f7' true (List.mem_of_mem_take (by rw [← e]; simp))
          cases this
        · obtain ⟨_, _, _, ht⟩ := f6.take k' (by omega)
          obtain ⟨_, _, e⟩ := uniq ht f6'
          rw [List.take_append_of_le_length (by omega)] at e
          have := f7 true (List.mem_of_mem_take (by rw [e]; simp))
          cases this
      obtain ⟨g1, g2, _⟩ := uniq f6 f6'
      exact ⟨_, _, f1, f1', by rw [f2, f2'], g2, _, _, _, _, f5, f5', g1⟩
    · exfalso
      obtain ⟨_, _, _, ht⟩ := f6'.take k fk
      obtain ⟨_, _, e⟩ := uniq f6 ht
      have := f7' true (List.mem_of_mem_take (by rw [← e]; simp))
      cases this
    · exfalso
      obtain ⟨_, _, _, ht⟩ := f6.take k' fk'
      obtain ⟨_, _, e⟩ := uniq ht f6'
      have := f7 true (List.mem_of_mem_take (by rw [e]; simp))
      cases this
    · obtain ⟨g1, g2, _⟩ := uniq f6 f6'
      exact ⟨_, _, f1, f1', by rw [f2, f2'], g2, _, _, _, _, f5, f5', g1⟩

end

/-! ## Concrete cases -/

/-- Exchanges the vertices 2 and 3. -/
def swap23 (v : Nat) : Nat := if v = 2 then 3 else if v = 3 then 2 else v

theorem swap23_renaming : Renaming 3 swap23 swap23 := by
  constructor <;> intro v a b <;> (unfold swap23; split <;> (try split) <;> (try split) <;> omega)

/-- The hypotheses, with one rank and one thread and with two ranks and three threads (graphs are loaded in `Props/Script` and `Props/RunAgain`). -/
example {G G' : Graph Nat Nat} {P : Nat → Nat} {A : Nat → Bool} (hG : G.Represents 3 1 1 [⟨1, 2, 7⟩, ⟨2, 3, 8⟩, ⟨3, 1, 1⟩] P A)
    (hG' : G'.Represents 3 2 3 [⟨3, 2, 8⟩, ⟨1, 3, 7⟩, ⟨2, 1, 1⟩] (fun v => P (swap23 v)) (fun v => A (swap23 v))) :=
  names_do_not_matter ⟨by decide, by decide, by decide, by decide⟩ ⟨by decide, by decide, by decide, by decide⟩ swap23_renaming (.sample 4 5)
  (.sample 14 15) (fun _ => .sample 6 7 8) (fun _ => .sample 16 17 18)
  (pr := ({ gp := fun _ => minProg, every := fun _ s => s } : Program Int Nat Nat Nat Nat))
  (msg := fun _ p => p) (proc := fun _ t e _ => t + e) (fun _ => ⟨fun _ _ => rfl, fun _ _ _ _ => rfl, fun _ _ _ _ _ => rfl⟩)
  (fun _ => ⟨Nat.min_assoc, Nat.min_comm⟩) 0 (scratch := none) (scratch' := none) hG hG' (by decide)
  (fun v a b => by rw [swap23_renaming.left v a b]) (fun v a b => by rw [swap23_renaming.left v a b]) (by simp) (by simp) (-1) (fuel := 9)
  (by decide) (by decide)

/-- A program whose vertices receive the values of edges. -/
def edgeValueProg (reduce : Nat → Nat → Nat) : Program Unit Nat Nat Nat Nat :=
  { gp := fun _ => { minProg with process := (fun _ e _ _ => e), reduce := reduce, apply := (fun u _ => u) }, every := fun _ s => s }

/-- Loads edges between three vertices, of which those in `act` are active, makes one superstep with edge values as messages, and reads the
properties. -/
def sampleNames (reduce : Nat → Nat → Nat) (es : List (Edge Nat)) (act : List Nat) : Option (List (Option Nat)) := do
  let r ← Graph.readEdgelist (LoadEnv.sample (V := Nat) (E := Nat) 0 0) 1 1 3 3 [es]
  let G ← r.2.onVertices (fun vg => vg.runOps (fun _ _ _ => .sample 0) (fun _ _ _ => .sample true) 0
    ([.setAllInactive, .setAllProp 90] ++ act.map VOp.setActive))
  match ← G.run (.sample 4 5) (fun _ => .sample 6 7 8) (edgeValueProg reduce) () 1 none 9 with
  | .more _ => none
  | .done st => (List.range 3).mapM (fun v : Nat => st.G.getVertexproperty 0 ((v : Int) + 1))

/-- Vertices 2 and 3 send 100 and 200 to vertex 1.  The sum does not depend on the names; with a reduction that keeps the later value, vertex 1 gets 200,
and 100 if vertices 2 and 3 exchange their names. -/
theorem names_matter :
    sampleNames (· + ·) [⟨2, 1, 100⟩, ⟨3, 1, 200⟩] [2, 3] = some [some 300, some 90, some 90] ∧
    sampleNames (· + ·) [⟨3, 1, 100⟩, ⟨2, 1, 200⟩] [2, 3] = some [some 300, some 90, some 90] ∧
    sampleNames (fun _ b => b) [⟨2, 1, 100⟩, ⟨3, 1, 200⟩] [2, 3] = some [some 200, some 90, some 90] ∧
    sampleNames (fun _ b => b) [⟨3, 1, 100⟩, ⟨2, 1, 200⟩] [2, 3] = some [some 100, some 90, some 90] := by
  refine ⟨?_, ?_, ?_, ?_⟩ <;> decide +kernel

end GraphMat

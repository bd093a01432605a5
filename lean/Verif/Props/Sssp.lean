import Verif.Lemmas.Sssp

/-!
# C28: single-source shortest paths
-/
namespace GraphMat

/-- The vertices are prepared as the program needs them. -/
theorem ssspPrepare_spec {n nrank threads : Nat} (c : Cfg n nrank threads) (e : AppEnv (BitVec 32) (BitVec 32) SsspV)
    {src : Nat} (h1 : 1 ≤ src) (h2 : src ≤ n) {G : Graph SsspV Int} {es : List (Edge Int)} {Q : Nat → SsspV}
    (hG : G.Loaded n nrank threads es Q) :
    ∃ G' x y P A, ssspPrepare e src G = some (G', x, y) ∧ Scratch n nrank x y ∧ G'.Represents n nrank threads es P A ∧
      SsspInv es src n 0 (fun v => (P v).dist) A := by
  unfold ssspPrepare
  obtain ⟨x, y, b1, b2⟩ := Graph.newScratch_spec c hG.inv e.ie
  rw [b1]
  simp only [Option.bind_eq_bind, Option.bind_some]
  obtain ⟨G1, a1, a2, _⟩ := hG.setAllVertexproperty c e.g SsspV.new
  rw [a1]
  simp only [Option.bind_some]
  obtain ⟨G2, c1, c2⟩ := a2.setAllInactive c e.gia
  rw [c1]
  simp only [Option.bind_some]
  obtain ⟨G3, d1, d2, d3⟩ := c2.loaded.setVertexproperty c e.gs h1 h2 ⟨0#32⟩
  rw [d1]
  simp only [Option.bind_some]
  obtain ⟨G4, f1, f2⟩ := (d2.keepActive c2 d3).setActive c e.ga h1 h2
  rw [f1]
  refine ⟨G4, x, y, _, _, rfl, b2, f2, ?_⟩
  refine ⟨?_, ?_, ?_, ?_⟩
  · intro v v1 v2
    by_cases e : v = src
    · subst e; right; simp only [if_pos]; exact ⟨0, Nat.le_refl _, .refl⟩
    · left; simp only [if_neg e]; rfl
  · intro v j d hj hw
    cases hw with
    | refl => simp
    | step => omega
  · intro v v1 v2 ha
    by_cases e : v = src
    · simp only [if_pos e]; decide
    · simp only [if_neg e] at ha; cases ha
  · intro ed _
    by_cases e : ed.src.toNat = src
    · left; simp only [if_pos e]
    · right; left; simp only [if_neg e]; rfl

/-- C28: from any graph with non-negative integer lengths none of whose walks of at most `n` edges is as long
as `MAX_DIST`, on any number of ranks and threads, the search terminates within `n` supersteps; every vertex
then holds its shortest distance from the source, or `MAX_DIST` if it cannot be reached; the count it reports
is the number of vertices reachable from the source. -/
theorem sssp_computes_distances {n nrank threads : Nat} (c : Cfg n nrank threads) (hfit : n + threads ≤ IMAX)
    (le : LoadEnv SsspV Int) (hsA : le.sA.OK) (hsT : le.sAT.OK) (hd : le.d = fun _ => SsspV.new)
    {blobs : List (List (Edge Int))} (hb : blobs.length = nrank) (hin : ∀ es ∈ blobs, ∀ e ∈ es, e.Valid n)
    (e : AppEnv (BitVec 32) (BitVec 32) SsspV) (tmp : Nat → Nat → Nat → Option Int)
    {src : Nat} (h1 : 1 ≤ src) (h2 : src ≤ n) (hno : NoOverflow blobs.flatten src n)
    (fuel : Nat) (hf : n ≤ fuel) (hfm : fuel ≤ IMAX) :
    ∃ out G G', ∃ reached : List Nat, Graph.readEdgelist le threads nrank n n blobs = some (out, G) ∧
      runSssp e tmp src G fuel = some (.done (G', some (reached.length : Int))) ∧
      reached.Nodup ∧ (∀ v, v ∈ reached ↔ Reachable blobs.flatten src v) ∧
      ∀ v, 1 ≤ v → v ≤ n → ∃ x o, o < nrank ∧
        (∀ r, r < nrank → G'.getVertexproperty r v = some (if r = o then some x else none)) ∧
        (x.dist.toNat ≠ UMAX ∧ IsDist Int.toNat blobs.flatten src v x.dist.toNat ∨
          x.dist.toNat = UMAX ∧ ¬ Reachable blobs.flatten src v) := by
  obtain ⟨out, G, l1, l2⟩ := Graph.load_loaded c le hsA hsT hd hb hin
  obtain ⟨G1, x, y, P, A, p1, p2, p3, p4⟩ := ssspPrepare_spec c e h1 h2 l2
  have hv := p3.valid
  obtain ⟨st, k, P', A', r1, _, _, _, r4, _, hcorrect⟩ := run_until_invariant c e.ie e.env ssspProg_pure () p3
    (scratch := some (x, y)) (by rintro _ ⟨⟩; exact p2) (iterations := -1) (by omega)
    (Inv := fun k P A _ => SsspInv blobs.flatten src n k (fun v => (P v).dist) A)
    (Done := fun _ P _ _ => ∀ v, 1 ≤ v → v ≤ n →
      ((P v).dist.toNat ≠ UMAX ∧ IsDist Int.toNat blobs.flatten src v (P v).dist.toNat ∨
        (P v).dist.toNat = UMAX ∧ ¬ Reachable blobs.flatten src v))
    (N := n) (by omega) p4
    (by
      intro k P1 A1 s1 P2 A2 b hk hi hs
      obtain ⟨i1, i2, i3⟩ := SsspInv.step hv hno h1 h2 hk hi hs
      exact ⟨i2, fun hb => ⟨i3 hb, i1⟩⟩)
    fuel hf hfm
  have hreach : ∀ v, 1 ≤ v → v ≤ n → ((P' v).dist < SsspV.new.dist ↔ Reachable blobs.flatten src v) := by
    intro v v1 v2
    rw [BitVec.lt_def]
    have hm : SsspV.new.dist.toNat = UMAX := rfl
    rw [hm]
    rcases hcorrect v v1 v2 with ⟨a, b⟩ | ⟨a, b⟩
    · refine ⟨fun _ => ⟨_, b.1.choose_spec.walk⟩, fun _ => ?_⟩
      have := (P' v).dist.isLt
      unfold UMAX at a ⊢
      omega
    · exact ⟨fun h => by omega, fun h => absurd h b⟩
  obtain ⟨vg, l, q1, q2, q3, q4⟩ := applyReduce_count (map := ssspReachable) (tmp := tmp)
    (p := fun v => decide (v.dist < SsspV.new.dist)) (fun _ _ => by simp [ssspReachable]) e.gr c hfit r4
  refine ⟨out, G, { st.G with toVGraph := vg }, l, l1, ?_, q2, ?_, ?_⟩
  · unfold runSssp
    rw [p1]
    simp only [Option.bind_eq_bind, Option.bind_some]
    rw [r1]
    simp only [Option.bind_some, ssspReport, Option.bind_eq_bind]
    rw [q1]
    rfl
  · intro v
    rw [q3, decide_eq_true_iff]
    constructor
    · rintro ⟨v1, v2, h⟩
      exact (hreach v v1 v2).mp h
    · intro h
      obtain ⟨v1, v2⟩ := h.choose_spec.range hv h1 h2
      exact ⟨v1, v2, (hreach v v1 v2).mpr h⟩
  · intro v v1 v2
    obtain ⟨o, o1, o2⟩ := represents_observed c q4 v v1 v2
    exact ⟨P' v, o, o1, fun r hr => (o2 r hr).2, hcorrect v v1 v2⟩

/-- Load a graph on one rank, search from `src`, read the distances of all vertices. -/
def ssspSample (threads n : Nat) (es : List (Edge Int)) (src : Int) (fuel : Nat) :
    Option (Option Int × List (Option (BitVec 32))) := do
  let r ← Graph.readEdgelist (LoadEnv.sample SsspV.new 0) threads 1 n n [es]
  let o ← runSssp (.sample 77#32 78#32 ⟨3#32⟩) (fun _ _ _ => some 9) src r.2 fuel
  match o with
  | .more _ => none
  | .done st => do
    let l ← (List.range n).mapM (fun v : Nat => st.1.getVertexproperty 0 ((v : Int) + 1))
    some (st.2, l.map (fun x => x.map SsspV.dist))

/-- The direct edge to 4 is longer than the path over 2 and 3; vertex 5 cannot be reached. -/
example : ssspSample 1 5 [⟨1, 2, 1⟩, ⟨1, 4, 9⟩, ⟨2, 3, 1⟩, ⟨3, 4, 2⟩, ⟨4, 1, 0⟩, ⟨5, 1, 1⟩] 1 5 =
    some (some 4, [some 0#32, some 1#32, some 2#32, some 4#32, some 4294967295#32]) := by decide +kernel

/-- C28, the hypothesis on overflow is needed: on a path of three edges whose lengths add up to `2^32` the last
vertex gets distance 0. -/
theorem sssp_wraps_around :
    ssspSample 1 4 [⟨1, 2, 2147483647⟩, ⟨2, 3, 2147483647⟩, ⟨3, 4, 2⟩] 1 4 =
      some (some 4, [some 0#32, some 2147483647#32, some 4294967294#32, some 0#32]) := by decide +kernel

/-- The hypotheses of the theorem can be met. -/
example : ∃ (le : LoadEnv SsspV Int) (blobs : List (List (Edge Int))), Cfg 40 2 3 ∧ 40 + 3 ≤ IMAX ∧ le.sA.OK ∧ le.sAT.OK ∧
    (le.d = fun _ => SsspV.new) ∧ blobs.length = 2 ∧ (∀ es ∈ blobs, ∀ e ∈ es, e.Valid 40) ∧
    NoOverflow blobs.flatten 1 40 ∧ IsDist Int.toNat blobs.flatten 1 2 5 := by
  have hval : ∀ e ∈ [[⟨1, 2, 5⟩], [⟨2, 39, 6⟩, ⟨40, 1, 7⟩]].flatten (α := Edge Int), 0 ≤ e.val ∧ e.val.toNat ≤ 7 := by
    intro e he
    simp at he
    rcases he with rfl | rfl | rfl <;> decide
  refine ⟨LoadEnv.sample SsspV.new 0, [[⟨1, 2, 5⟩], [⟨2, 39, 6⟩, ⟨40, 1, 7⟩]], ⟨by decide, by decide, by decide, by decide⟩,
    by decide, Sorts.ins_ok, Sorts.ins_ok, rfl, rfl, ?_, ?_, ?_, ?_⟩
  · intro es hes e he
    simp at hes
    rcases hes with rfl | rfl <;> simp at he
    · subst he; simp [Edge.Valid]
    · rcases he with rfl | rfl <;> simp [Edge.Valid]
  · exact NoOverflow.of_bound (fun e he => (hval e he).1) (fun e he => (hval e he).2) (by decide)
  · exact ⟨1, WWalk.step (E := Int) (len := Int.toNat) (u := 1) (d := 0) ⟨1, 2, 5⟩ .refl (by simp) rfl rfl⟩
  · intro k d h
    cases h with
    | step e _ he _ hd =>
      simp at he
      rcases he with rfl | rfl | rfl
      · simp
      · simp at hd
      · simp at hd

end GraphMat

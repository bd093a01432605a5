import Verif.Lemmas.TopSort

/-!
# C29: topological sort
-/
namespace GraphMat

/-- The vertices are prepared as the second run needs them. -/
theorem tsBetween_spec {n nrank threads : Nat} (c : Cfg n nrank threads) (gia : Nat → Nat → Fresh Bool)
    (gv : Nat → Nat → Fresh TsV) (ga : Nat → Nat → Fresh Bool) {G : Graph TsV Int} {es : List (Edge Int)} {P : Nat → TsV}
    {A : Nat → Bool} (hG : G.Represents n nrank threads es P A)
    (hP : ∀ v, 1 ≤ v → v ≤ n → P v = ⟨BitVec.allOnes 32, some (inDegree es v : Int)⟩) :
    ∃ G' P' A', tsBetween gia gv ga G = some G' ∧ G'.Represents n nrank threads es P' A' ∧ TsInv es n 0 P' A' 1#32 := by
  have hv := hG.valid
  unfold tsBetween
  obtain ⟨G1, a1, a2⟩ := hG.loaded.setAllInactive c gia
  rw [a1]
  simp only [Option.bind_eq_bind, Option.bind_some]
  rw [a2.inv.hn]
  obtain ⟨G2, b1, b2⟩ := a2.updateOwnedAll c gv ga (fun _ => tsMark)
  rw [b1]
  refine ⟨G2, _, _, rfl, b2, ?_⟩
  have hzero : ∀ v, Settled es 1 v ↔ inDegree es v = 0 := by
    intro v
    rw [settled_succ_count hv, ← inFrom_true]
    have : (fun u => !settledB es 0 u) = fun _ => true := by
      funext u; rw [settledB_false.mpr Settled.not_zero]; rfl
    rw [this]
  have hmark : ∀ v, 1 ≤ v → v ≤ n → tsMark (P v) =
      if inDegree es v = 0 then some (⟨0#32, some 0⟩, true) else none := by
    intro v v1 v2
    unfold tsMark
    rw [hP v v1 v2]
    by_cases h : inDegree es v = 0
    · simp [h]
    · have : ¬ ((inDegree es v : Int) = 0) := by omega
      simp [h]
  refine ⟨rfl, ?_, ?_, ?_⟩
  · intro v v1 v2 hs
    rw [hmark v v1 v2, if_pos ((hzero v).mp hs)]
    refine ⟨rfl, fun j hj => ?_⟩
    have : j = 0 := hj.unique (longestIn_iff.mpr ⟨hs, Settled.not_zero⟩)
    rw [this]
    rfl
  · intro v v1 v2 hs
    rw [hmark v v1 v2, if_neg (fun h => hs ((hzero v).mpr h))]
    simp only [Option.map_none, Option.getD_none]
    rw [hP v v1 v2]
    refine ⟨rfl, ?_⟩
    have : (fun u => !settledB es 0 u) = fun _ => true := by
      funext u; rw [settledB_false.mpr Settled.not_zero]; rfl
    rw [this, inFrom_true]
  · intro v v1 v2
    rw [hmark v v1 v2, longestIn_iff]
    simp only [Bool.or_false, decide_eq_true_iff]
    rw [hzero]
    by_cases h : inDegree es v = 0
    · simp [h, Settled.not_zero]
    · simp [h]

/-- C29: on any loaded graph whose in-degrees fit an `int`, on any number of ranks and threads, the sort
terminates without failing an assertion or overflowing; the position of a vertex is then the number of edges
of the longest walk that ends in it; vertices on or behind a cycle keep `MAX_DIST`, and the number reported
is the number of these. -/
theorem topsort_computes_levels {n nrank threads : Nat} (c : Cfg n nrank threads) (hn : 0 < n) (hfit : n + threads ≤ IMAX)
    (le : LoadEnv TsV Int) (hsA : le.sA.OK) (hsT : le.sAT.OK) (hd : le.d = fun _ => TsV.new)
    {blobs : List (List (Edge Int))} (hb : blobs.length = nrank) (hin : ∀ es ∈ blobs, ∀ e ∈ es, e.Valid n)
    (hdeg : ∀ v, inDegree blobs.flatten v ≤ IMAX)
    (e1 : AppEnv Int (Option Int) TsV) (e2 : AppEnv Bool (Option Int) TsV) (tmp : Nat → Nat → Nat → Option Int)
    (fuel : Nat) (hf : n ≤ fuel) (hfm : fuel ≤ IMAX) :
    ∃ out G G', ∃ unplaced : List Nat, Graph.readEdgelist le threads nrank n n blobs = some (out, G) ∧
      runTopsort e1 e2 tmp G fuel = some (.done (G', some (unplaced.length : Int))) ∧
      unplaced.Nodup ∧ (∀ v, v ∈ unplaced ↔ 1 ≤ v ∧ v ≤ n ∧ BehindCycle blobs.flatten v) ∧
      ∀ v, 1 ≤ v → v ≤ n → ∃ x o, o < nrank ∧
        (∀ r, r < nrank → G'.getVertexproperty r v = some (if r = o then some x else none)) ∧
        x.deg.isSome ∧ (BehindCycle blobs.flatten v → x.order = BitVec.allOnes 32) ∧
        (¬ BehindCycle blobs.flatten v → LongestIn blobs.flatten v x.order.toNat ∧ x.order.toNat < n) := by
  obtain ⟨out, G, l1, l2⟩ := Graph.load_loaded c le hsA hsT hd hb hin
  obtain ⟨x1, y1, s1, s2⟩ := Graph.newScratch_spec c l2.inv e1.ie
  obtain ⟨x2, y2, s3, s4⟩ := Graph.newScratch_spec c l2.inv e2.ie
  obtain ⟨st1, P1, A1, cs, d1, d2, d3, d4, d5⟩ := run_all_vertices c e1.ie e1.env inDegProg_pure () rfl
    (scratch := some (x1, y1)) l2 (by rintro _ ⟨⟩; exact s2) 1 (Nat.le_refl _) (by decide) fuel (by omega)
  have hv := d3.valid
  have hP1 : ∀ v, 1 ≤ v → v ≤ n → P1 v = ⟨BitVec.allOnes 32, some (inDegree blobs.flatten v : Int)⟩ := by
    intro v v1 v2
    generalize st1.s = s' at d5
    cases d5 with
    | succ g1 g2 =>
      cases g1
      rw [inDegProg_step hdeg g2 v v1 v2]
      by_cases h : inDegree blobs.flatten v = 0
      · rw [if_pos h, h]; rfl
      · rw [if_neg h]; rfl
  obtain ⟨G2, P2, A2, b1, b2, b3⟩ := tsBetween_spec c e2.gia e2.g e1.gia d3 hP1
  obtain ⟨st, k, P', A', r1, _, _, _, r4, _, i1, i2⟩ := run_until_invariant c e2.ie e2.env topProg_pure 1#32 b2
    (scratch := some (x2, y2)) (by rintro _ ⟨⟩; exact s4) (iterations := -1) (by omega)
    (Inv := fun k P A s => TsInv blobs.flatten n k P A s)
    (Done := fun k P A s => TsInv blobs.flatten n k P A s ∧ ∀ v, 1 ≤ v → v ≤ n → ¬ LongestIn blobs.flatten v k)
    (N := n) hn b3
    (by
      intro k P1 A1 s1 P2 A2 b hk hi hs
      obtain ⟨i1, i2⟩ := TsInv.step hv hdeg (by unfold UMAX; have := hfm; unfold IMAX at this; omega) hi hs
      refine ⟨fun hb => ⟨i1, i2.mp hb⟩, fun hb => ⟨?_, i1⟩⟩
      apply Classical.byContradiction
      intro hkn
      have : b = true := i2.mpr (fun v v1 v2 hl => hkn (hl.lt hv v1 v2))
      rw [this] at hb; cases hb)
    fuel hf hfm
  have hdone : ∀ v, 1 ≤ v → v ≤ n → ¬ BehindCycle blobs.flatten v → Settled blobs.flatten (k + 1) v := by
    intro v v1 v2 hc
    obtain ⟨j, j1, j2⟩ := (settled_of_not_behindCycle hv v1 v2 hc).longest
    have hjk : j < k := by
      apply Classical.byContradiction
      intro hh
      obtain ⟨u, u1, u2, u3⟩ := j2.below (j := k) (by omega) v1 v2 hv
      exact i2 u u1 u2 u3
    exact (longestIn_iff.mp j2).1.mono (by omega)
  have hcorrect : ∀ v, 1 ≤ v → v ≤ n → (P' v).deg.isSome ∧ (BehindCycle blobs.flatten v → (P' v).order = BitVec.allOnes 32) ∧
      (¬ BehindCycle blobs.flatten v → LongestIn blobs.flatten v (P' v).order.toNat ∧ (P' v).order.toNat < n) := by
    intro v v1 v2
    by_cases hc : BehindCycle blobs.flatten v
    · obtain ⟨a, b⟩ := i1.todo v v1 v2 (hc.not_settled _)
      exact ⟨by rw [b]; rfl, fun _ => a, fun h => absurd hc h⟩
    · obtain ⟨a, b⟩ := i1.done v v1 v2 (hdone v v1 v2 hc)
      obtain ⟨j, j1, j2⟩ := (settled_of_not_behindCycle hv v1 v2 hc).longest
      refine ⟨by rw [a]; rfl, fun h => absurd h hc, fun _ => ?_⟩
      rw [b j j2, BitVec.toNat_ofNat, Nat.mod_eq_of_lt (by have := hfm; unfold IMAX at this; omega)]
      exact ⟨j2, j1⟩
  have hbad : ∀ v, 1 ≤ v → v ≤ n → ((P' v).order = BitVec.allOnes 32 ↔ BehindCycle blobs.flatten v) := by
    intro v v1 v2
    refine ⟨fun h => ?_, (hcorrect v v1 v2).2.1⟩
    apply Classical.byContradiction
    intro hc
    have := ((hcorrect v v1 v2).2.2 hc).2
    rw [h, BitVec.toNat_allOnes] at this
    have := hfm
    unfold IMAX at this
    omega
  obtain ⟨vg, l, q1, q2, q3, q4⟩ := applyReduce_count (map := tsUnreachable) (tmp := tmp)
    (p := fun v => decide (v.order = BitVec.allOnes 32)) (fun _ _ => by simp [tsUnreachable]) e2.gr c hfit r4
  refine ⟨out, G, { st.G with toVGraph := vg }, l, l1, ?_, q2, ?_, ?_⟩
  · unfold runTopsort
    rw [s1, s3]
    simp only [Option.bind_eq_bind, Option.bind_some]
    rw [show (1 : Int) = ((1 : Nat) : Int) from rfl, d1]
    simp only [Option.bind_some, tsMain, Option.bind_eq_bind]
    rw [b1]
    simp only [Option.bind_some]
    rw [r1]
    simp only [Option.bind_some, tsReport, Option.bind_eq_bind]
    rw [q1]
    rfl
  · intro v
    rw [q3, decide_eq_true_iff]
    constructor
    · rintro ⟨v1, v2, h⟩
      exact ⟨v1, v2, (hbad v v1 v2).mp h⟩
    · rintro ⟨v1, v2, h⟩
      exact ⟨v1, v2, (hbad v v1 v2).mpr h⟩
  · intro v v1 v2
    obtain ⟨o, o1, o2⟩ := represents_observed c q4 v v1 v2
    exact ⟨P' v, o, o1, fun r hr => (o2 r hr).2, hcorrect v v1 v2⟩

/-- C29, the first sentence: on a graph without cycles every vertex gets a position, larger than the positions
of all its predecessors, and nothing is reported. -/
theorem topsort_sorts_dag {n nrank threads : Nat} (c : Cfg n nrank threads) (hn : 0 < n) (hfit : n + threads ≤ IMAX)
    (le : LoadEnv TsV Int) (hsA : le.sA.OK) (hsT : le.sAT.OK) (hd : le.d = fun _ => TsV.new)
    {blobs : List (List (Edge Int))} (hb : blobs.length = nrank) (hin : ∀ es ∈ blobs, ∀ e ∈ es, e.Valid n)
    (hdeg : ∀ v, inDegree blobs.flatten v ≤ IMAX) (hacyc : ∀ u k, ¬ Walk blobs.flatten u u (k + 1))
    (e1 : AppEnv Int (Option Int) TsV) (e2 : AppEnv Bool (Option Int) TsV) (tmp : Nat → Nat → Nat → Option Int)
    (fuel : Nat) (hf : n ≤ fuel) (hfm : fuel ≤ IMAX) :
    ∃ out G G', ∃ pos : Nat → BitVec 32, Graph.readEdgelist le threads nrank n n blobs = some (out, G) ∧
      runTopsort e1 e2 tmp G fuel = some (.done (G', some 0)) ∧
      (∀ v, 1 ≤ v → v ≤ n → ∃ x o, o < nrank ∧
        (∀ r, r < nrank → G'.getVertexproperty r v = some (if r = o then some x else none)) ∧ x.order = pos v ∧
        (pos v).toNat < n) ∧
      ∀ e ∈ blobs.flatten, (pos e.src.toNat).toNat < (pos e.dst.toNat).toNat := by
  obtain ⟨out, G, G', l, h1, h2, _, h4, h5⟩ := topsort_computes_levels c hn hfit le hsA hsT hd hb hin hdeg e1 e2 tmp fuel hf hfm
  have hno : ∀ v, ¬ BehindCycle blobs.flatten v := fun v ⟨u, k, _, hw, _⟩ => hacyc u k hw
  have hl : l = [] := by
    cases l with
    | nil => rfl
    | cons a l => exact absurd ((h4 a).mp (List.mem_cons_self ..)).2.2 (hno a)
  rw [hl] at h2
  have : Nonempty TsV := ⟨TsV.new⟩
  choose! x o ho hx hs hc hl using h5
  refine ⟨out, G, G', fun v => (x v).order, h1, h2, ?_, ?_⟩
  · intro v v1 v2
    exact ⟨x v, o v, ho v v1 v2, hx v v1 v2, rfl, (hl v v1 v2 (hno v)).2⟩
  · intro e he
    obtain ⟨es, he1, he2⟩ := List.mem_flatten.mp he
    obtain ⟨a1, a2, a3, a4⟩ := hin es he1 e he2
    exact LongestIn.edge he (u := e.src.toNat) (v := e.dst.toNat) (by omega) (by omega)
      (hl e.src.toNat (by omega) (by omega) (hno _)).1 (hl e.dst.toNat (by omega) (by omega) (hno _)).1

/-- Load a graph on one rank, sort, read the positions of all vertices. -/
def tsSample (threads n : Nat) (es : List (Edge Int)) (fuel : Nat) :
    Option (Option Int × List (Option (BitVec 32))) := do
  let r ← Graph.readEdgelist (LoadEnv.sample TsV.new 0) threads 1 n n [es]
  let o ← runTopsort (.sample 5 (some 6) ⟨3#32, some 9⟩) (.sample true (some 6) ⟨3#32, some 9⟩) (fun _ _ _ => some 9) r.2 fuel
  match o with
  | .more _ => none
  | .done st => do
    let l ← (List.range n).mapM (fun v : Nat => st.1.getVertexproperty 0 ((v : Int) + 1))
    some (st.2, l.map (fun x => x.map TsV.order))

/-- A graph without cycles, with a doubled edge. -/
example : tsSample 1 4 [⟨1, 2, 1⟩, ⟨1, 2, 1⟩, ⟨1, 3, 1⟩, ⟨2, 3, 1⟩, ⟨4, 3, 1⟩] 4 =
    some (some 0, [some 0#32, some 1#32, some 2#32, some 0#32]) := by decide +kernel

/-- Vertices 2 and 3 form a cycle, 4 is behind it. -/
example : tsSample 1 4 [⟨1, 2, 1⟩, ⟨2, 3, 1⟩, ⟨3, 2, 1⟩, ⟨3, 4, 1⟩] 4 =
    some (some 3, [some 0#32, some 4294967295#32, some 4294967295#32, some 4294967295#32]) := by decide +kernel

/-- The hypotheses of the theorems can be met. -/
example : ∃ (le : LoadEnv TsV Int) (blobs : List (List (Edge Int))), Cfg 40 2 3 ∧ 40 + 3 ≤ IMAX ∧ le.sA.OK ∧ le.sAT.OK ∧
    (le.d = fun _ => TsV.new) ∧ blobs.length = 2 ∧ (∀ es ∈ blobs, ∀ e ∈ es, e.Valid 40) ∧
    (∀ v, inDegree blobs.flatten v ≤ IMAX) ∧ (∀ u k, ¬ Walk blobs.flatten u u (k + 1)) := by
  have hup : ∀ e ∈ [[⟨1, 2, 5⟩], [⟨2, 39, 6⟩, ⟨1, 40, 7⟩]].flatten (α := Edge Int), e.src < e.dst := by
    intro e he
    simp at he
    rcases he with rfl | rfl | rfl <;> decide
  refine ⟨LoadEnv.sample TsV.new 0, [[⟨1, 2, 5⟩], [⟨2, 39, 6⟩, ⟨1, 40, 7⟩]], ⟨by decide, by decide, by decide, by decide⟩,
    by decide, Sorts.ins_ok, Sorts.ins_ok, rfl, rfl, ?_, ?_, ?_⟩
  · intro es hes e he
    simp at hes
    rcases hes with rfl | rfl <;> simp at he
    · subst he; simp [Edge.Valid]
    · rcases he with rfl | rfl <;> simp [Edge.Valid]
  · intro v
    unfold inDegree
    refine Nat.le_trans List.countP_le_length ?_
    decide
  · have hw : ∀ u v k, Walk [[⟨1, 2, 5⟩], [⟨2, 39, 6⟩, ⟨1, 40, 7⟩]].flatten (E := Int) u v k → u + k ≤ v := by
      intro u v k h
      induction h with
      | refl => omega
      | step e _ he h1 h2 ih => have := hup e he; omega
    intro u k h
    have := hw _ _ _ h
    omega

end GraphMat

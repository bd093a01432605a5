import Verif.Lemmas.Bfs

/-!
# C27: breadth-first search
-/
namespace GraphMat

/-- The vertices are prepared as the program needs them. -/
theorem bfsPrepare_spec {n nrank threads : Nat} (c : Cfg n nrank threads) (e : AppEnv (BitVec 64) (BitVec 64) BfsV)
    {src : Nat} (h1 : 1 ≤ src) (h2 : src ≤ n) {G : Graph BfsV Int} {es : List (Edge Int)}
    (hG : G.Loaded n nrank threads es (fun _ => BfsV.new)) :
    ∃ G' x y P A, bfsPrepare e src G = some (G', x, y) ∧ Scratch n nrank x y ∧ G'.Represents n nrank threads es P A ∧
      BfsInv es src n 0 P A 1#32 := by
  unfold bfsPrepare
  rw [hG.inv.hn]
  obtain ⟨G1, a1, a2, _⟩ := hG.updateAll c e.g BfsV.new (fun i v => { v with id := BitVec.ofNat 64 i })
  rw [a1]
  simp only [Option.bind_eq_bind, Option.bind_some]
  obtain ⟨x, y, b1, b2⟩ := Graph.newScratch_spec c a2.inv e.ie
  rw [b1]
  simp only [Option.bind_some]
  obtain ⟨G2, c1, c2⟩ := a2.setAllInactive c e.gia
  rw [c1]
  simp only [Option.bind_some]
  obtain ⟨G3, d1, d2, d3⟩ := c2.loaded.update c e.gs BfsV.new (fun v => { v with depth := 0#32 }) h1 h2
  rw [d1]
  simp only [Option.bind_some]
  obtain ⟨G4, f1, f2⟩ := (d2.keepActive c2 d3).setActive c e.ga h1 h2
  rw [f1]
  refine ⟨G4, x, y, _, _, rfl, b2, f2, ?_⟩
  refine ⟨rfl, ?_, ?_, ?_, ?_⟩
  · intro v v1 v2
    split
    · next h => rw [h]
    · rfl
  · intro v v1 v2
    constructor
    · intro h
      by_cases e : v = src
      · subst e; exact IsHops.zero
      · rw [if_neg e] at h; cases h
    · intro h; rw [if_pos h.eq_of_zero]
  · intro v v1 v2 j j1 j2
    obtain rfl : j = 0 := by omega
    have := j2.eq_of_zero
    subst this
    simp only [if_pos]
    exact ⟨trivial, fun i hi => by omega⟩
  · intro v v1 v2 hn
    have hne : v ≠ src := by rintro rfl; exact hn 0 (Nat.le_refl _) IsHops.zero
    simp only [if_neg hne]
    rfl

/-- What a finished search knows about a vertex: its hop distance, and its parent is an in-neighbour one hop
closer to the source; a vertex that cannot be reached keeps the largest depth. -/
def BfsV.Correct {E : Type} (es : List (Edge E)) (src v : Nat) (x : BfsV) : Prop :=
  (∀ k, IsHops es src v k → x.depth.toNat = k ∧
    ∀ i, k = i + 1 → ∃ e ∈ es, e.src = (x.parent.toNat : Int) ∧ e.dst = (v : Int) ∧ IsHops es src x.parent.toNat i) ∧
  (¬ Reachable es src v → x.depth = MAXD)

/-- C27: from any loaded graph and any source, on any number of ranks and threads, the search terminates
within `n` supersteps; every vertex then holds its hop distance from the source (`MAX_DIST` if it cannot be
reached) and, unless it is the source, a parent that is an in-neighbour one hop closer; the count it reports is
the number of vertices reachable from the source. -/
theorem bfs_computes_hop_distances {n nrank threads : Nat} (c : Cfg n nrank threads) (hfit : n + threads ≤ IMAX)
    (le : LoadEnv BfsV Int) (hsA : le.sA.OK) (hsT : le.sAT.OK) (hd : le.d = fun _ => BfsV.new)
    {blobs : List (List (Edge Int))} (hb : blobs.length = nrank) (hin : ∀ es ∈ blobs, ∀ e ∈ es, e.Valid n)
    (e : AppEnv (BitVec 64) (BitVec 64) BfsV) (tmp : Nat → Nat → Nat → Option Int)
    {src : Nat} (h1 : 1 ≤ src) (h2 : src ≤ n) (fuel : Nat) (hf : n ≤ fuel) (hfm : fuel ≤ IMAX) :
    ∃ out G G', ∃ reached : List Nat, Graph.readEdgelist le threads nrank n n blobs = some (out, G) ∧
      runBfs e tmp src G fuel = some (.done (G', some (reached.length : Int))) ∧
      reached.Nodup ∧ (∀ v, v ∈ reached ↔ Reachable blobs.flatten src v) ∧
      ∀ v, 1 ≤ v → v ≤ n → ∃ x o, o < nrank ∧
        (∀ r, r < nrank → G'.getVertexproperty r v = some (if r = o then some x else none)) ∧
        x.Correct blobs.flatten src v := by
  obtain ⟨out, G, l1, l2⟩ := Graph.load_loaded c le hsA hsT hd hb hin
  obtain ⟨G1, x, y, P, A, p1, p2, p3, p4⟩ := bfsPrepare_spec c e h1 h2 l2
  have hv := p3.valid
  have hmax : ∀ k : Nat, k ≤ IMAX → k < 4294967295 := by intro k hk; unfold IMAX at hk; omega
  have hsrange : ∀ {v k}, IsHops blobs.flatten src v k → 1 ≤ v ∧ v ≤ n := fun h => h.1.range hv h1 h2
  -- the run stops
  obtain ⟨st, k, P', A', r1, r2, r3, r4⟩ : ∃ st k P' A', G1.run e.ie e.env bfsProg 1#32 (-1) (some (x, y)) fuel =
      some (.done st) ∧ st.G.Represents n nrank threads blobs.flatten P' A' ∧ BfsInv blobs.flatten src n k P' A' st.s ∧
      k ≤ fuel ∧ ∀ v, ¬ IsHops blobs.flatten src v k := by
    rcases run_until_convergence c e.ie e.env bfsProg_pure 1#32 p3 (scratch := some (x, y))
      (by rintro _ ⟨⟩; exact p2) (iterations := -1) (by omega) fuel hfm with
      ⟨st, k, P', A', cs, a1, _, _, a4, a5, _, a7, _⟩ | ⟨st, P', A', cs, _, _, _, a4, a5⟩
    · obtain ⟨i1, i2⟩ := BfsInv.steps hv p4 a7 (hmax _ (by omega))
      refine ⟨st, k, P', A', a1, a5, i1, a4, ?_⟩
      intro v hh
      obtain ⟨v1, v2⟩ := hsrange hh
      exact (i2 cs true rfl).mp rfl v v1 v2 hh
    · exfalso
      obtain ⟨i1, i2⟩ := BfsInv.steps hv p4 a4 (hmax _ hfm)
      have hlen := a4.length
      have hne : cs ≠ [] := by intro h; rw [h] at hlen; simp at hlen; omega
      have hb' : cs.getLast hne = false := a5 _ (List.getLast_mem hne)
      have := i2 cs.dropLast (cs.getLast hne) (List.dropLast_append_getLast hne).symm
      rw [hb'] at this
      have : ¬ ∀ v, 1 ≤ v → v ≤ n → ¬ IsHops blobs.flatten src v fuel := fun h => by simpa using this.mpr h
      apply this
      intro v v1 v2 hh
      have := hh.lt hv h1 h2
      omega
  have hstop : ∀ {v j}, IsHops blobs.flatten src v j → j < k := by
    intro v j hh
    rcases Nat.lt_or_ge j k with h | h
    · exact h
    · obtain ⟨u, hu⟩ := hh.below h
      exact absurd hu (r4.2 u)
  have hcorrect : ∀ v, 1 ≤ v → v ≤ n → (P' v).Correct blobs.flatten src v := by
    intro v v1 v2
    refine ⟨?_, ?_⟩
    · intro j hj
      have hjk := hstop hj
      obtain ⟨s1, s2⟩ := r3.seen v v1 v2 j (by omega) hj
      refine ⟨?_, ?_⟩
      · rw [s1, BitVec.toNat_ofNat, Nat.mod_eq_of_lt]
        have := hmax _ (Nat.le_trans r4.1 hfm)
        omega
      · intro i hi
        obtain ⟨u, u1, u2, ed, u3, u4, u5⟩ := s2 i hi
        have hun := (hsrange u2).2
        have hu : (P' v).parent.toNat = u := by
          rw [u1, BitVec.toNat_ofNat, Nat.mod_eq_of_lt]
          have := c.n
          omega
        rw [hu]
        exact ⟨ed, u3, u4, u5, u2⟩
    · intro hnr
      exact r3.unseen v v1 v2 (fun j _ hj => hnr ⟨j, hj.1⟩)
  have hreach : ∀ v, 1 ≤ v → v ≤ n → ((P' v).depth < MAXD ↔ Reachable blobs.flatten src v) := by
    intro v v1 v2
    constructor
    · intro h
      apply Classical.byContradiction
      intro hn
      rw [(hcorrect v v1 v2).2 hn] at h
      exact absurd h (by decide)
    · rintro ⟨j, hj⟩
      obtain ⟨i, _, hi⟩ := hj.hops
      have := (hcorrect v v1 v2).1 i hi
      rw [BitVec.lt_def, this.1]
      have := hstop hi
      have := hmax _ (Nat.le_trans r4.1 hfm)
      simp only [MAXD, BitVec.toNat_allOnes]
      omega
  obtain ⟨vg, l, q1, q2, q3, q4⟩ := applyReduce_count (map := reachableOrNot) (tmp := tmp)
    (p := fun v => decide (v.depth < MAXD)) (fun _ _ => by simp [reachableOrNot]) e.gr c hfit r2
  refine ⟨out, G, { st.G with toVGraph := vg }, l, l1, ?_, q2, ?_, ?_⟩
  · unfold runBfs
    rw [p1]
    simp only [Option.bind_eq_bind, Option.bind_some]
    rw [r1]
    simp only [Option.bind_some, bfsReport, Option.bind_eq_bind]
    rw [q1]
    rfl
  · intro v
    rw [q3, decide_eq_true_iff]
    constructor
    · rintro ⟨v1, v2, h⟩
      exact (hreach v v1 v2).mp h
    · intro h
      obtain ⟨v1, v2⟩ := h.choose_spec.range hv h1 h2
      exact ⟨v1, v2, (hreach v v1 v2).mpr h⟩
  · intro v v1 v2
    obtain ⟨o, o1, o2⟩ := represents_observed c q4 v v1 v2
    exact ⟨P' v, o, o1, fun r hr => (o2 r hr).2, hcorrect v v1 v2⟩

/-- Load a graph on one rank, search from `src`, read depth and parent of all vertices. -/
def bfsSample (threads n : Nat) (es : List (Edge Int)) (src : Int) (fuel : Nat) :
    Option (Option Int × List (Option (BitVec 32 × BitVec 64))) := do
  let r ← Graph.readEdgelist (LoadEnv.sample BfsV.new 0) threads 1 n n [es]
  let o ← runBfs (.sample 77#64 78#64 ⟨3#32, 4#64, 5#64⟩) (fun _ _ _ => some 9) src r.2 fuel
  match o with
  | .more _ => none
  | .done st => do
    let l ← (List.range n).mapM (fun v : Nat => st.1.getVertexproperty 0 ((v : Int) + 1))
    some (st.2, l.map (fun x => x.map (fun x => (x.depth, x.parent))))

/-- Vertex 5 cannot be reached; vertex 4 is reached from 2 or 3. -/
example : bfsSample 1 5 [⟨1, 2, 1⟩, ⟨1, 3, 1⟩, ⟨2, 4, 1⟩, ⟨3, 4, 1⟩, ⟨4, 1, 1⟩, ⟨5, 1, 1⟩] 1 5 =
    some (some 4, [some (0#32, BitVec.allOnes 64), some (1#32, 1#64), some (1#32, 1#64), some (2#32, 3#64),
      some (MAXD, BitVec.allOnes 64)]) := by decide +kernel

/-- The hypotheses of the theorem can be met. -/
example : ∃ (le : LoadEnv BfsV Int) (blobs : List (List (Edge Int))), Cfg 40 2 3 ∧ 40 + 3 ≤ IMAX ∧ le.sA.OK ∧ le.sAT.OK ∧
    (le.d = fun _ => BfsV.new) ∧ blobs.length = 2 ∧ (∀ es ∈ blobs, ∀ e ∈ es, e.Valid 40) ∧
    Reachable blobs.flatten 1 39 ∧ ¬ Reachable blobs.flatten 1 40 := by
  refine ⟨LoadEnv.sample BfsV.new 0, [[⟨1, 2, 5⟩], [⟨2, 39, 6⟩, ⟨40, 1, 7⟩]], ⟨by decide, by decide, by decide, by decide⟩,
    by decide, Sorts.ins_ok, Sorts.ins_ok, rfl, rfl, ?_, ⟨2, ?_⟩, ?_⟩
  · intro es hes e he
    simp at hes
    rcases hes with rfl | rfl <;> simp at he
    · subst he; simp [Edge.Valid]
    · rcases he with rfl | rfl <;> simp [Edge.Valid]
  · exact .step ⟨2, 39, 6⟩ (.step (u := 1) (v := 2) ⟨1, 2, 5⟩ .refl (by simp) rfl rfl) (by simp) rfl rfl
  · rintro ⟨k, h⟩
    cases h with
    | step e _ he _ hd =>
      simp at he
      rcases he with rfl | rfl | rfl <;> simp at hd

end GraphMat

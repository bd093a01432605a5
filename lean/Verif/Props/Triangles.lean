import Verif.Lemmas.Triangles

/-!
# C30: triangle counting
-/
namespace GraphMat

/-- C30: on any loaded graph without parallel edges (whether or not the edges are oriented as a DAG), on any
number of ranks and threads, the program counts the triples `u → v`, `v → w`, `u → w`: there is a list of all of
them, each once, and the total is its length; and every vertex holds the number of those in which it is the
middle vertex.  The per-vertex counts are ints, so they have to fit. -/
theorem triangles_are_counted {n nrank threads : Nat} (c : Cfg n nrank threads) (hn : n + threads ≤ IMAX)
    (le : LoadEnv TcV Int) (hsA : le.sA.OK) (hsT : le.sAT.OK) {garbage : Int} (hd : le.d = fun _ => TcV.new garbage)
    {blobs : List (List (Edge Int))} (hb : blobs.length = nrank) (hin : ∀ es ∈ blobs, ∀ e ∈ es, e.Valid n)
    (hsim : NoParallel blobs.flatten)
    (hfit : ∀ v, ∀ l : List (Nat × Nat × Nat), l.Nodup → (∀ t ∈ l, t.2.1 = v ∧ IsTriangle blobs.flatten t) → l.length ≤ IMAX)
    (e1 : AppEnv Int (List Int) TcV) (e2 : AppEnv TcV (Option Int) TcV) (tmp : Nat → Nat → Nat → BitVec 64)
    (fuel : Nat) (hf : 1 ≤ fuel) :
    ∃ out G G' total, ∃ tris : List (Nat × Nat × Nat),
      Graph.readEdgelist le threads nrank n n blobs = some (out, G) ∧
      runTriangles e1 e2 tmp G fuel = some (.done (G', total)) ∧
      tris.Nodup ∧ (∀ t, t ∈ tris ↔ IsTriangle blobs.flatten t) ∧ total.toNat = tris.length ∧
      ∀ v, 1 ≤ v → v ≤ n → ∃ o, o < nrank ∧ ∀ r, r < nrank → ∃ id nb, G'.getVertexproperty r v =
        some (if r = o then some ⟨id, some ((tris.countP (fun t => t.2.1 = v) : Nat) : Int), nb⟩ else none) := by
  obtain ⟨out, G, l1, l2⟩ := Graph.load_loaded c le hsA hsT hd hb hin
  obtain ⟨x1, y1, s1, s2⟩ := Graph.newScratch_spec c l2.inv e1.ie
  obtain ⟨x2, y2, s3, s4⟩ := Graph.newScratch_spec c l2.inv e2.ie
  obtain ⟨G1, a1, a2⟩ := l2.updateOwnedAll c e1.g e1.gia (fun i v => some ({ v with id := (i : Int) }, false))
  obtain ⟨st1, P1, A1, cs1, b1, _, b3, _, b5⟩ := run_all_vertices c e1.ie e1.env neighborsProg_pure () rfl a2
    (scratch := some (x1, y1)) (by rintro _ ⟨⟩; exact s2) 1 (Nat.le_refl _) (by decide) fuel hf
  have hv := b3.valid
  have hP1 : ∀ v, 1 ≤ v → v ≤ n → (P1 v).Ready blobs.flatten v := by
    generalize st1.s = s' at b5
    cases b5 with
    | succ g1 g2 =>
      cases g1
      exact neighborsProg_step hv hsim (fun v v1 v2 => ⟨rfl, rfl, rfl⟩) g2
  obtain ⟨st2, P2, A2, cs2, d1, _, d3, _, d5⟩ := run_all_vertices c e2.ie e2.env trianglesProg_pure () rfl b3.loaded
    (scratch := some (x2, y2)) (by rintro _ ⟨⟩; exact s4) 1 (Nat.le_refl _) (by decide) fuel hf
  have hlen : ∀ v, (trianglesAt blobs.flatten v).length ≤ IMAX := fun v =>
    hfit v _ (nodup_trianglesAt hv hsim v) (fun t ht => (mem_trianglesAt hv).mp ht)
  have hP2 : ∀ v, 1 ≤ v → v ≤ n → (P2 v).tri = some ((trianglesAt blobs.flatten v).length : Int) := by
    generalize st2.s = s' at d5
    cases d5 with
    | succ g1 g2 =>
      cases g1
      exact trianglesProg_step (by omega) hv hsim hlen hP1 g2
  obtain ⟨vg, total, q1, q2, q3, q4, q5⟩ := applyReduce_reduces_everything (map := returnTriangles)
    (op := fun a b => a + b) (tmp := tmp) (m := fun v => BitVec.ofInt 64 (v.tri.getD 0)) (w := id) (fun _ _ => rfl)
    e2.gr c hn d3.inv d3.props (fun _ => 0)
  have hrep : ({ st2.G with toVGraph := vg } : Graph TcV Int).Represents n nrank threads blobs.flatten P2 A2 :=
    d3.onVertices q2 q3 (by intro v v1 v2; rw [q4]; exact d3.acts v v1 v2)
  have hsum : total.toNat = ((List.range n).map (fun j => (trianglesAt blobs.flatten (j + 1)).length)).sum := by
    have z : ∀ l : List Nat, ((l.map (fun _ => (0 : BitVec 64))).map BitVec.toNat).sum = 0 := by
      intro l
      induction l with
      | nil => rfl
      | cons a l ih => simp
    have hw : ∀ k, k ≤ n → ((List.range k).map (fun j => (trianglesAt blobs.flatten (j + 1)).length)).sum ≤ k * IMAX := by
      intro k
      induction k with
      | zero => intro _; simp
      | succ k ih =>
        intro hk
        rw [List.range_succ, List.map_append, List.sum_append, Nat.succ_mul]
        have := ih (by omega)
        have h1 := hlen (k + 1)
        simp only [List.map_cons, List.map_nil, List.sum_cons, List.sum_nil, Nat.add_zero]
        omega
    have hlt : ((List.range n).map (fun j => (trianglesAt blobs.flatten (j + 1)).length)).sum < 2 ^ 64 := by
      refine Nat.lt_of_le_of_lt (hw n (Nat.le_refl _)) ?_
      refine Nat.lt_of_le_of_lt (Nat.mul_le_mul_right IMAX (show n ≤ IMAX by omega)) ?_
      decide
    rw [q5.bv, List.map_append, List.sum_append, z, Nat.zero_add]
    have hmap : (mapped n P2 (fun v => BitVec.ofInt 64 (v.tri.getD 0))).map BitVec.toNat =
        (List.range n).map (fun j => (trianglesAt blobs.flatten (j + 1)).length) := by
      unfold mapped
      rw [List.map_map]
      apply List.map_congr_left
      intro j hj
      rw [List.mem_range] at hj
      show (BitVec.ofInt 64 ((P2 (j + 1)).tri.getD 0)).toNat = _
      rw [hP2 (j + 1) (by omega) (by omega)]
      have h1 := hlen (j + 1)
      show (BitVec.ofInt 64 ((trianglesAt blobs.flatten (j + 1)).length : Int)).toNat = _
      rw [BitVec.ofInt_natCast, BitVec.toNat_ofNat]
      refine Nat.mod_eq_of_lt (Nat.lt_of_le_of_lt h1 ?_)
      decide
    rw [hmap, Nat.mod_eq_of_lt hlt]
  refine ⟨out, G, { st2.G with toVGraph := vg }, total, (List.range n).flatMap (fun j => trianglesAt blobs.flatten (j + 1)), l1, ?_, ?_, ?_, ?_, ?_⟩
  · unfold runTriangles
    rw [s1, s3]
    simp only [Option.bind_eq_bind, Option.bind_some]
    rw [show G.n = n from l2.inv.hn, a1]
    simp only [Option.bind_some]
    rw [show (1 : Int) = ((1 : Nat) : Int) from rfl, b1]
    simp only [Option.bind_some, tcMain, Option.bind_eq_bind]
    rw [show (1 : Int) = ((1 : Nat) : Int) from rfl, d1]
    simp only [Option.bind_some, tcReport, Option.bind_eq_bind]
    rw [q1]
    rfl
  · rw [List.nodup_flatMap]
    refine ⟨fun j _ => nodup_trianglesAt hv hsim _, ?_⟩
    refine List.Pairwise.imp ?_ List.nodup_range
    intro i j hij t ht1 ht2
    have h1 := ((mem_trianglesAt hv).mp ht1).1
    have h2 := ((mem_trianglesAt hv).mp ht2).1
    omega
  · intro t
    rw [List.mem_flatMap]
    constructor
    · rintro ⟨j, _, hj⟩
      exact ((mem_trianglesAt hv).mp hj).2
    · intro ht
      obtain ⟨e, he, _, h3⟩ := ht.1
      obtain ⟨_, _, a3, a4⟩ := hv e he
      exact ⟨t.2.1 - 1, List.mem_range.mpr (by omega), (mem_trianglesAt hv).mpr ⟨by omega, ht⟩⟩
  · rw [hsum, List.length_flatMap]
  · intro v v1 v2
    obtain ⟨o, o1, o2⟩ := represents_observed c hrep v v1 v2
    refine ⟨o, o1, fun r hr => ⟨(P2 v).id, (P2 v).nb, ?_⟩⟩
    rw [(o2 r hr).2]
    have hcnt : ((List.range n).flatMap (fun j => trianglesAt blobs.flatten (j + 1))).countP (fun t => t.2.1 = v) =
        (trianglesAt blobs.flatten v).length := by
      have hk : ∀ k, ((List.range k).flatMap (fun j => trianglesAt blobs.flatten (j + 1))).countP (fun t => t.2.1 = v) =
          if v ≤ k then (trianglesAt blobs.flatten v).length else 0 := by
        intro k
        induction k with
        | zero => rw [if_neg (by omega)]; rfl
        | succ k ih =>
          rw [List.range_succ, List.flatMap_append, List.countP_append, ih]
          simp only [List.flatMap_cons, List.flatMap_nil, List.append_nil]
          by_cases h : v = k + 1
          · subst h
            rw [if_neg (by omega), if_pos (Nat.le_refl _), Nat.zero_add, List.countP_eq_length]
            intro t ht
            simp [((mem_trianglesAt hv).mp ht).1]
          · have : (trianglesAt blobs.flatten (k + 1)).countP (fun t => t.2.1 = v) = 0 := by
              rw [List.countP_eq_zero]
              intro t ht
              have := ((mem_trianglesAt hv).mp ht).1
              simp only [decide_eq_true_eq]
              omega
            rw [this, Nat.add_zero]
            by_cases h2 : v ≤ k
            · rw [if_pos h2, if_pos (by omega)]
            · rw [if_neg h2, if_neg (by omega)]
      rw [hk n, if_pos v2]
    rw [hcnt, ← hP2 v v1 v2]

/-- Load a graph on one rank, count. -/
def tcSample (threads n : Nat) (es : List (Edge Int)) : Option (Nat × List (Option (Option Int))) := do
  let r ← Graph.readEdgelist (LoadEnv.sample (TcV.new 77) 0) threads 1 n n [es]
  let o ← runTriangles (.sample 5 [6] ⟨3, some 9, [4]⟩) (.sample ⟨3, some 9, [4]⟩ (some 8) ⟨3, some 9, [4]⟩)
    (fun _ _ _ => 55) r.2 1
  match o with
  | .more _ => none
  | .done (G, total) => do
    let l ← (List.range n).mapM (fun v : Nat => G.getVertexproperty 0 ((v : Int) + 1))
    some (total.toNat, l.map (Option.map TcV.tri))

/-- The complete DAG on 4 vertices. -/
example : tcSample 1 4 [⟨1, 4, 1⟩, ⟨1, 3, 1⟩, ⟨1, 2, 1⟩, ⟨2, 3, 1⟩, ⟨2, 4, 1⟩, ⟨3, 4, 1⟩] =
    some (4, [some (some 0), some (some 2), some (some 2), some (some 0)]) := by decide +kernel

/-- Parallel edges are why the theorem excludes them: one triangle, one edge doubled, counted as two. -/
example : tcSample 1 3 [⟨1, 2, 1⟩, ⟨1, 2, 1⟩, ⟨2, 3, 1⟩, ⟨1, 3, 1⟩] =
    some (2, [some (some 0), some (some 2), some (some 0)]) := by decide +kernel

/-- The hypotheses of the theorem can be met, with a triangle. -/
example : ∃ (le : LoadEnv TcV Int) (blobs : List (List (Edge Int))), Cfg 40 2 3 ∧ 40 + 3 ≤ IMAX ∧ le.sA.OK ∧ le.sAT.OK ∧
    (le.d = fun _ => TcV.new 7) ∧ blobs.length = 2 ∧ (∀ es ∈ blobs, ∀ e ∈ es, e.Valid 40) ∧ NoParallel blobs.flatten ∧
    (∀ v, ∀ l : List (Nat × Nat × Nat), l.Nodup → (∀ t ∈ l, t.2.1 = v ∧ IsTriangle blobs.flatten t) → l.length ≤ IMAX) ∧
    IsTriangle blobs.flatten (1, 2, 40) := by
  refine ⟨LoadEnv.sample (TcV.new 7) 0, [[⟨1, 2, 5⟩], [⟨2, 40, 6⟩, ⟨1, 40, 7⟩]], ⟨by decide, by decide, by decide, by decide⟩,
    by decide, Sorts.ins_ok, Sorts.ins_ok, rfl, rfl, ?_, by simp [NoParallel], ?_, ?_⟩
  · intro es hes e he
    simp at hes
    rcases hes with rfl | rfl <;> simp at he
    · subst he; simp [Edge.Valid]
    · rcases he with rfl | rfl <;> simp [Edge.Valid]
  · intro v l hnd hl
    have hsub : l ⊆ [(1, 2, 2), (1, 2, 40), (1, 40, 2), (1, 40, 40), (2, 2, 2), (2, 2, 40), (2, 40, 2), (2, 40, 40)] := by
      rintro ⟨a, b, w⟩ ht
      obtain ⟨_, ⟨e, he, e2, e3⟩, _, ⟨g, hg, g2, g3⟩⟩ := hl _ ht
      simp at he hg e2 e3 g2 g3
      rcases he with rfl | rfl | rfl <;> rcases hg with rfl | rfl | rfl <;> simp at e2 e3 g2 g3 ⊢ <;> omega
    exact Nat.le_trans (List.subperm_of_subset hnd hsub).length_le (by decide)
  · refine ⟨⟨⟨1, 2, 5⟩, by simp, rfl, rfl⟩, ⟨⟨2, 40, 6⟩, by simp, rfl, rfl⟩, ⟨⟨1, 40, 7⟩, by simp, rfl, rfl⟩⟩

end GraphMat

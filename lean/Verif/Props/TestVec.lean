import Verif.Lemmas.TestVec
import Verif.Props.TestIO

/-!
# C84: the tests of vectors, reductions, products and archives, with other inputs
-/
namespace GraphMat

variable {α E : Type}

theorem tilesPerDim_one (nrank : Nat) : tilesPerDim 1 nrank = some nrank := by simp [tilesPerDim]

/-! ### Vectors -/

/-- C84: "SpVec basic tests" with any indices.  The checks succeed exactly if the indices differ. -/
theorem test_spvec {n nrank : Nat} (hr : 0 < nrank) (one two : α) (g : Nat → Nat → Nat → Fresh α) (gu ga : Nat → Nat → Fresh α) {ws : List Nat}
    (hws : ∀ w ∈ ws, 1 ≤ w ∧ w ≤ n) {u : Nat} (hu : u ∈ ws) : testSpVec one two g gu ga n nrank ws u = some (decide ws.Nodup) := by
  obtain ⟨d, a1, a2, _, a4⟩ := DVec.new_empty (α := α) (n := n) hr hr
  obtain ⟨d1, b1, b2, b3⟩ := setEach_spec hr hr g (ws := ws.map (fun w => (w, one))) (by
    intro x hx
    obtain ⟨w, hw, rfl⟩ := List.mem_map.mp hx
    exact hws w hw) a2 a4
  obtain ⟨d2, c1, c2, c3⟩ := VecOp.exec_spec hr hr gu (.unset u) (hws u hu) b2 b3
  obtain ⟨d3, e1, e2, e3⟩ := VecOp.exec_spec hr hr ga (.setAll two) trivial c2 c3
  obtain ⟨d4, f1, f2, f3⟩ := VecOp.exec_spec hr hr ga .clear trivial e2 e3
  have f1' : d3.clear = some d4 := f1
  have z : (List.range n).countP (fun _ => (none : Option α).isSome) = 0 := by simp
  have r0 := requireNNZ_eq hr hr a2 a4 z 0
  have r1 := requireNNZ_eq hr hr b2 b3 (c := ws.dedup.length) (by
    rw [← count_set hws]
    apply List.countP_congr
    intro j _
    rw [entryMap_const]
    split <;> simp_all) ws.length
  have r2 := requireNNZ_eq hr hr c2 c3 (c := ws.dedup.length - 1) (by
    rw [← count_unset hws hu]
    apply List.countP_congr
    intro j _
    simp only [VecOp.spec, entryMap_const]
    by_cases h1 : j + 1 = u <;> by_cases h2 : j + 1 ∈ ws <;> simp [h1, h2]) (ws.length - 1)
  have r3 := requireNNZ_eq hr hr e2 e3 (c := n) (by simp [VecOp.spec]) n
  have r4 := requireNNZ_eq hr hr f2 f3 z 0
  have hl : (decide (ws.dedup.length = ws.length) && decide (ws.dedup.length - 1 = ws.length - 1)) = decide ws.Nodup := by
    rw [Bool.eq_iff_iff, Bool.and_eq_true, decide_eq_true_eq, decide_eq_true_eq, decide_eq_true_eq, ← dedup_length_iff]
    omega
  unfold testSpVec
  simp only [tilesPerDim_one, a1, r0, b1, r1, c1, r2, e1, r3, f1', r4, Option.bind_eq_bind, Option.bind_some]
  rw [← hl]
  simp

/-- The test as it is, on 3 ranks; with an index that comes twice it would fail. -/
example : testSpVec (1 : Int) 2 (fun _ _ _ => .sample 0) (fun _ _ => .sample 0) (fun _ _ => .sample 0) 1000 3 [1, 10, 200, 300] 300 = some true ∧
    testSpVec (1 : Int) 2 (fun _ _ _ => .sample 0) (fun _ _ => .sample 0) (fun _ _ => .sample 0) 1000 3 [1, 10, 10, 300] 300 = some false :=
  ⟨test_spvec (by decide) _ _ _ _ _ (by decide) (by decide), test_spvec (by decide) _ _ _ _ _ (by decide) (by decide)⟩

/-- C84: "DenseSegment basic tests". -/
theorem test_segment (one : α) (g : Nat → Fresh α) (gu : Fresh α) {n : Nat} {ws : List Nat} (hws : ∀ w ∈ ws, 1 ≤ w ∧ w ≤ n) {u : Nat} (hu : u ∈ ws) :
    testSegment one g gu n ws u = some (decide ws.Nodup) := by
  obtain ⟨s, a1, a2, a3, a4⟩ := Segment.setEach_spec g (ws := ws.map (fun w => (w, one))) (Segment.new_WF (α := α) n) (by
    intro x hx
    obtain ⟨w, hw, rfl⟩ := List.mem_map.mp hx
    exact hws w hw) (m := fun _ => none) (fun _ => rfl)
  obtain ⟨s', b1, b2, _, b4, _, _, b7⟩ := Segment.unset_spec a2 gu (hws u hu).1 (by rw [a3]; exact (hws u hu).2)
  have k1 : s.computeNnz = some ws.dedup.length := by
    rw [Segment.computeNnz_spec a2, a3, ← count_set hws]
    congr 1
    apply List.countP_congr
    intro j _
    rw [a4, entryMap_const]
    split <;> simp_all
  have k2 : s'.computeNnz = some (ws.dedup.length - 1) := by
    rw [Segment.computeNnz_spec b2, b4, a3, ← count_unset hws hu]
    congr 1
    apply List.countP_congr
    intro j _
    rw [b7]
    beta_reduce
    rw [a4, entryMap_const]
    have := (hws u hu).1
    have e : (j = u - 1) ↔ j + 1 = u := by omega
    by_cases h1 : j + 1 = u <;> by_cases h2 : j + 1 ∈ ws <;> simp [e, h1, h2]
  have hl : (decide (ws.dedup.length = ws.length) && decide (ws.dedup.length - 1 = ws.length - 1)) = decide ws.Nodup := by
    rw [Bool.eq_iff_iff, Bool.and_eq_true, decide_eq_true_eq, decide_eq_true_eq, decide_eq_true_eq, ← dedup_length_iff]
    omega
  unfold testSegment
  simp only [a1, k1, b1, k2, Option.bind_eq_bind, Option.bind_some, hl]

/-- The test as it is. -/
example : testSegment (1 : Int) (fun _ => .sample 0) (.sample 0) 1000 [1, 10, 200, 300] 300 = some true :=
  test_segment _ _ _ (by decide) (by decide)

/-! ### Sending -/

/-- C84: the tests of sending pass with any distinct indices and values, on any number of ranks; for serializable values only if no receiver has
fewer threads than its sender. -/
theorem test_send_partial (ser : Bool) {eq : α → α → Bool} (heq : ∀ x, eq x x = true) (g : Nat → Nat → Fresh α) (gc gr : Nat → Fresh α) {n nrank : Nat}
    {threads : Nat → Nat} (ht : ∀ r, r < nrank → 0 < threads r)
    (hser : ser = true → ∀ k, 2 * k + 1 < nrank → threads (2 * k) ≤ threads (2 * k + 1)) {ws : List (Nat × α)} (hn : (ws.map Prod.fst).Nodup)
    (hws : ∀ x ∈ ws, 1 ≤ x.1 ∧ x.1 ≤ n) : testSend ser eq g gc gr n nrank threads ws = some true := by
  unfold testSend
  by_cases h : nrank % 2 = 0
  · rw [if_pos h]
    rw [mapM_some (g := fun _ => true)]
    · simp
    · intro k hk
      rw [List.mem_range] at hk
      exact testSendPair_true ser heq _ _ _ (ht _ (by omega)) (ht _ (by omega)) (fun e => hser e k (by omega)) hn hws
  · rw [if_neg h]

/-- The test of plain values on 4 ranks with 1 to 4 threads; the test of serialized values. -/
example : testSend (α := Int) false (fun a b => decide (a = b)) (fun _ _ => .sample 0) (fun _ => .sample 0) (fun _ => .sample 0) 1000 4 (fun r => 4 - r)
      [(1, 1), (10, 2), (200, 3), (300, 4)] = some true ∧
    testSend (α := List Int) true (fun a b => decide (a = b)) (fun _ _ => .sample []) (fun _ => .sample []) (fun _ => .sample []) 1000 4 (fun _ => 2)
      [(1, [1]), (10, [2]), (200, [3]), (300, [])] = some true :=
  ⟨test_send_partial false (by simp) _ _ _ (by omega) (by simp) (by decide) (by decide),
    test_send_partial true (by simp) _ _ _ (by omega) (by simp) (by decide) (by decide)⟩

/-- C84 fails for ranks with different numbers of threads: if a sender of serializable values has more threads than its receiver, the test
writes outside an array. -/
theorem test_send_overflow {eq : α → α → Bool} (g : Nat → Nat → Fresh α) (gc gr : Nat → Fresh α) {n nrank : Nat} {threads : Nat → Nat} {k : Nat}
    (he : nrank % 2 = 0) (hk : 2 * k + 1 < nrank) (hlt : threads (2 * k + 1) < threads (2 * k)) {ws : List (Nat × α)}
    (hws : ∀ x ∈ ws, 1 ≤ x.1 ∧ x.1 ≤ n) : testSend true eq g gc gr n nrank threads ws = none := by
  have key : testSendPair true eq (g (2 * k)) (gc (2 * k)) (gr (2 * k + 1)) n (threads (2 * k)) (threads (2 * k + 1)) ws = none := by
    obtain ⟨s, a1, a2, a3, _⟩ := Segment.setEach_spec (g (2 * k)) (ws := ws) (Segment.new_WF (α := α) n) hws (m := fun _ => none) (fun _ => rfl)
    have o := serialized_segment_overflow hlt (gc (2 * k)) (gr (2 * k + 1)) a2 (Segment.new_WF (α := α) n)
    unfold transfer at o
    unfold testSendPair
    have k0 : (Segment.new n : Segment α).computeNnz = some 0 := rfl
    simp only [k0, a1, Segment.computeNnz_spec a2, Option.bind_eq_bind, Option.bind_some] at o ⊢
    cases h1 : s.compress true (threads (2 * k)) (gc (2 * k)) with
    | none => rfl
    | some s1 =>
      rw [h1] at o
      simp only [Option.bind_some] at o ⊢
      cases h2 : s1.send true with
      | none => rfl
      | some msg =>
        rw [h2] at o
        simp only [Option.bind_some] at o ⊢
        cases h3 : (Segment.new n).recv true (threads (2 * k + 1)) (gr (2 * k + 1)) msg with
        | none => rfl
        | some r1 =>
          rw [h3] at o
          simp only [Option.bind_some] at o ⊢
          cases h4 : s1.decompress true (threads (2 * k)) with
          | none => rfl
          | some s2 => simp only [Option.bind_some, o, Option.bind_none]
  unfold testSend
  rw [if_pos he, mapM_none (List.mem_range.mpr (show k < nrank / 2 by omega)) key]
  rfl

example : testSend (α := List Int) true (fun a b => decide (a = b)) (fun _ _ => .sample []) (fun _ => .sample []) (fun _ => .sample []) 1000 2
    (fun r => 2 - r) [(1, [1]), (10, [2]), (200, [3])] = none :=
  test_send_overflow (k := 0) _ _ _ (by decide) (by decide) (by decide) (by decide)

/-! ### Reductions -/

/-- C84: "mapreduce basic" at every size whose sum fits in an `int`. -/
theorem test_reduce_all_partial {threads n nrank : Nat} (ht : 0 < threads) (hr : 0 < nrank) (ga gm : Nat → Nat → Fresh Int)
    (tmp : Nat → Nat → Nat → Option Int) (h1 : n + threads ≤ IMAX) (h2 : 2 * n ≤ IMAX) :
    testReduceAll ga gm tmp threads n nrank = some true := by
  obtain ⟨d, a1, a2, _, a4⟩ := DVec.new_empty (α := Int) (n := n) hr hr
  obtain ⟨d1, b1, b2, b3⟩ := VecOp.exec_spec hr hr ga (.setAll 1) trivial a2 a4
  have r0 := requireNNZ_eq hr hr a2 a4 (c := 0) (by simp) 0
  have r1 := requireSum_eq ht hr gm tmp b2 b3 (by
    intro w v h
    simp only [VecOp.spec, Option.some.injEq] at h
    exact h.symm) h1 (c := n) (by simp [VecOp.spec]) h2 (2 * n)
  unfold testReduceAll
  simp only [tilesPerDim_one, a1, r0, b1, r1, Option.bind_eq_bind, Option.bind_some]
  simp

/-- The test as it is, on 3 ranks with 4 threads. -/
example : testReduceAll (fun _ _ => .sample 0) (fun _ _ => .sample 0) (fun _ _ _ => some 0) 4 1000 3 = some true :=
  test_reduce_all_partial (by decide) (by decide) _ _ _ (by decide) (by decide)

/-- C84: "mapreduce empty" with any indices. -/
theorem test_reduce_some_partial {threads n nrank : Nat} (ht : 0 < threads) (hr : 0 < nrank) (g : Nat → Nat → Nat → Fresh Int)
    (gm : Nat → Nat → Fresh Int) (tmp : Nat → Nat → Nat → Option Int) {ws : List Nat} (hws : ∀ w ∈ ws, 1 ≤ w ∧ w ≤ n) (h1 : n + threads ≤ IMAX)
    (h2 : 2 * ws.length ≤ IMAX) : testReduceSome g gm tmp threads n nrank ws = some (decide ws.Nodup) := by
  obtain ⟨d, a1, a2, _, a4⟩ := DVec.new_empty (α := Int) (n := n) hr hr
  obtain ⟨d1, b1, b2, b3⟩ := setEach_spec hr hr g (ws := ws.map (fun w => (w, 1))) (by
    intro x hx
    obtain ⟨w, hw, rfl⟩ := List.mem_map.mp hx
    exact hws w hw) a2 a4
  have r0 := requireNNZ_eq hr hr a2 a4 (c := 0) (by simp) 0
  have hle : ws.dedup.length ≤ ws.length := (List.dedup_sublist ws).length_le
  have r1 := requireSum_eq ht hr gm tmp b2 b3 (by
    intro w v h
    rw [entryMap_const] at h
    split at h
    · injection h with h
      exact h.symm
    · exact absurd h (by simp)) h1 (c := ws.dedup.length) (by
    rw [← count_set hws]
    apply List.countP_congr
    intro j _
    rw [entryMap_const]
    split <;> simp_all) (by omega) (2 * ws.length)
  unfold testReduceSome
  simp only [tilesPerDim_one, a1, r0, b1, r1, Option.bind_eq_bind, Option.bind_some]
  simp only [decide_true, Bool.true_and, Option.some.injEq]
  rw [Bool.eq_iff_iff, decide_eq_true_eq, decide_eq_true_eq, ← dedup_length_iff]
  omega

/-- The test as it is, on 3 ranks with 4 threads. -/
example : testReduceSome (fun _ _ _ => .sample 0) (fun _ _ => .sample 0) (fun _ _ _ => some 0) 4 1000 3 [1, 10, 200, 300] = some true :=
  test_reduce_some_partial (by decide) (by decide) _ _ _ (by decide) (by decide) (by decide)

/-! ### Archives -/

/-- C84: the test of vectors in archives, with any distinct indices and any values. -/
theorem test_vec_archive {eq : α → α → Bool} (heq : ∀ x, eq x x = true) (two : α) (g : Nat → Nat → Nat → Fresh α)
    (gl : Nat → Nat → Nat → Nat → Fresh α) (ga : Nat → Nat → Fresh α) {n nrank : Nat} (hr : 0 < nrank) {ws : List (Nat × α)}
    (hn : (ws.map Prod.fst).Nodup) (hws : ∀ x ∈ ws, 1 ≤ x.1 ∧ x.1 ≤ n) : testVecArchive eq two g gl ga n nrank ws = some true := by
  obtain ⟨d, a1, a2, _, a4⟩ := DVec.new_empty (α := α) (n := n) hr hr
  obtain ⟨d1, b1, b2, b3⟩ := setEach_spec hr hr g hws a2 a4
  obtain ⟨d2, c1, c2, _, c4⟩ := DVec.throughArchive_spec b2 hr gl
  have c3 : ∀ w, 1 ≤ w → w ≤ n → DVec.sem n nrank nrank d2 w = entryMap ws (fun _ => none) w := fun w h1 h2 => (c4 w).trans (b3 w h1 h2)
  obtain ⟨d3, e1, e2, e3⟩ := VecOp.exec_spec hr hr ga (.setAll two) trivial c2 c3
  obtain ⟨d4, f1, f2, f3⟩ := VecOp.exec_spec hr hr ga .clear trivial e2 e3
  have f1' : d3.clear = some d4 := f1
  have z : (List.range n).countP (fun _ => (none : Option α).isSome) = 0 := by simp
  have r0 := requireNNZ_eq hr hr a2 a4 z 0
  have r1 := requireNNZ_eq hr hr c2 c3 (c := ws.length) (by
    have := count_indices hn (n := n) (by
      intro w hw
      obtain ⟨x, hx, rfl⟩ := List.mem_map.mp hw
      exact hws x hx)
    rw [List.length_map] at this
    rw [← this]
    apply List.countP_congr
    intro j _
    rw [entryMap_isSome]
    simp) ws.length
  have r2 := requireNNZ_eq hr hr e2 e3 (c := n) (by simp [VecOp.spec]) n
  have r3 := requireNNZ_eq hr hr f2 f3 z 0
  have m : (List.range d2.size).mapM (fun r => do
      let v ← d2.read r
      ws.mapM (requireOwned eq v)) = some ((List.range d2.size).map (fun _ => ws.map (fun _ => true))) := by
    apply mapM_some
    intro r hrr
    rw [List.mem_range] at hrr
    rw [Arr.read_some hrr]
    simp only [Option.bind_eq_bind, Option.bind_some]
    apply mapM_some
    intro x hx
    rw [c2.size] at hrr
    exact requireOwned_true heq hr c2 hrr (hws x hx).1 (hws x hx).2 (by
      rw [c3 _ (hws x hx).1 (hws x hx).2]
      exact entryMap_mem ws _ hn hx)
  unfold testVecArchive
  simp only [Option.bind_eq_bind] at m
  simp only [tilesPerDim_one, a1, r0, b1, c1, r1, m, e1, r2, f1', r3, Option.bind_eq_bind, Option.bind_some]
  simp

/-- The test as it is, on 3 ranks. -/
example : testVecArchive (α := Int) (fun a b => decide (a = b)) 2 (fun _ _ _ => .sample 0) (fun _ _ _ _ => .sample 0) (fun _ _ => .sample 0) 1000 3
    [(1, 1), (10, 2), (200, 3), (300, 4)] = some true :=
  test_vec_archive (by simp) _ _ _ _ (by decide) (by decide) (by decide)

theorem requireSame_self {eq : E → E → Bool} (heq : ∀ x, eq x x = true) (weights : Bool) {a : EdgeList E} (h : a.WF) :
    requireSame eq weights a a = some true := by
  unfold requireSame
  rw [if_pos rfl]
  obtain ⟨r, r1, r2⟩ := forLoop_inv (lo := 0) (hi := a.nnz) (s := true) (body := fun i ok => do
      let x ← a.edges.read i
      let y ← a.edges.read i
      some (ok && (decide (x.src = y.src) && decide (x.dst = y.dst) && (!weights || eq x.val y.val))))
    (fun _ r => r = true) (Nat.zero_le _) rfl (by
      intro i r _ hi hr
      rw [Arr.read_some (Nat.lt_of_lt_of_le hi h)]
      exact ⟨_, rfl, by simp [hr, heq]⟩)
  rw [r1, r2]

/-- A list of edges agrees with itself, however it is sorted. -/
theorem compareEdges_self (sort : List (Edge E) → List (Edge E)) {eq : E → E → Bool} (heq : ∀ x, eq x x = true) (k : Edge E) (m n : Nat)
    (es : List (Edge E)) : compareEdges sort eq k m n es m n es = some true := by
  unfold compareEdges
  dsimp only
  rw [requireSame_self heq true (sortWith_wf (gotList_spec _ _ _ _).1)]
  simp

/-- C84: the comparison of the test of matrices in archives succeeds exactly if the two matrices have the same dimensions and the same edges:
a matrix that lost, gained or changed an edge in the archive is noticed. -/
theorem archive_comparison_exact {S : E → Prop} {lt eq : E → E → Bool} {key : E → Rat} (hk : Keyed S lt eq key)
    {sort : List (Edge E) → List (Edge E)} (hs : SortsOn S lt sort) (k : Edge E) (m1 n1 m2 n2 : Nat) {es1 es2 : List (Edge E)}
    (hS1 : ∀ e ∈ es1, S e.val) (hS2 : ∀ e ∈ es2, S e.val) :
    ∃ r, compareEdges sort eq k m1 n1 es1 m2 n2 es2 = some r ∧
      (r = true ↔ m1 = m2 ∧ n1 = n2 ∧ (es1.map (tag key true)).Perm (es2.map (tag key true))) := by
  obtain ⟨x1, x2⟩ := gotList_spec k m1 n1 es1
  obtain ⟨y1, y2⟩ := gotList_spec k m2 n2 es2
  have px := hs es1 hS1
  have py := hs es2 hS2
  have ex := sortWith_list (el := gotList k m1 n1 es1) (sort := sort) (by rw [x2]; exact px.1)
  have ey := sortWith_list (el := gotList k m2 n2 es2) (sort := sort) (by rw [y2]; exact py.1)
  rw [x2] at ex
  rw [y2] at ey
  obtain ⟨r, r1, r2⟩ := requireSame_iff hk (weights := true) (sortWith_wf (sort := sort) x1) (sortWith_wf (sort := sort) y1)
    (by intro _ e he; rw [ex] at he; exact hS1 e (px.1.subset he))
    (by intro _ e he; rw [ey] at he; exact hS2 e (py.1.subset he))
  unfold compareEdges
  dsimp only
  rw [r1]
  refine ⟨_, rfl, ?_⟩
  rw [ex, ey] at r2
  have key : (sort es1).map (tag key true) = (sort es2).map (tag key true) ↔ (es1.map (tag key true)).Perm (es2.map (tag key true)) := by
    constructor
    · intro h
      exact ((px.1.map _).symm.trans (List.Perm.of_eq h)).trans (py.1.map _)
    · intro h
      refine tag_unique hk ?_ ?_ px.2 py.2 (((px.1.map _).trans h).trans (py.1.map _).symm)
      · intro _ e he; exact hS1 e (px.1.subset he)
      · intro _ e he; exact hS2 e (py.1.subset he)
  rw [key] at r2
  simp only [gotList, Bool.and_eq_true, decide_eq_true_eq, r2, Nat.cast_inj]
  tauto

/-- Equal lists in another order pass; a changed value, a missing edge or other dimensions do not. -/
example :
    let cmp := compareEdges (E := Int) (insSort (edgeCompare (fun a b => decide (a < b)))) (fun a b => decide (a = b)) ⟨0, 0, 0⟩
    cmp 3 3 [⟨2, 1, 7⟩, ⟨2, 3, 10⟩] 3 3 [⟨2, 3, 10⟩, ⟨2, 1, 7⟩] = some true ∧
    cmp 3 3 [⟨2, 1, 7⟩, ⟨2, 3, 10⟩] 3 3 [⟨2, 3, 10⟩, ⟨2, 1, 8⟩] = some false ∧
    cmp 3 3 [⟨2, 1, 7⟩, ⟨2, 3, 10⟩] 3 3 [⟨2, 3, 10⟩] = some false ∧
    cmp 3 3 [⟨2, 1, 7⟩, ⟨2, 3, 10⟩] 4 3 [⟨2, 1, 7⟩, ⟨2, 3, 10⟩] = some false := by
  decide +kernel

example := archive_comparison_exact (E := Int) int_keyed (edgeCompare_sorts.on _) ⟨0, 0, 0⟩ 3 3 3 3
  (es1 := [⟨2, 1, 7⟩, ⟨2, 3, 10⟩]) (es2 := [⟨2, 3, 10⟩]) (by simp) (by simp)

/-- C84: the test of matrices in archives, at every size that fits, whatever order equal edges are sorted in. -/
theorem test_mat_archive_partial (sort : List (Edge E) → List (Edge E)) {eq : E → E → Bool} (heq : ∀ x, eq x x = true) (g : Nat → Nat → Edge E)
    (k : Nat → Edge E) {dist : Nat → Nat} {draws : Nat} (one : E) {srt : Sorts E} (hsrt : srt.OK) (gt gl : Nat → Nat → Nat → TileFresh E)
    {threads nrank n : Nat} (ht : 0 < threads) (hr : 0 < nrank) (hdr : Draws n draws dist) (hfit : n * min 16 n ≤ IMAX) :
    testMatArchive sort eq g k dist draws one srt gt gl threads nrank n = some true := by
  obtain ⟨els, es, e1, e2, _, e4, _⟩ := test_random_generator g one hr 16 hdr hfit
  obtain ⟨o1, o2⟩ := own1d nrank hr
  obtain ⟨out, D, T, P, d1, _, _, _, d5⟩ := DMat.ofEdges_spec (m := n) (n := n) hsrt gt ht hr hr hr o1 o2 (blobs := els.map EdgeList.list)
    (by simp [e2.length]) (by
      rw [e2.flatten]
      intro e he
      exact (e4 e he).1)
  obtain ⟨el, l1⟩ : ∃ el, els[0]? = some el := ⟨_, List.getElem?_eq_getElem (by rw [e2.length]; exact hr)⟩
  obtain ⟨_, m1, m2⟩ := e2.rankLists.made el (List.mem_of_getElem? l1)
  unfold testMatArchive
  simp only [e1, l1, m1, m2, Int.toNat_natCast, d1, Option.bind_eq_bind, Option.bind_some]
  rw [mapM_some (g := fun _ => true)]
  · simp
  · intro r hrr
    rw [List.mem_range] at hrr
    obtain ⟨L, es', a1, a2, a3, a4, a5, a6⟩ := reload_edges d5 hr hr (gl r) r
    have hD : D[r]? = some (matOf n n nrank nrank nrank (fun i _ => i % nrank) T r) := by
      rw [d5.mat]
      simp [hrr]
    have hm : (matOf n n nrank nrank nrank (fun i _ => i % nrank) T r).m = n := rfl
    have hn : (matOf n n nrank nrank nrank (fun i _ => i % nrank) T r).n = n := rfl
    rw [hD]
    simp only [Option.bind_some, a1, a2, a5, a6, hm, hn, a3, a4]
    exact compareEdges_self sort heq _ _ _ _

/-- The size 500 of the test, on 3 ranks with 2 threads. -/
example : testMatArchive (E := Int) (insSort (edgeCompare (fun a b => decide (a < b)))) (fun a b => decide (a = b)) (fun _ _ => ⟨0, 0, 0⟩)
    (fun _ => ⟨0, 0, 0⟩) (fun q => q % 500 + 1) 500 1 Sorts.ins (fun _ _ _ => ⟨fun _ => 0, fun _ _ => 0⟩) (fun _ _ _ => ⟨fun _ => 0, fun _ _ => 0⟩) 2 3 500 = some true :=
  test_mat_archive_partial _ (by simp) _ _ _ Sorts.ins_ok _ _ (by decide) (by decide) (draws_round 500 (by decide)) (by decide)

/-! ### Products -/

/-- C84: asked for more entries than there are rows, the generator of vectors makes one entry in every row. -/
theorem test_vec_generator_dense (g : Nat → Edge E) (dist : Nat → Nat) (fuel : Nat) (one : E) {n nnz : Nat} (h : n < nnz) :
    ∃ el, genVecRandom g dist fuel one n nnz = some el ∧ el.WF ∧ el.m = n ∧ el.n = 1 ∧
      el.list = (List.range n).map (fun i => ⟨(i : Int) + 1, 1, one⟩) := by
  unfold genVecRandom genVecDense
  rw [if_pos h]
  obtain ⟨a, a1, a2, a3⟩ := forLoop_inv (lo := 0) (hi := n) (s := (EdgeList.alloc g n 1 n).edges)
    (body := fun i (a : Arr (Edge E)) => a.write i ⟨(i : Int) + 1, 1, one⟩)
    (fun j a => a.size = n ∧ ∀ t, t < j → a.get t = ⟨(t : Int) + 1, 1, one⟩) (Nat.zero_le _)
    ⟨rfl, fun _ h => absurd h (by omega)⟩ (by
      intro i a _ hi ⟨h1, h2⟩
      rw [Arr.write_some (by omega)]
      refine ⟨_, rfl, h1, ?_⟩
      intro t ht
      show (if t = i then _ else a.get t) = _
      by_cases e : t = i
      · rw [if_pos e, e]
      · rw [if_neg e]
        exact h2 t (by omega))
  simp only [a1, Option.bind_eq_bind, Option.bind_some]
  refine ⟨_, rfl, ?_, rfl, rfl, ?_⟩
  · show n ≤ a.size
    omega
  · unfold EdgeList.list
    apply List.map_congr_left
    intro j hj
    exact a3 j (List.mem_range.mp hj)

example : (genVecRandom (E := Nat) (fun _ => ⟨0, 0, 0⟩) (fun _ => 1) 0 4 3 9).map EdgeList.list = some [⟨1, 1, 4⟩, ⟨2, 1, 4⟩, ⟨3, 1, 4⟩] := by
  decide +kernel

example := test_vec_generator_dense (E := Nat) (fun _ => ⟨0, 0, 0⟩) (fun _ => 1) 0 4 (n := 3) (nnz := 9) (by decide)

/-- C84: `create_spmv_identity_test`.  The product of the identity with a random vector is that vector: from 10 rows on, or with at least two
ranks. -/
theorem test_spmv_identity_partial {S : E → Prop} {lt eq : E → E → Bool} {key : E → Rat} (hk : Keyed S lt eq key)
    {sort : List (Edge E) → List (Edge E)} (hsort : SortsOn S lt sort) {mul : E → E → E} (add : E → E → E) {one : E} (h1 : S one)
    (hone : mul one one = one) (g : Nat → Nat → Edge E) (k : Nat → Edge E) {w : Nat} (hw : 1 ≤ w) {dist : Nat → Nat} {draws n : Nat}
    (hdr : Draws n draws dist) {srt : Sorts E} (hsrt : srt.OK) (gt : Nat → Nat → Nat → TileFresh E) (gm : Nat → Nat → Nat → Edge E)
    (gi : Nat → IngestFresh E) (env : MulEnv E E E) {threads nrank : Nat} (ht : 0 < threads) (hr : 0 < nrank) (hbig : 10 ≤ n ∨ 2 ≤ nrank)
    (hfit : n ≤ IMAX) (hfit2 : w * (n / 10) ≤ IMAX) :
    testSpmvIdentity mul add sort eq g k w dist draws one srt gt gm gi env threads nrank n = some true :=
  testSpmvIdentity_true hk hsort h1 hone g k hw hdr hsrt gt gm gi env ht hr hbig hfit hfit2

/-- The larger size of the test, on 3 ranks with 2 threads. -/
example : testSpmvIdentity (E := Int) (fun a b => a * b) (fun a b => a + b) (insSort (edgeCompare (fun a b => decide (a < b)))) (fun a b => decide (a = b))
    (fun _ _ => ⟨0, 0, 0⟩) (fun _ => ⟨0, 0, 0⟩) 3 (fun q => q % 5000 + 1) 5000 1 Sorts.ins (fun _ _ _ => ⟨fun _ => 0, fun _ _ => 0⟩) (fun _ _ _ => ⟨0, 0, 0⟩)
    (fun _ => ⟨fun _ => ⟨0, 0, 0⟩, fun _ => 0, fun _ => .sample 0⟩) (.sample 0 0 0) 2 3 5000 = some true :=
  test_spmv_identity_partial int_keyed (edgeCompare_sorts.on _) _ trivial rfl _ _ (by decide) (draws_round 5000 (by decide)) Sorts.ins_ok _ _ _ _
    (by decide) (by decide) (by decide) (by decide) (by decide)

/-- C84 fails for fewer than 10 rows on one rank: the random vector has no entry then, its only segment has no memory, and the product reads it. -/
theorem test_spmv_identity_small : testSpmvIdentity (E := Int) (fun a b => a * b) (fun a b => a + b)
    (insSort (edgeCompare (fun a b => decide (a < b)))) (fun a b => decide (a = b)) (fun _ _ => ⟨0, 0, 0⟩) (fun _ => ⟨0, 0, 0⟩) 3
    (fun q => q % 5 + 1) 5 1 Sorts.ins (fun _ _ _ => ⟨fun _ => 0, fun _ _ => 0⟩) (fun _ _ _ => ⟨0, 0, 0⟩)
    (fun _ => ⟨fun _ => ⟨0, 0, 0⟩, fun _ => 0, fun _ => .sample 0⟩) (.sample 0 0 0) 1 1 5 = none := by
  decide +kernel

end GraphMat

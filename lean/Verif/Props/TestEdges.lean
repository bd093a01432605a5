import Verif.Lemmas.TestEdges
import Verif.Props.TestRuns

/-!
# C81: the tests of the edge list functions, at every size
-/
namespace GraphMat

variable {E : Type}

/-- C81: spreading a list over the ranks and collecting it again gives every rank the list, as long as the number of `int`s in it fits in
an `int`. -/
theorem test_collect {n nrank w : Nat} (hw : 1 ≤ w) {es : List (Edge E)} {els : List (EdgeList E)} (hs : Spread n nrank es els)
    (hfit : w * es.length ≤ IMAX) (k : Nat → Edge E) :
    ∃ out, collectEdges k w els = some out ∧ out.length = nrank ∧ ∀ el ∈ out, el.list = es := by
  obtain ⟨out, o1, o2, o3⟩ := collectEdges_spec k hw (spread_wf hs) (by rw [hs.flatten]; exact hfit)
  exact ⟨out, o1, by rw [o2, hs.length], fun el hel => by rw [(o3 el hel).2, hs.flatten]⟩

theorem mul_fits {w n : Nat} (hw : 1 ≤ w) (h : w * (n * n) ≤ IMAX) : n * n ≤ IMAX ∧ n * (n - 1) ≤ IMAX ∧ w * (n * (n - 1)) ≤ IMAX ∧ n ≤ IMAX := by
  have h1 : n * n ≤ IMAX := Nat.le_trans (Nat.le_mul_of_pos_left _ hw) h
  have h2 : n * (n - 1) ≤ n * n := Nat.mul_le_mul_left _ (Nat.sub_le _ _)
  exact ⟨h1, Nat.le_trans h2 h1, Nat.le_trans (Nat.mul_le_mul_left _ h2) h, Nat.le_trans (Nat.le_mul_self n) h1⟩

/-- C81: the tests of `remove_selfedges`, `convert_to_dag` and `randomize_edge_direction` pass at every size that fits. -/
theorem test_edge_rewrites_pass_partial (g h : Nat → Nat → Edge E) (k : Nat → Edge E) (one : E) {w n nrank : Nat} (hr : 0 < nrank) (hw : 1 ≤ w)
    (h1 : 1 ≤ n) (hfit : w * (n * n) ≤ IMAX) (coin : Nat → Nat → Bool) :
    testSelfedges g h k w one nrank n = some true ∧ testDag g k w one nrank n = some true ∧
    testRandomize coin g k w one nrank n = some true := by
  obtain ⟨f1, f2, f3, f4⟩ := mul_fits hw hfit
  obtain ⟨els, e1, e2⟩ := (test_generators g one hr).1 f1
  have hnn : cmul (n : Int) (n : Int) = some ((n * n : Nat) : Int) := by
    unfold cmul
    rw [← Int.natCast_mul, ck_nat f1]
  refine ⟨?_, ?_, ?_⟩
  · obtain ⟨els', p1, p2⟩ := onLists_spec (f := fun r => removeSelfedges (h r)) (els := els)
      (P := fun a b => b.WF ∧ b.list = a.list.filter (fun e => decide (e.src ≠ e.dst))) (by
        intro r el hel
        obtain ⟨el', a1, a2, _, _, a5⟩ := remove_selfedges_keeps_the_rest (h r) (spread_wf e2 el hel)
        exact ⟨el', a1, a2, a5⟩)
    obtain ⟨q1, q2⟩ := forall2_lists p2
    have hflat : (els'.map EdgeList.list).flatten = (denseEdges one n).filter (fun e => decide (e.src ≠ e.dst)) := by
      rw [q1, ← List.filter_flatten, e2.flatten]
    obtain ⟨out, o1, _, o3⟩ := collectEdges_spec k hw q2 (by rw [hflat, dense_offdiag]; exact f3)
    unfold testSelfedges
    simp only [e1, p1, o1, Option.bind_eq_bind, Option.bind_some]
    apply requireLists_true
    intro el hel
    obtain ⟨w1, w2⟩ := o3 el hel
    rw [hflat] at w2
    have hlen : el.nnz = n * (n - 1) := by rw [← EdgeList.list_length, w2, dense_offdiag]
    unfold csub cmul
    rw [show ((n : Int) - 1) = ((n - 1 : Nat) : Int) by omega, ck_nat (by omega)]
    simp only [Option.bind_some]
    rw [← Int.natCast_mul, ck_nat f2, requireEdges_eq _ w1, hlen, w2]
    simp only [Option.bind_some, decide_true, Bool.true_and, Option.some.injEq, List.all_eq_true]
    intro e he
    exact (List.mem_filter.mp he).2
  · obtain ⟨els', p1, p2⟩ := onLists_spec (f := fun _ => convertToDag) (els := els)
      (P := fun a b => b.WF ∧ b.list = a.list.map (fun e => if e.src > e.dst then e.swap else e)) (by
        intro r el hel
        obtain ⟨el', a1, a2, _, _, a5⟩ := convertToDag_spec (spread_wf e2 el hel)
        exact ⟨el', a1, a2, a5⟩)
    obtain ⟨q1, q2⟩ := forall2_lists p2
    have hflat : (els'.map EdgeList.list).flatten = (denseEdges one n).map (fun e => if e.src > e.dst then e.swap else e) := by
      rw [q1, ← List.map_flatten, e2.flatten]
    obtain ⟨out, o1, _, o3⟩ := collectEdges_spec k hw q2 (by rw [hflat, List.length_map, denseEdges_length]; exact hfit)
    unfold testDag
    simp only [e1, p1, o1, Option.bind_eq_bind, Option.bind_some]
    apply requireLists_true
    intro el hel
    obtain ⟨w1, w2⟩ := o3 el hel
    rw [hflat] at w2
    have hlen : el.nnz = n * n := by rw [← EdgeList.list_length, w2, List.length_map, denseEdges_length]
    rw [hnn, requireEdges_eq _ w1, hlen, w2]
    simp only [Option.bind_some, decide_true, Bool.true_and, Option.some.injEq, List.all_eq_true]
    intro e he
    obtain ⟨f, _, rfl⟩ := List.mem_map.mp he
    simp only [decide_eq_true_eq]
    split
    · show f.dst ≤ f.src
      omega
    · omega
  · obtain ⟨els', p1, p2⟩ := onLists_spec (f := fun r => randomizeDirection (coin r)) (els := els)
      (P := fun a b => b.WF ∧ b.nnz = a.nnz) (by
        intro r el hel
        obtain ⟨el', a1, a2, _, _, a5, _⟩ := randomizeDirection_spec (coin r) (spread_wf e2 el hel)
        exact ⟨el', a1, a2, a5⟩)
    have hsum : ∀ {a b : List (EdgeList E)}, List.Forall₂ (fun a b : EdgeList E => b.WF ∧ b.nnz = a.nnz) a b →
        b.map EdgeList.nnz = a.map EdgeList.nnz ∧ ∀ el ∈ b, el.WF := by
      intro a b hab
      induction hab with
      | nil => exact ⟨rfl, by simp⟩
      | cons x _ ih =>
        refine ⟨by simp only [List.map_cons, x.2, ih.1], ?_⟩
        intro el hel
        rcases List.mem_cons.mp hel with rfl | hel
        · exact x.1
        · exact ih.2 el hel
    obtain ⟨q1, q2⟩ := hsum p2
    have hlen : (els'.map EdgeList.list).flatten.length = n * n := by
      rw [← nnz_sum, q1, nnz_sum, e2.flatten, denseEdges_length]
    obtain ⟨out, o1, _, o3⟩ := collectEdges_spec k hw q2 (by rw [hlen]; exact hfit)
    unfold testRandomize
    simp only [e1, p1, o1, Option.bind_eq_bind, Option.bind_some]
    apply requireLists_true
    intro el hel
    have w2 := (o3 el hel).2
    have : el.nnz = n * n := by rw [← EdgeList.list_length, w2, hlen]
    rw [hnn, this]
    simp

/-- The size 100 of the test, on 3 ranks, with edges of three `int`s. -/
example : testSelfedges (E := Int) (fun _ _ => ⟨0, 0, 0⟩) (fun _ _ => ⟨0, 0, 0⟩) (fun _ => ⟨0, 0, 0⟩) 3 1 3 100 = some true :=
  (test_edge_rewrites_pass_partial (fun _ _ => ⟨0, 0, 0⟩) (fun _ _ => ⟨0, 0, 0⟩) (fun _ => ⟨0, 0, 0⟩) (1 : Int) (by decide) (by decide) (by decide)
    (by decide) (fun _ _ => true)).1

/-- C81: the tests of `create_bidirectional_edges`, `remove_duplicate_edges` and `filter_edges` pass at every size that fits. -/
theorem test_edge_sets_pass_partial (g h h' : Nat → Nat → Edge E) (k : Nat → Edge E) {one : E} {lt eq : E → E → Bool} (hlt : lt one one = false)
    (heq : eq one one = true) {w n nrank nthreads : Nat} (hr : 0 < nrank) (hrm : nrank ≤ IMAX) (ht : 0 < nthreads) (hw : 1 ≤ w) (h1 : 1 ≤ n)
    (hfit : w * (2 * n * n) ≤ IMAX) {dup : Nat → List (Edge E) → List (Edge E)} (hdup : ∀ r, SortsBy compareForDuplicates (dup r))
    {sort : List (Edge E) → List (Edge E)} (hsort : SortsBy (edgeCompare lt) sort) :
    testBidirectional sort eq g h k w one nrank n = some true ∧ testDuplicates dup g h h' k w one nthreads nrank n = some true ∧
    testFilter sort g h one nrank n = some true := by
  have hfit2 : 2 * n * n ≤ IMAX := Nat.le_trans (Nat.le_mul_of_pos_left _ hw) hfit
  have hfit1 : w * (n * n) ≤ IMAX := Nat.le_trans (Nat.mul_le_mul_left _ (by rw [Nat.mul_assoc]; omega)) hfit
  obtain ⟨f1, f2, f3, f4⟩ := mul_fits hw hfit1
  obtain ⟨els, e1, e2⟩ := (test_generators g one hr).1 f1
  have hnn : cmul (n : Int) (n : Int) = some ((n * n : Nat) : Int) := by
    unfold cmul
    rw [← Int.natCast_mul, ck_nat f1]
  have hsm : ∀ el ∈ els, el.nnz * 2 ≤ IMAX := by
    intro el hel
    have := spread_nnz e2 hel
    rw [denseEdges_length] at this
    rw [Nat.mul_assoc] at hfit2
    omega
  obtain ⟨els', p1, p2⟩ := onLists_spec (f := fun r => createBidirectional (h r)) (els := els)
    (P := fun a b => (b.WF ∧ b.list = a.list.flatMap (fun e => [e, e.swap])) ∧ a.nnz * 2 ≤ IMAX) (by
      intro r el hel
      obtain ⟨el', a1, a2, _, _, a5⟩ := createBidirectional_spec (h r) (spread_wf e2 el hel) (hsm el hel)
      exact ⟨el', a1, ⟨a2, a5⟩, hsm el hel⟩)
  obtain ⟨q1, q2⟩ := forall2_lists (p2.imp (fun _ _ x => x.1))
  have hflat : (els'.map EdgeList.list).flatten = (denseEdges one n).flatMap (fun e => [e, e.swap]) := by
    rw [q1, ← e2.flatten]
    generalize els.map EdgeList.list = L
    induction L with
    | nil => rfl
    | cons a L ih => simp only [List.map_cons, List.flatten_cons, List.flatMap_append, ih]
  have hperm : ((els'.map EdgeList.list).flatten).Perm (denseEdges one n ++ denseEdges one n) := by
    rw [hflat]
    exact (flatMap_swap_perm _).trans ((dense_swap one n).append_left _)
  have hlen2 : (els'.map EdgeList.list).flatten.length = 2 * n * n := by
    rw [hperm.length_eq, List.length_append, denseEdges_length, Nat.mul_assoc]
    omega
  refine ⟨?_, ?_, ?_⟩
  · obtain ⟨out, o1, _, o3⟩ := collectEdges_spec k hw q2 (by rw [hlen2]; exact hfit)
    unfold testBidirectional
    simp only [e1, p1, o1, Option.bind_eq_bind, Option.bind_some]
    apply requireLists_true
    intro el hel
    obtain ⟨w1, w2⟩ := o3 el hel
    have hlen : el.nnz = 2 * n * n := by rw [← EdgeList.list_length, w2, hlen2]
    obtain ⟨s1, s2⟩ := hsort el.list
    have hsl := sortWith_list s1
    have h2n : 2 * n ≤ IMAX := Nat.le_trans (Nat.le_mul_of_pos_right _ h1) hfit2
    unfold cmul
    rw [show (2 : Int) * (n : Int) = ((2 * n : Nat) : Int) by push_cast; rfl, ck_nat h2n]
    simp only [Option.bind_some]
    rw [← Int.natCast_mul, ck_nat hfit2, hlen]
    simp only [Option.bind_some]
    rw [requirePairs_true heq (n := n) (el := el.sortWith sort) w1 (by
      rw [hsl]
      exact sort_twice_dense hlt (by rw [w2]; exact hperm) s1 s2)]
    simp
  · have hmem : ∀ e, e ∈ els'.flatMap EdgeList.list → e ∈ denseEdges one n := by
      intro e he
      rw [List.flatMap_def] at he
      have := hperm.subset he
      simpa using this
    obtain ⟨els3, d1, _, d3, d4, d5, d6⟩ := duplicates_are_removed_across_ranks ht (els := els')
      (by rw [← p2.length_eq, e2.length]; exact hr) (by rw [← p2.length_eq, e2.length]; exact hrm) q2 (by
        intro el hel e he
        obtain ⟨a1, a2, _⟩ := mem_denseEdges.mp (hmem e (List.mem_flatMap.mpr ⟨el, hel, he⟩))
        exact ⟨a1, by omega⟩)
      (by rw [List.flatMap_def, hlen2]; exact hfit2) h' hdup
    have hpe : ((els3.flatMap EdgeList.list).map (fun e => (e.src, e.dst))).Perm ((denseEdges one n).map (fun e => (e.src, e.dst))) := by
      rw [List.perm_ext_iff_of_nodup d3 (dense_ends_nodup one n)]
      intro x
      simp only [List.mem_map]
      constructor
      · rintro ⟨e, he, rfl⟩
        exact ⟨e, hmem e (d4 e he), rfl⟩
      · rintro ⟨e, he, rfl⟩
        have : e ∈ els'.flatMap EdgeList.list := by
          rw [List.flatMap_def]
          exact hperm.symm.subset (List.mem_append_left _ he)
        obtain ⟨f, f1, f2, f3⟩ := d5 e this
        exact ⟨f, f1, by rw [f2, f3]⟩
    have hlen3 : (els3.map EdgeList.list).flatten.length = n * n := by
      have := hpe.length_eq
      rw [List.length_map, List.length_map, denseEdges_length, List.flatMap_def] at this
      exact this
    obtain ⟨out, o1, _, o3⟩ := collectEdges_spec k hw (els := els3) (by
        intro el hel
        obtain ⟨i, hi, rfl⟩ := List.getElem_of_mem hel
        have hi' : i < els'.length := by omega
        exact (d6 i _ _ (List.getElem?_eq_getElem hi') (List.getElem?_eq_getElem hi)).1)
      (by rw [hlen3]; exact hfit1)
    unfold testDuplicates
    simp only [e1, p1, d1, o1, Option.bind_eq_bind, Option.bind_some]
    rw [mapM_some_map (h := fun _ => true) (by
      rintro ⟨a, b⟩ hab
      obtain ⟨⟨_, x2⟩, x3⟩ := List.forall₂_zip p2 hab
      have := congrArg List.length x2
      rw [EdgeList.list_length, (flatMap_swap_perm _).length_eq, List.length_append, List.length_map, EdgeList.list_length] at this
      unfold cmul
      rw [show (2 : Int) * ((a, b).1.nnz : Int) = ((a.nnz * 2 : Nat) : Int) by push_cast; ring, ck_nat x3]
      simp only [Option.bind_some, Option.some.injEq, decide_eq_true_eq]
      omega)]
    simp only [Option.bind_some]
    rw [requireLists_true (by
      intro el hel
      have w2 := (o3 el hel).2
      have : el.nnz = n * n := by rw [← EdgeList.list_length, w2, hlen3]
      rw [hnn, this]
      simp)]
    simp
  · obtain ⟨out, r1, r2⟩ := onLists_spec (f := fun r => filterEdges (h r) srcDivBy3) (els := els)
      (P := fun a b => a ∈ els ∧ b.WF ∧ b.list = a.list.filter srcDivBy3) (by
        intro r el hel
        obtain ⟨el', a1, a2, _, _, a5⟩ := filter_edges_keeps_the_chosen (h r) srcDivBy3 (spread_wf e2 el hel)
        exact ⟨el', a1, hel, a2, a5⟩)
    unfold testFilter
    simp only [e1, r1, Option.bind_eq_bind, Option.bind_some]
    rw [mapM_some_map (h := fun _ => true) (by
      rintro ⟨a, b⟩ hab
      obtain ⟨x1, x2, x3⟩ := List.forall₂_zip r2 hab
      simp only
      rw [hnn, requireFiltered_true (el := a.sortWith sort) (out := b.sortWith sort) (spread_wf e2 a x1) x2 (by
        rw [sortWith_list (hsort a.list).1, sortWith_list (hsort b.list).1]
        refine (hsort b.list).1.trans ?_
        rw [x3]
        exact ((hsort a.list).1.filter srcDivBy3).symm)]
      have hle : b.nnz ≤ n * n := by
        rw [← EdgeList.list_length, x3]
        refine Nat.le_trans (List.length_filter_le _ _) ?_
        rw [EdgeList.list_length, ← denseEdges_length one n]
        exact spread_nnz e2 x1
      simp only [Option.bind_some, Bool.and_true, Option.some.injEq, decide_eq_true_eq]
      exact_mod_cast hle)]
    simp

theorem edgeCompare_sorts : SortsBy (edgeCompare (fun a b : Int => decide (a < b))) (insSort (edgeCompare (fun a b : Int => decide (a < b)))) := by
  apply insSort_sorts
  · intro a b h
    unfold edgeCompare at h ⊢
    simp only [Bool.or_eq_true, Bool.and_eq_true, decide_eq_true_eq] at h
    simp only [Bool.or_eq_false_iff, Bool.and_eq_false_iff, decide_eq_false_iff_not]
    omega
  · intro a b c h1 h2
    unfold edgeCompare at h1 h2 ⊢
    simp only [Bool.or_eq_false_iff, Bool.and_eq_false_iff, decide_eq_false_iff_not] at *
    omega

/-- The size 100 of the test, on 3 ranks with 2 threads. -/
example : testBidirectional (E := Int) (insSort (edgeCompare (fun a b => decide (a < b)))) (fun a b => decide (a = b)) (fun _ _ => ⟨0, 0, 0⟩)
      (fun _ _ => ⟨0, 0, 0⟩) (fun _ => ⟨0, 0, 0⟩) 3 1 3 100 = some true ∧
    testDuplicates (E := Int) (fun _ => insSort compareForDuplicates) (fun _ _ => ⟨0, 0, 0⟩) (fun _ _ => ⟨0, 0, 0⟩) (fun _ _ => ⟨0, 0, 0⟩)
      (fun _ => ⟨0, 0, 0⟩) 3 1 2 3 100 = some true :=
  let h := test_edge_sets_pass_partial (fun _ _ => ⟨0, 0, 0⟩) (fun _ _ => ⟨0, 0, 0⟩) (fun _ _ => ⟨0, 0, 0⟩) (fun _ => ⟨0, 0, 0⟩) (one := (1 : Int))
    (lt := fun a b => decide (a < b)) (eq := fun a b => decide (a = b)) (by decide) (by decide) (w := 3) (n := 100) (nrank := 3) (nthreads := 2)
    (by decide) (by decide) (by decide) (by decide) (by decide) (by decide) (fun _ => compareForDuplicates_sorts) edgeCompare_sorts
  ⟨h.1, h.2.1⟩

end GraphMat

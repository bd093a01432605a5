import Verif.Lemmas.TestIO
import Verif.Props.TestEdges
import Verif.Props.ConvFloat

/-!
# C82: the tests of files, matrices and edge functions, at every size
-/
namespace GraphMat

variable {E V : Type}

theorem int_keyed : Keyed (fun _ : Int => True) (fun a b => decide (a < b)) (fun a b => decide (a = b)) (fun x => (x : Rat)) where
  lt := fun a b _ _ => by simp
  eq := fun a b _ _ => by simp

/-! ### Graphs -/

/-- C82: `test_graph_io`.  Whatever the random weights are, the edges that come out of a graph are those that went in, as long as the number of
`int`s in the list fits in an `int`. -/
theorem test_graph_io_passes_partial {n nrank threads : Nat} (c : Cfg n nrank threads) (le : LoadEnv V Int) (hsA : le.sA.OK) (hsT : le.sAT.OK)
    {d : V} (hd : le.d = fun _ => d) {sort : List (Edge Int) → List (Edge Int)} (hsort : SortsBy (edgeCompare (fun a b => decide (a < b))) sort)
    (cast : Rat → Int) (t : Nat → Nat → Rat) (g : Nat → Nat → Edge Int) (k : Nat → Edge Int) {w : Nat} (hw : 1 ≤ w) {dist : Nat → Nat} {draws : Nat}
    (hdr : Draws n draws dist) (hfit : w * (n * min 16 n) ≤ IMAX) :
    testGraphIo sort cast t g k w dist draws le threads nrank n = some true := by
  obtain ⟨els, es, e1, e2, e3, e4, _⟩ := test_random_generator g (1 : Int) c.rpos 16 hdr (Nat.le_trans (Nat.le_mul_of_pos_left _ hw) hfit)
  obtain ⟨els', p1, p2, p3⟩ := weights_spec cast t e2.rankLists
  have hv : ∀ e ∈ (els'.map EdgeList.list).flatten, e.Valid n := ends_valid p3 (fun _ _ h => ⟨h.1, h.2.1⟩) (by
    rw [e2.flatten]; exact fun e he => (e4 e he).1)
  have hlen : (els'.map EdgeList.list).flatten.length = n * min 16 n := by rw [← p3.length_eq, e2.flatten, e3]
  obtain ⟨els'', G, l1, l2, _, _, _⟩ := loadInPlace_spec c le hsA hsT hd p2 hv
  have hr : G.nrank = nrank := l2.inv.hr
  obtain ⟨TA, TT, PA, PT, _, hh, _⟩ := l2
  obtain ⟨Ls, m1, m2⟩ := hh.getEdgelists c hv
  obtain ⟨els2, o1, o2, o3, o4⟩ := gotEdgelists_spec k (G := G) (by rw [hr]; exact m1)
  obtain ⟨r, r1, r2⟩ := compareCollected_iff int_keyed (weights := true) (hsort.on _) k hw (els := els') (els2 := els2)
    (by intro h; have h0 := p2.length; rw [h] at h0; have h2 := c.rpos; rw [← h0] at h2; exact absurd h2 (by simp)) (by rw [p2.length, o2, hr])
    (fun el hel => (p2.made el hel).1) (fun el hel => (o4 el hel).1) (by rw [hlen]; exact hfit)
    (by rw [o3, m2.length_eq, hlen]; exact hfit) (fun _ _ => trivial) (fun _ _ => trivial)
  unfold testGraphIo
  simp only [e1, p1, l1, o1, Option.bind_eq_bind, Option.bind_some]
  rw [r1, r2.mpr (by rw [o3]; exact (m2.symm.map _))]

/-- 100 vertices with 16 edges each on 3 ranks with 2 threads each. -/
example : testGraphIo (V := Int) (insSort (edgeCompare (fun a b => decide (a < b)))) (fun t => t.floor) (fun r i => 1 + (r * 7 + i % 100 : Nat))
    (fun _ _ => ⟨0, 0, 0⟩) (fun _ => ⟨0, 0, 0⟩) 3 (fun q => q % 100 + 1) 100 (LoadEnv.sample 0 0) 2 3 100 = some true :=
  test_graph_io_passes_partial (d := 0) ⟨by decide, by decide, by decide, by decide⟩ _ Sorts.ins_ok Sorts.ins_ok rfl edgeCompare_sorts _ _ _ _ (by decide)
    (draws_round 100 (by decide)) (by decide)

/-- C82: `test_graph_getset` passes from 16 vertices on (below, the check of the number of edges fails as in C81), if the `float` made of
`2.5 i` is close enough to `2.5 i`. -/
theorem test_getset_partial {F : Type} {n nrank threads : Nat} (c : Cfg n nrank threads) (h1 : 1 ≤ n) (le : LoadEnv (CustomV F) Int) (hsA : le.sA.OK)
    (hsT : le.sAT.OK) {d : CustomV F} (hd : le.d = fun _ => d) {half : Nat → F} {approx : Nat → F → Bool}
    (happ : ∀ i, 1 ≤ i → i ≤ n → approx i (half i) = true) (dflt : CustomV F) (g : Nat → Nat → Edge Int) {dist : Nat → Nat} {draws : Nat}
    (hdr : Draws n draws dist) (hfit : n * 16 ≤ IMAX) (gv : Nat → Nat → Fresh (CustomV F)) (ga : Nat → Nat → Fresh Bool) :
    testGetSet half approx dflt g dist draws le gv ga threads nrank n = some (decide (16 ≤ n)) := by
  have hle : n * min 16 n ≤ n * 16 := Nat.mul_le_mul_left _ (Nat.min_le_left _ _)
  obtain ⟨els, es, e1, e2, e3, e4, _⟩ := test_random_generator g (1 : Int) c.rpos 16 hdr (Nat.le_trans hle hfit)
  obtain ⟨G, l1, l2, l3⟩ := readGenerated_loaded c le hsA hsT hd e2 (fun e he => (e4 e he).1)
  obtain ⟨G', m1, m2⟩ := l2.updateOwnedAll c gv ga (fun i _ => some (⟨(i : Int), half i⟩, false))
  obtain ⟨b, b1, b2⟩ := requireVertices_eq c m2 dflt (fun i x => decide (x.iprop = (i : Int)) && approx i x.fprop)
  have hb : b = true := b2.mpr (by
    intro v v1 v2
    simp [happ v v1 v2])
  have hn : G.n = n := l2.inv.hn
  unfold testGetSet
  simp only [e1, l1, Option.bind_eq_bind, Option.bind_some]
  unfold cmul
  rw [show (n : Int) * 16 = ((n * 16 : Nat) : Int) by push_cast; rfl, ck_nat hfit]
  simp only [Option.bind_some]
  rw [m1]
  simp only [Option.bind_some]
  rw [b1, hb, l3 (by rw [e3]; unfold IMAX at hfit; omega), hn, e3]
  simp only [Option.bind_some, decide_true, Bool.true_and, Bool.and_true, Option.some.injEq]
  obtain ⟨m, rfl⟩ : ∃ m, nrank = m + 1 := ⟨nrank - 1, by have := c.rpos; omega⟩
  rw [Bool.eq_iff_iff, List.all_eq_true]
  simp only [decide_eq_true_eq, List.mem_replicate, Nat.cast_inj]
  constructor
  · intro h
    have := h _ ⟨by omega, rfl⟩
    rw [Nat.mul_right_inj (by omega)] at this
    omega
  · intro h x hx
    rw [hx.2, Nat.min_eq_left h]

/-- 500 vertices on 3 ranks with exact numbers. -/
example : testGetSet (F := Rat) (fun i => 5 / 2 * i) (fun i x => decide (x = 5 / 2 * i)) ⟨0, 0⟩ (fun _ _ => ⟨0, 0, 0⟩) (fun q => q % 500 + 1) 500
    (LoadEnv.sample ⟨0, 0⟩ 0) (LoadEnv.sample (⟨0, 0⟩ : CustomV Rat) (0 : Int)).gv (LoadEnv.sample (⟨0, 0⟩ : CustomV Rat) (0 : Int)).ga
    2 3 500 = some true :=
  test_getset_partial (d := ⟨0, 0⟩) ⟨by decide, by decide, by decide, by decide⟩ (by decide) _ Sorts.ins_ok Sorts.ins_ok rfl (fun i _ _ => by simp) _ _
    (draws_round 500 (by decide)) (by decide) _ _

/-! ### Files of graphs -/

/-- C82: `test_read_gm_bin` on any list.  The checks succeed exactly if giving the vertices their internal ids maps the list of edges to
itself, because the list that is compared is the one that `ReadEdgelist` has renumbered. -/
theorem test_gm_bin_on {V' : Type} {n nrank threads : Nat} (c : Cfg n nrank threads) (le : LoadEnv V E) (hsA : le.sA.OK) (hsT : le.sAT.OK) {d : V}
    (hd : le.d = fun _ => d) (le2 : LoadEnv V' E) {S : E → Prop} {lt eq : E → E → Bool} {key : E → Rat} (hk : Keyed S lt eq key)
    {sort : List (Edge E) → List (Edge E)} (hsort : SortsOn S lt sort) (k : Nat → Edge E) {w : Nat} (hw : 1 ≤ w) {els : List (EdgeList E)}
    {es : List (Edge E)} (hs : Spread n nrank es els) (hv : ∀ e ∈ es, e.Valid n) (hS : ∀ e ∈ es, S e.val) (hfit : w * es.length ≤ IMAX) :
    ∃ r, testReadGmBinOn sort eq k w le le2 threads els = some r ∧
      (r = true ↔ ((es.map (nativeEdge (threads * 16 * nrank) n)).map (fun e => (e.src, e.dst, key e.val))).Perm
        (es.map (fun e => (e.src, e.dst, key e.val)))) := by
  obtain ⟨els', G, l1, l2, _, l4, l5⟩ := loadInPlace_spec c le hsA hsT hd hs.rankLists (by rw [hs.flatten]; exact hv)
  rw [hs.flatten] at l2 l5
  obtain ⟨TA, TT, PA, PT, _, hh, _⟩ := l2
  obtain ⟨files, G2, Ls, nat, s1, s2, s3, s4, s5, _, s7, s8, _⟩ := hh.snapshot c hv le2
  have hr : G2.nrank = nrank := by
    obtain ⟨vg, v1, v2, _⟩ := VGraph.create_spec c le2.gv le2.ga le2.d
    rw [v1] at s5
    injection s5 with s5
    rw [← s5]
    exact v2.hr
  obtain ⟨els2, o1, o2, o3, o4⟩ := gotEdgelists_spec k (G := G2) (by rw [hr]; exact s7)
  obtain ⟨r, r1, r2⟩ := compareCollected_iff hk (weights := true) hsort k hw (els := els') (els2 := els2)
    (by intro h; have h0 := l4.length; rw [h] at h0; have h2 := c.rpos; rw [← h0] at h2; exact absurd h2 (by simp)) (by rw [l4.length, o2, hr])
    (fun el hel => (l4.made el hel).1) (fun el hel => (o4 el hel).1) (by rw [l5.length_eq, List.length_map]; exact hfit)
    (by rw [o3, s8.length_eq]; exact hfit) (by
      intro e he
      obtain ⟨f, hf, rfl⟩ := List.mem_map.mp (l5.subset he)
      exact hS f hf) (by
      intro e he
      rw [o3] at he
      exact hS e (s8.subset he))
  refine ⟨r, ?_, ?_⟩
  · unfold testReadGmBinOn
    simp only [l1, s1, hs.length, Option.bind_eq_bind, Option.bind_some]
    rw [s3]
    simp only [Option.bind_some]
    rw [o1]
    simp only [Option.bind_some]
    rw [r1]
  · rw [r2, o3]
    exact ⟨fun h => ((l5.map _).symm.trans h).trans (s8.map _), fun h => ((l5.map _).trans h).trans (s8.map _).symm⟩

/-- C82: `test_read_gm_bin` passes at every size that fits: the complete graph is the same under all numberings. -/
theorem test_gm_bin_passes_partial {V' : Type} {n nrank threads : Nat} (c : Cfg n nrank threads) (le : LoadEnv V E) (hsA : le.sA.OK) (hsT : le.sAT.OK)
    {d : V} (hd : le.d = fun _ => d) (le2 : LoadEnv V' E) {S : E → Prop} {lt eq : E → E → Bool} {key : E → Rat} (hk : Keyed S lt eq key)
    {sort : List (Edge E) → List (Edge E)} (hsort : SortsOn S lt sort) (g : Nat → Nat → Edge E) (k : Nat → Edge E) {w : Nat} (hw : 1 ≤ w) {one : E}
    (h1 : S one) (hfit : w * (n * n) ≤ IMAX) : testReadGmBin sort eq g k w one le le2 threads nrank n = some true := by
  obtain ⟨els, e1, e2⟩ := (test_generators g one c.rpos).1 (Nat.le_trans (Nat.le_mul_of_pos_left _ hw) hfit)
  obtain ⟨r, r1, r2⟩ := test_gm_bin_on c le hsA hsT hd le2 hk hsort k hw e2 dense_valid
    (fun e he => by rw [(mem_denseEdges.mp he).2.2.2.2]; exact h1) (by rw [denseEdges_length]; exact hfit)
  unfold testReadGmBin
  simp only [e1, Option.bind_eq_bind, Option.bind_some]
  rw [r1, r2.mpr ((dense_native (Nat.mul_pos (Nat.mul_pos c.tpos (by decide)) c.rpos) one n).map _)]

/-- The size 10 of the test, on 3 ranks with 2 threads each. -/
example : testReadGmBin (E := Int) (V := Int) (V' := Int) (insSort (edgeCompare (fun a b => decide (a < b)))) (fun a b => decide (a = b))
    (fun _ _ => ⟨0, 0, 0⟩) (fun _ => ⟨0, 0, 0⟩) 3 1 (LoadEnv.sample 0 0) (LoadEnv.sample 0 0) 2 3 10 = some true :=
  test_gm_bin_passes_partial (d := 0) ⟨by decide, by decide, by decide, by decide⟩ _ Sorts.ins_ok Sorts.ins_ok rfl _ int_keyed (edgeCompare_sorts.on _) _ _
    (by decide) trivial (by decide)

/-- C82 fails for other lists: with the cycle of 32 vertices on one rank with one thread, the checks of `test_read_gm_bin` fail, though the graph
is written and read correctly. -/
theorem test_gm_bin_chain_fails : ∃ els, generated (E := Int) (fun _ _ => ⟨0, 0, 0⟩) 1 (genChain (fun _ => ⟨0, 0, 0⟩) 1 32) = some els ∧
    testReadGmBinOn (V := Int) (V' := Int) (insSort (edgeCompare (fun a b => decide (a < b)))) (fun a b => decide (a = b))
      (fun _ => ⟨0, 0, 0⟩) 3 (LoadEnv.sample 0 0) (LoadEnv.sample 0 0) 1 els = some false := by
  obtain ⟨els, e1, e2⟩ := (test_generators (n := 32) (nrank := 1) (fun _ _ => ⟨0, 0, 0⟩) (1 : Int) (by decide)).2.2.1 (by decide)
  refine ⟨els, e1, ?_⟩
  obtain ⟨r, r1, r2⟩ := test_gm_bin_on (threads := 1) (d := (0 : Int)) ⟨by decide, by decide, by decide, by decide⟩ (LoadEnv.sample 0 0) Sorts.ins_ok
    Sorts.ins_ok rfl (LoadEnv.sample (0 : Int) 0) int_keyed (edgeCompare_sorts.on _) (fun _ => ⟨0, 0, 0⟩) (w := 3) (by decide) e2 chain_valid (fun _ _ => trivial)
    (by decide)
  rw [r1]
  cases r with
  | false => rfl
  | true =>
    exfalso
    have h := (r2.mp rfl).map (fun x => (x.1, x.2.1))
    rw [List.map_map, List.map_map, List.map_map] at h
    have : ((1 : Int), (3 : Int)) ∈ (chainEdges (1 : Int) 32).map ((fun x : Int × Int × Rat => (x.1, x.2.1)) ∘ fun e : Edge Int => (e.src, e.dst, (e.val : Rat))) :=
      h.subset (by decide +kernel)
    exact absurd this (by decide +kernel)

/-! ### Edge lists in files -/

/-- The tests of the edge list files for one type of weights. -/
theorem test_read_mtx_on {ct : ConvType E} {S : E → Prop} {lt eq : E → E → Bool} {key : E → Rat} {wt : E → List Char → Prop} {bk : E → E}
    (hc : TestWeights ct S lt eq key wt bk) {sort : List (Edge E) → List (Edge E)} (hsort : SortsOn S lt sort) (t : Nat → Nat → Rat)
    (g h : Nat → Nat → Edge E) (k : Nat → Edge E) {w n nrank : Nat} (hr : 0 < nrank) (hw : 1 ≤ w) (one : E) (hfit : w * (n * n) ≤ IMAX)
    (binary header weights : Bool) : testReadMtx ct sort eq t g h k w nrank n one binary header weights = some true := by
  obtain ⟨f1, _, _, f4⟩ := mul_fits hw hfit
  obtain ⟨els, e1, e2⟩ := (test_generators g one hr).1 f1
  obtain ⟨els', p1, p2, p3⟩ := weights_spec ct.cast t e2.rankLists
  rw [e2.flatten] at p3
  have hv : ∀ e ∈ (els'.map EdgeList.list).flatten, e.Valid n := ends_valid p3 (fun _ _ h => ⟨h.1, h.2.1⟩) dense_valid
  have hS : ∀ e ∈ (els'.map EdgeList.list).flatten, S e.val := forall2_right p3 (by
    rintro e f ⟨_, _, t, t1, t2, t3⟩
    rw [t3]
    exact hc.cast t t1 (by rcases t2 with rfl | t2; · decide +kernel
                           · exact t2))
  have hlen : (els'.map EdgeList.list).flatten.length = n * n := by rw [← p3.length_eq, denseEdges_length]
  have hmem : ∀ el ∈ els', ∀ e ∈ el.list, e ∈ (els'.map EdgeList.list).flatten := fun el hel e he =>
    List.mem_flatten.mpr ⟨_, List.mem_map_of_mem hel, he⟩
  have hne : els' ≠ [] := by
    intro h; have h0 := p2.length; rw [h] at h0; rw [← h0] at hr; exact absurd hr (by simp)
  have hi : (0 : Int) ≤ n ∧ IsInt32 n := by unfold IMAX at f4; unfold IsInt32; omega
  have hids : ∀ el, el ∈ els' → ∀ e, e ∈ el.list → IsInt32 e.src ∧ IsInt32 e.dst := by
    intro el hel e he
    obtain ⟨v1, v2, v3, v4⟩ := hv e (hmem el hel e he)
    unfold IMAX at f4
    unfold IsInt32
    omega
  have hnnz : ∀ el, el ∈ els' → el.nnz ≤ 2147483647 := by
    intro el hel
    have : el.list.length ≤ (els'.map EdgeList.list).flatten.length :=
      (List.sublist_flatten_of_mem (List.mem_map_of_mem hel)).length_le
    rw [hlen, EdgeList.list_length] at this
    unfold IMAX at f1
    omega
  have key2 : ∀ (out : List (EdgeList E)) (f : Edge E → Edge E), out.length = els'.length → (∀ el ∈ out, el.WF) →
      (∀ (r : Nat) (hr : r < els'.length), ∃ el, out[r]? = some el ∧ el.list = els'[r].list.map f) →
      (∀ e, S e.val → S (f e).val ∧ tag key weights (f e) = tag key weights e) →
      compareCollected sort eq weights k w els' out = some true := by
    intro out f o1 o2 o3 o4
    have ho := lists_eq_map o1 o3
    obtain ⟨r, r1, r2⟩ := compareCollected_iff hc.keyed (weights := weights) hsort k hw hne o1.symm (fun el hel => (p2.made el hel).1) o2
      (by rw [hlen]; exact hfit) (by rw [ho, List.length_map, hlen]; exact hfit) hS (by
        intro e he
        rw [ho] at he
        obtain ⟨e', he', rfl⟩ := List.mem_map.mp he
        exact (o4 e' (hS e' he')).1)
    rw [r1, r2.mpr]
    rw [ho, List.map_map]
    refine List.Perm.of_eq ?_
    apply List.map_congr_left
    intro e he
    exact (o4 e (hS e he)).2.symm
  unfold testReadMtx
  simp only [e1, p1, Option.bind_eq_bind, Option.bind_some]
  cases binary with
  | true =>
    obtain ⟨fs, out, q1, q2, q3, q4⟩ := binary_round_trip (bt := ct.bin) header weights (fun el hel e he => hc.bin _ (hS e (hmem el hel e he))) hne
      (fun el hel => (p2.made el hel).1) hi hi (fun el hel => (p2.made el hel).2) hids hnnz h
    rw [p2.length] at q2
    simp only [if_true, q1, Option.bind_some]
    rw [q2]
    simp only [Option.bind_some]
    refine key2 out (seenEdge weights ct.bin.one) q3 (loadEdgelist_wf q2) (fun r hr => ?_) ?_
    · obtain ⟨el, a1, a2, _⟩ := q4 r hr
      exact ⟨el, a1, a2⟩
    · intro e he
      cases weights with
      | true => exact ⟨he, rfl⟩
      | false => exact ⟨hc.ones.1, rfl⟩
  | false =>
    obtain ⟨fs, out, q1, q2, q3, q4⟩ := text_round_trip_gen hc.text (pr := ct.print) (bk := bk) header weights
      (fun _ el hel e he => hc.print _ (hS e (hmem el hel e he))) hne
      (fun el hel => (p2.made el hel).1) hi hi (fun el hel => (p2.made el hel).2) hids hnnz h
    rw [p2.length] at q2
    simp only [Bool.false_eq_true, if_false, q1, Option.bind_some]
    rw [q2]
    simp only [Option.bind_some]
    refine key2 out (fun e => seenEdge weights ct.text.one (backEdge bk e)) q3 (loadEdgelist_wf q2) (fun r hr => ?_) ?_
    · obtain ⟨el, a1, a2, _⟩ := q4 r hr
      exact ⟨el, a1, a2⟩
    · intro e he
      obtain ⟨b1, b2⟩ := hc.back e.val he
      cases weights with
      | true =>
        refine ⟨b1, ?_⟩
        unfold tag seenEdge backEdge
        simp only [if_true]
        rw [b2]
      | false => exact ⟨hc.ones.2, rfl⟩

/-- The `int` weights of the test. -/
theorem int_weights : TestWeights intConv (fun v => 1 ≤ v ∧ v ≤ 128) (fun a b => decide (a < b)) (fun a b => decide (a = b)) (fun x => (x : Rat))
    IsNumeral id where
  keyed := ⟨fun a b _ _ => by simp, fun a b _ _ => by simp⟩
  cast := by
    intro t h1 h2
    show 1 ≤ (if t < 0 then -((-t).floor) else t.floor) ∧ (if t < 0 then -((-t).floor) else t.floor) ≤ 128
    rw [if_neg (by linarith)]
    obtain ⟨a, b⟩ := floor_bounds t
    constructor
    · have : (0 : Rat) < t.floor := by linarith
      have : (0 : Int) < t.floor := by exact_mod_cast this
      omega
    · have : (t.floor : Rat) ≤ 128 := by linarith
      exact_mod_cast this
  ones := ⟨by decide, by decide⟩
  bin := fun v h => signedBin_ok (by unfold IsInt32; omega)
  text := intText_reads
  print := fun v _ => printInt_numeral v
  back := fun v h => ⟨h, rfl⟩

/-- The number of a `float` (0 for infinities and NaNs). -/
def floatKey (v : BitVec 32) : Rat :=
  match bitsValue b32 v with
  | .fin a x => if a then -x else x
  | _ => 0

/-- The number that a `float` stands for, with both infinities; NaNs stand for none.  Both zeros stand for 0. -/
def FNum.ext : FNum → Option (WithBot (WithTop Rat))
  | .fin true x => some (((-x : Rat) : WithTop Rat) : WithBot (WithTop Rat))
  | .fin false x => some ((x : WithTop Rat) : WithBot (WithTop Rat))
  | .inf true => some ⊥
  | .inf false => some ((⊤ : WithTop Rat) : WithBot (WithTop Rat))
  | .nan _ => none

/-- `<` and `==` of the test compare numbers; NaNs are neither less nor equal to anything. -/
theorem float_compare (a b : FNum) :
    (a.less b = true ↔ ∃ x y, a.ext = some x ∧ b.ext = some y ∧ x < y) ∧
    (a.same b = true ↔ ∃ x, a.ext = some x ∧ b.ext = some x) := by
  rcases a with ⟨_ | _, x⟩ | ⟨_ | _⟩ | _ <;> rcases b with ⟨_ | _, y⟩ | ⟨_ | _⟩ | _ <;>
    simp only [FNum.less, FNum.same, FNum.ext, if_true, Bool.false_eq_true, if_false]
  · simp [eq_comm]
  · generalize -y = q
    simp [eq_comm]
  · simp
    exact WithBot.coe_lt_coe.mpr (WithTop.coe_lt_top x)
  · simp
  · simp
  · generalize -x = q
    simp [eq_comm]
  · generalize -x = q
    generalize -y = r
    simp [eq_comm]
  · generalize -x = q
    simp
    exact WithBot.coe_lt_coe.mpr (WithTop.coe_lt_top q)
  all_goals first
    | (generalize -x = q; simp)
    | (generalize -y = q; simp)
    | simp

example : (FNum.fin true 2).less (.fin false 1) = true ∧ (FNum.fin true 0).same (.fin false 0) = true ∧ (FNum.nan false).same (.nan false) = false ∧
    (FNum.inf true).less (.fin true 5) = true := by decide +kernel

/-- The `float` weights of the test. -/
theorem float_weights : TestWeights (floatConv b32 32 8) (fun v => ∃ m, bitsValue b32 v = .fin false m ∧ 1 ≤ m)
    (fun a b => (bitsValue b32 a).less (bitsValue b32 b)) (fun a b => (bitsValue b32 a).same (bitsValue b32 b)) floatKey
    (floatBitsText b32 32) (floatBack b32 32 8) where
  keyed := by
    constructor
    · rintro a b ⟨x, hx, _⟩ ⟨y, hy, _⟩
      unfold floatKey FNum.less
      simp [hx, hy]
    · rintro a b ⟨x, hx, _⟩ ⟨y, hy, _⟩
      unfold floatKey FNum.same
      simp [hx, hy]
  cast := by
    intro t h1 h2
    have ha : |t| = t := abs_of_nonneg (by linarith)
    obtain ⟨m, m1, m2, m3, m4⟩ := floatCast_rounds ieee32 8 (t := t) (by
      rw [ha]
      exact lt_of_le_of_lt h2 (by decide +kernel))
    rw [decide_eq_false (by linarith)] at m1
    refine ⟨m, m1, ?_⟩
    have one := isFNum_bitsValue ieee32 (floatOne b32 32)
    rw [show bitsValue b32 (floatOne b32 32) = .fin false 1 from convOne_value.2.2] at one
    have := m4 1 one.2
    rw [ha, abs_of_nonneg (show (0 : Rat) ≤ t - 1 by linarith)] at this
    have := (abs_le.mp this).2
    linarith
  ones := by
    have := convOne_value.2.2
    exact ⟨⟨1, this, le_refl _⟩, ⟨1, this, le_refl _⟩⟩
  bin := fun v _ => (floatConv_good (f := b32) (w := 32) rfl 8).bin.ok v
  text := (floatConv_good (f := b32) (w := 32) rfl 8).text
  print := fun v _ => floatConv_print ieee32 8 v
  back := by
    rintro v ⟨m, h1, h2⟩
    have := (floatBack_kept ieee32 (.inl ⟨rfl, rfl, rfl⟩) v : TextKept 24 (-126) 127 8 (1 / 8) _ _).large false m h1 (by linarith)
    refine ⟨⟨m, by rw [this, h1], h2⟩, ?_⟩
    unfold floatKey
    rw [this]

/-- C82: `test_read_mtx`, with `int` and with `float` weights, with and without header and weights, in text and binary files: at every size
that fits, whatever the random weights are. -/
theorem test_read_mtx_passes_partial {w n nrank : Nat} (hr : 0 < nrank) (hw : 1 ≤ w) (hfit : w * (n * n) ≤ IMAX) (t : Nat → Nat → Rat)
    (binary header weights : Bool) :
    (∀ (sort : List (Edge Int) → List (Edge Int)) (g h : Nat → Nat → Edge Int) (k : Nat → Edge Int),
      SortsBy (edgeCompare (fun a b => decide (a < b))) sort →
      testReadMtx intConv sort (fun a b => decide (a = b)) t g h k w nrank n 1 binary header weights = some true) ∧
    (∀ (sort : List (Edge (BitVec 32)) → List (Edge (BitVec 32))) (g h : Nat → Nat → Edge (BitVec 32)) (k : Nat → Edge (BitVec 32)),
      SortsOn (fun v => ∃ m, bitsValue b32 v = .fin false m ∧ 1 ≤ m) (fun a b => (bitsValue b32 a).less (bitsValue b32 b)) sort →
      testReadMtx (floatConv b32 32 8) sort (fun a b => (bitsValue b32 a).same (bitsValue b32 b)) t g h k w nrank n (floatOne b32 32)
        binary header weights = some true) :=
  ⟨fun _ g h k hs => test_read_mtx_on int_weights (hs.on _) t g h k hr hw 1 hfit binary header weights,
    fun _ g h k hs => test_read_mtx_on float_weights hs t g h k hr hw _ hfit binary header weights⟩

/-- The size 10 of the test on 2 ranks, text with header and `float` weights. -/
example : testReadMtx (floatConv b32 32 8) (insSort (edgeCompare (fun a b => decide (floatKey a < floatKey b))))
    (fun a b => (bitsValue b32 a).same (bitsValue b32 b)) (fun r i => 1 + (r + i : Nat) / 3) (fun _ _ => ⟨0, 0, 0⟩) (fun _ _ => ⟨0, 0, 0⟩)
    (fun _ => ⟨0, 0, 0⟩) 3 2 10 (floatOne b32 32) false true true = some true :=
  (test_read_mtx_passes_partial (by decide) (by decide) (by decide) _ false true true).2 _ _ _ _ (keyed_sorts float_weights.keyed)

/-! ### Functions on edges -/

/-- The part of `apply_edges` with the graph, on any list. -/
theorem test_apply_graph {n nrank threads : Nat} (c : Cfg n nrank threads) (hfit : 3 * n ≤ IMAX) (le : LoadEnv Int Int) (hsA : le.sA.OK)
    (hsT : le.sAT.OK) {d : Int} (hd : le.d = fun _ => d) (gs g1 g2 : Nat → Nat → Fresh Int) (k : Nat → Edge Int) {els : List (EdgeList Int)}
    (hs : RankLists n nrank els) (hv : ∀ e ∈ (els.map EdgeList.list).flatten, e.Valid n) :
    ∃ els', testApplyGraph le gs g1 g2 k threads els = some (els', true) ∧ RankLists n nrank els' ∧
      ∀ e ∈ (els'.map EdgeList.list).flatten, e.Valid n := by
  obtain ⟨els', G, l1, l2, _, l4, l5⟩ := loadInPlace_spec c le hsA hsT hd hs hv
  have hn : G.n = n := l2.inv.hn
  obtain ⟨G1, m1, m2⟩ := l2.setEach c gs (fun i => (i : Int))
  obtain ⟨TA, TT, PA, PT, _, hh, hp⟩ := m2
  obtain ⟨G2, Ls, nat, _, _, _, _, a1, a2, a3, _, _, _, a7, a8, _⟩ := hh.applyToAllEdges c hv hp false g1 g2 (applyEdgesFn 2)
  have hr : G2.nrank = nrank := a8.inv.hr
  obtain ⟨els2, o1, _, o3, o4⟩ := gotEdgelists_spec k (G := G2) (by rw [hr]; exact a2)
  refine ⟨els', ?_, l4, ?_⟩
  · unfold testApplyGraph
    simp only [l1, hn, Option.bind_eq_bind, Option.bind_some]
    rw [m1]
    simp only [Option.bind_some]
    rw [a1]
    simp only [Option.bind_some]
    rw [o1]
    simp only [Option.bind_some]
    rw [requireLists_true]
    · rfl
    · intro el hel
      apply requireApplied_true (o4 el hel).1
      intro e he
      have hm := a3.subset (show e ∈ Ls.flatten by
        rw [← o3]
        exact List.mem_flatten.mpr ⟨_, List.mem_map_of_mem hel, he⟩)
      obtain ⟨v1, v2, v3, v4⟩ := a7 e hm
      unfold edgesAfter at hm
      obtain ⟨f, hf, rfl⟩ := List.mem_map.mp hm
      unfold applyEdgesFn
      simp only at v1 v2 v3 v4 ⊢
      omega
  · intro e he
    obtain ⟨f, hf, rfl⟩ := List.mem_map.mp (l5.subset he)
    obtain ⟨v1, v2, v3, v4⟩ := hv f hf
    have hnp : 0 < threads * 16 * nrank := Nat.mul_pos (Nat.mul_pos c.tpos (by decide)) c.rpos
    have r1 := v2n_range (np := threads * 16 * nrank) (n := n) (v := f.src.toNat) hnp (by omega) (by omega)
    have r2 := v2n_range (np := threads * 16 * nrank) (n := n) (v := f.dst.toNat) hnp (by omega) (by omega)
    unfold nativeEdge Edge.Valid
    simp only
    omega

/-- The part of `apply_edges` with the matrix, on any list. -/
theorem test_apply_matrix {n nrank threads : Nat} (hr : 0 < nrank) (ht : 0 < threads) (hfit : 3 * n ≤ IMAX)
    {sort : List (Edge Int) → List (Edge Int)} (hsort : ∀ l, (sort l).Perm l) {srt : Sorts Int} (hsrt : srt.OK)
    (gt : Nat → Nat → Nat → TileFresh Int) (gs g1 : Nat → Nat → Fresh Int) (k : Nat → Edge Int) {els : List (EdgeList Int)}
    (hs : RankLists n nrank els) (hv : ∀ e ∈ (els.map EdgeList.list).flatten, e.Valid n) :
    testApplyMatrix sort srt gt gs g1 k threads els = some true := by
  obtain ⟨s1, s2⟩ := sorted_lists hs hsort
  obtain ⟨o1, o2⟩ := own1d nrank hr
  obtain ⟨out, D, T, P, d1, _, _, _, d5⟩ := DMat.ofEdges_spec (m := n) (n := n) hsrt gt ht hr hr hr o1 o2
    (blobs := (els.map (EdgeList.sortWith sort)).map EdgeList.list) (by simp [hs.length])
    (fun e he => hv e (s2.subset he))
  obtain ⟨vp, vp', w1, w2, w3, w4⟩ := setLoop_spec gs n nrank hr
  obtain ⟨D', vp2, T', P', a1, a2, _⟩ := DMat.applyEdges_spec d5 hr hr o2 ht false g1 w3 (vm := fun w => (w : Int)) w4 (applyEdgesFn 2)
  obtain ⟨els2, q1, _, q3, q4⟩ := gotEdges_spec k a2 hr hr o2
  unfold testApplyMatrix
  have h0 : 0 < (els.map (EdgeList.sortWith sort)).length := by rw [s1.length]; exact hr
  simp only [Option.bind_eq_bind]
  rw [List.getElem?_eq_getElem h0]
  obtain ⟨_, b1, b2⟩ := s1.made _ (List.getElem_mem h0)
  simp only [Option.bind_some]
  rw [b1, b2, s1.length, Int.toNat_natCast, d1]
  simp only [Option.bind_some]
  rw [w1]
  simp only [Option.bind_some]
  rw [w2]
  simp only [Option.bind_some]
  rw [a1]
  simp only [Option.bind_some]
  rw [q1]
  simp only [Option.bind_some]
  apply requireLists_true
  intro el hel
  apply requireApplied_true (q4 el hel).1
  intro e he
  have hm := q3.subset (List.mem_flatten.mpr ⟨_, List.mem_map_of_mem hel, he⟩)
  obtain ⟨f, hf, rfl⟩ := List.mem_map.mp hm
  obtain ⟨v1, v2, v3, v4⟩ := hv f (s2.subset hf)
  unfold mapEdge applyEdgesFn
  simp only
  omega

/-- C82: `apply_edges` passes on every list of edges between `n` vertices with `3n` in the range of `int`. -/
theorem test_apply_edges_on {n nrank threads : Nat} (c : Cfg n nrank threads) (hfit : 3 * n ≤ IMAX) (le : LoadEnv Int Int) (hsA : le.sA.OK)
    (hsT : le.sAT.OK) {d : Int} (hd : le.d = fun _ => d) {sort : List (Edge Int) → List (Edge Int)} (hsort : ∀ l, (sort l).Perm l)
    {srt : Sorts Int} (hsrt : srt.OK) (gt : Nat → Nat → Nat → TileFresh Int) (gs gs' g1 g2 g3 : Nat → Nat → Fresh Int) (k : Nat → Edge Int)
    {els : List (EdgeList Int)} {es : List (Edge Int)} (hs : Spread n nrank es els) (hv : ∀ e ∈ es, e.Valid n) :
    testApplyEdges sort le srt gt gs gs' g1 g2 g3 k threads els = some true := by
  obtain ⟨els', a1, a2, a3⟩ := test_apply_graph c hfit le hsA hsT hd gs g1 g2 k hs.rankLists (by rw [hs.flatten]; exact hv)
  unfold testApplyEdges
  simp only [a1, Option.bind_eq_bind, Option.bind_some]
  rw [test_apply_matrix c.rpos c.tpos hfit hsort hsrt gt gs' g3 k a2 a3]
  rfl

theorem loop_valid {one : E} {n : Nat} : ∀ e ∈ loopEdges one n, e.Valid n := by
  intro e he
  unfold loopEdges at he
  rw [List.mem_map] at he
  obtain ⟨i, hi, rfl⟩ := he
  rw [List.mem_range] at hi
  unfold Edge.Valid
  simp only
  omega

/-- C82: the test of functions on edges, with its two kinds of lists, at every size that fits. -/
theorem test_apply_edges_passes_partial {n nrank threads : Nat} (c : Cfg n nrank threads) (le : LoadEnv Int Int) (hsA : le.sA.OK)
    (hsT : le.sAT.OK) {d : Int} (hd : le.d = fun _ => d) {sort : List (Edge Int) → List (Edge Int)} (hsort : ∀ l, (sort l).Perm l)
    {srt : Sorts Int} (hsrt : srt.OK) (gt : Nat → Nat → Nat → TileFresh Int) (gs gs' g1 g2 g3 : Nat → Nat → Fresh Int) (k : Nat → Edge Int)
    (g : Nat → Nat → Edge Int) :
    (3 * n ≤ IMAX → ∃ els, generated g nrank (genIdentity (g 0) 1 n) = some els ∧
      testApplyEdges sort le srt gt gs gs' g1 g2 g3 k threads els = some true) ∧
    ∀ dist draws, Draws n draws dist → n * 16 ≤ IMAX → ∃ els, generated g nrank (genRandom (g 0) dist draws 1 n 16) = some els ∧
      testApplyEdges sort le srt gt gs gs' g1 g2 g3 k threads els = some true := by
  refine ⟨fun h => ?_, fun dist draws hdr h => ?_⟩
  · obtain ⟨els, e1, e2⟩ := (test_generators g (1 : Int) c.rpos).2.2.2 c.n
    exact ⟨els, e1, test_apply_edges_on c h le hsA hsT hd hsort hsrt gt gs gs' g1 g2 g3 k e2 loop_valid⟩
  · obtain ⟨els, es, e1, e2, e3, e4, _⟩ := test_random_generator g (1 : Int) c.rpos 16 hdr
      (Nat.le_trans (Nat.mul_le_mul_left _ (Nat.min_le_left _ _)) h)
    exact ⟨els, e1, test_apply_edges_on c (by omega) le hsA hsT hd hsort hsrt gt gs gs' g1 g2 g3 k e2 (fun e he => (e4 e he).1)⟩

/-- 100 vertices with 16 edges each on 3 ranks with 2 threads each. -/
example : ∃ els, generated (fun _ _ => ⟨0, 0, 0⟩) 3 (genRandom (fun _ => ⟨0, 0, 0⟩) (fun q => q % 100 + 1) 100 (1 : Int) 100 16) = some els ∧
    testApplyEdges id (LoadEnv.sample 0 0) Sorts.ins (LoadEnv.sample (0 : Int) (0 : Int)).gA (LoadEnv.sample 0 (0 : Int)).gv
      (LoadEnv.sample 0 (0 : Int)).gv (LoadEnv.sample 0 (0 : Int)).gv (LoadEnv.sample 0 (0 : Int)).gv (LoadEnv.sample 0 (0 : Int)).gv
      (fun _ => ⟨0, 0, 0⟩) 2 els = some true :=
  (test_apply_edges_passes_partial (d := 0) ⟨by decide, by decide, by decide, by decide⟩ (LoadEnv.sample 0 0) Sorts.ins_ok Sorts.ins_ok rfl
    (fun _ => .refl _) Sorts.ins_ok _ _ _ _ _ _ _ (fun _ _ => ⟨0, 0, 0⟩)).2 _ _ (draws_round 100 (by decide)) (by decide)

/-! ### Matrices -/

theorem requireSameLists_true {S : E → Prop} {lt eq : E → E → Bool} {key : E → Rat} (hk : Keyed S lt eq key)
    {sort : List (Edge E) → List (Edge E)} (hs : SortsOn S lt sort) (k : Nat → Edge E) {w n nrank : Nat} (hr : 0 < nrank) (hw : 1 ≤ w)
    {els els2 : List (EdgeList E)} (h1 : RankLists n nrank els) (h2 : RankLists n nrank els2)
    (hp : (els2.map EdgeList.list).flatten.Perm (els.map EdgeList.list).flatten)
    (hfit : w * (els.map EdgeList.list).flatten.length ≤ IMAX) (hS : ∀ e ∈ (els.map EdgeList.list).flatten, S e.val) :
    requireSameLists sort eq k w els els2 = some true := by
  obtain ⟨r, r1, r2⟩ := compareCollected_iff hk (weights := true) hs k hw (els := els) (els2 := els2)
    (by intro h; have h0 := h1.length; rw [h] at h0; rw [← h0] at hr; exact absurd hr (by simp)) (by rw [h1.length, h2.length])
    (fun el hel => (h1.made el hel).1) (fun el hel => (h2.made el hel).1) hfit (by rw [hp.length_eq]; exact hfit) hS
    (fun e he => hS e (hp.subset he))
  unfold requireSameLists
  rw [r1, r2.mpr (hp.symm.map _)]
  simp only [Option.bind_eq_bind, Option.bind_some, Bool.true_and, Option.some.injEq, List.all_eq_true]
  rintro ⟨a, b⟩ hab
  obtain ⟨m1, m2⟩ := List.of_mem_zip hab
  obtain ⟨_, x1, x2⟩ := h1.made a m1
  obtain ⟨_, y1, y2⟩ := h2.made b m2
  simp [x1, x2, y1, y2]

/-- C82: `matrix_test` passes on every list of edges that fits: size and contents of the matrix, the size of the transpose, and size and
contents of its transpose. -/
theorem test_matrix_on {n nrank threads : Nat} (hr : 0 < nrank) (ht : 0 < threads) {S : E → Prop} {lt eq : E → E → Bool} {key : E → Rat}
    (hk : Keyed S lt eq key) {sort : List (Edge E) → List (Edge E)} (hsort : ∀ l, (sort l).Perm l) (hs : SortsOn S lt sort)
    {srt srt' srt'' : Sorts E} (hsrt : srt.OK) (hsrt' : srt'.OK) (hsrt'' : srt''.OK) (gt gt' gt'' : Nat → Nat → Nat → TileFresh E) (k : Nat → Edge E) {w : Nat} (hw : 1 ≤ w)
    {els : List (EdgeList E)} {es : List (Edge E)} (hsp : Spread n nrank es els) (hv : ∀ e ∈ es, e.Valid n) (hS : ∀ e ∈ es, S e.val)
    (hfit : w * es.length ≤ IMAX) : testMatrix sort eq srt srt' srt'' gt gt' gt'' k w threads els = some true := by
  obtain ⟨s1, s2⟩ := sorted_lists hsp.rankLists hsort
  rw [hsp.flatten] at s2
  obtain ⟨o1, o2⟩ := own1d nrank hr
  obtain ⟨out, D, T, P, d1, d2, d3, _, d5⟩ := DMat.ofEdges_spec (m := n) (n := n) hsrt gt ht hr hr hr o1 o2
    (blobs := (els.map (EdgeList.sortWith sort)).map EdgeList.list) (by simp [hsp.length])
    (fun e he => hv e (s2.subset he))
  obtain ⟨x1, x2⟩ := overwritten s1 d2 (by
    intro r h1 h2
    have := (d3 r h1 (by simpa using h2)).length_eq
    simpa using this)
  generalize hels : ((els.map (EdgeList.sortWith sort)).zip out).map (fun x => x.1.sortWith (fun _ => x.2)) = els1 at x1 x2
  have xp : (els1.map EdgeList.list).flatten.Perm es := by
    rw [x2]
    refine (flatten_perm_of (by simp [d2, hsp.length]) ?_).trans s2
    intro r h1 h2
    exact d3 r h1 h2
  have hfit1 : w * (els1.map EdgeList.list).flatten.length ≤ IMAX := by rw [xp.length_eq]; exact hfit
  obtain ⟨all, c1, c2, c3⟩ := collectEdges_spec k hw (fun el hel => (x1.made el hel).1) hfit1
  have hall : 0 < all.length := by rw [c2, x1.length]; exact hr
  have hnnz : all[0].nnz = es.length := by
    rw [← EdgeList.list_length, (c3 _ (List.getElem_mem hall)).2, xp.length_eq]
  have hlen : es.length < 2 ^ 32 := by
    have := Nat.le_trans (Nat.le_mul_of_pos_left es.length hw) hfit
    unfold IMAX at this
    omega
  have D1 := d5.congr s2
  obtain ⟨DT, T', P', t1, t2⟩ := D1.transpose hr hr hr hr hr o1 o2 o2 hsrt' gt' ht
  obtain ⟨DTT, T2, P2, u1, u2⟩ := t2.transpose hr hr hr hr hr o1 o2 o2 hsrt'' gt'' ht
  have hswap : (es.map swapEdge).map swapEdge = es := by
    rw [List.map_map]
    exact (List.map_congr_left (fun e _ => rfl)).trans (List.map_id es)
  rw [hswap] at u2
  have z1 := requireSize_true D1 hr hr o2 hlen
  have z2 := requireSize_true t2 hr hr o2 (by rw [List.length_map]; exact hlen)
  rw [List.length_map] at z2
  have z3 := requireSize_true u2 hr hr o2 hlen
  obtain ⟨oe, y1, y2, y3, y4⟩ := gotEdges_spec k D1 hr hr o2
  obtain ⟨oet, v1, v2, v3, v4⟩ := gotEdges_spec k u2 hr hr o2
  have hS1 : ∀ e ∈ (els1.map EdgeList.list).flatten, S e.val := fun e he => hS e (xp.subset he)
  have q1 := requireSameLists_true hk hs k hr hw x1 ⟨y2, y4⟩ (y3.trans xp.symm) hfit1 hS1
  have q2 := requireSameLists_true hk hs k hr hw x1 ⟨v2, v4⟩ (v3.trans xp.symm) hfit1 hS1
  unfold testMatrix
  have h0 : 0 < (els.map (EdgeList.sortWith sort)).length := by rw [s1.length]; exact hr
  simp only [Option.bind_eq_bind]
  rw [List.getElem?_eq_getElem h0]
  obtain ⟨_, b1, b2⟩ := s1.made _ (List.getElem_mem h0)
  simp only [Option.bind_some]
  rw [b1, b2, s1.length, Int.toNat_natCast, d1]
  simp only [Option.bind_some]
  rw [hels, c1]
  simp only [Option.bind_some]
  rw [List.getElem?_eq_getElem hall]
  simp only [Option.bind_some]
  rw [hnnz, z1]
  simp only [Option.bind_some]
  rw [y1]
  simp only [Option.bind_some]
  rw [q1]
  simp only [Option.bind_some]
  rw [t1]
  simp only [Option.bind_some]
  rw [z2]
  simp only [Option.bind_some]
  rw [u1]
  simp only [Option.bind_some]
  rw [z3]
  simp only [Option.bind_some]
  rw [v1]
  simp only [Option.bind_some]
  rw [q2]
  rfl

/-- C82: the test of matrices, with its two kinds of lists, at every size that fits. -/
theorem test_matrix_passes_partial {n nrank threads : Nat} (hr : 0 < nrank) (ht : 0 < threads) {sort : List (Edge Int) → List (Edge Int)}
    (hs : SortsBy (edgeCompare (fun a b => decide (a < b))) sort) {srt srt' srt'' : Sorts Int} (hsrt : srt.OK) (hsrt' : srt'.OK)
    (hsrt'' : srt''.OK) (gt gt' gt'' : Nat → Nat → Nat → TileFresh Int) (g : Nat → Nat → Edge Int) (k : Nat → Edge Int) {w : Nat} (hw : 1 ≤ w) :
    (w * n ≤ IMAX → ∃ els, generated g nrank (genIdentity (g 0) 1 n) = some els ∧
      testMatrix sort (fun a b => decide (a = b)) srt srt' srt'' gt gt' gt'' k w threads els = some true) ∧
    ∀ dist draws, Draws n draws dist → w * (n * min 16 n) ≤ IMAX → ∃ els, generated g nrank (genRandom (g 0) dist draws 1 n 16) = some els ∧
      testMatrix sort (fun a b => decide (a = b)) srt srt' srt'' gt gt' gt'' k w threads els = some true := by
  refine ⟨fun h => ?_, fun dist draws hdr h => ?_⟩
  · obtain ⟨els, e1, e2⟩ := (test_generators g (1 : Int) hr).2.2.2 (Nat.le_trans (Nat.le_mul_of_pos_left _ hw) h)
    exact ⟨els, e1, test_matrix_on hr ht int_keyed (fun l => (hs l).1) (hs.on _) hsrt hsrt' hsrt'' gt gt' gt'' k hw e2 loop_valid (fun _ _ => trivial)
      (by unfold loopEdges; simpa using h)⟩
  · obtain ⟨els, es, e1, e2, e3, e4, _⟩ := test_random_generator g (1 : Int) hr 16 hdr (Nat.le_trans (Nat.le_mul_of_pos_left _ hw) h)
    exact ⟨els, e1, test_matrix_on hr ht int_keyed (fun l => (hs l).1) (hs.on _) hsrt hsrt' hsrt'' gt gt' gt'' k hw e2 (fun e he => (e4 e he).1)
      (fun _ _ => trivial) (by rw [e3]; exact h)⟩

/-- 100 vertices with 16 edges each on 3 ranks with 2 threads each. -/
example : ∃ els, generated (fun _ _ => ⟨0, 0, 0⟩) 3 (genRandom (fun _ => ⟨0, 0, 0⟩) (fun q => q % 100 + 1) 100 (1 : Int) 100 16) = some els ∧
    testMatrix (insSort (edgeCompare (fun a b => decide (a < b)))) (fun a b => decide (a = b)) Sorts.ins Sorts.ins Sorts.ins
      (LoadEnv.sample (0 : Int) (0 : Int)).gA (LoadEnv.sample (0 : Int) (0 : Int)).gA (LoadEnv.sample (0 : Int) (0 : Int)).gA
      (fun _ => ⟨0, 0, 0⟩) 3 2 els = some true :=
  (test_matrix_passes_partial (by decide) (by decide) edgeCompare_sorts Sorts.ins_ok Sorts.ins_ok Sorts.ins_ok _ _ _ (fun _ _ => ⟨0, 0, 0⟩) _
    (by decide)).2 _ _ (draws_round 100 (by decide)) (by decide)

end GraphMat

import Verif.Props.Pipeline
import Verif.Props.DeltaStepping
import Verif.Props.TopSort

/-!
# C71, continued: convert a graph, then run delta-stepping or topological sort on the result
-/
namespace GraphMat

variable {T : WeightType → Type}

/-- Walks of every length are the same in graphs with the same arcs. -/
theorem Walk.same_arcs {E F : Type} {es : List (Edge E)} {es' : List (Edge F)} (h : ∀ u v : Nat, HasEdge es u v → HasEdge es' u v)
    {s v k : Nat} (w : Walk es s v k) : Walk es' s v k := by
  induction w with
  | refl => exact .refl
  | @step u v k e _ h1 h2 h3 ih =>
    obtain ⟨e', q1, q2, q3⟩ := h u v ⟨e, h1, h2, h3⟩
    exact .step e' ih q1 q2 q3

theorem BehindCycle.same_arcs {E F : Type} {es : List (Edge E)} {es' : List (Edge F)}
    (h : ∀ u v : Nat, HasEdge es u v ↔ HasEdge es' u v) {v : Nat} : BehindCycle es v ↔ BehindCycle es' v :=
  ⟨fun ⟨u, k, j, a, b⟩ => ⟨u, k, j, a.same_arcs fun u v => (h u v).1, b.same_arcs fun u v => (h u v).1⟩,
    fun ⟨u, k, j, a, b⟩ => ⟨u, k, j, a.same_arcs fun u v => (h u v).2, b.same_arcs fun u v => (h u v).2⟩⟩

theorem LongestIn.same_arcs {E F : Type} {es : List (Edge E)} {es' : List (Edge F)}
    (h : ∀ u v : Nat, HasEdge es u v ↔ HasEdge es' u v) {v k : Nat} (hl : LongestIn es v k) : LongestIn es' v k := by
  obtain ⟨⟨u, a⟩, b⟩ := hl
  exact ⟨⟨u, a.same_arcs fun u v => (h u v).1⟩, fun u j w => b u j (w.same_arcs fun u v => (h u v).2)⟩

/-- Which arcs the converter writes, self loops included. -/
theorem Converted.all_arcs {E : Type} {o : Options} {n : Int} {one : E} {cast : Rat → E} {l out : List (Edge E)}
    (h : Converted o n one cast l out) (hu : o.uppertriangular ≠ 1) (hr : o.randomizeID ≠ 1) {u v : Nat} :
    HasEdge out u v ↔ (o.selfloops = 0 → u ≠ v) ∧ HasEdge (arcsOf (decide (o.bidirectional = 1)) l) u v := by
  obtain ⟨e, h1, _, h2⟩ := h.before
  rw [if_neg hr] at h2
  rw [hasEdge_iff, hasEdge_iff, HasArc.perm h2, h1, if_neg hu]
  have hne : (u : Int) ≠ v ↔ u ≠ v := by omega
  rw [hne]
  unfold arcsOf
  by_cases hb : o.bidirectional = 1
  · rw [if_pos hb, decide_eq_true hb, if_pos rfl, HasArc.append, HasArc.reversed]
  · rw [if_neg hb, decide_eq_false hb, if_neg (by decide)]

section
variable {ct : ∀ k, ConvType (T k)} {env : ∀ k, ConvEnv (T k)} {files : Str → ∀ k, InFiles (T k)} {items : List Item}
  {last : Option (List Str)} {f g : Str} {wt : T .uint → List Char → Prop} {one : T .uint} {o : Options} {N : Int}
  {l : List (Edge (T .uint))}

/-- **C71, delta-stepping.**  As for SSSP: the distances are those of the weighted graph in the converter's input, or, with
`--bidirectional`, of the undirected graph.  (Under the hypotheses of SSSP, and if the bucket numbers fit.) -/
theorem convert_then_delta (h : ConvertRun ct env files items last f g wt one o N l) {val : T .uint → Int}
    (hv : ReadsAs (ct .uint) val) (hkeep : o.outputedgeweights = 1) (hu : o.uppertriangular ≠ 1) (hr : o.randomizeID ≠ 1)
    (hdup : o.duplicatededges ≠ 0 ∨ SameValues (arcsOf (decide (o.bidirectional = 1)) l)) {nrank threads : Nat}
    (c : Cfg N.toNat nrank threads) (hfit : N.toNat + threads ≤ IMAX) (le le2 : LoadEnv DsV Int) (hsA : le.sA.OK)
    (hsT : le.sAT.OK) (hd : le.d = fun _ => DsV.new) (hsA2 : le2.sA.OK) (hsT2 : le2.sAT.OK) (hd2 : le2.d = fun _ => DsV.new)
    (gb : Nat → Nat → Edge Int) (gf : Nat → Edge Int) (e : AppEnv (BitVec 32) (BitVec 32) DsV) (er : Nat → DsEnv)
    (tmp : Nat → Nat → Nat → Option Int) {src : Nat} (h1 : 1 ≤ src) (h2 : src ≤ N.toNat) {w : Str} (hw : IsNumeral src w)
    {arcs : List (Edge Int)} (ha : arcs = (arcsOf (decide (o.bidirectional = 1)) l).map (Edge.mapVal val))
    (hno : NoOverflow arcs src N.toNat) {δ B : Nat} (hδ : 1 ≤ δ) (hδm : δ ≤ IMAX) {wd : Str} (hwd : IsNumeral δ wd) (hB : B ≤ IMAX)
    (hbuckets : ∀ v k d, k ≤ N.toNat → WWalk Int.toNat arcs src v k d → d / δ < B)
    (rounds fuel : Nat) (hro : B ≤ rounds) (hf : N.toNat ≤ fuel) (hfm : fuel ≤ IMAX) :
    ∃ fs els G', ∃ reached : List Nat,
      runConverter ct env files (items.flatMap Item.words ++ ending last) = some (some (g, .done .uint (.bin fs))) ∧
      deltaArgs [g, wd, w] = some (some (g, (δ : Int), (src : Int))) ∧
      loadEdgelist (binReader signedBin true) true nrank gb fs = some els ∧ (∀ el ∈ els, el.m = N ∧ el.n = N) ∧
      runDeltaStepping le le2 gf e er tmp threads nrank N.toNat N.toNat δ src els rounds fuel =
        some (.done (G', some (reached.length : Int))) ∧
      reached.Nodup ∧ (∀ v, v ∈ reached ↔ Reachable arcs src v) ∧
      ∀ v, 1 ≤ v → v ≤ N.toNat → ∃ x o', o' < nrank ∧
        (∀ r, r < nrank → G'.getVertexproperty r v = some (if r = o' then some x else none)) ∧
        (x.dist.toNat ≠ UMAX ∧ IsDist Int.toNat arcs src v x.dist.toNat ∨
          x.dist.toNat = UMAX ∧ ¬ Reachable arcs src v) := by
  subst ha
  have hc := h.circumstances
  obtain ⟨fs, ws, k1, k2, k3, k4, k5⟩ := convert_writes h
  obtain ⟨els, m1, m2, m3, m4⟩ := written_lists (bt' := signedBin) (fun v => (hv v).1) (fun v => signedBin_ok (hv v).2) k3
    hc.ranks.1 hc.vertices.1 hc.vertices.2 k4 k2 c.rpos gb
  have hin : ∀ el ∈ els, ∀ e ∈ el.list, e.Valid N.toNat := by
    intro el hel x hx
    obtain ⟨y, hy, rfl⟩ := List.mem_map.1 (m4.mem_iff.1 (List.mem_flatten.2 ⟨_, List.mem_map.2 ⟨el, hel, rfl⟩, hx⟩))
    have := k3.ids y hy
    show 1 ≤ y.src ∧ y.src ≤ (N.toNat : Int) ∧ 1 ≤ y.dst ∧ y.dst ≤ (N.toNat : Int)
    omega
  obtain ⟨e1, e2⟩ := k5.edges hkeep hu hr hdup
  have s1 : ∀ x ∈ (els.map EdgeList.list).flatten, x ∈ (arcsOf (decide (o.bidirectional = 1)) l).map (Edge.mapVal val) := by
    intro x hx
    obtain ⟨y, hy, rfl⟩ := List.mem_map.1 (m4.mem_iff.1 hx)
    exact List.mem_map.2 ⟨y, e1 y hy, rfl⟩
  have s2 : ∀ x ∈ (arcsOf (decide (o.bidirectional = 1)) l).map (Edge.mapVal val), x.src ≠ x.dst →
      x ∈ (els.map EdgeList.list).flatten := by
    intro x hx hne
    obtain ⟨y, hy, rfl⟩ := List.mem_map.1 hx
    exact m4.mem_iff.2 (List.mem_map.2 ⟨y, e2 y hy hne, rfl⟩)
  have hreach : ∀ v, Reachable (els.map EdgeList.list).flatten src v ↔
      Reachable ((arcsOf (decide (o.bidirectional = 1)) l).map (Edge.mapVal val)) src v := by
    intro v
    refine ⟨fun q => q.of_arcs fun u v _ ⟨x, a, b⟩ => ⟨x, s1 x a, b⟩, fun q => q.of_arcs fun u v huv ⟨x, a, b, b'⟩ => ?_⟩
    exact ⟨x, s2 x a (by rw [b, b']; exact_mod_cast huv), b, b'⟩
  obtain ⟨G', reached, a2, a3, a4, a5⟩ :=
    delta_stepping_computes_distances_partial c hfit le le2 hsA hsT hd hsA2 hsT2 hd2 gf e er tmp (fun el hel => (m3 el hel).1) m2
      hin h1 h2 ⟨fun x hx => hno.nonneg x (s1 x hx), fun v k d hk q => hno.bound v k d hk (q.of_mem s1)⟩ hδ hδm hB
      (fun v k d hk q => hbuckets v k d hk (q.of_mem s1)) rounds fuel hro hf hfm
  have hsrc : IsInt32 (src : Int) := by
    have := hc.vertices
    unfold IMAX at this
    unfold IsInt32
    omega
  have hδi : IsInt32 (δ : Int) := by
    unfold IMAX at hδm
    unfold IsInt32
    omega
  refine ⟨fs, els, G', reached, k1, (example_arguments ⟨hwd, hδi⟩ ⟨hw, hsrc⟩ ⟨hw, hsrc⟩ g []).2.1, m1,
    fun el hel => (m3 el hel).2, a2, a3, fun v => (a4 v).trans (hreach v), ?_⟩
  intro v v1 v2
  obtain ⟨x, o', b1, b2, b3⟩ := a5 v v1 v2
  refine ⟨x, o', b1, b2, ?_⟩
  rcases b3 with ⟨p1, p2⟩ | ⟨p1, p2⟩
  · exact .inl ⟨p1, (IsDist.of_mem_ne s1 s2).1 p2⟩
  · exact .inr ⟨p1, fun q => p2 ((hreach v).2 q)⟩

/-- The in-degrees of a converted graph fit an `int`. -/
theorem inDegree_fits {E F : Type} {es : List (Edge E)} {ws : List (Edge F)} (h : es.length = ws.length) (hl : ws.length ≤ IMAX) (v : Nat) :
    inDegree es v ≤ IMAX := Nat.le_trans (List.countP_le_length ..) (by omega)

/-- **C71, topological sort.**  The position of a vertex is the number of edges of the longest walk that ends in it, in the graph
in the converter's input (or, with `--bidirectional`, the undirected graph), from which the self loops are removed unless
`--selfloops 1` is given; the number reported is the number of vertices on or behind a cycle of this graph.  (Without
`--uppertriangular` and `--randomizeID`.) -/
theorem convert_then_sort (h : ConvertRun ct env files items last f g wt one o N l) {val : T .uint → Int}
    (hv : ReadsAs (ct .uint) val) (hu : o.uppertriangular ≠ 1) (hr : o.randomizeID ≠ 1) {nrank threads : Nat}
    (c : Cfg N.toNat nrank threads) (hn : 0 < N) (hfit : N.toNat + threads ≤ IMAX) (le : LoadEnv TsV Int) (hsA : le.sA.OK)
    (hsT : le.sAT.OK) (hd : le.d = fun _ => TsV.new) (gb : Nat → Nat → Edge Int) (e1 : AppEnv Int (Option Int) TsV)
    (e2 : AppEnv Bool (Option Int) TsV) (tmp : Nat → Nat → Nat → Option Int) {arcs : List (Edge (T .uint))}
    (ha : arcs = (arcsOf (decide (o.bidirectional = 1)) l).filter (fun x => decide (o.selfloops = 0 → x.src ≠ x.dst)))
    (fuel : Nat) (hf : N.toNat ≤ fuel) (hfm : fuel ≤ IMAX) :
    ∃ fs G G', ∃ unplaced : List Nat,
      runConverter ct env files (items.flatMap Item.words ++ ending last) = some (some (g, .done .uint (.bin fs))) ∧
      fileArgs [g] = some g ∧
      Graph.readMTX le signedBin threads nrank gb fs = some G ∧
      runTopsort e1 e2 tmp G fuel = some (.done (G', some (unplaced.length : Int))) ∧
      unplaced.Nodup ∧ (∀ v, v ∈ unplaced ↔ 1 ≤ v ∧ v ≤ N.toNat ∧ BehindCycle arcs v) ∧
      ∀ v, 1 ≤ v → v ≤ N.toNat → ∃ x o', o' < nrank ∧
        (∀ r, r < nrank → G'.getVertexproperty r v = some (if r = o' then some x else none)) ∧
        (BehindCycle arcs v → x.order = BitVec.allOnes 32) ∧
        (¬ BehindCycle arcs v → LongestIn arcs v x.order.toNat ∧ x.order.toNat < N.toNat) := by
  have hc := h.circumstances
  obtain ⟨fs, ws, k1, k2, k3, k4, k5⟩ := convert_writes h
  obtain ⟨fs', c1, c2⟩ := written_loads (bt := (ct .uint).bin) (bt' := signedBin) (fun v => (hv v).1)
    (fun v => signedBin_ok (hv v).2) k3 hc.ranks.1 hc.vertices.1 hc.vertices.2 k4
  rw [k2] at c1
  cases c1
  obtain ⟨blobs, m1, m2, m3⟩ := c2 nrank c.rpos gb
  have hin : ∀ es ∈ blobs, ∀ e ∈ es, e.Valid N.toNat := by
    intro es hes x hx
    obtain ⟨y, hy, rfl⟩ := List.mem_map.1 (m2.mem_iff.1 (List.mem_flatten.2 ⟨es, hes, hx⟩))
    have := k3.ids y hy
    show 1 ≤ y.src ∧ y.src ≤ (N.toNat : Int) ∧ 1 ≤ y.dst ∧ y.dst ≤ (N.toNat : Int)
    omega
  have harc : ∀ u v : Nat, HasEdge blobs.flatten u v ↔ HasEdge arcs u v := by
    intro u v
    rw [hasEdge_iff, HasArc.perm m2, HasArc.mapVal, ← hasEdge_iff, k5.all_arcs hu hr, ha]
    unfold HasEdge
    constructor
    · rintro ⟨q1, x, q2, q3, q4⟩
      refine ⟨x, List.mem_filter.2 ⟨q2, decide_eq_true fun hs => ?_⟩, q3, q4⟩
      have := q1 hs
      rw [q3, q4]
      omega
    · rintro ⟨x, q2, q3, q4⟩
      obtain ⟨q5, q6⟩ := List.mem_filter.1 q2
      refine ⟨fun hs huv => ?_, x, q5, q3, q4⟩
      have := of_decide_eq_true q6 hs
      rw [q3, q4] at this
      omega
  obtain ⟨out, G, G', unplaced, a1, a2, a3, a4, a5⟩ := topsort_computes_levels c (by omega) hfit le hsA hsT hd m1 hin
    (inDegree_fits (m2.length_eq.trans (List.length_map ..)) k4) e1 e2 tmp fuel hf hfm
  have hb : ∀ v, BehindCycle blobs.flatten v ↔ BehindCycle arcs v := fun v => BehindCycle.same_arcs harc
  refine ⟨fs, G, G', unplaced, k1, rfl, by rw [m3, a1]; rfl, a2, a3, fun v => by rw [a4 v, hb], ?_⟩
  intro v v1 v2
  obtain ⟨x, o', b1, b2, _, b3, b4⟩ := a5 v v1 v2
  exact ⟨x, o', b1, b2, fun q => b3 ((hb v).2 q), fun q => ⟨(b4 fun q' => q ((hb v).1 q')).1.same_arcs harc,
    (b4 fun q' => q ((hb v).1 q')).2⟩⟩

/-- **C71, topological sort of an oriented graph.**  With `--uppertriangular` and without self loops and duplicates (the defaults),
whether the ids are renumbered or not, the sort always succeeds: every vertex gets a position, and of two connected vertices the
one with the smaller number in the input comes first. -/
theorem convert_then_sort_oriented (h : ConvertRun ct env files items last f g wt one o N l) {val : T .uint → Int}
    (hv : ReadsAs (ct .uint) val) (hu : o.uppertriangular = 1) (hs : o.selfloops = 0) (hdup : o.duplicatededges = 0)
    {nrank threads : Nat} (c : Cfg N.toNat nrank threads) (hn : 0 < N) (hfit : N.toNat + threads ≤ IMAX) (le : LoadEnv TsV Int)
    (hsA : le.sA.OK) (hsT : le.sAT.OK) (hd : le.d = fun _ => TsV.new) (gb : Nat → Nat → Edge Int)
    (e1 : AppEnv Int (Option Int) TsV) (e2 : AppEnv Bool (Option Int) TsV) (tmp : Nat → Nat → Nat → Option Int)
    (fuel : Nat) (hf : N.toNat ≤ fuel) (hfm : fuel ≤ IMAX) :
    ∃ fs G G', ∃ pos : Nat → BitVec 32, ∃ π : Int → Int,
      runConverter ct env files (items.flatMap Item.words ++ ending last) = some (some (g, .done .uint (.bin fs))) ∧
      fileArgs [g] = some g ∧
      Graph.readMTX le signedBin threads nrank gb fs = some G ∧
      runTopsort e1 e2 tmp G fuel = some (.done (G', some 0)) ∧
      PermutesIds N π ∧ (o.randomizeID ≠ 1 → π = id) ∧
      (∀ v : Nat, 1 ≤ v → v ≤ N.toNat → ∃ x o', o' < nrank ∧
        (∀ r, r < nrank → G'.getVertexproperty r (π v).toNat = some (if r = o' then some x else none)) ∧ x.order = pos v ∧
        (pos v).toNat < N.toNat) ∧
      ∀ u v : Nat, u < v → Adjacent l u v → (pos u).toNat < (pos v).toNat := by
  have hc := h.circumstances
  have hids := hc.ids
  obtain ⟨fs, ws, k1, k2, k3, k4, k5⟩ := convert_writes h
  obtain ⟨fs', c1, c2⟩ := written_loads (bt := (ct .uint).bin) (bt' := signedBin) (fun v => (hv v).1)
    (fun v => signedBin_ok (hv v).2) k3 hc.ranks.1 hc.vertices.1 hc.vertices.2 k4
  rw [k2] at c1
  cases c1
  obtain ⟨blobs, m1, m2, m3⟩ := c2 nrank c.rpos gb
  have hin : ∀ es ∈ blobs, ∀ e ∈ es, e.Valid N.toNat := by
    intro es hes x hx
    obtain ⟨y, hy, rfl⟩ := List.mem_map.1 (m2.mem_iff.1 (List.mem_flatten.2 ⟨es, hes, hx⟩))
    have := k3.ids y hy
    show 1 ≤ y.src ∧ y.src ≤ (N.toNat : Int) ∧ 1 ≤ y.dst ∧ y.dst ≤ (N.toNat : Int)
    omega
  obtain ⟨π, p1, p2, _, p4⟩ := k5.oriented hids hu hs hdup
  obtain ⟨ρ, r1, _⟩ := p1.inverse
  have hends : ∀ u v : Int, HasArc l u v ∨ HasArc l v u → 1 ≤ u ∧ u ≤ N ∧ 1 ≤ v ∧ v ≤ N := by
    rintro u v (⟨q, hq, hx, hy⟩ | ⟨q, hq, hx, hy⟩)
    · have := hids q hq; omega
    · have := hids q hq; omega
  -- along an edge the numbers in the input increase
  have hup : ∀ x y : Nat, HasEdge blobs.flatten x y → ρ x < ρ y := by
    intro x y hxy
    rw [hasEdge_iff, HasArc.perm m2, HasArc.mapVal, p4] at hxy
    obtain ⟨u, v, q1, q2, q3, q4⟩ := hxy
    obtain ⟨u1, u2, v1, v2⟩ := hends u v q4
    have hu' := r1 u.toNat (by omega) (by omega)
    have hv' := r1 v.toNat (by omega) (by omega)
    rw [show ((u.toNat : Nat) : Int) = u by omega, q1] at hu'
    rw [show ((v.toNat : Nat) : Int) = v by omega, q2] at hv'
    rw [show ((x : Int).toNat) = x by omega] at hu'
    rw [show ((y : Int).toNat) = y by omega] at hv'
    omega
  have hmono : ∀ s v k, Walk blobs.flatten s v k → ρ s + k ≤ ρ v := by
    intro s v k w
    induction w with
    | refl => omega
    | @step u v k e _ q1 q2 q3 ih =>
      have := hup u v ⟨e, q1, q2, q3⟩
      omega
  have hacyc : ∀ u k, ¬ Walk blobs.flatten u u (k + 1) := by
    intro u k w
    have := hmono u u (k + 1) w
    omega
  obtain ⟨out, G, G', pos, a1, a2, a3, a4⟩ := topsort_sorts_dag c (by omega) hfit le hsA hsT hd m1 hin
    (inDegree_fits (m2.length_eq.trans (List.length_map ..)) k4) hacyc e1 e2 tmp fuel hf hfm
  refine ⟨fs, G, G', fun v => pos (π v).toNat, π, k1, rfl, by rw [m3, a1]; rfl, a2, p1, p2, ?_, ?_⟩
  · intro v v1 v2
    have := p1.1 v (by omega) (by omega)
    exact a3 (π v).toNat (by omega) (by omega)
  · intro u v huv hadj
    have hr := hends u v hadj
    have hpu := p1.1 u hr.1 hr.2.1
    have hpv := p1.1 v hr.2.2.1 hr.2.2.2
    have : HasEdge blobs.flatten (π u).toNat (π v).toNat := by
      rw [hasEdge_iff, HasArc.perm m2, HasArc.mapVal, p4]
      exact ⟨u, v, by omega, by omega, by omega, hadj⟩
    obtain ⟨e, q1, q2, q3⟩ := this
    have := a4 e q1
    rw [q2, q3, Int.toNat_natCast, Int.toNat_natCast] at this
    exact this

end

/-! ### Samples -/

/-- Delta-stepping with the smaller of two parallel weights. -/
example : ∃ fs els G', ∃ reached : List Nat,
    runConverter (T := fun _ => BitVec 32) (fun _ => uintConv) (fun _ => convEnvSample) pipeFiles
      ["--inputformat=0".toList, "in".toList, "--duplicatededges=1".toList, "out".toList] =
      some (some ("out".toList, .done .uint (.bin fs))) ∧
    deltaArgs ["out".toList, "7".toList, "1".toList] = some (some ("out".toList, 7, 1)) ∧
    loadEdgelist (binReader signedBin true) true 3 (fun _ _ => ⟨0, 0, 0⟩) fs = some els ∧
    runDeltaStepping (LoadEnv.sample DsV.new 0) (LoadEnv.sample DsV.new 0) (fun _ => ⟨0, 0, 0⟩)
      (.sample 77#32 78#32 ⟨3#32, some 4⟩) (fun _ => ⟨.sample 71#32 72#32 ⟨3#32, some 4⟩, .sample 73#32 74#32 ⟨3#32, some 4⟩, fun _ _ _ => some 9⟩)
      (fun _ _ _ => some 8) 2 3 5 5 7 1 els 11 5 = some (.done (G', some (reached.length : Int))) ∧
    ∀ v, v ∈ reached ↔ Reachable (pipeList.list.map (Edge.mapVal BitVec.toInt)) 1 v := by
  have hval : ∀ e ∈ pipeList.list.map (Edge.mapVal BitVec.toInt), 0 ≤ e.val ∧ e.val.toNat ≤ 14 := by
    rw [pipeList_edges]; decide
  obtain ⟨fs, els, G', reached, h1, h2, h3, _, h4, _, h6, _⟩ :=
    convert_then_delta (pipeRun [.equals (.duplicatededges 1) "1".toList] (by
        intro it h; rw [List.mem_singleton] at h; subst h
        exact ⟨1, rfl, ⟨[1], by decide, by decide, by decide, .inl ⟨rfl, rfl⟩⟩, by decide, by decide⟩) rfl (by decide))
      uintConv_readsAs (by decide) (by decide) (by decide) (.inl (by decide)) (nrank := 3) (threads := 2)
      ⟨by decide, by decide, by decide, by decide⟩ (by decide)
      (LoadEnv.sample DsV.new 0) (LoadEnv.sample DsV.new 0) Sorts.ins_ok Sorts.ins_ok rfl Sorts.ins_ok Sorts.ins_ok rfl
      (fun _ _ => ⟨0, 0, 0⟩) (fun _ => ⟨0, 0, 0⟩) (.sample 77#32 78#32 ⟨3#32, some 4⟩)
      (fun _ => ⟨.sample 71#32 72#32 ⟨3#32, some 4⟩, .sample 73#32 74#32 ⟨3#32, some 4⟩, fun _ _ _ => some 9⟩)
      (fun _ _ _ => some 8) (src := 1) (by decide) (by decide) (w := "1".toList) ⟨[1], by decide, by decide, .inl ⟨rfl, rfl⟩⟩
      rfl (NoOverflow.of_bound (fun e he => (hval e he).1) (fun e he => (hval e he).2) (by decide))
      (δ := 7) (B := 11) (by decide) (by decide) (wd := "7".toList) ⟨[7], by decide, by decide, .inl ⟨rfl, rfl⟩⟩ (by decide)
      (by
        intro v k d hk hw
        have := hw.le_mul (fun e he => (hval e he).2)
        have : k ≤ 5 := hk
        have : d ≤ 70 := by omega
        omega) 11 5 (by decide) (by decide) (by decide)
  exact ⟨fs, els, G', reached, h1, h2, h3, h4, h6⟩

/-- The two edges between 2 and 4 are a cycle: 2 and 4, and 1 behind them, are not placed.  (3 and 5 are.) -/
example : ∃ fs G G', ∃ unplaced : List Nat,
    runConverter (T := fun _ => BitVec 32) (fun _ => uintConv) (fun _ => convEnvSample) pipeFiles
      ["--inputformat=0".toList, "in".toList, "out".toList] = some (some ("out".toList, .done .uint (.bin fs))) ∧
    Graph.readMTX (LoadEnv.sample TsV.new 0) signedBin 2 3 (fun _ _ => ⟨0, 0, 0⟩) fs = some G ∧
    runTopsort (.sample 77 (some 78) TsV.new) (.sample true (some 79) TsV.new) (fun _ _ _ => some 9) G 5 =
      some (.done (G', some (unplaced.length : Int))) ∧ 2 ∈ unplaced ∧ 1 ∈ unplaced := by
  obtain ⟨fs, G, G', unplaced, h1, h2, h3, h4, h5, h6, _⟩ :=
    convert_then_sort (pipeRun [] (by intro it h; exact absurd h (by simp)) rfl (by decide))
      uintConv_readsAs (by decide) (by decide) (nrank := 3) (threads := 2) ⟨by decide, by decide, by decide, by decide⟩ (by decide)
      (by decide) (LoadEnv.sample TsV.new 0) Sorts.ins_ok Sorts.ins_ok rfl (fun _ _ => ⟨0, 0, 0⟩) (.sample 77 (some 78) TsV.new)
      (.sample true (some 79) TsV.new) (fun _ _ _ => some 9) rfl 5 (by decide) (by decide)
  refine ⟨fs, G, G', unplaced, h1, h3, h4, (h6 2).2 ⟨by decide, by decide, ?_⟩, (h6 1).2 ⟨by decide, by decide, ?_⟩⟩
  all_goals rw [pipeList_edges]
  · exact ⟨2, 1, 0, .step (u := 4) ⟨4, 2, 12⟩ (.step (u := 2) ⟨2, 4, 13⟩ .refl (by decide) rfl rfl) (by decide) rfl rfl, .refl⟩
  · exact ⟨2, 1, 2, .step (u := 4) ⟨4, 2, 12⟩ (.step (u := 2) ⟨2, 4, 13⟩ .refl (by decide) rfl rfl) (by decide) rfl rfl,
      .step (u := 4) ⟨4, 1, 3⟩ (.step (u := 2) ⟨2, 4, 13⟩ .refl (by decide) rfl rfl) (by decide) rfl rfl⟩

/-- Oriented, with renumbered ids: of the triangle 1, 2, 4 vertex 1 comes before 2 and 2 before 4. -/
example : ∃ fs G G', ∃ pos : Nat → BitVec 32,
    runConverter (T := fun _ => BitVec 32) (fun _ => uintConv) (fun _ => convEnvSample) pipeFiles
      ["--inputformat=0".toList, "in".toList, "--uppertriangular".toList, "--randomizeID".toList, "out".toList] =
      some (some ("out".toList, .done .uint (.bin fs))) ∧
    Graph.readMTX (LoadEnv.sample TsV.new 0) signedBin 2 3 (fun _ _ => ⟨0, 0, 0⟩) fs = some G ∧
    runTopsort (.sample 77 (some 78) TsV.new) (.sample true (some 79) TsV.new) (fun _ _ _ => some 9) G 5 = some (.done (G', some 0)) ∧
    (pos 1).toNat < (pos 2).toNat ∧ (pos 2).toNat < (pos 4).toNat := by
  obtain ⟨fs, G, G', pos, π, h1, h2, h3, h4, h5, h6, h7, h8⟩ :=
    convert_then_sort_oriented (pipeRun [.flag .uppertriangular, .flag .randomizeID] (by
        intro it h
        simp only [List.mem_cons, List.not_mem_nil, or_false] at h
        rcases h with rfl | rfl <;> rfl) rfl (by decide))
      uintConv_readsAs (by decide) (by decide) (by decide) (nrank := 3) (threads := 2) ⟨by decide, by decide, by decide, by decide⟩
      (by decide) (by decide) (LoadEnv.sample TsV.new 0) Sorts.ins_ok Sorts.ins_ok rfl (fun _ _ => ⟨0, 0, 0⟩)
      (.sample 77 (some 78) TsV.new) (.sample true (some 79) TsV.new) (fun _ _ _ => some 9) 5 (by decide) (by decide)
  have : ∀ a b : Nat, (∃ e ∈ pipeList.list, e.src = (a : Int) ∧ e.dst = (b : Int)) → HasEdge pipeList.list a b := fun _ _ h => h
  refine ⟨fs, G, G', pos, h1, h3, h4, h8 1 2 (by decide) (.inl (this _ _ ?_)), h8 2 4 (by decide) (.inl (this _ _ ?_))⟩ <;>
    rw [pipeList_edges] <;> decide

end GraphMat
